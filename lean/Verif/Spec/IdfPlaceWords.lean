import Verif.Spec.IdfHole
import Verif.Model.IdfPlace
/-
Independent specification of the record of a part in the placement section of an IDF file, by its words.
-/
namespace Iges.Idf.Spec

/-- The part a record places, by its word: `none` is NOREFDES; the board and the panel are not parts. -/
inductive PartWord (t : Str) : Option Str → Prop
  | norefdes : t.map Char.toUpper = "NOREFDES".toList → PartWord t none
  | name : t.map Char.toUpper ∉ ["NOREFDES".toList, "BOARD".toList, "PANEL".toList] → t ≠ [] → PartWord t (some t)

/-- The side, by its word. -/
inductive SideWord (t : Str) : Side → Prop
  | top : t.map Char.toUpper = "TOP".toList → SideWord t .top
  | bottom : t.map Char.toUpper = "BOTTOM".toList → SideWord t .bottom

/-- The status, by its word. Version 3 says whose the part is; version 2 says that it is fixed, which a program for
electronics takes as the mechanical designer's, and a mechanical program as the electronic designer's. -/
inductive StatusWord (t : Str) : Cad → Version → Placement → Prop
  | placed (c : Cad) (v : Version) : t.map Char.toUpper = "PLACED".toList → StatusWord t c v .placed
  | unplaced (c : Cad) (v : Version) : t.map Char.toUpper = "UNPLACED".toList → StatusWord t c v .unplaced
  | mcad (c : Cad) : t.map Char.toUpper = "MCAD".toList → StatusWord t c .v3 .mcad
  | ecad (c : Cad) : t.map Char.toUpper = "ECAD".toList → StatusWord t c .v3 .ecad
  | fixedElec : t.map Char.toUpper = "FIXED".toList → StatusWord t .elec .v2 .mcad
  | fixedMech : t.map Char.toUpper = "FIXED".toList → StatusWord t .mech .v2 .ecad

/-- The numbers of a record, by its words: X, Y, Z and the angle. Version 2 has no Z. The first word has no quote
marks. The words behind the numbers are left. -/
inductive PlaceNumbers : Version → List (Str × Bool) → ℚ → ℚ → ℚ → ℚ → List (Str × Bool) → Prop
  | v3 (wx : Str) (wy wz wa : Str × Bool) (x y z a : ℚ) (ws : List (Str × Bool)) :
      readNum wx = some x → readNum wy.1 = some y → readNum wz.1 = some z → readNum wa.1 = some a →
      PlaceNumbers .v3 ((wx, false) :: wy :: wz :: wa :: ws) x y z a ws
  | v2 (wx : Str) (wy wa : Str × Bool) (x y a : ℚ) (ws : List (Str × Bool)) :
      readNum wx = some x → readNum wy.1 = some y → readNum wa.1 = some a →
      PlaceNumbers .v2 ((wx, false) :: wy :: wa :: ws) x y 0 a ws

/-- What the two lines of a record say, with the lengths in the unit of the file. -/
structure PlaceSays (cad : Cad) (v : Version) (ws1 ws2 : List (Str × Bool)) (r : PlaceRec) : Prop where
  names : ∃ g p n : Str × Bool, ∃ more, ws1 = g :: p :: n :: more ∧ g.1 = r.geom ∧ p.1 = r.part ∧ PartWord n.1 r.ref ∧
    ¬ (g.2 = false ∧ g.1.map Char.toUpper = ".END_PLACEMENT".toList)
  rest : ∃ s t : Str × Bool, ∃ more, PlaceNumbers v ws2 r.x r.y r.z r.a (s :: t :: more) ∧ SideWord s.1 r.side ∧
    StatusWord t.1 cad v r.placement

/-- The record with its lengths multiplied. -/
def scaled (f : ℚ) (r : PlaceRec) : PlaceRec := { r with x := r.x * f, y := r.y * f, z := r.z * f }

end Iges.Idf.Spec
