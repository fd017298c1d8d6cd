import Verif.Spec.IdfText
/-
Independent specification of the record of a hole in an IDF file, by its words.
-/
namespace Iges.Idf.Spec

/-- What a hole belongs to, by its word; letters may be large or small. -/
inductive RefWord (t : Str) : Ref → Prop
  | board : t.map Char.toUpper = "BOARD".toList → RefWord t .board
  | norefdes : t.map Char.toUpper = "NOREFDES".toList → RefWord t .norefdes
  | panel : t.map Char.toUpper = "PANEL".toList → RefWord t .panel
  | name : t.map Char.toUpper ∉ ["BOARD".toList, "NOREFDES".toList, "PANEL".toList] → RefWord t (.refdes t)

/-- The kind of a hole, by its word. -/
inductive HoleWord (t : Str) : Hole → Prop
  | pin : t.map Char.toUpper = "PIN".toList → HoleWord t .pin
  | via : t.map Char.toUpper = "VIA".toList → HoleWord t .via
  | mtg : t.map Char.toUpper = "MTG".toList → HoleWord t .mtg
  | tool : t.map Char.toUpper = "TOOL".toList → HoleWord t .tool
  | name : t.map Char.toUpper ∉ ["PIN".toList, "VIA".toList, "MTG".toList, "TOOL".toList] → HoleWord t (.other t)

/-- The owner of a hole, by its word. -/
inductive OwnerWord (t : Str) : Owner → Prop
  | mcad : t.map Char.toUpper = "MCAD".toList → OwnerWord t .mcad
  | ecad : t.map Char.toUpper = "ECAD".toList → OwnerWord t .ecad
  | unowned : t.map Char.toUpper = "UNOWNED".toList → OwnerWord t .unowned

/-- The plating of a hole, by its word. -/
inductive PlatingWord (t : Str) : Bool → Prop
  | plated : t.map Char.toUpper = "PTH".toList → PlatingWord t true
  | bare : t.map Char.toUpper = "NPTH".toList → PlatingWord t false

/-- The words behind the position of a hole. Version 3 has the plating, what the hole belongs to, its kind and its owner;
version 2 has the kind and what the hole belongs to, in this order. -/
inductive HoleTail : Version → List (Str × Bool) → Bool → Ref → Hole → Owner → Prop
  | v3 (p r h o : Str × Bool) (more : List (Str × Bool)) (plated : Bool) (ref : Ref) (hole : Hole) (owner : Owner) :
      PlatingWord p.1 plated → RefWord r.1 ref → HoleWord h.1 hole → OwnerWord o.1 owner →
      HoleTail .v3 (p :: r :: h :: o :: more) plated ref hole owner
  | v2 (h r : Str × Bool) (more : List (Str × Bool)) (ref : Ref) (hole : Hole) : RefWord r.1 ref → HoleWord h.1 hole →
      HoleTail .v2 (h :: r :: more) true ref hole .unowned

/-- Millimetres in a unit of the file; tens of nanometres exist in version 2 only. -/
inductive InMM : Unit → Version → ℚ → Prop
  | mm (v : Version) : InMM .mm v 1
  | thou (v : Version) : InMM .thou v (254 / 10000)
  | tnm : InMM .tnm .v2 (1 / 100000)

end Iges.Idf.Spec
