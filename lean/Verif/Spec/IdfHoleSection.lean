import Verif.Spec.IdfHole
/-
Independent specification of the section with the holes of a board file, word by word (C75).
-/
namespace Iges.Idf.Spec

/-- The least diameter of a hole, in the unit of the file. -/
def LeastHole (u : Unit) (d : ℚ) : Prop :=
  (u = .mm ∧ d = 1 / 1000) ∨ (u = .thou ∧ d = 39 / 100000) ∨ (u = .tnm ∧ d = 100)

/-- The line `raw` is a hole: diameter, X and Y without quote marks, then the words of the version.  `f` is the size of the unit in millimetres. -/
def HoleLine (u : Unit) (v : Version) (f : ℚ) (raw : Str) (d : Drill) : Prop :=
  ∃ line wd wx wy ws dia x y least, fetchLine raw = some ⟨line, false⟩ ∧
    Words line ((wd, false) :: (wx, false) :: (wy, false) :: ws) ∧
    readNum wd = some dia ∧ readNum wx = some x ∧ readNum wy = some y ∧ LeastHole u least ∧ least ≤ dia ∧
    wd.map Char.toUpper ≠ ".END_DRILLED_HOLES".toList ∧ HoleTail v ws d.plated d.ref d.hole d.owner ∧
    d.dia = dia * f ∧ d.x = x * f ∧ d.y = y * f

/-- The lines of the section: holes, and lines that are blank and skipped. -/
inductive HoleLines (u : Unit) (v : Version) (f : ℚ) : List Str → List Drill → Prop
  | nil : HoleLines u v f [] []
  | hole (raw : Str) (d : Drill) (raws : List Str) (ds : List Drill) : HoleLine u v f raw d → HoleLines u v f raws ds →
      HoleLines u v f (raw :: raws) (d :: ds)
  | blank (raw : Str) (raws : List Str) (ds : List Drill) : fetchLine raw = none → HoleLines u v f raws ds → HoleLines u v f (raw :: raws) ds

end Iges.Idf.Spec
