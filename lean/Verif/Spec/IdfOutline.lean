import Verif.Model.IdfOutline
import Verif.Spec.IdfText
/-
Specification for outlines in IDF files (C78).
-/
namespace Iges.Idf.Spec

/-- The segment run through the other way. -/
def back (s : QSeg) : QSeg := ⟨s.stop, s.start, -s.angle⟩

/-- The outline run through the other way, with the same segment first. -/
def reversed : List QSeg → List QSeg
  | [] => []
  | f :: r => back f :: r.reverse.map back

/-- The direction an outline must have in a file: the first outline of a board, number 0, is counterclockwise, the cutouts are
clockwise.  Circles have no direction. -/
noncomputable def oriented (i : ℕ) (l : List QSeg) : List QSeg :=
  if l.length = 1 then l
  else if ccwOf l = decide (i = 0) then l
  else reversed l

/-- Points agree up to `d` in each coordinate. -/
def PtNear (d : ℚ) (p q : Pt) : Prop := |q.x - p.x| ≤ d ∧ |q.y - p.y| ≤ d

/-- Segments agree: ends up to `d`, angles up to half of a thousandth of a degree; a circle is a circle, whatever its
direction. -/
structure SegNear (d : ℚ) (s t : QSeg) : Prop where
  start : PtNear d s.start t.start
  stop : PtNear d s.stop t.stop
  angle : |t.angle - s.angle| ≤ 1 / 2000 ∨ (s.isCircle = true ∧ t.isCircle = true)

/-- Each segment begins where the one before it ends, and the first where the last ends, up to `g`. -/
def Chained (g : ℚ) : Pt → List QSeg → Pt → Prop
  | p, [], q => PtNear g p q
  | p, s :: l, q => PtNear g p s.start ∧ Chained g s.stop l q

/-- The size of numbers that can be printed and read. -/
def PtSize (p : Pt) : Prop := |p.x| ≤ 10 ^ 300 ∧ |p.y| ≤ 10 ^ 300

/-- An angle that is clearly zero, or clearly not, and not clearly a full turn. -/
def AngleOk (a : ℚ) : Prop := a = 0 ∨ (11 / 1000 ≤ |a| ∧ |a| ≤ 360 - 11 / 1000)

/-- Points that are further apart than 1e-5 after rounding. -/
def Apart (u : Unit) (p q : Pt) : Prop :=
  1 / 100000 + 2 * lengthTol u < |p.x - q.x| ∨ 1 / 100000 + 2 * lengthTol u < |p.y - q.y|

/-- An outline that can be written and read: a circle, or at least two segments in a chain that comes back to its
beginning only at the end. -/
def GoodLoop (u : Unit) (g : ℚ) (l : List QSeg) : Prop :=
  (∀ s ∈ l, PtSize s.start ∧ PtSize s.stop) ∧
  ((∃ s, l = [s] ∧ s.isCircle = true) ∨
   ∃ f r, l = f :: r ∧ r ≠ [] ∧ Chained g f.stop r f.start ∧ (∀ s ∈ l, AngleOk s.angle) ∧
     ∀ s ∈ r.dropLast, Apart u s.stop f.start)

/-- The outline `l`, number `i`, winds as it must. -/
def Winds (i : ℕ) (l : List QSeg) : Prop := (∃ s, l = [s] ∧ s.isCircle = true) ∨ ccwOf l = decide (i = 0)

/-- Each segment begins exactly where the one before it ends, and the first where the last ends. -/
def Joined (l : List QSeg) : Prop := ∃ f r, l = f :: r ∧ Chained 0 f.stop r f.start

/-- The direction of the outline is not a matter of rounding. -/
def Robust (u : Unit) (g : ℚ) (i : ℕ) (l : List QSeg) : Prop :=
  l.length = 1 ∨ ∀ l', List.Forall₂ (SegNear (lengthTol u + g)) l l' → Joined l' → Winds i l'

/-- The segments lead from `p` to `q`, each beginning where the one before it ends. -/
def Linked : Pt → List QSeg → Pt → Prop
  | p, [], q => p = q
  | p, s :: l, q => p = s.start ∧ Linked s.stop l q

/-- A circle, or at least two segments, each beginning where the one before it ends, the last one ending within 1e-5 of the
beginning of the first. -/
def ClosedLoop (l : List QSeg) : Prop :=
  (∃ s, l = [s] ∧ s.isCircle = true) ∨
  ∃ f r q, l = f :: r ∧ r ≠ [] ∧ Linked f.stop r q ∧
    (q.x - f.start.x) ^ 2 + (q.y - f.start.y) ^ 2 ≤ (1 / 100000) ^ 2

/-- Twice the area, with sign, of a polygon: the shoelace formula. -/
def shoelace (l : List QSeg) : ℚ := (l.map fun s => s.start.x * s.stop.y - s.stop.x * s.start.y).sum

end Iges.Idf.Spec
