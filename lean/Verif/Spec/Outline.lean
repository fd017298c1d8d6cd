import Mathlib.MeasureTheory.Integral.IntervalIntegral.Basic
import Verif.Model.Outline
import Verif.Spec.SegPoints
/-
Independent specification for C67 and C68: histories of an outline, outlines without gaps, the area an outline goes round,
and the even-odd rule.
-/
namespace Iges.Spec
open Iges.Geo

/-- An outline made by `MCAD_OUTLINE()` and calls of `AddSegment`; the list has the segments for which `AddSegment`
returned true, in the order of the calls. -/
inductive Drawn : List Seg → Outline → Prop where
  | new : Drawn [] Outline.new
  | took {l o s o'} : Drawn l o → addSegment o (some s) = (o', true) → Drawn (l ++ [s]) o'
  | refused {l o a o'} : Drawn l o → addSegment o a = (o', false) → Drawn l o'

/-- Each segment ends where the next one starts, up to the tolerance of 1e-8 of `PointMatches`. -/
def Chained : List Seg → Prop
  | [] => True
  | [_] => True
  | s :: t :: l => PointMatches s.stop t.start 1e-8 = true ∧ Chained (t :: l)

/-- The last segment ends where the first one starts. -/
def EndsMeet (l : List Seg) : Prop :=
  ∃ f e, l.head? = some f ∧ l.getLast? = some e ∧ PointMatches e.stop f.start 1e-8 = true

/-- the area swept by the ray from the origin to a point that runs along a directed path `(x, y)` is half the integral of
`x dy - y dx`; here for a straight line from `a` to `b` -/
noncomputable def lineArea (a b : Point ℝ) : ℝ := (a.x * b.y - b.x * a.y) / 2

/-- the same for an arc about `c` that runs from the direction `α` to the direction `β` -/
noncomputable def arcArea (c : Point ℝ) (r α β : ℝ) : ℝ :=
  (∫ t in α..β, ((c.x + r * Real.cos t) * (r * Real.cos t) - (c.y + r * Real.sin t) * (-(r * Real.sin t)))) / 2

/-- what a segment, run from `GetMStart` to `GetMEnd`, contributes to the area -/
noncomputable def segArea (s : Seg) : ℝ :=
  match s.kind with
  | .none => 0
  | .line => lineArea s.start s.stop
  | .arc => arcArea s.center s.radius s.sang s.eang
  | .circle => Real.pi * s.radius ^ 2

/-- the area an outline goes round: positive when it runs counterclockwise -/
noncomputable def area (l : List Seg) : ℝ := (l.map segArea).sum

/-- the same area with every arc replaced by the two straight lines over its midpoint (`GetMidpoint`) -/
noncomputable def chordArea (s : Seg) : ℝ :=
  match s.kind, s.midpoint with
  | .line, _ => lineArea s.start s.stop
  | .arc, some m => lineArea s.start m + lineArea m s.stop
  | _, _ => 0

/-- the area of the polygon over the ends and the midpoints -/
noncomputable def polygonArea (l : List Seg) : ℝ := (l.map chordArea).sum

/-- The segments run round without any gap at all. -/
def Round (l : List Seg) : Prop := ∃ a, Joined a l a

/-- the points of a segment at the height of `p` and to the left of it -/
def leftOf (p : Point ℝ) (s : Seg) : Set (Point ℝ) := {q | Covers s q ∧ q.y = p.y ∧ q.x < p.x}

/-- The even-odd rule: going from `p` to the left one meets the segments in an odd number of points. -/
def EvenOdd (l : List Seg) (p : Point ℝ) : Prop := Odd ((l.map fun s => (leftOf p s).ncard).sum)

/-- The point `p` is in general position to the segment `s`: the segment does not come close to it at its height; its
height is not close to the height of an end of a line or an arc, or to that of the top or the bottom of the circle of an
arc or of a circle; and the segment, if a line, is horizontal or rises noticeably.  `w` is the width of the bounding box
of the outline. -/
def Clear (w : ℝ) (p : Point ℝ) (s : Seg) : Prop :=
  (∀ q, Covers s q → q.y = p.y → 1e-8 * (w + 5) < |q.x - p.x|) ∧
  match s.kind with
  | .none => False
  | .line =>
      4e-8 + 1e-8 * |s.stop.y - s.start.y| < |p.y - s.start.y| ∧
      4e-8 + 1e-8 * |s.stop.y - s.start.y| < |p.y - s.stop.y| ∧
      ((s.start.y = s.stop.y ∧ 1e-6 < |s.stop.x - s.start.x| * |p.y - s.start.y|) ∨ 2e-7 ≤ |s.stop.y - s.start.y|)
  | .arc =>
      4e-8 + boxTol s < |p.y - s.start.y| ∧ 4e-8 + boxTol s < |p.y - s.stop.y| ∧ boxTol s ≤ 1 ∧
      1e-8 ≤ |s.radius ^ 2 - (p.y - s.center.y) ^ 2|
  | .circle => 1e-8 ≤ |s.radius ^ 2 - (p.y - s.center.y) ^ 2|

end Iges.Spec
