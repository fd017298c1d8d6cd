import Mathlib.Algebra.BigOperators.Finprod
import Verif.Spec.Outline
/-
Independent specification for the region an outline goes round (C83): how often the outline goes round a point, and what
is inside.
-/
namespace Iges.Spec
open Iges.Geo Classical

/-- The ends of an arc are exactly on its circle. -/
def Sharp (s : Seg) : Prop :=
  s.kind = .arc → planar2 s.start s.center = s.radius ^ 2 ∧ planar2 s.stop s.center = s.radius ^ 2

/-- The height of `p` is not that of an end of the segment, nor that of the top or the bottom of the circle of an arc. -/
def Plain (s : Seg) (p : Point ℝ) : Prop :=
  p.y ≠ s.start.y ∧ p.y ≠ s.stop.y ∧ (s.kind = .arc → (p.y - s.center.y) ^ 2 ≠ s.radius ^ 2)

/-- which way a segment goes at one of its points, run from `GetMStart` to `GetMEnd`: 1 down, -1 up; an arc that runs
counterclockwise goes down on the left of its centre -/
noncomputable def heading (s : Seg) (q : Point ℝ) : ℤ :=
  match s.kind with
  | .line => if s.stop.y < s.start.y then 1 else -1
  | .arc => if q.x < s.center.x ↔ s.cw = false then 1 else -1
  | _ => 0

/-- how often the segments go round `p` counterclockwise: going to the left from `p` one meets them in some points; those
where they go down count 1 and those where they go up count -1 -/
noncomputable def rounds (l : List Seg) (p : Point ℝ) : ℤ := (l.map fun s => ∑ᶠ q ∈ leftOf p s, heading s q).sum

/-- `p` is a point of the plane that is on none of the segments. -/
def OffBorder (l : List Seg) (p : Point ℝ) : Prop := p.z = 0 ∧ ∀ s ∈ l, ¬ Covers s p

/-- The segments go round every point once, counterclockwise, or not at all, as the border of a region does that is run
with the region on the left. -/
def Proper (l : List Seg) : Prop := ∀ p, OffBorder l p → (∀ s ∈ l, Plain s p) → rounds l p = 0 ∨ rounds l p = 1

/-- `p` is inside by the even-odd rule, or, if it is at the height of a corner, so are the points near to it at other
heights. -/
def Inside (l : List Seg) (p : Point ℝ) : Prop :=
  ∃ δ > 0, ∀ q : Point ℝ, q.z = 0 → planar2 q p < δ → (∀ s ∈ l, Plain s q) → EvenOdd l q

end Iges.Spec
