import Verif.Model.Geom
import Mathlib.Algebra.BigOperators.Group.Finset.Basic
import Mathlib.Data.Real.Basic
import Mathlib.Data.Rat.Cast.Order
/-
Independent specification: the points of a NURBS curve, by the recursion of Cox and de Boor.
-/
namespace Iges.Spec

open Finset

/-- The B-spline functions of degree `p` for the knots `t`, on the span from `t s` to `t (s + 1)`, at `u`.
A quotient with a denominator of zero counts as zero. -/
noncomputable def basis (t : ℕ → ℝ) (s : ℕ) (u : ℝ) : ℕ → ℕ → ℝ
  | 0, i => if i = s then 1 else 0
  | p + 1, i => (u - t i) / (t (i + p + 1) - t i) * basis t s u p i +
      (t (i + p + 2) - u) / (t (i + p + 2) - t (i + 1)) * basis t s u p (i + 1)

/-- The knot number `i`. -/
noncomputable def knotAt (ks : List ℚ) (i : ℕ) : ℝ := ((ks.getD i 0 : ℚ) : ℝ)

/-- The control point and the weight number `i`. -/
def ctrlAt (ps : List (Point ℚ × ℚ)) (i : ℕ) : Point ℚ × ℚ := ps.getD i (⟨0, 0, 0⟩, 0)

/-- The share of the control point `i` in the point of the curve. -/
noncomputable def share (ks : List ℚ) (p : ℕ) (ps : List (Point ℚ × ℚ)) (s : ℕ) (u : ℝ) (i : ℕ) : ℝ :=
  ((ctrlAt ps i).2 : ℝ) * basis (knotAt ks) s u p i

/-- The weighted mean of one coordinate `f` of the control points. -/
noncomputable def mean (ks : List ℚ) (p : ℕ) (ps : List (Point ℚ × ℚ)) (s : ℕ) (u : ℝ) (f : Point ℚ → ℚ) : ℝ :=
  (∑ i ∈ range ps.length, share ks p ps s u i * ((f (ctrlAt ps i).1 : ℚ) : ℝ)) /
    ∑ i ∈ range ps.length, share ks p ps s u i

/-- `q` is the point of the curve of degree `p` with these knots and weighted control points at the
parameter `u`: `u` lies in a span of the knots that are not only there to fix the ends. -/
def CurvePoint (ks : List ℚ) (p : ℕ) (ps : List (Point ℚ × ℚ)) (u : ℝ) (q : Point ℝ) : Prop :=
  ∃ s, p ≤ s ∧ s < ps.length ∧ knotAt ks s < knotAt ks (s + 1) ∧ knotAt ks s ≤ u ∧ u ≤ knotAt ks (s + 1) ∧
    q = ⟨mean ks p ps s u Point.x, mean ks p ps s u Point.y, mean ks p ps s u Point.z⟩

/-- The knots go up, and there are as many as a curve of degree `p` with `n` control points needs. -/
structure KnotsOk (ks : List ℚ) (p n : ℕ) : Prop where
  len : ks.length = n + p + 1
  up : ks.Pairwise (· ≤ ·)

/-- The first `p + 1` knots are equal, and the next one is greater. -/
def ClampedStart (ks : List ℚ) (p : ℕ) : Prop := (∀ i ≤ p, knotAt ks i = knotAt ks 0) ∧ knotAt ks p < knotAt ks (p + 1)

/-- The last `p + 1` knots are equal, and the one before is less. -/
def ClampedEnd (ks : List ℚ) (p n : ℕ) : Prop :=
  (∀ i ≤ p, knotAt ks (n + i) = knotAt ks n) ∧ knotAt ks (n - 1) < knotAt ks n

/-- The length of a polygon, measured along the axes. -/
def axisLength : List (Point ℚ) → ℚ
  | p :: q :: r => |q.x - p.x| + |q.y - p.y| + |q.z - p.z| + axisLength (q :: r)
  | _ => 0

/-- No three consecutive points of a polygon are on a line, or nearly so: twice the area of the triangle is at
least 1e-6. -/
def Bends : List (Point ℚ) → Prop
  | a :: b :: c :: r =>
    1 / 10 ^ 12 ≤ ((b.y - a.y) * (c.z - a.z) - (b.z - a.z) * (c.y - a.y)) ^ 2 +
      ((b.z - a.z) * (c.x - a.x) - (b.x - a.x) * (c.z - a.z)) ^ 2 +
      ((b.x - a.x) * (c.y - a.y) - (b.y - a.y) * (c.x - a.x)) ^ 2 ∧ Bends (b :: c :: r)
  | _ => True

/-- A square root good to nine digits. -/
def GoodSqrt (sqrt : ℚ → ℚ) : Prop := ∀ x, 0 < x → 0 < sqrt x ∧ |sqrt x * sqrt x - x| ≤ x / 10 ^ 9

end Iges.Spec
