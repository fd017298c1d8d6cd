import Verif.Model.Geom
import Mathlib.Algebra.Order.Ring.Rat
/-
Independent specification for the ends of curves.
-/
namespace Iges.Spec

/-- The square of the distance of two points. -/
def sqDist (p q : Point ℚ) : ℚ := (q.x - p.x) * (q.x - p.x) + (q.y - p.y) * (q.y - p.y) + (q.z - p.z) * (q.z - p.z)

/-- A transform that keeps all distances. -/
def Rigid (m : Transform ℚ) : Prop := ∀ p q, sqDist (m.act p) (m.act q) = sqDist p q

/-- The point is within 1.8e7 of the origin. -/
def Moderate (p : Point ℚ) : Prop := p.x * p.x + p.y * p.y + p.z * p.z ≤ 10 ^ 15

end Iges.Spec
