import Verif.Model.Plane
import Verif.Spec.Reals
/-
Independent specification for planes.
-/
namespace Iges.Spec

/-- The point `(x, y, z)` is on the plane `A x + B y + C z = D`. -/
def OnPlane (k : Plane) (x y z : ℚ) : Prop := k.A * x + k.B * y + k.C * z = k.D

/-- A plane that can be written: it has a direction that is not very small, numbers that fit, and a curve exactly if its form
says so. -/
structure PlaneOk (k : Plane) : Prop where
  dir : 1 / 10 ^ 8 ≤ |k.A| ∨ 1 / 10 ^ 8 ≤ |k.B| ∨ 1 / 10 ^ 8 ≤ |k.C|
  size : ∀ x ∈ [k.A, k.B, k.C, k.D, k.X, k.Y, k.Z, k.Size], |x| ≤ 10 ^ (300 : ℤ)
  bounded : k.form ≠ 0 ↔ k.PTR ≠ 0
  ptr : 0 ≤ k.PTR ∧ k.PTR ≤ 9999997

/-- The same values in the same roles. -/
structure PlaneNear (res : ℚ) (k b : Plane) : Prop where
  form : b.form = k.form
  A : Near res k.A b.A
  B : Near res k.B b.B
  C : Near res k.C b.C
  D : Near res k.D b.D
  PTR : b.PTR = k.PTR
  X : Near res k.X b.X
  Y : Near res k.Y b.Y
  Z : Near res k.Z b.Z
  Size : Near res k.Size b.Size

end Iges.Spec
