import Mathlib.Data.Rat.Defs
import Mathlib.Algebra.Order.Field.Rat
import Mathlib.Algebra.Order.Group.Unbundled.Abs
/-
Independent specification of what is kept of a real number by a write and a read.
-/
namespace Iges.Spec

/-- `y` is what may be found for the value `x` after writing it with resolution `res` and reading it:
zero for values below `1e-8`, otherwise the same within a thousandth of the resolution or one unit of
the 15th digit, and never more than a thousandth of the value itself. -/
def Near (res x y : ℚ) : Prop :=
  (|x| < 1 / 10 ^ 8 → y = 0) ∧ (1 / 10 ^ 8 ≤ |x| → |y - x| ≤ max (res / 1000) (|x| / 10 ^ 15)) ∧
  (1 / 10 ^ 8 ≤ |x| → |y - x| ≤ |x| / 1000)

end Iges.Spec
