import Verif.Model.Composite
import Verif.Spec.Geom

/-!
Continuity of a composite curve.
-/

namespace Iges.Spec.Composite
open Iges.Composite

/-- The second segment starts where the first ends, within the distance `tol`. -/
def Meets (tol : ℝ) (a b : Seg) : Prop :=
  ∃ p q, a.stop = some p ∧ b.start = some q ∧ dist2 p q ≤ tol ^ 2

/-- Every segment starts where the one before it ends. -/
def Connected (tol : ℝ) (cs : List Seg) : Prop :=
  ∀ i a b, cs[i]? = some a → cs[i + 1]? = some b → Meets tol a b

/-- The caller asks for the end point of the curve before adding a segment. -/
def Careful (tol : ℝ) (cs : List Seg) : Call → Prop
  | .add s _ => cs = [] ∨ ∃ p q, GetEndPoint cs = some p ∧ s.start = some q ∧ dist2 p q ≤ tol ^ 2
  | .destroyed _ => True

def CarefulFrom (res tol : ℝ) : List Seg → List Call → Prop
  | _, [] => True
  | cs, c :: l => Careful tol cs c ∧ CarefulFrom res tol (step res cs c) l

end Iges.Spec.Composite
