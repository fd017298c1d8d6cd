import Verif.Model.Nurbs
import Verif.Spec.Reals
import Mathlib.Data.List.Forall2
/-
Independent specification of consistent NURBS data.
-/
namespace Iges.Spec

/-- The sizes a curve reports agree with its arrays: `K + M + 2` knots, `K + 1` control points of three
numbers each, and a weight for each if the curve is rational (`PROP3 = 0`). -/
def CurveSizes (d : Nurbs) : Prop :=
  match d.knots, d.coeffs with
  | some ks, some cs => (ks.length : Int) = d.nKnots ∧ d.nKnots = d.K + d.M + 2 ∧ d.nCoeffs = d.K + 1 ∧
      (cs.length : Int) = (if d.PROP3 = 0 then 4 else 3) * d.nCoeffs
  | none, none => True
  | _, _ => False

/-- The same for a surface, which has two knot vectors and a grid of control points. -/
def SurfSizes (d : NurbsSurf) : Prop :=
  match d.knots1, d.knots2, d.coeffs with
  | some ks1, some ks2, some cs => (ks1.length : Int) = d.nKnots1 ∧ (ks2.length : Int) = d.nKnots2 ∧
      d.nKnots1 = d.K1 + d.M1 + 2 ∧ d.nKnots2 = d.K2 + d.M2 + 2 ∧ d.nCoeffs1 = d.K1 + 1 ∧ d.nCoeffs2 = d.K2 + 1 ∧
      (cs.length : Int) = (if d.PROP3 = 0 then 4 else 3) * (d.nCoeffs1 * d.nCoeffs2)
  | none, none, none => True
  | _, _, _ => False

/-- The array of control points: four numbers for each point and weight of a rational curve or surface
(`prop3 = 0`), three numbers for each point of a polynomial one. -/
def ctrlArray (prop3 : Int) (ps : List (Point ℚ × ℚ)) : List ℚ :=
  ps.flatMap fun p => if prop3 = 0 then [p.1.x, p.1.y, p.1.z, p.2] else [p.1.x, p.1.y, p.1.z]

/-- A control point and, for a rational curve, its weight after a write with the resolutions `res` and
`wres` and a read. -/
structure CtrlNear (prop3 : Int) (res wres : ℚ) (p q : Point ℚ × ℚ) : Prop where
  x : Near res p.1.x q.1.x
  y : Near res p.1.y q.1.y
  z : Near res p.1.z q.1.z
  w : prop3 = 0 → Near wres p.2 q.2

end Iges.Spec
