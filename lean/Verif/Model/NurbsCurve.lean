import Verif.Model.Nurbs
/-
Entity 126 (NURBS curve): what it reports about itself - its ends, whether it is plane, closed, rational or
periodic.  The build without the SISL library (`#ifndef USE_SISL`).
-/
namespace Iges

/-- `IGES_ENTITY_126::IsClosed`, entity126.cpp:771-777. -/
def Nurbs.isClosed (d : Nurbs) : Bool := if d.PROP2 ≠ 0 then true else false

/-- `IGES_ENTITY_126::IsPlanar`, entity126.cpp:780-786. -/
def Nurbs.isPlanar (d : Nurbs) : Bool := if d.PROP1 ≠ 0 then true else false

/-- `IGES_ENTITY_126::IsRational`, entity126.cpp:789-795. -/
def Nurbs.isRational (d : Nurbs) : Bool := if d.PROP3 ≠ 0 then false else true

/-- `IGES_ENTITY_126::isPeriodic`, entity126.cpp:798-804. -/
def Nurbs.isPeriodic (d : Nurbs) : Bool := if d.PROP4 ≠ 0 then true else false

/-- `IGES_ENTITY_126::GetNormal`, entity126.cpp:807-811: the result and the normal. -/
def Nurbs.getNormal (d : Nurbs) : Bool × Point ℚ := (d.isPlanar, d.vnorm)

/-- `coeffs[i]`, `coeffs[i+1]`, `coeffs[i+2]`; `coeffs` may be NULL. -/
def Nurbs.pointAt (d : Nurbs) (i : Int) : Rd (Point ℚ) :=
  match d.coeffs with
  | none => .ub
  | some cs => do
    let x ← arrGet cs i
    let y ← arrGet cs (i + 1)
    let z ← arrGet cs (i + 2)
    pure ⟨x, y, z⟩

/-- `pt = pTransform->GetTransformMatrix() * pt` if the caller asks for it and there is a transform: `tx` is
the matrix of the associated transform, `none` if there is none. -/
def withTransform (tx : Option (Transform ℚ)) (xform : Bool) (p : Point ℚ) : Point ℚ :=
  if xform then match tx with
    | some m => m.act p
    | none => p
  else p

/-- `IGES_ENTITY_126::GetStartPoint`, entity126.cpp:828-884: `.fail` is the result `false`. -/
def Nurbs.startPoint (d : Nurbs) (tx : Option (Transform ℚ)) (xform : Bool) : Rd (Point ℚ) :=
  if d.nCoeffs < 2 then .fail
  else do
    let p ← d.pointAt 0
    pure (withTransform tx xform p)

/-- `IGES_ENTITY_126::GetEndPoint`, entity126.cpp:887-952. -/
def Nurbs.endPoint (d : Nurbs) (tx : Option (Transform ℚ)) (xform : Bool) : Rd (Point ℚ) :=
  if d.nCoeffs < 2 then .fail
  else do
    let p ← d.pointAt (if d.PROP3 = 0 then (d.nCoeffs - 1) * 4 else (d.nCoeffs - 1) * 3)
    pure (withTransform tx xform p)

end Iges
