import Verif.Model.NurbsCurve
/-
The curves of a model - circular arcs (100), conics (104), lines (110), NURBS curves (126) and composite curves
(102): their ends, with and without transform, and whether they are closed.
-/
namespace Iges.Ends

/-- The data of a curve that is not composite. -/
inductive Simple where
  | arc (a : Arc)
  | conic (k : Conic)
  | line (l : Line)
  | nurbs (d : Nurbs)

/-- Such a curve and the matrix of its associated transform, if it has one. -/
structure Curve where
  data : Simple
  tx : Option (Transform ℚ)

/-- The type number of the entity. -/
def Curve.etype (c : Curve) : Int :=
  match c.data with
  | .arc _ => 100
  | .conic _ => 104
  | .line _ => 110
  | .nurbs _ => 126

/-- `GetStartPoint`, entity100.cpp:417-427, entity104.cpp:375-385, entity110.cpp:315-325 and entity126.cpp:827-884. -/
def Curve.startPoint (c : Curve) (xform : Bool) : Rd (Point ℚ) :=
  match c.data with
  | .arc a => .val (withTransform c.tx xform ⟨a.xStart, a.yStart, a.zOffset⟩)
  | .conic k => .val (withTransform c.tx xform ⟨k.X1, k.Y1, k.ZT⟩)
  | .line l => .val (withTransform c.tx xform ⟨l.X1, l.Y1, l.Z1⟩)
  | .nurbs d => d.startPoint c.tx xform

/-- `GetEndPoint`, entity100.cpp:430-440, entity104.cpp:388-398, entity110.cpp:328-338 and entity126.cpp:887-952. -/
def Curve.endPoint (c : Curve) (xform : Bool) : Rd (Point ℚ) :=
  match c.data with
  | .arc a => .val (withTransform c.tx xform ⟨a.xEnd, a.yEnd, a.zOffset⟩)
  | .conic k => .val (withTransform c.tx xform ⟨k.X2, k.Y2, k.ZT⟩)
  | .line l => .val (withTransform c.tx xform ⟨l.X2, l.Y2, l.Z2⟩)
  | .nurbs d => d.endPoint c.tx xform

/-- `GetNSegments`, entity100.cpp:443-446, entity104.cpp:401-404, entity110.cpp:341-344 and entity126.cpp:954-959. -/
def Curve.nSegments (c : Curve) : Int :=
  match c.data with
  | .nurbs d => d.nCoeffs
  | _ => 1

/-- `IsClosed`, entity100.cpp:449-469, entity104.cpp:407-416, entity110.cpp:347-350 and entity126.cpp:771-777; `res`
is the resolution of the model, 0.001 without a model. -/
def Curve.isClosed (sqrt : ℚ → ℚ) (res : ℚ) (c : Curve) : Bool :=
  match c.data with
  | .arc a =>
    if PointMatchesQ sqrt ⟨a.xCenter, a.yCenter, 0⟩ ⟨a.xStart, a.yStart, 0⟩ res then false
    else PointMatchesQ sqrt ⟨a.xStart, a.yStart, 0⟩ ⟨a.xEnd, a.yEnd, 0⟩ res
  | .conic k => if k.getForm = 1 ∧ k.X1 = k.X2 ∧ k.Y1 = k.Y2 then true else false
  | .line _ => false
  | .nurbs d => d.isClosed

/-- A composite curve: its segments and the matrix of its own transform. -/
structure Compo where
  segs : List Curve
  tx : Option (Transform ℚ)

/-- `IGES_ENTITY_102::GetStartPoint`, entity102.cpp:635-649. -/
def Compo.startPoint (k : Compo) (xform : Bool) : Rd (Point ℚ) :=
  match k.segs.head? with
  | none => .fail
  | some c => do
    let p ← c.startPoint xform
    pure (withTransform k.tx xform p)

/-- `IGES_ENTITY_102::GetEndPoint`, entity102.cpp:652-666. -/
def Compo.endPoint (k : Compo) (xform : Bool) : Rd (Point ℚ) :=
  match k.segs.getLast? with
  | none => .fail
  | some c => do
    let p ← c.endPoint xform
    pure (withTransform k.tx xform p)

/-- `IGES_ENTITY_102::IsClosed`, entity102.cpp:675-722. -/
def Compo.isClosed (sqrt : ℚ → ℚ) (res : ℚ) (k : Compo) : Rd Bool :=
  match k.segs.head?, k.segs.getLast? with
  | some f, some l =>
    if k.segs.length = 1 ∧ f.etype ≠ 100 then .val false
    else
      match f.startPoint true with
      | .ub => .ub
      | .exn => .exn
      | .fail => .val false
      | .val p1 =>
        match l.endPoint true with
        | .ub => .ub
        | .exn => .exn
        | .fail => .val false
        | .val p2 => .val (if k.segs.any (fun c => c.nSegments > 0) then PointMatchesQ sqrt p1 p2 res else false)
  | _, _ => .val false

end Iges.Ends
