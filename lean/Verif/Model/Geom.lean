import Mathlib.Analysis.Real.Sqrt
/-
Points, matrices and transforms (geom/mcad_elements.cpp) and the helpers of geom/mcad_helpers.cpp.

Simplification: coordinates are exact numbers of a commutative ring `K` (later the real numbers), so
rounding, overflow and the special values of `double` are not modelled.
-/
namespace Iges

/-- `MCAD_POINT`, include/geom/mcad_elements.h -/
@[ext] structure Point (K : Type) where
  x : K
  y : K
  z : K

/-- `MCAD_MATRIX`: `v[i][j]`, include/geom/mcad_elements.h -/
@[ext] structure Mat (K : Type) where
  v00 : K
  v01 : K
  v02 : K
  v10 : K
  v11 : K
  v12 : K
  v20 : K
  v21 : K
  v22 : K

/-- `MCAD_TRANSFORM` -/
@[ext] structure Transform (K : Type) where
  R : Mat K
  T : Point K

section
variable {K : Type} [CommRing K]

/-- `MCAD_POINT::operator+`, mcad_elements.cpp:74-82 -/
def Point.add (p v : Point K) : Point K := ⟨p.x + v.x, p.y + v.y, p.z + v.z⟩

/-- `operator-( p0, p1 )` through `operator-=`, mcad_elements.cpp:88-95, 114-119 -/
def Point.sub (p v : Point K) : Point K := ⟨p.x - v.x, p.y - v.y, p.z - v.z⟩

/-- `operator*( v, scalar )`, mcad_elements.cpp:97-104 -/
def Point.scale (v : Point K) (s : K) : Point K := ⟨v.x * s, v.y * s, v.z * s⟩

/-- the identity matrix of the constructor `MCAD_MATRIX()`, mcad_elements.cpp:122-131 -/
def Mat.one : Mat K := ⟨1, 0, 0, 0, 1, 0, 0, 0, 1⟩

/-- `MCAD_MATRIX::operator+`, mcad_elements.cpp:169-180 -/
def Mat.add (m n : Mat K) : Mat K :=
  ⟨m.v00 + n.v00, m.v01 + n.v01, m.v02 + n.v02, m.v10 + n.v10, m.v11 + n.v11, m.v12 + n.v12,
   m.v20 + n.v20, m.v21 + n.v21, m.v22 + n.v22⟩

/-- `MCAD_MATRIX::operator-`, mcad_elements.cpp:195-206 -/
def Mat.sub (m n : Mat K) : Mat K :=
  ⟨m.v00 - n.v00, m.v01 - n.v01, m.v02 - n.v02, m.v10 - n.v10, m.v11 - n.v11, m.v12 - n.v12,
   m.v20 - n.v20, m.v21 - n.v21, m.v22 - n.v22⟩

/-- `operator*( MCAD_MATRIX, MCAD_POINT )`, mcad_elements.cpp:209-217 -/
def Mat.act (m : Mat K) (v : Point K) : Point K :=
  ⟨m.v00 * v.x + m.v01 * v.y + m.v02 * v.z,
   m.v10 * v.x + m.v11 * v.y + m.v12 * v.z,
   m.v20 * v.x + m.v21 * v.y + m.v22 * v.z⟩

/-- `operator*( MCAD_MATRIX, MCAD_MATRIX )`, mcad_elements.cpp:220-255 -/
def Mat.mul (m n : Mat K) : Mat K where
  v00 := m.v00 * n.v00 + m.v01 * n.v10 + m.v02 * n.v20
  v01 := m.v00 * n.v01 + m.v01 * n.v11 + m.v02 * n.v21
  v02 := m.v00 * n.v02 + m.v01 * n.v12 + m.v02 * n.v22
  v10 := m.v10 * n.v00 + m.v11 * n.v10 + m.v12 * n.v20
  v11 := m.v10 * n.v01 + m.v11 * n.v11 + m.v12 * n.v21
  v12 := m.v10 * n.v02 + m.v11 * n.v12 + m.v12 * n.v22
  v20 := m.v20 * n.v00 + m.v21 * n.v10 + m.v22 * n.v20
  v21 := m.v20 * n.v01 + m.v21 * n.v11 + m.v22 * n.v21
  v22 := m.v20 * n.v02 + m.v21 * n.v12 + m.v22 * n.v22

/-- `operator*( MCAD_MATRIX, double )`, mcad_elements.cpp:258-269 -/
def Mat.scale (m : Mat K) (s : K) : Mat K :=
  ⟨m.v00 * s, m.v01 * s, m.v02 * s, m.v10 * s, m.v11 * s, m.v12 * s, m.v20 * s, m.v21 * s, m.v22 * s⟩

/-- `MCAD_TRANSFORM()`, mcad_elements.cpp:278-281, with the default members -/
def Transform.one : Transform K := ⟨Mat.one, ⟨0, 0, 0⟩⟩

/-- `MCAD_TRANSFORM::operator*=( MCAD_TRANSFORM )`, mcad_elements.cpp:299-304: the offset is computed with
the old matrix, then the matrix is replaced. -/
def Transform.mul (m n : Transform K) : Transform K :=
  let T := (m.R.act n.T).add m.T
  let R := m.R.mul n.R
  ⟨R, T⟩

/-- `MCAD_TRANSFORM::operator*=( double )`, mcad_elements.cpp:307-312 -/
def Transform.scale (m : Transform K) (s : K) : Transform K := ⟨m.R.scale s, m.T.scale s⟩

/-- `operator*( MCAD_TRANSFORM, MCAD_POINT )`, mcad_elements.cpp:334-339 -/
def Transform.act (m : Transform K) (v : Point K) : Point K := (m.R.act v).add m.T

/-- The transform entities of a model: the own matrix of each and the entity its `pTransform` points to. -/
structure TxStore (K : Type) where
  own : Nat → Transform K
  next : Nat → Option Nat

/-- `IGES_ENTITY_124::GetTransformMatrix`, entity124.cpp:475-486. The recursion follows `pTransform`;
`fuel` bounds the depth of the call stack and `none` is a stack overflow. -/
def GetTransformMatrix (s : TxStore K) : Nat → Nat → Option (Transform K)
  | 0, _ => none
  | fuel + 1, id =>
    match s.next id with
    | none => some (s.own id)
    | some j => (GetTransformMatrix s fuel j).map fun t => t.mul (s.own id)

end

/-- `PointMatches`, mcad_helpers.cpp:40-76, over the real numbers. -/
noncomputable def PointMatches (p1 p2 : Point ℝ) (minRes : ℝ) : Bool :=
  let dN := |p1.x * p1.x + p1.y * p1.y + p1.z * p1.z|
  let dV := |p2.x * p2.x + p2.y * p2.y + p2.z * p2.z|
  let big := dN > 10 ^ 15 ∨ dV > 10 ^ 15
  let rN := 1 / Real.sqrt (max dN dV)
  open Classical in
  let q1 := if big then p1.scale rN else p1
  open Classical in
  let q2 := if big then p2.scale rN else p2
  open Classical in
  let r := if big then minRes * rN else minRes
  let r2 := r * (3.0001 * r)
  open Classical in
  let r3 := if r2 < 3 / 10 ^ 30 then 3 / 10 ^ 30 else r2
  let dx := q2.x - q1.x
  let dy := q2.y - q1.y
  let dz := q2.z - q1.z
  open Classical in
  if dx * dx + dy * dy + dz * dz > r3 then false else true

/-- `CheckNormal`, mcad_helpers.cpp:79-105 (always returns true), over the real numbers. -/
noncomputable def CheckNormal (p : Point ℝ) : Point ℝ :=
  let dN := p.x * p.x + p.y * p.y + p.z * p.z
  open Classical in
  if dN < 1 / 10 ^ 12 then ⟨0, 0, 1⟩
  else
    let dV := dN - 1
    open Classical in
    if dV < -(1 / 10 ^ 8) ∨ dV > 1 / 10 ^ 8 then
      let l := Real.sqrt dN
      ⟨p.x / l, p.y / l, p.z / l⟩
    else p

/-- `CalcNormal`, mcad_helpers.cpp:135-157, for non-NULL arguments. -/
noncomputable def CalcNormal (p0 p1 p2 : Point ℝ) : Point ℝ :=
  let t0 := p1.sub p0
  let t1 := p2.sub p0
  CheckNormal ⟨t0.y * t1.z - t0.z * t1.y, t0.z * t1.x - t0.x * t1.z, t0.x * t1.y - t0.y * t1.x⟩

end Iges
