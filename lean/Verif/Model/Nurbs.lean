import Verif.Model.ListEntities
/-
Entities 126 (NURBS curve) and 128 (NURBS surface): data, `SetNURBSData`, `GetNURBSData`, `format`,
`readPD`.  Arrays are lists, a NULL pointer is `none`; reading outside an array is undefined behaviour
(`Rd.ub`).  `int` arithmetic on the sizes is taken as exact; `new` never fails.  The members for the
SISL library (`#ifdef USE_SISL`) are left out.
-/
namespace Iges

/-- One parameter per emitter call; the last one is closed by `last`. -/
def oneEach (pd last : Char) : List Item → List (List (Item × Char))
  | [] => []
  | [x] => [[(x, last)]]
  | x :: y :: xs => [(x, pd)] :: oneEach pd last (y :: xs)

/-- `a[0] .. a[n-1]` -/
def firstN : Nat → List ℚ → Rd (List ℚ)
  | 0, _ => .val []
  | _ + 1, [] => .ub
  | n + 1, x :: xs => do
    let ys ← firstN n xs
    pure (x :: ys)

/-- `a[i]` -/
def arrGet (a : List ℚ) (i : Int) : Rd ℚ :=
  if i < 0 then .ub else match a[i.toNat]? with
  | some x => .val x
  | none => .ub

/-- `n` control points of the array `coeffs` and their weights: `x, y, z, w` for each point if
`PROP3` is 0, otherwise `x, y, z` with weight 1. -/
def controlPoints (prop3 : Int) : Nat → List ℚ → Rd (List (Point ℚ × ℚ))
  | 0, _ => .val []
  | n + 1, cs =>
    if prop3 = 0 then
      match cs with
      | x :: y :: z :: w :: r => do
        let ps ← controlPoints prop3 n r
        pure ((⟨x, y, z⟩, w) :: ps)
      | _ => .ub
    else
      match cs with
      | x :: y :: z :: r => do
        let ps ← controlPoints prop3 n r
        pure ((⟨x, y, z⟩, 1) :: ps)
      | _ => .ub

/-- The array `coeffs` that holds the given points and weights. -/
def packPoints (prop3 : Int) (ps : List (Point ℚ × ℚ)) : List ℚ :=
  if prop3 = 0 then ps.flatMap fun p => [p.1.x, p.1.y, p.1.z, p.2] else ps.flatMap fun p => [p.1.x, p.1.y, p.1.z]

/-- A property flag, e.g. entity126.cpp:487-501. -/
def isFlag (n : Int) : Prop := n = 0 ∨ n = 1

instance : DecidablePred isFlag := fun n => by unfold isFlag; infer_instance

/-- A weight, entity126.cpp:596-618 and entity128.cpp:678-740. -/
def readWeight (s : Src) (c : Cur) : Rd (ℚ × Cur) := do
  let (w, c) ← s.real c
  Rd.need (¬ w ≤ 0)
  pure (w, c)

/-! ### Entity 126: NURBS curve -/

/-- Data of entity 126, entity126.h:108-122. -/
structure Nurbs where
  nKnots : Int
  nCoeffs : Int
  knots : Option (List ℚ)
  coeffs : Option (List ℚ)
  K : Int
  M : Int
  PROP1 : Int
  PROP2 : Int
  PROP3 : Int
  PROP4 : Int
  V0 : ℚ
  V1 : ℚ
  vnorm : Point ℚ

/-- The constructor, entity126.cpp:38-61; `MCAD_POINT` is initialised to the origin. -/
def Nurbs.new : Nurbs := ⟨0, 0, none, none, 0, 0, 0, 0, 0, 0, 0, 0, ⟨0, 0, 0⟩⟩

/-- `CalcNormal`, mcad_helpers.cpp:135-157, with the square root of the surroundings. -/
def CalcNormalQ (sqrt : ℚ → ℚ) (p0 p1 p2 : Point ℚ) : Point ℚ :=
  let t0 := p1.sub p0
  let t1 := p2.sub p0
  CheckNormalQ sqrt ⟨t0.y * t1.z - t0.z * t1.y, t0.z * t1.x - t0.x * t1.z, t0.x * t1.y - t0.y * t1.x⟩

/-- The loop of `hasUniquePlane`, entity126.cpp:1157-1186: the normal of each three consecutive points
must match that of the three before. -/
def planeLoop (sqrt : ℚ → ℚ) (n0 : Point ℚ) : List (Point ℚ) → Bool
  | p0 :: p1 :: p2 :: r =>
    let n1 := CalcNormalQ sqrt p0 p1 p2
    if PointMatchesQ sqrt n0 n1 (1 / 10 ^ 8) || PointMatchesQ sqrt n0 (n1.scale (-1)) (1 / 10 ^ 8) then
      planeLoop sqrt n1 (p1 :: p2 :: r)
    else false
  | _ => true

/-- `IGES_ENTITY_126::hasUniquePlane`, entity126.cpp:1117-1189: the result and the normal, for the
control points of the curve. -/
def hasUniquePlane (sqrt : ℚ → ℚ) : List (Point ℚ) → Bool × Point ℚ
  | p0 :: p1 :: p2 :: r =>
    let n := CalcNormalQ sqrt p0 p1 p2
    if planeLoop sqrt n (p1 :: p2 :: r) then (true, n) else (false, ⟨0, 0, 1⟩)
  | _ => (false, ⟨0, 0, 1⟩)

/-- `IGES_ENTITY_126::SetNURBSData`, entity126.cpp:1000-1114: the result and the new data.  The sizes are
stored before the parameter range is checked. -/
def Nurbs.set (sqrt : ℚ → ℚ) (d : Nurbs) (nCoeff order : Int) (knot coeff : Option (List ℚ)) (rational : Bool)
    (v0 v1 : ℚ) : Rd (Bool × Nurbs) :=
  match knot, coeff with
  | some knot, some coeff =>
    if order < 2 then .val (false, d)                                  -- 1014-1018
    else if nCoeff < order then .val (false, d)                        -- 1020-1024
    else do
      let d := { d with nKnots := nCoeff + order, nCoeffs := nCoeff, K := nCoeff - 1, M := order - 1 }
      let k0 ← arrGet knot 0
      let kn ← arrGet knot (d.nKnots - 1)
      if v0 < k0 ∨ v0 ≥ kn then .val (false, d)                        -- 1036-1040
      else if v1 ≤ v0 ∨ v1 > kn then .val (false, d)                   -- 1042-1046
      else do
        let p3 : Int := if rational then 0 else 1
        let nDbls := if rational then d.nCoeffs * 4 else d.nCoeffs * 3
        let ks ← firstN d.nKnots.toNat knot
        let cs ← firstN nDbls.toNat coeff
        let ps ← controlPoints p3 d.nCoeffs.toNat cs
        let (plane, n) := hasUniquePlane sqrt (ps.map (·.1))
        pure (true, { d with knots := some ks, coeffs := some cs, PROP1 := if plane then 1 else 0, PROP2 := 0,
                             PROP3 := p3, PROP4 := 0, V0 := v0, V1 := v1, vnorm := n })
  | _, _ => .val (false, d)                                            -- 1008-1012

/-- What `GetNURBSData` reports. -/
structure NurbsView where
  nCoeff : Int
  order : Int
  knot : List ℚ
  coeff : Option (List ℚ)
  deriving DecidableEq

/-- `IGES_ENTITY_126::GetNURBSData`, entity126.cpp:962-997: the parameters
`knot` and `coeff` are overwritten with NULL and dereferenced after that. -/
def Nurbs.get (d : Nurbs) : Rd NurbsView :=
  match d.knots with
  | none => .fail
  | some _ => .ub

/-- The reals of `format` with the resolution of each, entity126.cpp:182-270. -/
def Nurbs.reals (d : Nurbs) (ks : List ℚ) (ps : List (Point ℚ × ℚ)) : List (ℚ × ℚ) :=
  ks.map (·, 1 / 10 ^ 15) ++ (ps.map fun p => (p.2, 1 / 10 ^ 6)) ++
  (ps.flatMap fun p => [(p.1.x, 1 / 10 ^ 15), (p.1.y, 1 / 10 ^ 15), (p.1.z, 1 / 10 ^ 15)]) ++
  [(d.V0, 1 / 10 ^ 15), (d.V1, 1 / 10 ^ 15), (d.vnorm.x, 1 / 10 ^ 15), (d.vnorm.y, 1 / 10 ^ 15), (d.vnorm.z, 1 / 10 ^ 15)]

/-- `IGES_ENTITY_126::format`, entity126.cpp:93-306.  All array elements are read before the first
parameter is written. -/
def Nurbs.format (E : PdEnv) (de : Int) (d : Nurbs) (xs : List ExtraRef) (cs : List Str) (index : Int) : Rd (Str × Int) :=
  match d.knots, d.coeffs with
  | some knots, some coeffs =>
    if index < 1 ∨ index > 9999999 then .fail                          -- 103-107
    else if d.K < 1 ∨ d.M < 1 then .fail                               -- 122-132
    else if d.PROP1 < 0 ∨ d.PROP1 > 1 ∨ d.PROP2 < 0 ∨ d.PROP2 > 1 ∨ d.PROP3 < 0 ∨ d.PROP3 > 1 ∨
        d.PROP4 < 0 ∨ d.PROP4 > 1 then .fail                           -- 134-156
    else if 2 + d.K + d.M ≠ d.nKnots then .fail                        -- 159-164
    else if 1 + d.K ≠ d.nCoeffs then .fail                             -- 167-172
    else do
      let ks ← firstN d.nKnots.toNat knots
      let ps ← controlPoints d.PROP3 d.nCoeffs.toNat coeffs
      formatPD E de [126, d.K, d.M, d.PROP1, d.PROP2, d.PROP3, d.PROP4]
        (oneEach E.pd (E.last xs) ((d.reals ks ps).map fun v => .real v.1 v.2)) xs cs 9999999 index
  | _, _ => .fail                                                      -- 97-101

/-- The normal of `readPD`, entity126.cpp:676-694: if the record has ended, the variables still hold the
last control point. -/
def readNormalOr (s : Src) (p : Point ℚ) (c : Cur) : Rd (Point ℚ × Cur) := if c.eor then .val (p, c) else readVertex s c

/-- The parameters of `IGES_ENTITY_126::readPD`, entity126.cpp:462-719. -/
def Nurbs.readParams (E : PdEnv) (s : Src) (c : Cur) : Rd (Nurbs × Cur) := do
  let (K, c) ← s.intIf (1 ≤ ·) c
  let (M, c) ← s.intIf (1 ≤ ·) c
  let (p1, c) ← s.intIf isFlag c
  let (p2, c) ← s.intIf isFlag c
  let (p3, c) ← s.intIf isFlag c
  let (p4, c) ← s.intIf isFlag c
  let (ks, c) ← readN s.real (2 + K + M).toNat c
  let (ws, c) ← readN (readWeight s) (K + 1).toNat c
  let (ps, c) ← readN (readVertex s) (K + 1).toNat c
  let (v0, c) ← s.real c
  let (v1, c) ← s.real c
  let (n, c) ← readNormalOr s (ps.getLastD ⟨0, 0, 0⟩) c
  let vn := if p1 = 1 then CheckNormalQ E.sqrt n else ⟨0, 0, 1⟩
  pure (⟨2 + K + M, K + 1, some ks, some (packPoints p3 (ps.zip ws)), K, M, p1, p2, p3, p4, v0, v1, vn⟩, c)

/-- `IGES_ENTITY_126::readPD`, entity126.cpp:436-746. -/
def Nurbs.readPD (E : PdEnv) (de pdata count : Int) (ls : List Str) : Rd (Nurbs × List Int × List Str) :=
  readPDWith E 126 de pdata count ls (Nurbs.readParams E)

/-- The loop of `IGES_ENTITY_126::rescale`, entity126.cpp:359-380. -/
def scaleCoeffs (xy : Bool) (prop3 : Int) (sf : ℚ) : Nat → List ℚ → List ℚ
  | 0, cs => cs
  | n + 1, cs =>
    if prop3 = 0 then
      match cs with
      | x :: y :: z :: w :: r => (if xy then x * sf else x) :: (if xy then y * sf else y) :: z * sf :: w :: scaleCoeffs xy prop3 sf n r
      | cs => cs
    else
      match cs with
      | x :: y :: z :: r => (if xy then x * sf else x) :: (if xy then y * sf else y) :: z * sf :: scaleCoeffs xy prop3 sf n r
      | cs => cs

/-- `IGES_ENTITY_126::rescale`, entity126.cpp:309-383, where `xy` says that neither the curve nor one of
its ancestors is the parameter space curve of a curve on a surface. -/
def Nurbs.rescale (xy : Bool) (sf : ℚ) (d : Nurbs) : Nurbs :=
  match d.coeffs with
  | none => d
  | some cs => { d with coeffs := some (scaleCoeffs xy d.PROP3 sf d.nCoeffs.toNat cs) }

/-! ### Entity 128: NURBS surface -/

/-- Data of entity 128, entity128.h. -/
structure NurbsSurf where
  nKnots1 : Int
  nKnots2 : Int
  nCoeffs1 : Int
  nCoeffs2 : Int
  knots1 : Option (List ℚ)
  knots2 : Option (List ℚ)
  coeffs : Option (List ℚ)
  K1 : Int
  K2 : Int
  M1 : Int
  M2 : Int
  PROP1 : Int
  PROP2 : Int
  PROP3 : Int
  PROP4 : Int
  PROP5 : Int
  U0 : ℚ
  U1 : ℚ
  V0 : ℚ
  V1 : ℚ
  deriving DecidableEq

/-- The constructor, entity128.cpp:37-63. -/
def NurbsSurf.new : NurbsSurf := ⟨0, 0, 0, 0, none, none, none, 0, 0, 0, 0, 0, 0, 0, 0, 0, 0, 0, 0, 0⟩

/-- `IGES_ENTITY_128::SetNURBSData`, entity128.cpp:941-1113. -/
def NurbsSurf.set (d : NurbsSurf) (nCoeff1 nCoeff2 order1 order2 : Int) (knot1 knot2 coeff : Option (List ℚ))
    (rational periodic1 periodic2 : Bool) (u0 u1 v0 v1 : ℚ) : Rd (Bool × NurbsSurf) :=
  match knot1, knot2, coeff with
  | some knot1, some knot2, some coeff =>
    if order1 < 2 ∨ order2 < 2 then .val (false, d)
    else if nCoeff1 < order1 ∨ nCoeff2 < order2 then .val (false, d)
    else do
      let d := { d with nKnots1 := nCoeff1 + order1, nKnots2 := nCoeff2 + order2, nCoeffs1 := nCoeff1, nCoeffs2 := nCoeff2,
                        K1 := nCoeff1 - 1, K2 := nCoeff2 - 1, M1 := order1 - 1, M2 := order2 - 1 }
      let a0 ← arrGet knot1 0
      let an ← arrGet knot1 (d.nKnots1 - 1)
      if u0 < a0 ∨ u0 ≥ an then .val (false, d)
      else if u1 ≤ u0 ∨ u1 > an then .val (false, d)
      else do
        let b0 ← arrGet knot2 0
        let bn ← arrGet knot2 (d.nKnots2 - 1)
        if v0 < b0 ∨ v0 ≥ bn then .val (false, d)
        else if v1 ≤ v0 ∨ v1 > bn then .val (false, d)
        else do
          let nDbls := if rational then d.nCoeffs1 * d.nCoeffs2 * 4 else d.nCoeffs1 * d.nCoeffs2 * 3
          let ks1 ← firstN d.nKnots1.toNat knot1
          let ks2 ← firstN d.nKnots2.toNat knot2
          let cs ← firstN nDbls.toNat coeff
          pure (true, { d with knots1 := some ks1, knots2 := some ks2, coeffs := some cs,
                               PROP1 := if periodic1 then 1 else 0, PROP2 := if periodic2 then 1 else 0,
                               PROP3 := if rational then 0 else 1,
                               PROP4 := if periodic1 then 1 else 0, PROP5 := if periodic2 then 1 else 0,
                               U0 := u0, U1 := u1, V0 := v0, V1 := v1 })
  | _, _, _ => .val (false, d)

/-- The reals of `format` with the resolution of each, entity128.cpp:216-334. -/
def NurbsSurf.reals (d : NurbsSurf) (ks1 ks2 : List ℚ) (ps : List (Point ℚ × ℚ)) : List (ℚ × ℚ) :=
  ks1.map (·, 1 / 10 ^ 8) ++ ks2.map (·, 1 / 10 ^ 8) ++
  (ps.map fun p => (p.2, if d.PROP3 = 0 then 1 / 10 ^ 6 else 1 / 10)) ++
  (ps.flatMap fun p => [(p.1.x, 1 / 10 ^ 8), (p.1.y, 1 / 10 ^ 8), (p.1.z, 1 / 10 ^ 8)]) ++
  [(d.U0, 1 / 10 ^ 8), (d.U1, 1 / 10 ^ 8), (d.V0, 1 / 10 ^ 8), (d.V1, 1 / 10 ^ 8)]

/-- `IGES_ENTITY_128::format`, entity128.cpp:94-353.  All array elements are read before the first
parameter is written. -/
def NurbsSurf.format (E : PdEnv) (de : Int) (d : NurbsSurf) (xs : List ExtraRef) (cs : List Str) (index : Int) :
    Rd (Str × Int) :=
  match d.knots1, d.knots2, d.coeffs with
  | some knots1, some knots2, some coeffs =>
    if index < 1 ∨ index > 9999999 then .fail
    else if d.K1 < 1 ∨ d.K2 < 1 ∨ d.M1 < 1 ∨ d.M2 < 1 then .fail
    else if d.PROP1 < 0 ∨ d.PROP1 > 1 ∨ d.PROP2 < 0 ∨ d.PROP2 > 1 ∨ d.PROP3 < 0 ∨ d.PROP3 > 1 ∨
        d.PROP4 < 0 ∨ d.PROP4 > 1 ∨ d.PROP5 < 0 ∨ d.PROP5 > 1 then .fail
    else if 2 + d.K1 + d.M1 ≠ d.nKnots1 ∨ 2 + d.K2 + d.M2 ≠ d.nKnots2 then .fail
    else if (d.K1 + 1) * (d.K2 + 1) ≠ d.nCoeffs1 * d.nCoeffs2 then .fail
    else do
      let ks1 ← firstN d.nKnots1.toNat knots1
      let ks2 ← firstN d.nKnots2.toNat knots2
      let ps ← controlPoints d.PROP3 ((d.K1 + 1) * (d.K2 + 1)).toNat coeffs
      formatPD E de [128, d.K1, d.K2, d.M1, d.M2, d.PROP1, d.PROP2, d.PROP3, d.PROP4, d.PROP5]
        (oneEach E.pd (E.last xs) ((d.reals ks1 ks2 ps).map fun v => .real v.1 v.2)) xs cs 9999999 index
  | _, _, _ => .fail

/-- The parameters of `IGES_ENTITY_128::readPD`, entity128.cpp:467-797. -/
def NurbsSurf.readParams (s : Src) (c : Cur) : Rd (NurbsSurf × Cur) := do
  let (K1, c) ← s.intIf (1 ≤ ·) c
  let (K2, c) ← s.intIf (1 ≤ ·) c
  let (M1, c) ← s.intIf (1 ≤ ·) c
  let (M2, c) ← s.intIf (1 ≤ ·) c
  let (p1, c) ← s.intIf isFlag c
  let (p2, c) ← s.intIf isFlag c
  let (p3, c) ← s.intIf isFlag c
  let (p4, c) ← s.intIf isFlag c
  let (p5, c) ← s.intIf isFlag c
  let (ks1, c) ← readN s.real (2 + K1 + M1).toNat c
  let (ks2, c) ← readN s.real (2 + K2 + M2).toNat c
  let (ws, c) ← readN (readWeight s) ((K1 + 1) * (K2 + 1)).toNat c
  let (ps, c) ← readN (readVertex s) ((K1 + 1) * (K2 + 1)).toNat c
  let (u0, c) ← s.real c
  let (u1, c) ← s.real c
  let (v0, c) ← s.real c
  let (v1, c) ← s.real c
  pure (⟨2 + K1 + M1, 2 + K2 + M2, K1 + 1, K2 + 1, some ks1, some ks2, some (packPoints p3 (ps.zip ws)), K1, K2, M1, M2,
    p1, p2, p3, p4, p5, u0, u1, v0, v1⟩, c)

/-- `IGES_ENTITY_128::readPD`, entity128.cpp:441-813. -/
def NurbsSurf.readPD (E : PdEnv) (de pdata count : Int) (ls : List Str) : Rd (NurbsSurf × List Int × List Str) :=
  readPDWith E 128 de pdata count ls NurbsSurf.readParams

/-- `IGES_ENTITY_128::GetNURBSData`, entity128.cpp:882-938: as for curves. -/
def NurbsSurf.get (d : NurbsSurf) : Rd NurbsView :=
  match d.knots1 with
  | none => .fail
  | some _ => .ub

/-- `IGES_ENTITY_128::rescale`, entity128.cpp:356-389. -/
def NurbsSurf.rescale (sf : ℚ) (d : NurbsSurf) : NurbsSurf :=
  match d.coeffs with
  | none => d
  | some cs => { d with coeffs := some (scaleCoeffs true d.PROP3 sf (d.nCoeffs1 * d.nCoeffs2).toNat cs) }

end Iges
