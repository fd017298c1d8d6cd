import Verif.Model.Entity
import Verif.Model.Geom
/-
`format` and `readPD` of the entity types with a fixed number of parameters.
-/
namespace Iges

/-- `CheckNormal`, mcad_helpers.cpp:79-105 (always returns true), with the square root of the
surroundings and exact division. -/
def CheckNormalQ (sqrt : ℚ → ℚ) (p : Point ℚ) : Point ℚ :=
  let dN := p.x * p.x + p.y * p.y + p.z * p.z
  if dN < 1 / 10 ^ 12 then ⟨0, 0, 1⟩
  else
    let dV := dN - 1
    if dV < -(1 / 10 ^ 8) ∨ dV > 1 / 10 ^ 8 then ⟨p.x / sqrt dN, p.y / sqrt dN, p.z / sqrt dN⟩
    else p

/-- `PointMatches`, mcad_helpers.cpp:40-76, with the square root of the surroundings. -/
def PointMatchesQ (sqrt : ℚ → ℚ) (p1 p2 : Point ℚ) (minRes : ℚ) : Bool :=
  let dN := |p1.x * p1.x + p1.y * p1.y + p1.z * p1.z|
  let dV := |p2.x * p2.x + p2.y * p2.y + p2.z * p2.z|
  let big := dN > 10 ^ 15 ∨ dV > 10 ^ 15
  let rN := 1 / sqrt (max dN dV)
  let q1 := if big then p1.scale rN else p1
  let q2 := if big then p2.scale rN else p2
  let r := if big then minRes * rN else minRes
  let r2 := r * (3.0001 * r)
  let r3 := if r2 < 3 / 10 ^ 30 then 3 / 10 ^ 30 else r2
  let dx := q2.x - q1.x
  let dy := q2.y - q1.y
  let dz := q2.z - q1.z
  if dx * dx + dy * dy + dz * dz > r3 then false else true

/-- One real per emitter call with the resolution `r`; the last one is closed by `last`. -/
def realGroups (pd last : Char) (r : ℚ) : List ℚ → List (List (Item × Char))
  | [] => []
  | [x] => [[(.real x r, last)]]
  | x :: y :: xs => [(.real x r, pd)] :: realGroups pd last r (y :: xs)

/-- A real parameter that takes the value `v` if the record has ended before it:
`if( !eor ) { if( !ParseReal( ..., &ddef ) ) return false; } else var = v;` -/
def Src.realOr (s : Src) (c : Cur) (dflt : Option RealTok) (v : ℚ) : Rd (ℚ × Cur) :=
  if c.eor then .val (v, c) else s.real c dflt

/-- The default tokens `0.0` and `1.0`. -/
def tok0 : RealTok := .dec ⟨0, 0⟩
def tok1 : RealTok := .dec ⟨1, 0⟩

/-! ### Entity 100: circular arc -/

/-- Data of entity 100, entity100.h. -/
structure Arc where
  zOffset : ℚ
  xCenter : ℚ
  yCenter : ℚ
  xStart : ℚ
  yStart : ℚ
  xEnd : ℚ
  yEnd : ℚ

/-- `IGES_ENTITY_100::format`, entity100.cpp:85-204. -/
def Arc.format (E : PdEnv) (de : Int) (a : Arc) (xs : List ExtraRef) (cs : List Str) (index : Int) : Rd (Str × Int) :=
  formatPD E de [100] (realGroups E.pd (E.last xs) E.res
    [a.zOffset, a.xCenter, a.yCenter, a.xStart, a.yStart, a.xEnd, a.yEnd]) xs cs 9999999 index

/-- The parameters of `IGES_ENTITY_100::readPD`, entity100.cpp:282-329. -/
def Arc.readParams (s : Src) (c : Cur) : Rd (Arc × Cur) := do
  let (zOffset, c) ← s.real c
  let (xCenter, c) ← s.real c
  let (yCenter, c) ← s.real c
  let (xStart, c) ← s.real c
  let (yStart, c) ← s.real c
  let (xEnd, c) ← s.real c
  let (yEnd, c) ← s.real c
  pure (⟨zOffset, xCenter, yCenter, xStart, yStart, xEnd, yEnd⟩, c)

/-- The final checks of `IGES_ENTITY_100::readPD`, entity100.cpp:352-378: non-zero radius, and squared
radii that differ by at most twice the resolution. -/
def Arc.check (E : PdEnv) (a : Arc) : Bool :=
  let uir := 2 * E.res
  if PointMatchesQ E.sqrt ⟨a.xCenter, a.yCenter, 0⟩ ⟨a.xStart, a.yStart, 0⟩ uir then false
  else
    let d1 := (a.xStart - a.xCenter) * (a.xStart - a.xCenter) + (a.yStart - a.yCenter) * (a.yStart - a.yCenter)
    let d2 := (a.xEnd - a.xCenter) * (a.xEnd - a.xCenter) + (a.yEnd - a.yCenter) * (a.yEnd - a.yCenter)
    if |d2 - d1| > uir then false else true

/-- `IGES_ENTITY_100::readPD`, entity100.cpp:256-381. -/
def Arc.readPD (E : PdEnv) (de pdata count : Int) (ls : List Str) : Rd (Arc × List Int × List Str) := do
  let r ← readPDWith E 100 de pdata count ls Arc.readParams
  Rd.need (r.1.check E = true)
  pure r

/-- `IGES_ENTITY_100::rescale`, entity100.cpp:403-414. -/
def Arc.rescale (sf : ℚ) (a : Arc) : Arc :=
  ⟨a.zOffset * sf, a.xCenter * sf, a.yCenter * sf, a.xStart * sf, a.yStart * sf, a.xEnd * sf, a.yEnd * sf⟩

/-! ### Entity 104: conic arc -/

/-- Data of entity 104, entity104.h. -/
structure Conic where
  A : ℚ
  B : ℚ
  C : ℚ
  D : ℚ
  E : ℚ
  F : ℚ
  ZT : ℚ
  X1 : ℚ
  Y1 : ℚ
  X2 : ℚ
  Y2 : ℚ

/-- `IGES_ENTITY_104::getForm`, entity104.cpp:66-121, in exact arithmetic. -/
def Conic.getForm (k : Conic) : Int :=
  let q1 := k.A * (k.C * k.F - k.E * k.E / 4) - k.B * (k.B * k.F / 2 - k.D * k.E / 4) / 2 +
    k.D * (k.B * k.E / 4 - k.C * k.D / 2) / 2
  let q2 := k.A * k.C - k.B * k.B / 4
  let q3 := k.A + k.C
  if q2 > 0 ∧ q1 * q3 < 0 then 1
  else if q2 < 0 ∧ q1 ≠ 0 then 2
  else if q2 = 0 ∧ q1 ≠ 0 then 3
  else 0

/-- `IGES_ENTITY_104::format`, entity104.cpp:143-227, except for the form number (`Conic.outForm`). -/
def Conic.format (E : PdEnv) (de : Int) (k : Conic) (xs : List ExtraRef) (cs : List Str) (index : Int) : Rd (Str × Int) :=
  formatPD E de [104] (realGroups E.pd (E.last xs) (1 / 10 ^ 10)
    [k.A, k.B, k.C, k.D, k.E, k.F, k.ZT, k.X1, k.Y1, k.X2, k.Y2]) xs cs 9999999 index

/-- The form number after `format`, entity104.cpp:165-166. -/
def Conic.outForm (k : Conic) (form : Int) : Int := if form = 0 then k.getForm else form

/-- The form numbers `IGES_ENTITY_104::readDE` accepts, entity104.cpp:257-276, and `SetEntityForm`, entity104.cpp:335-346. -/
def conicFormOk (form : Int) : Bool := ¬ (form < 1 ∨ form > 3)

/-- The parameters of `IGES_ENTITY_104::readPD`, entity104.cpp:303-314. -/
def Conic.readParams (s : Src) (c : Cur) : Rd (Conic × Cur) := do
  let (A, c) ← s.real c
  let (B, c) ← s.real c
  let (C, c) ← s.real c
  let (D, c) ← s.real c
  let (E, c) ← s.real c
  let (F, c) ← s.real c
  let (ZT, c) ← s.real c
  let (X1, c) ← s.real c
  let (Y1, c) ← s.real c
  let (X2, c) ← s.real c
  let (Y2, c) ← s.real c
  pure (⟨A, B, C, D, E, F, ZT, X1, Y1, X2, Y2⟩, c)

/-- `IGES_ENTITY_104::readPD`, entity104.cpp:279-332. -/
def Conic.readPD (E : PdEnv) (de pdata count : Int) (ls : List Str) : Rd (Conic × List Int × List Str) :=
  readPDWith E 104 de pdata count ls Conic.readParams

/-- `IGES_ENTITY_104::rescale`, entity104.cpp:357-372: all eleven numbers are multiplied. -/
def Conic.rescale (sf : ℚ) (k : Conic) : Conic :=
  ⟨k.A * sf, k.B * sf, k.C * sf, k.D * sf, k.E * sf, k.F * sf, k.ZT * sf, k.X1 * sf, k.Y1 * sf, k.X2 * sf, k.Y2 * sf⟩

/-! ### Entity 110: line -/

/-- Data of entity 110, entity110.h. -/
structure Line where
  X1 : ℚ
  Y1 : ℚ
  Z1 : ℚ
  X2 : ℚ
  Y2 : ℚ
  Z2 : ℚ

/-- `IGES_ENTITY_110::format`, entity110.cpp:70-143. -/
def Line.format (E : PdEnv) (de : Int) (l : Line) (xs : List ExtraRef) (cs : List Str) (index : Int) : Rd (Str × Int) :=
  formatPD E de [110] (realGroups E.pd (E.last xs) E.res [l.X1, l.Y1, l.Z1, l.X2, l.Y2, l.Z2]) xs cs 9999999 index

/-- The parameters of `IGES_ENTITY_110::readPD`, entity110.cpp:234-274. -/
def Line.readParams (s : Src) (c : Cur) : Rd (Line × Cur) := do
  let (X1, c) ← s.real c
  let (Y1, c) ← s.real c
  let (Z1, c) ← s.real c
  let (X2, c) ← s.real c
  let (Y2, c) ← s.real c
  let (Z2, c) ← s.real c
  pure (⟨X1, Y1, Z1, X2, Y2, Z2⟩, c)

/-- `IGES_ENTITY_110::readPD`, entity110.cpp:208-292. -/
def Line.readPD (E : PdEnv) (de pdata count : Int) (ls : List Str) : Rd (Line × List Int × List Str) :=
  readPDWith E 110 de pdata count ls Line.readParams

/-- `IGES_ENTITY_110::rescale`, entity110.cpp:146-156. -/
def Line.rescale (sf : ℚ) (l : Line) : Line :=
  ⟨l.X1 * sf, l.Y1 * sf, l.Z1 * sf, l.X2 * sf, l.Y2 * sf, l.Z2 * sf⟩

/-! ### Entity 120: surface of revolution -/

/-- Data of entity 120, entity120.h: DE numbers of axis and generatrix, start and end angle. -/
structure Revolution where
  L : Int
  C : Int
  SA : ℚ
  TA : ℚ

/-- `IGES_ENTITY_120::format`, entity120.cpp:151-236, with non-NULL axis and generatrix;
`IGES_ANGLE_RES` is `1e-15`, iges_base.h:37. -/
def Revolution.format (E : PdEnv) (de : Int) (r : Revolution) (xs : List ExtraRef) (cs : List Str) (index : Int) : Rd (Str × Int) :=
  formatPD E de [120, r.L, r.C] (realGroups E.pd (E.last xs) (1 / 10 ^ 15) [r.SA, r.TA]) xs cs 9999999 index

/-- The parameters of `IGES_ENTITY_120::readPD`, entity120.cpp:336-382. -/
def Revolution.readParams (s : Src) (c : Cur) : Rd (Revolution × Cur) := do
  let (L, c) ← s.int c
  Rd.need (¬ (L < 1 ∨ L > 9999997))
  let (C, c) ← s.int c
  Rd.need (¬ (C < 1 ∨ C > 9999997))
  let (SA, c) ← s.real c
  let (TA, c) ← s.real c
  pure (⟨L, C, SA, TA⟩, c)

/-- `IGES_ENTITY_120::readPD`, entity120.cpp:310-400. -/
def Revolution.readPD (E : PdEnv) (de pdata count : Int) (ls : List Str) : Rd (Revolution × List Int × List Str) :=
  readPDWith E 120 de pdata count ls Revolution.readParams

/-- `IGES_ENTITY_120::rescale`, entity120.cpp:239-243. -/
def Revolution.rescale (_ : ℚ) (r : Revolution) : Revolution := r

/-! ### Entity 122: tabulated cylinder -/

/-- Data of entity 122, entity122.h. -/
structure TabCyl where
  DE : Int
  LX : ℚ
  LY : ℚ
  LZ : ℚ

/-- `IGES_ENTITY_122::format`, entity122.cpp:118-198, with a non-NULL directrix. -/
def TabCyl.format (E : PdEnv) (de : Int) (t : TabCyl) (xs : List ExtraRef) (cs : List Str) (index : Int) : Rd (Str × Int) :=
  formatPD E de [122, t.DE] (realGroups E.pd (E.last xs) E.res [t.LX, t.LY, t.LZ]) xs cs 9999999 index

/-- The parameters of `IGES_ENTITY_122::readPD`, entity122.cpp:313-346. -/
def TabCyl.readParams (s : Src) (c : Cur) : Rd (TabCyl × Cur) := do
  let (DE, c) ← s.int c
  Rd.need (¬ (DE < 0 ∨ DE % 2 = 0 ∨ DE > 9999997))
  let (LX, c) ← s.real c
  let (LY, c) ← s.real c
  let (LZ, c) ← s.real c
  pure (⟨DE, LX, LY, LZ⟩, c)

/-- `IGES_ENTITY_122::readPD`, entity122.cpp:287-364. -/
def TabCyl.readPD (E : PdEnv) (de pdata count : Int) (ls : List Str) : Rd (TabCyl × List Int × List Str) :=
  readPDWith E 122 de pdata count ls TabCyl.readParams

/-- `IGES_ENTITY_122::rescale`, entity122.cpp:201-208. -/
def TabCyl.rescale (sf : ℚ) (t : TabCyl) : TabCyl := ⟨t.DE, t.LX * sf, t.LY * sf, t.LZ * sf⟩

/-! ### Entity 124: transformation matrix -/

/-- `IGES_ENTITY_124::format`, entity124.cpp:128-213. -/
def txFormat (E : PdEnv) (de : Int) (t : Transform ℚ) (xs : List ExtraRef) (cs : List Str) (index : Int) : Rd (Str × Int) :=
  formatPD E de [124] (realGroups E.pd (E.last xs) E.res
    [t.R.v00, t.R.v01, t.R.v02, t.T.x, t.R.v10, t.R.v11, t.R.v12, t.T.y, t.R.v20, t.R.v21, t.R.v22, t.T.z]) xs cs 9999999 index

/-- The parameters of `IGES_ENTITY_124::readPD`, entity124.cpp:329-351. -/
def txReadParams (s : Src) (c : Cur) : Rd (Transform ℚ × Cur) := do
  let (a00, c) ← s.real c
  let (a01, c) ← s.real c
  let (a02, c) ← s.real c
  let (tx, c) ← s.real c
  let (a10, c) ← s.real c
  let (a11, c) ← s.real c
  let (a12, c) ← s.real c
  let (ty, c) ← s.real c
  let (a20, c) ← s.real c
  let (a21, c) ← s.real c
  let (a22, c) ← s.real c
  let (tz, c) ← s.real c
  pure (⟨⟨a00, a01, a02, a10, a11, a12, a20, a21, a22⟩, ⟨tx, ty, tz⟩⟩, c)

/-- `IGES_ENTITY_124::readPD`, entity124.cpp:303-369. -/
def txReadPD (E : PdEnv) (de pdata count : Int) (ls : List Str) : Rd (Transform ℚ × List Int × List Str) :=
  readPDWith E 124 de pdata count ls txReadParams

/-- `IGES_ENTITY_124::rescale`, entity124.cpp:216-226: the translation only. -/
def txRescale (sf : ℚ) (t : Transform ℚ) : Transform ℚ := ⟨t.R, ⟨t.T.x * sf, t.T.y * sf, t.T.z * sf⟩⟩

/-- The form check of `IGES_ENTITY_124::readDE` and `SetEntityForm`, entity124.cpp:276-300 and 372-382. -/
def txFormOk (form : Int) : Bool := ¬ (form ≠ 0 ∧ form ≠ 1 ∧ form < 10 ∧ form > 12)

/-! ### Entity 154: right circular cylinder -/

/-- Data of entity 154, entity154.h. -/
structure Cylinder where
  H : ℚ
  R : ℚ
  X1 : ℚ
  Y1 : ℚ
  Z1 : ℚ
  I1 : ℚ
  J1 : ℚ
  K1 : ℚ

/-- `IGES_ENTITY_154::format`, entity154.cpp:84-157. -/
def Cylinder.format (E : PdEnv) (de : Int) (k : Cylinder) (xs : List ExtraRef) (cs : List Str) (index : Int) : Rd (Str × Int) :=
  formatPD E de [154] (realGroups E.pd (E.last xs) E.res
    [k.H, k.R, k.X1, k.Y1, k.Z1, k.I1, k.J1, k.K1]) xs cs 9999999 index

/-- The parameters of `IGES_ENTITY_154::readPD`, entity154.cpp:249-387.  Line 283 assigns the height
when the radius is too small. -/
def Cylinder.readParams (E : PdEnv) (s : Src) (c : Cur) : Rd (Cylinder × Cur) := do
  let (H, c) ← s.real c
  let H ← if H < E.res then (if H > 0 then .val E.res else .fail) else .val H
  let (R, c) ← s.real c
  let H ← if R < E.res then (if R > 0 then .val E.res else .fail) else .val H
  let (X1, c) ← s.realOr c (some tok0) 0
  let (Y1, c) ← s.realOr c (some tok0) 0
  let (Z1, c) ← s.realOr c (some tok0) 0
  let (I1, c) ← s.realOr c (some tok0) 0
  let (J1, c) ← s.realOr c (some tok0) 0
  let (K1, c) ← s.realOr c none 1
  let n := CheckNormalQ E.sqrt ⟨I1, J1, K1⟩
  pure (⟨H, R, X1, Y1, Z1, n.x, n.y, n.z⟩, c)

/-- `IGES_ENTITY_154::readPD`, entity154.cpp:222-405. -/
def Cylinder.readPD (E : PdEnv) (de pdata count : Int) (ls : List Str) : Rd (Cylinder × List Int × List Str) :=
  readPDWith E 154 de pdata count ls (Cylinder.readParams E)

/-- `IGES_ENTITY_154::rescale`, entity154.cpp:160-169. -/
def Cylinder.rescale (sf : ℚ) (k : Cylinder) : Cylinder :=
  ⟨k.H * sf, k.R * sf, k.X1 * sf, k.Y1 * sf, k.Z1 * sf, k.I1, k.J1, k.K1⟩

/-! ### Entity 164: solid of linear extrusion -/

/-- Data of entity 164, entity164.h. -/
structure Extrusion where
  PTR : Int
  L : ℚ
  I1 : ℚ
  J1 : ℚ
  K1 : ℚ

/-- `IGES_ENTITY_164::format`, entity164.cpp:133-217, with a non-NULL curve. -/
def Extrusion.format (E : PdEnv) (de : Int) (k : Extrusion) (xs : List ExtraRef) (cs : List Str) (index : Int) : Rd (Str × Int) :=
  formatPD E de [164] ([(.int k.PTR, E.pd)] :: realGroups E.pd (E.last xs) E.res
    [k.L, k.I1, k.J1, k.K1]) xs cs 9999999 index

/-- The parameters of `IGES_ENTITY_164::readPD`, entity164.cpp:327-400. -/
def Extrusion.readParams (E : PdEnv) (s : Src) (c : Cur) : Rd (Extrusion × Cur) := do
  let (PTR, c) ← s.int c
  Rd.need (¬ PTR < 1)
  let (L, c) ← s.real c
  let (I1, c) ← s.realOr c (some tok0) 0
  let (J1, c) ← s.realOr c (some tok0) 0
  let (K1, c) ← s.realOr c (some tok1) 0
  let n := CheckNormalQ E.sqrt ⟨I1, J1, K1⟩
  pure (⟨PTR, L, n.x, n.y, n.z⟩, c)

/-- `IGES_ENTITY_164::readPD`, entity164.cpp:298-418. -/
def Extrusion.readPD (E : PdEnv) (de pdata count : Int) (ls : List Str) : Rd (Extrusion × List Int × List Str) :=
  readPDWith E 164 de pdata count ls (Extrusion.readParams E)

/-- `IGES_ENTITY_164::rescale`, entity164.cpp:220-224. -/
def Extrusion.rescale (sf : ℚ) (k : Extrusion) : Extrusion := { k with L := k.L * sf }

/-! ### Entity 314: colour definition -/

/-- Data of entity 314, entity314.h. -/
structure Colour where
  red : ℚ
  green : ℚ
  blue : ℚ
  cname : Str

/-- The replacement of percentages out of range, entity314.cpp:132-148 and 365-381. -/
def Colour.clamp (k : Colour) : Colour :=
  { k with
    red := if k.red < 0 ∨ k.red > 100 then 85 else k.red
    green := if k.green < 0 ∨ k.green > 100 then 20 else k.green
    blue := if k.blue < 0 ∨ k.blue > 100 then 20 else k.blue }

/-- `IGES_ENTITY_314::format`, entity314.cpp:123-243. -/
def Colour.format (E : PdEnv) (de : Int) (k : Colour) (xs : List ExtraRef) (cs : List Str) (index : Int) : Rd (Str × Int) :=
  let k := k.clamp
  formatPD E de [314]
    (if k.cname = [] then realGroups E.pd (E.last xs) (1 / 10) [k.red, k.green, k.blue]
     else realGroups E.pd E.pd (1 / 10) [k.red, k.green, k.blue] ++ [[(.hitem k.cname, E.last xs)]])
    xs cs 9999999 index

/-- The parameters of `IGES_ENTITY_314::readPD`, entity314.cpp:337-381. -/
def Colour.readParams (s : Src) (c : Cur) : Rd (Colour × Cur) := do
  let (red, c) ← s.real c
  let (green, c) ← s.real c
  let (blue, c) ← s.real c
  let (cname, c) ← if c.eor then .val ([], c) else s.hstr c
  pure (Colour.clamp ⟨red, green, blue, cname⟩, c)

/-- `IGES_ENTITY_314::readPD`, entity314.cpp:311-399. -/
def Colour.readPD (E : PdEnv) (de pdata count : Int) (ls : List Str) : Rd (Colour × List Int × List Str) :=
  readPDWith E 314 de pdata count ls Colour.readParams

/-! ### Entity 406, form 15: name -/

/-- `IGES_ENTITY_406::format`, entity406.cpp:185-266, for form 15 with its string. -/
def nameFormat (E : PdEnv) (de : Int) (name : Str) (xs : List ExtraRef) (cs : List Str) (index : Int) : Rd (Str × Int) :=
  formatPD E de [406, 1] [[(.str name, E.last xs)]] xs cs 9999999 index

/-- The parameters of `IGES_ENTITY_406::readPD`, entity406.cpp:355-384. -/
def nameReadParams (s : Src) (c : Cur) : Rd (Str × Cur) := do
  let (n, c) ← s.int c
  Rd.need (n = 1)
  let (t, c) ← s.hstr c
  pure (t, c)

/-- `IGES_ENTITY_406::readPD`, entity406.cpp:330-402. -/
def nameReadPD (E : PdEnv) (de pdata count : Int) (ls : List Str) : Rd (Str × List Int × List Str) :=
  readPDWith E 406 de pdata count ls nameReadParams

/-! ### Entity 408: singular subfigure instance -/

/-- Data of entity 408, entity408.h. -/
structure SubInstance where
  DE : Int
  X : ℚ
  Y : ℚ
  Z : ℚ
  S : ℚ

/-- `IGES_ENTITY_408::format`, entity408.cpp:127-206, with a non-NULL definition. -/
def SubInstance.format (E : PdEnv) (de : Int) (k : SubInstance) (xs : List ExtraRef) (cs : List Str) (index : Int) : Rd (Str × Int) :=
  formatPD E de [408, k.DE] (realGroups E.pd (E.last xs) E.res [k.X, k.Y, k.Z, k.S]) xs cs 9999999 index

/-- The parameters of `IGES_ENTITY_408::readPD`, entity408.cpp:320-369. -/
def SubInstance.readParams (s : Src) (c : Cur) : Rd (SubInstance × Cur) := do
  let (DE, c) ← s.int c
  Rd.need (¬ (DE < 0 ∨ DE % 2 = 0 ∨ DE > 9999997))
  let (X, c) ← s.real c
  let (Y, c) ← s.real c
  let (Z, c) ← s.real c
  let (S, c) ← s.realOr c (some tok1) 1
  pure (⟨DE, X, Y, Z, S⟩, c)

/-- `IGES_ENTITY_408::readPD`, entity408.cpp:294-387. -/
def SubInstance.readPD (E : PdEnv) (de pdata count : Int) (ls : List Str) : Rd (SubInstance × List Int × List Str) :=
  readPDWith E 408 de pdata count ls SubInstance.readParams

/-- `IGES_ENTITY_408::rescale`, entity408.cpp:209-216. -/
def SubInstance.rescale (sf : ℚ) (k : SubInstance) : SubInstance :=
  { k with X := k.X * sf, Y := k.Y * sf, Z := k.Z * sf }

end Iges
