import Mathlib.Analysis.SpecialFunctions.Complex.Arg
import Mathlib.Analysis.SpecialFunctions.Trigonometric.Basic
import Mathlib.Algebra.Order.Floor.Semiring
import Verif.Model.Geom
/-
Line, arc and circle segments: `MCAD_SEGMENT`, geom/mcad_segment.cpp.

Simplification: a `double` is a real number and `sqrt`, `sin`, `cos`, `atan2`, `M_PI` are the exact functions and the
exact number, so rounding, overflow, NaN and signed zeros are not modelled (`atan2( -0.0, -1 )` is π here).  The validity
flags of a segment (mcad_segment.cpp:101-149) are those of entities, see Model/Flags.lean.
-/
namespace Iges.Geo
open Classical

noncomputable section

/-- C's `atan2( y, x )`: the direction of `(x, y)` in `(-π, π]`, and 0 for `(0, 0)`. -/
def atan2 (y x : ℝ) : ℝ := Complex.arg ⟨x, y⟩

/-- `MCAD_SEGTYPE`, mcad_elements.h:33-39 -/
inductive Kind where
  | none
  | line
  | arc
  | circle
  deriving DecidableEq, Repr

/-- `MCAD_INTERSECT_FLAG`, mcad_elements.h:47-63 -/
inductive Flag where
  | none
  | endpoint
  | tangent
  | edge
  | inside
  | encircles
  | outside
  | ident
  | multiedge
  deriving DecidableEq, Repr

/-- the members of `MCAD_SEGMENT`, mcad_segment.h:45-54 -/
@[ext] structure Seg where
  kind : Kind
  center : Point ℝ
  start : Point ℝ
  stop : Point ℝ
  radius : ℝ
  sang : ℝ
  eang : ℝ
  cw : Bool

/-- `MCAD_POINT()`, mcad_elements.cpp:31-37 -/
def origin : Point ℝ := ⟨0, 0, 0⟩

/-- `MCAD_SEGMENT::init`, mcad_segment.cpp:77-98 -/
def Seg.init : Seg := ⟨.none, origin, origin, origin, 0, 0, 0, false⟩

/-- `SetParams( aStart, aEnd )`, mcad_segment.cpp:152-172: the segment afterwards and the result. -/
def setLine (a b : Point ℝ) : Seg × Bool :=
  if a.z ≠ 0 ∨ b.z ≠ 0 then (Seg.init, false)
  else if PointMatches a b 1e-8 then (Seg.init, false)
  else ({ Seg.init with start := a, stop := b, kind := .line }, true)

/-- distance in the plane as `SetParams` computes it: `sqrt( dx*dx + dy*dy )` -/
def hyp (dx dy : ℝ) : ℝ := Real.sqrt (dx * dx + dy * dy)

/-- `SetParams( aCenter, aStart, aEnd, isCW )`, mcad_segment.cpp:178-253 -/
def setArc (c s e : Point ℝ) (cw : Bool) : Seg × Bool :=
  if c.z ≠ 0 ∨ s.z ≠ 0 ∨ e.z ≠ 0 then (Seg.init, false)
  else if PointMatches c s 1e-8 ∨ PointMatches c e 1e-8 then (Seg.init, false)
  else
    let r := hyp (s.x - c.x) (s.y - c.y)
    if PointMatches s e 1e-8 then
      ({ Seg.init with
          kind := .circle
          center := c
          start := ⟨c.x + r, c.y, c.z⟩
          stop := ⟨c.x + r, c.y, c.z⟩
          radius := r
          sang := 0
          eang := 2 * Real.pi }, true)
    else
      let r2 := hyp (e.x - c.x) (e.y - c.y)
      if |r2 - r| > 1e-8 then (Seg.init, false)
      else
        let sa := atan2 (s.y - c.y) (s.x - c.x)
        let ea := atan2 (e.y - c.y) (e.x - c.x)
        ({ Seg.init with
            kind := .arc
            center := c
            start := s
            stop := e
            radius := r
            sang := if cw then (if sa < ea then sa + 2 * Real.pi else sa) else sa
            eang := if cw then ea else (if ea < sa then ea + 2 * Real.pi else ea)
            cw := cw }, true)

/-- `GetStartAngle`, mcad_segment.cpp:1554-1560 -/
def Seg.startAngle (s : Seg) : ℝ := if s.cw then s.eang else s.sang

/-- `GetEndAngle`, mcad_segment.cpp:1563-1569 -/
def Seg.endAngle (s : Seg) : ℝ := if s.cw then s.sang else s.eang

/-- `GetStart`, mcad_segment.cpp:1590-1598 -/
def Seg.getStart (s : Seg) : Point ℝ := if s.cw then s.stop else s.start

/-- `GetEnd`, mcad_segment.cpp:1607-1615 -/
def Seg.getEnd (s : Seg) : Point ℝ := if s.cw then s.start else s.stop

/-- `GetLength`, mcad_segment.cpp:256-282 -/
def Seg.length (s : Seg) : ℝ :=
  match s.kind with
  | .circle => 2 * Real.pi * s.radius
  | .arc => (s.endAngle - s.startAngle) * s.radius
  | .line => hyp (s.stop.x - s.start.x) (s.stop.y - s.start.y)
  | .none => 0

/-- `reverse`, mcad_segment.cpp:1625-1647 -/
def Seg.reverse (s : Seg) : Seg :=
  match s.kind with
  | .none => s
  | .circle => s
  | .line => { s with start := s.stop, stop := s.start }
  | .arc => { s with start := s.stop, stop := s.start, cw := !s.cw, sang := s.eang, eang := s.sang }

/-- `GetMidpoint`, mcad_segment.cpp:1506-1542; `none` when it returns false.  The z coordinate of the caller's point,
which the line case leaves as it is, is taken to be 0. -/
def Seg.midpoint (s : Seg) : Option (Point ℝ) :=
  match s.kind with
  | .circle => some ⟨s.center.x + s.radius, s.center.y, s.center.z⟩
  | .arc =>
      let a := (s.sang + s.eang) * 0.5
      some ⟨s.center.x + s.radius * Real.cos a, s.center.y + s.radius * Real.sin a, s.center.z⟩
  | .line => some ⟨0.5 * (s.stop.x - s.start.x) + s.start.x, 0.5 * (s.stop.y - s.start.y) + s.start.y, 0⟩
  | .none => none

/-- the array `m` of `GetBoundingBox`, mcad_segment.cpp:1436-1469: the extreme points of the full circle that the arc
passes through -/
def Seg.extrema (s : Seg) : List (Point ℝ) :=
  let aS := s.startAngle
  let aE := s.endAngle
  let p := Real.pi
  (if (0 ≥ aS ∧ 0 ≤ aE) ∨ (2 * p ≥ aS ∧ 2 * p ≤ aE) then [⟨s.center.x + s.radius, s.center.y, 0⟩] else []) ++
  (if (p * 0.5 ≥ aS ∧ p * 0.5 ≤ aE) ∨ (2.5 * p ≥ aS ∧ 2.5 * p ≤ aE) then
    [⟨s.center.x, s.center.y + s.radius, 0⟩] else []) ++
  (if p ≥ aS ∧ p ≤ aE then [⟨s.center.x - s.radius, s.center.y, 0⟩] else []) ++
  (if (-0.5 * p ≥ aS ∧ -0.5 * p ≤ aE) ∨ (1.5 * p ≥ aS ∧ 1.5 * p ≤ aE) then
    [⟨s.center.x, s.center.y - s.radius, 0⟩] else [])

/-- the last loop of `GetBoundingBox`, mcad_segment.cpp:1493-1506: one point is taken into the box -/
def grow (b : Point ℝ × Point ℝ) (m : Point ℝ) : Point ℝ × Point ℝ :=
  (⟨if m.x < b.1.x then m.x else b.1.x, if m.y < b.1.y then m.y else b.1.y, b.1.z⟩,
   ⟨if m.x > b.2.x then m.x else b.2.x, if m.y > b.2.y then m.y else b.2.y, b.2.z⟩)

/-- the box of the two end points, mcad_segment.cpp:1471-1491 (and 1393-1414 for a line) -/
def endBox (a b : Point ℝ) : Point ℝ × Point ℝ :=
  (⟨if a.x < b.x then a.x else b.x, if a.y < b.y then a.y else b.y, 0⟩,
   ⟨if a.x < b.x then b.x else a.x, if a.y < b.y then b.y else a.y, 0⟩)

/-- `GetBoundingBox`, mcad_segment.cpp:1359-1500: the lower left and the upper right corner, `none` when it returns
false.  The z coordinates of the caller's points, which the code leaves as they are, are taken to be 0. -/
def Seg.box (s : Seg) : Option (Point ℝ × Point ℝ) :=
  match s.kind with
  | .none => none
  | .line =>
      if |s.start.x - s.stop.x| < 1e-8 then
        if s.start.y ≤ s.stop.y then some (s.start, s.stop) else some (s.stop, s.start)
      else some (endBox s.start s.stop)
  | .circle =>
      some (⟨s.center.x - s.radius, s.center.y - s.radius, 0⟩, ⟨s.center.x + s.radius, s.center.y + s.radius, 0⟩)
  | .arc => some (s.extrema.foldl grow (endBox s.start s.stop))

/-- what `GetIntersections` gives back: the points appended to the caller's list, the flag and the result -/
structure Hits where
  pts : List (Point ℝ)
  flag : Flag
  ret : Bool

/-- `calcCircleIntercepts`, mcad_segment.cpp:430-487 -/
def intercepts (c : Point ℝ) (r : ℝ) (c2 : Point ℝ) (r2 d : ℝ) : Point ℝ × Point ℝ :=
  let rd := (d * d - r2 * r2 + r * r) / (2 * d)
  let dy := c2.y - c.y
  let dx := c2.x - c.x
  let x := rd / d * dx + c.x
  let y := rd / d * dy + c.y
  let h := Real.sqrt (r * r - rd * rd)
  let ra0 := atan2 dy dx + Real.pi / 2
  let ra1 := ra0 + Real.pi
  let x0 := x + h * Real.cos ra0
  let y0 := y + h * Real.sin ra0
  let x1 := x + h * Real.cos ra1
  let y1 := y + h * Real.sin ra1
  let a0 := atan2 (y0 - c.y) (x0 - c.x)
  let a1 := atan2 (y1 - c.y) (x1 - c.x)
  if (a0 ≥ 0 ∧ a1 ≥ 0 ∧ a0 > a1) ∨ (a0 < 0 ∧ a1 < 0 ∧ a0 > a1) ∨ (a0 < 0 ∧ a1 ≥ 0) then
    (⟨x1, y1, 0⟩, ⟨x0, y0, 0⟩)
  else (⟨x0, y0, 0⟩, ⟨x1, y1, 0⟩)

/-- `checkCircles`, mcad_segment.cpp:490-546 -/
def checkCircles (s o : Seg) : Hits :=
  let c2 := o.center
  let r2 := o.radius
  let d := hyp (s.center.x - c2.x) (s.center.y - c2.y)
  if d > s.radius + r2 then ⟨[], .none, false⟩
  else if PointMatches s.center c2 1e-3 ∧ |s.radius - r2| < 1e-3 then ⟨[], .ident, false⟩
  else if |d - s.radius - r2| < 0.001 then ⟨[], .tangent, false⟩
  else if (d < s.radius ∨ d < r2) ∧ d ≤ s.radius - r2 then ⟨[], .encircles, false⟩
  else if (d < s.radius ∨ d < r2) ∧ d ≤ r2 - s.radius then ⟨[], .inside, false⟩
  else
    let p := intercepts s.center s.radius c2 r2 d
    ⟨[p.1, p.2], .none, true⟩

/-- `checkLines`, mcad_segment.cpp:1156-1355 (both are lines here) -/
def checkLines (s o : Seg) : Hits :=
  let XA1 := s.stop.x - s.start.x
  let YA1 := s.stop.y - s.start.y
  let p0 := o.getStart
  let p1 := o.getEnd
  let XA2 := p1.x - p0.x
  let YA2 := p1.y - p0.y
  let XB1 := s.start.x
  let YB1 := s.start.y
  let XB2 := p0.x
  let YB2 := p0.y
  let num := XA1 * (YB2 - YB1) - YA1 * (XB2 - XB1)
  let den := XA2 * YA1 - YA2 * XA1
  let atEnd (t : ℝ) : Prop := |t| < 1e-8 ∨ |t - 1| < 1e-8
  if |den| < 1e-6 then
    if |num| > 1e-6 then ⟨[], .none, false⟩
    else
      let on2 (p : Point ℝ) : ℝ := if |XA2| ≥ |YA2| then (p.x - XB2) / XA2 else (p.y - YB2) / YA2
      let on1 (p : Point ℝ) : ℝ := if |XA1| ≥ |YA1| then (p.x - XB1) / XA1 else (p.y - YB1) / YA1
      let s0i := atEnd (on2 s.start)
      let e0i := atEnd (on2 s.stop)
      let s1i := atEnd (on1 p0)
      let e1i := atEnd (on1 p1)
      if ¬ s0i ∧ ¬ e0i ∧ ¬ s1i ∧ ¬ e1i then ⟨[], .none, false⟩
      else if s0i ∧ e0i then ⟨[s.start, s.stop], .edge, true⟩
      else if s1i ∧ e1i then
        if on1 p0 < on1 p1 then ⟨[p0, p1], .edge, true⟩ else ⟨[p1, p0], .edge, true⟩
      else if s0i ∧ s1i then ⟨[s.start, p0], .edge, true⟩
      else if s0i ∧ e1i then ⟨[s.start, p1], .edge, true⟩
      else if s1i then ⟨[p0, s.stop], .edge, true⟩
      else ⟨[p1, s.stop], .edge, true⟩
  else
    let t2 := num / den
    let t1 := if |XA1| < |YA1| then (t2 * YA2 + YB2 - YB1) / YA1 else (t2 * XA2 + XB2 - XB1) / XA1
    if t2 > -1e-8 ∧ t2 < 1 + 1e-8 ∧ t1 > -1e-8 ∧ t1 < 1 + 1e-8 then
      ⟨[⟨t2 * XA2 + XB2, t2 * YA2 + YB2, p0.z⟩], if atEnd t1 ∨ atEnd t2 then .endpoint else .none, true⟩
    else ⟨[], .none, false⟩

/-- the point of the line segment at parameter `t` as `checkArcLine` computes it, mcad_segment.cpp:993-994 -/
def onLine (lS lE : Point ℝ) (t : ℝ) : Point ℝ := ⟨t * lS.x + (1 - t) * lE.x, t * lS.y + (1 - t) * lE.y, 0⟩

/-- the coefficients `A`, `B`, `C` of the quadratic equation of `checkArcLine`, mcad_segment.cpp:936-948 -/
def quadA (lS lE : Point ℝ) : ℝ :=
  (lS.x * lS.x - 2 * lS.x * lE.x + lE.x * lE.x) + (lS.y * lS.y - 2 * lS.y * lE.y + lE.y * lE.y)

@[inherit_doc quadA]
def quadB (c lS lE : Point ℝ) : ℝ :=
  2 * (c.x * lE.x - c.x * lS.x + lS.x * lE.x - lE.x * lE.x) + 2 * (c.y * lE.y - c.y * lS.y + lS.y * lE.y - lE.y * lE.y)

@[inherit_doc quadA]
def quadC (c : Point ℝ) (R : ℝ) (lE : Point ℝ) : ℝ :=
  (c.x * c.x - 2 * c.x * lE.x + lE.x * lE.x) + (c.y * c.y - 2 * c.y * lE.y + lE.y * lE.y) - R * R

/-- one element of the arrays `p`, `f`, `ang` of `checkArcLine`: point, flag and direction, mcad_segment.cpp:990-1034 -/
def candidate (c arcS arcE : Point ℝ) (full : Bool) (lS lE : Point ℝ) (t : ℝ) : Point ℝ × Flag × ℝ :=
  let p := onLine lS lE t
  (p,
   if ((PointMatches p arcS 1e-8 ∨ PointMatches p arcE 1e-8) ∧ ¬ full) ∨ |t| < 1e-8 ∨ |t - 1| < 1e-8
     then .endpoint else .none,
   atan2 (p.y - c.y) (p.x - c.x))

/-- the end of `checkArcLine` for a full circle, mcad_segment.cpp:1036-1083 -/
def pickCircle (q : Point ℝ × Flag × ℝ) (rest : List (Point ℝ × Flag × ℝ)) : Hits :=
  match rest with
  | [] => ⟨[q.1], q.2.1, true⟩
  | q' :: _ =>
    let flag := if q.2.1 = .endpoint ∨ q'.2.1 = .endpoint then Flag.endpoint else .none
    let swap : Prop := if q.2.2 ≥ 0 then (q'.2.2 ≥ 0 ∧ q'.2.2 < q.2.2) else (q'.2.2 ≥ 0 ∨ q'.2.2 < q.2.2)
    if swap then ⟨[q'.1, q.1], flag, true⟩ else ⟨[q.1, q'.1], flag, true⟩

/-- whether a candidate is on the arc, mcad_segment.cpp:1087-1107; `m0`, `m1` are `mstart`, `mend` of `*this` -/
def onArc (aS aE : ℝ) (m0 m1 : Point ℝ) (e : Point ℝ × Flag × ℝ) : Prop :=
  let near (p m : Point ℝ) : Prop := |p.x - m.x| < 1e-14 ∧ |p.y - m.y| < 1e-14
  (e.2.2 ≥ aS ∧ e.2.2 ≤ aE) ∨ (e.2.2 + 2 * Real.pi ≥ aS ∧ e.2.2 + 2 * Real.pi ≤ aE) ∨ near e.1 m0 ∨ near e.1 m1

/-- the end of `checkArcLine` for an arc, mcad_segment.cpp:1085-1152; `on` are the candidates on the arc -/
def pickArc (aS : ℝ) (tangent : Prop) (q : Point ℝ × Flag × ℝ) (rest on : List (Point ℝ × Flag × ℝ)) : Hits :=
  match on with
  | [] => ⟨[], .none, false⟩
  | p :: more =>
    if tangent then ⟨[p.1], .tangent, true⟩
    else
      match rest, more with
      | q' :: _, p' :: _ =>
        let flag := if q.2.1 = .endpoint ∨ q'.2.1 = .endpoint then Flag.endpoint else .none
        let g0 := if q.2.2 < aS then q.2.2 + 2 * Real.pi else q.2.2
        let g1 := if q'.2.2 < aS then q'.2.2 + 2 * Real.pi else q'.2.2
        if g1 > g0 then ⟨[p.1, p'.1], flag, true⟩ else ⟨[p'.1, p.1], flag, true⟩
      | _, _ => ⟨[p.1], q.2.1, true⟩

/-- `checkArcLine` from line 936 on: `arc` is the arc or circle, `arcS`, `arcE` its ends, `lS`, `lE` the ends of the line
and `m0`, `m1` the members `mstart`, `mend` of `*this`. -/
def arcLine (arc : Seg) (arcS arcE lS lE m0 m1 : Point ℝ) : Hits :=
  let full := arc.kind == .circle
  let aS := arc.startAngle
  let aE := arc.endAngle
  let A := quadA lS lE
  let B := quadB arc.center lS lE
  let C := quadC arc.center arc.radius lE
  let D := B * B - 4 * A * C
  if |D| < 1e-6 ∧ full then
    let t := -B / (2 * A)
    if t < 0 ∨ t > 1 then ⟨[], .none, false⟩ else ⟨[onLine lS lE t], .tangent, true⟩
  else if D < 0 then ⟨[], .none, false⟩
  else
    let tangent : Prop := |D| < 1e-6
    let t0 := if tangent then -B / (2 * A) else (-B + Real.sqrt D) / (2 * A)
    let t1 := if tangent then t0 else (-B - Real.sqrt D) / (2 * A)
    let cands := (if t0 ≥ 0 ∧ t0 ≤ 1 then [candidate arc.center arcS arcE full lS lE t0] else []) ++
                 (if ¬ tangent ∧ t1 ≥ 0 ∧ t1 ≤ 1 then [candidate arc.center arcS arcE full lS lE t1] else [])
    match cands with
    | [] => ⟨[], .none, false⟩
    | q :: rest =>
      if full then pickCircle q rest
      else pickArc aS tangent q rest (cands.filter fun e => decide (onArc aS aE m0 m1 e))

/-- `checkArcLine`, mcad_segment.cpp:885-1152.  `s` is `*this`, `o` the argument; one of them is a line, the other one an
arc or a circle.  The arrays `p`, `f`, `ang` of the code are the list `cands` of (point, flag, direction). -/
def checkArcLine (s o : Seg) : Hits :=
  if s.kind = .arc ∨ s.kind = .circle then arcLine s s.start s.stop o.getStart o.getEnd s.start s.stop
  else arcLine o o.getStart o.getEnd s.getStart s.getEnd s.start s.stop

/-- the direction `ang` brought into the range of an arc from `lo` to `hi`, and whether it is on that arc,
mcad_segment.cpp:766-778 -/
def reaches (ang lo hi : ℝ) : Prop :=
  let t := if ang > hi then ang - 2 * Real.pi else ang
  let t := if t < lo then t + 2 * Real.pi else t
  t ≤ hi

/-- `checkArcs`, mcad_segment.cpp:549-881.  At least one of the two is an arc, the other one may be a circle. -/
def checkArcs (s o : Seg) : Hits :=
  let c2 := o.center
  let r := s.radius
  let r2 := o.radius
  let d := hyp (s.center.x - c2.x) (s.center.y - c2.y)
  let a0 := s.startAngle
  let a1 := s.endAngle
  let b0 := o.startAngle
  let b1 := o.endAngle
  let w := 2 * Real.pi
  if d > r + r2 ∨ d + r2 < r ∨ d + r < r2 then ⟨[], .none, false⟩
  else if |d - r - r2| < 0.001 then
    let g0 := atan2 (c2.y - s.center.y) (c2.x - s.center.x)
    let g1 := if g0 > 0 then g0 - Real.pi else g0 + Real.pi
    let g0 := if g0 > a0 then g0 - w else g0
    let g0 := if g0 < a0 then g0 + w else g0
    let g1 := if g1 > b0 then g1 - w else g1
    let g1 := if g1 < b0 then g1 + w else g1
    ⟨[], if g0 ≥ a0 ∧ g0 ≤ a1 ∧ g1 ≥ b0 ∧ g1 ≤ b1 then .tangent else .none, false⟩
  else if PointMatches s.center c2 1e-3 ∧ |r - r2| < 1e-3 then
    if s.kind = .circle then ⟨[o.getStart, o.getEnd], .edge, true⟩
    else if o.kind = .circle then ⟨[s.getStart, s.getEnd], .edge, true⟩
    else if (|b1 - a0| < 1e-8 ∧ |b0 - a1 + w| < 1e-8) ∨ (|a1 - b0| < 1e-8 ∧ |a0 - b1 + w| < 1e-8) ∨
        (|b0 - a1| < 1e-8 ∧ |b1 - a0 - w| < 1e-8) ∨ (|a0 - b1| < 1e-8 ∧ |a1 - b0 - w| < 1e-8) then
      ⟨[s.getStart, s.getEnd], .endpoint, true⟩
    else if (b0 ≥ a0 ∧ b1 ≤ a1) ∨ (b0 + w ≥ a0 ∧ b1 + w ≤ a1) ∨ (b0 - w ≥ a0 ∧ b1 - w ≤ a1) then
      ⟨[o.getStart, o.getEnd], .edge, true⟩
    else if (a0 ≥ b0 ∧ a1 ≤ b1) ∨ (a0 ≥ b0 + w ∧ a1 ≤ b1 + w) ∨ (a0 ≥ b0 - w ∧ a1 ≤ b1 - w) then
      ⟨[s.getStart, s.getEnd], .edge, true⟩
    else if (b0 ≤ a0 ∧ b1 ≥ a0 ∧ b1 ≤ a1) ∨ (b0 - w ≤ a0 ∧ b1 - w ≥ a0 ∧ b1 - w ≤ a1) then
      ⟨[s.getStart, o.getEnd], .edge, true⟩
    else if (b0 ≥ a0 ∧ b0 ≤ a1 ∧ b1 ≥ a1) ∨ (b0 + w ≥ a0 ∧ b0 + w ≤ a1 ∧ b1 + w ≥ a1) ∨
        (b0 - w ≥ a0 ∧ b0 - w ≤ a1 ∧ b1 - w ≥ a1) then
      ⟨[s.getStart, o.getEnd], .edge, true⟩
    else ⟨[], .none, false⟩
  else if s.kind = .arc ∧ o.kind = .arc ∧
      ((PointMatches s.getStart o.getStart 1e-3 ∧ PointMatches s.getEnd o.getEnd 1e-3) ∨
       (PointMatches s.getStart o.getEnd 1e-3 ∧ PointMatches s.getEnd o.getStart 1e-3)) then
    let m := (a0 + a1) * 0.5
    let ix := s.center.x + r * Real.cos m - c2.x
    let iy := s.center.y + r * Real.sin m - c2.y
    ⟨[s.getStart, s.getEnd], if r2 > r ∧ hyp ix iy < r2 then .inside else .outside, true⟩
  else
    let p := intercepts s.center r c2 r2 d
    let x0 := atan2 (p.1.y - s.center.y) (p.1.x - s.center.x)
    let x1 := atan2 (p.2.y - s.center.y) (p.2.x - s.center.x)
    let on (x : ℝ) : Prop := (o.kind = .circle ∨ reaches x b0 b1) ∧ (s.kind = .circle ∨ reaches x a0 a1)
    let y0 := if x0 < a0 then x0 + w else x0
    let y1 := if x1 < a0 then x1 + w else x1
    let fit (y : ℝ) : ℝ := if y < a0 then y + w else if y > a1 then y - w else y
    if on x0 ∧ on x1 then
      if fit y0 > fit y1 then ⟨[p.2, p.1], .none, true⟩ else ⟨[p.1, p.2], .none, true⟩
    else if on x0 then ⟨[p.1], .none, true⟩
    else if on x1 then ⟨[p.2], .none, true⟩
    else ⟨[], .none, false⟩

/-- `GetIntersections`, mcad_segment.cpp:286-347 -/
def intersections (s o : Seg) : Hits :=
  match s.kind, o.kind with
  | .none, _ => ⟨[], .none, false⟩
  | _, .none => ⟨[], .none, false⟩
  | .circle, .circle => checkCircles s o
  | .circle, .arc => checkArcs s o
  | .circle, .line => checkArcLine s o
  | .arc, .line => checkArcLine s o
  | .arc, _ => checkArcs s o
  | .line, .line => checkLines s o
  | .line, _ => checkArcLine s o

end
end Iges.Geo
