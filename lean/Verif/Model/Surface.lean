import Verif.Model.Outline
/-
Surfaces and curves made from the segments of a board: `IGES_GEOM_CYLINDER` (geom/geom_cylinder.cpp), `IGES_GEOM_WALL`
(geom/geom_wall.cpp) and `IGES_GEOM_PCB` (geom/iges_geom_pcb.cpp).

Simplifications: a `double` is a real number (Model/Segment.lean).  Creating an entity succeeds and so do `SetNURBSData`,
`AddSegment`, `SetPTS` and the like, so the failures modelled are those that depend on the arguments.  Of the entities that
are made only the geometry is kept: status flags, dependency flags and the order in the file are left out.  The four
functions of the SISL library are represented by what their manual says: `s1602` gives the straight line between two points,
`s1303` the arc that starts at a point and turns by an angle about an axis, `s1536` with 2 by 2 points of order 2 and
uniform parameters the bilinear patch through them over the unit square.
-/
namespace Iges.Geo
open Classical

noncomputable section

/-- the members of `IGES_ENTITY_100` that are set, and the entity 124 given to `SetTransform`, if any -/
structure Arc100 where
  zOffset : ℝ
  xCenter : ℝ
  yCenter : ℝ
  xStart : ℝ
  yStart : ℝ
  xEnd : ℝ
  yEnd : ℝ
  tx : Option (Transform ℝ)

/-- the entities that are made for the curves in space: entity 110 and entity 100 -/
inductive Curve where
  | line (a b : Point ℝ)
  | arc (a : Arc100)

/-- the transform entities of geom_cylinder.cpp:508-512 and iges_geom_pcb.cpp:1439-1442: the matrix of a new entity 124 is
the identity, and `T.x`, `T.z`, `R00` and `R22` are set -/
def mirror (x z : ℝ) : Transform ℝ := ⟨{ Mat.one with v00 := -1, v22 := -1 }, ⟨x, 0, z⟩⟩

/-- a trimmed surface that is made for a wall -/
inductive Patch where
  /-- entity 144 over entity 120, trimmed: the axis from `a0` to `a1`, the generatrix from `g0` to `g1`, the corners of the
  boundary in the parameter plane in the order in which the four lines join them, and the boundary in space -/
  | revolved (a0 a1 g0 g1 : Point ℝ) (corners : List (ℝ × ℝ)) (outer : List Curve)
  /-- entity 144 over entity 128, the whole surface: the patch through four points given to `s1536` in the order
  (0,0), (1,0), (0,1), (1,1), the corners of the boundary in the parameter plane and the boundary in space -/
  | bilinear (d00 d10 d01 d11 : Point ℝ) (corners : List (ℝ × ℝ)) (outer : List Curve)

/-- the members of `IGES_GEOM_CYLINDER` after a successful `SetParams`: `arcs[0]`, `radius`, the pairs of `angles` and
`arcs[1]` to `arcs[narcs + 1]` -/
structure Cyl where
  center : Point ℝ
  radius : ℝ
  ranges : List (ℝ × ℝ)
  pts : List (Point ℝ)

/-- `SetParams`, geom_cylinder.cpp:170-252: the angles of the one to three arcs -/
def cylRanges (ang1 ang2 : ℝ) : List (ℝ × ℝ) :=
  let p := Real.pi
  if ang1 < 0 then
    let ang1 := ang1 + 2 * p
    let ang2 := ang2 + 2 * p
    if ang2 ≤ 2 * p then [(ang1, ang2)]
    else if ang2 ≤ 3 * p then [(ang1, 2 * p), (0, ang2 - 2 * p)]
    else [(ang1, 2 * p), (0, p), (p, ang2 - 2 * p)]
  else if ang2 ≤ p ∨ (ang1 ≥ p ∧ ang2 ≤ 2 * p) then [(ang1, ang2)]
  else if ang1 < p then
    if ang2 ≤ 2 * p then [(ang1, p), (p, ang2)]
    else [(ang1, p), (p, 2 * p), (0, ang2 - 2 * p)]
  else if ang2 ≤ 2 * p then [(ang1, ang2)]
  else [(ang1, 2 * p), (0, ang2 - 2 * p)]

/-- `SetParams`, geom_cylinder.cpp:254-282: the points at which the second and the third arc start -/
def cylMids (c : Point ℝ) (r : ℝ) (l : List (ℝ × ℝ)) : List (Point ℝ) :=
  l.tail.map fun a => ⟨c.x + r * Real.cos a.1, c.y + r * Real.sin a.1, 0⟩

/-- `IGES_GEOM_CYLINDER::SetParams`, geom_cylinder.cpp:118-285; `none` when it returns false, and then `narcs` is 0. -/
def cylParams (c s e : Point ℝ) : Option Cyl :=
  if c.z ≠ 0 ∨ s.z ≠ 0 ∨ e.z ≠ 0 then none
  else if PointMatches c s 1e-8 ∨ PointMatches c e 1e-8 then none
  else
    let rad1 := hyp (c.x - s.x) (c.y - s.y)
    let rad2 := hyp (c.x - e.x) (c.y - e.y)
    if |rad1 - rad2| > 1e-8 then none
    else if PointMatches s e 1e-8 then
      some ⟨c, rad1, [(0, Real.pi), (Real.pi, 2 * Real.pi)],
        [⟨c.x + rad1, c.y, c.z⟩, ⟨c.x - rad1, c.y, c.z⟩, ⟨c.x + rad1, c.y, c.z⟩]⟩
    else
      let ang1 := atan2 (s.y - c.y) (s.x - c.x)
      let ang2 := atan2 (e.y - c.y) (e.x - c.x)
      let ang2 := if ang2 < ang1 then ang2 + 2 * Real.pi else ang2
      let l := cylRanges ang1 ang2
      some ⟨c, rad1, l, s :: cylMids c rad1 l ++ [e]⟩

/-- `IGES_GEOM_CYLINDER::Instantiate`, geom_cylinder.cpp:632-960: the trimmed surface made for one of the arcs, which runs
from `p` to `q` and has the angles `a`.  The corners in the parameter plane are those of geom_cylinder.cpp:828-893. -/
def cylPatch (c : Point ℝ) (r top bot : ℝ) (rev : Bool) (a : ℝ × ℝ) (p q : Point ℝ) : Patch :=
  let b0 := if rev then 2 * Real.pi - a.1 else a.1
  let b1 := if rev then 2 * Real.pi - a.2 else a.2
  .revolved (if rev then ⟨c.x, c.y, top⟩ else ⟨c.x, c.y, bot⟩) (if rev then ⟨c.x, c.y, bot⟩ else ⟨c.x, c.y, top⟩)
    ⟨c.x + r, c.y, top⟩ ⟨c.x + r, c.y, bot⟩
    [(0, b0), (0, b1), (1, b1), (1, b0)]
    [.arc ⟨top, c.x, c.y, p.x, p.y, q.x, q.y, none⟩,
     .line ⟨q.x, q.y, top⟩ ⟨q.x, q.y, bot⟩,
     .arc ⟨bot, 0, c.y, c.x - q.x, q.y, c.x - p.x, p.y, some (mirror c.x (2 * bot))⟩,
     .line ⟨p.x, p.y, bot⟩ ⟨p.x, p.y, top⟩]

/-- the loops over the arcs in `Instantiate`: the `i`-th arc has the `i`-th pair of angles and joins `arcs[i + 1]` to
`arcs[i + 2]` -/
def cylPatches (c : Point ℝ) (r top bot : ℝ) (rev : Bool) : List (ℝ × ℝ) → List (Point ℝ) → List Patch
  | a :: l, p :: q :: rest => cylPatch c r top bot rev a p q :: cylPatches c r top bot rev l (q :: rest)
  | _, _ => []

/-- `IGES_GEOM_CYLINDER::Instantiate`, geom_cylinder.cpp:288-1005, with a model; `none` when it returns false. -/
def cylInstantiate (y : Cyl) (top bot : ℝ) (rev : Bool) : Option (List Patch) :=
  if |top - bot| < 0.001 then none
  else
    let t := if top < bot then bot else top
    let b := if top < bot then top else bot
    some (cylPatches y.center y.radius t b rev y.ranges y.pts)

/-- `IGES_GEOM_WALL::SetParams` and `Instantiate`, geom_wall.cpp:101-219, 222-639 -/
def wallPatch (p0 p1 p2 p3 : Point ℝ) : Patch :=
  .bilinear p0 p1 p3 p2 [(0, 0), (1, 0), (1, 1), (0, 1)] [.line p0 p1, .line p1 p2, .line p2 p3, .line p3 p0]

/-- `IGES_GEOM_PCB::GetSegmentWall`, iges_geom_pcb.cpp:1000-1091, with a model and a segment: the surfaces appended to the
caller's list, `none` when it returns false.  The result of `cyl.SetParams` is not looked at: after a failure `narcs` is 0
and `Instantiate` returns false. -/
def segmentWall (top bot : ℝ) (s : Seg) (rev : Bool) : Option (List Patch) :=
  if |top - bot| < 1e-6 then none
  else
    match s.kind with
    | .none => none
    | .line =>
        let p0 : Point ℝ := ⟨s.start.x, s.start.y, top⟩
        let p1 : Point ℝ := ⟨s.stop.x, s.stop.y, top⟩
        let p2 : Point ℝ := ⟨s.stop.x, s.stop.y, bot⟩
        let p3 : Point ℝ := ⟨s.start.x, s.start.y, bot⟩
        some [if rev then wallPatch p0 p1 p2 p3 else wallPatch p3 p2 p1 p0]
    | _ =>
        (cylParams s.center s.getStart s.getEnd).bind fun y =>
          cylInstantiate y top bot ((s.cw && !rev) || (!s.cw && rev))

/-- the three loops of `GetVerticalSurface`, iges_geom_pcb.cpp:217-289: the surfaces appended and whether every segment
could be rendered -/
def wallsOf (top bot : ℝ) (rev : Bool) : List Seg → List Patch × Bool
  | [] => ([], true)
  | s :: l =>
    match segmentWall top bot s rev with
    | none => ([], false)
    | some w => let r := wallsOf top bot rev l; (w ++ r.1, r.2)

/-- a board: its outline, its holes (`mholes`) and the segments of its cutouts (`mcutouts`) -/
structure Board where
  outline : Outline
  holes : List Seg
  cutouts : List (List Seg)

/-- `IGES_GEOM_PCB::GetVerticalSurface`, iges_geom_pcb.cpp:189-292: the surfaces appended to the caller's list and the
result.  The flag `error` is set exactly when the result is false. -/
def verticalSurface (b : Board) (top bot : ℝ) : List Patch × Bool :=
  if !b.outline.closed then ([], false)
  else if b.outline.segs = [] then ([], false)
  else
    let w := wallsOf top bot false b.outline.segs
    if !w.2 then w
    else
      let h := wallsOf top bot true b.holes
      if !h.2 then (w.1 ++ h.1, false)
      else
        let c := wallsOf top bot true b.cutouts.flatten
        (w.1 ++ h.1 ++ c.1, c.2)

/-- `getCurveLine`, iges_geom_pcb.cpp:1460-1503 -/
def curveLine (h : ℝ) (s : Seg) : List Curve := [.line ⟨s.start.x, s.start.y, h⟩ ⟨s.stop.x, s.stop.y, h⟩]

/-- `getCurveCircle`, iges_geom_pcb.cpp:1094-1149 -/
def curveCircle (h : ℝ) (s : Seg) : List Curve :=
  let c := s.center
  let r := s.radius
  [.arc ⟨h, c.x, c.y, c.x + r, c.y, c.x - r, c.y, none⟩, .arc ⟨h, c.x, c.y, c.x - r, c.y, c.x + r, c.y, none⟩]

/-- `getCurveArc`, iges_geom_pcb.cpp:1187-1426: the ends of the arcs, in order, for an arc about `(xc, yc)` from `p0` to
`p1`; `a0` and `a1` are the angles the branches look at -/
def arcStops (xc yc r : ℝ) (p0 p1 : ℝ × ℝ) (a0 a1 : ℝ) : List (ℝ × ℝ) :=
  let left := (xc - r, yc)
  let right := (xc + r, yc)
  let p := Real.pi
  if a0 ≥ 0 ∧ a0 < p then
    if a1 ≤ p then [p0, p1]
    else if a1 ≤ 2 * p then [p0, left, p1]
    else [p0, left, right, p1]
  else if a0 = p then
    if a1 ≤ 2 * p then [p0, p1] else [p0, right, p1]
  else
    if a1 ≤ 0 then [p0, p1]
    else if a1 ≤ p then [p0, right, p1]
    else [p0, right, left, p1]

/-- the arcs between consecutive points -/
def arcsThrough (h xc yc : ℝ) (tx : Option (Transform ℝ)) : List (ℝ × ℝ) → List Curve
  | p :: q :: l => .arc ⟨h, xc, yc, p.1, p.2, q.1, q.2, tx⟩ :: arcsThrough h xc yc tx (q :: l)
  | _ => []

/-- `getCurveArc`, iges_geom_pcb.cpp:1152-1457 -/
def curveArc (h : ℝ) (s : Seg) : List Curve :=
  if s.cw then
    let p0 := (s.center.x - s.start.x, s.start.y)
    let p1 := (s.center.x - s.stop.x, s.stop.y)
    let a0 := atan2 (p0.2 - s.center.y) p0.1
    let a1 := atan2 (p1.2 - s.center.y) p1.1
    let a1 := if a1 < a0 then a1 + 2 * Real.pi else a1
    arcsThrough h 0 s.center.y (some (mirror s.center.x (2 * h))) (arcStops 0 s.center.y s.radius p0 p1 a0 a1)
  else
    arcsThrough h s.center.x s.center.y none
      (arcStops s.center.x s.center.y s.radius (s.start.x, s.start.y) (s.stop.x, s.stop.y) s.sang s.eang)

/-- `IGES_GEOM_PCB::GetCurves`, iges_geom_pcb.cpp:925-951: the curves appended to the caller's list, `none` when it returns
false -/
def getCurves (h : ℝ) (s : Seg) : Option (List Curve) :=
  match s.kind with
  | .line => some (curveLine h s)
  | .arc => some (curveArc h s)
  | .circle => some (curveCircle h s)
  | .none => none

/-- a curve in the parameter plane of a face: what is given to `s1602` and to `s1303`.  For an arc `up` says that the axis
is (0, 0, 1) and not (0, 0, -1).  The third coordinate, which is `zHeight` for every point, is left out. -/
inductive PlaneCurve where
  | line (a b : ℝ × ℝ)
  | arc (start centre : ℝ × ℝ) (angle : ℝ) (up : Bool)

/-- a point of the board in the parameter plane of a face: `( p - off ) * scale`, and `1 - y` for a reversed face -/
def onFace (offX offY scale : ℝ) (rev : Bool) (x y : ℝ) : ℝ × ℝ :=
  ((x - offX) * scale, if rev then 1 - (y - offY) * scale else (y - offY) * scale)

/-- `copLine`, iges_geom_pcb.cpp:1859-1925 -/
def copLine (offX offY scale : ℝ) (rev : Bool) (s : Seg) : List PlaneCurve :=
  [.line (onFace offX offY scale rev s.start.x s.start.y) (onFace offX offY scale rev s.stop.x s.stop.y)]

/-- `copCircle`, iges_geom_pcb.cpp:1506-1606 -/
def copCircle (offX offY scale : ℝ) (rev : Bool) (s : Seg) : List PlaneCurve :=
  let c := onFace offX offY scale rev s.center.x s.center.y
  [.arc (c.1 + s.radius * scale, c.2) c Real.pi (!rev), .arc (c.1 - s.radius * scale, c.2) c Real.pi (!rev)]

/-- `copArc`, iges_geom_pcb.cpp:1661-1750: for each of the arcs, in counterclockwise order, its start point (`spt`) and the
angle it covers (`angles`).  `p0` is the start point and `c` the centre in the parameter plane, `r` the scaled radius. -/
def copPieces (p0 c : ℝ × ℝ) (r sAng eAng : ℝ) : List ((ℝ × ℝ) × ℝ) :=
  let p := Real.pi
  let left := (c.1 - r, c.2)
  let right := (c.1 + r, c.2)
  if sAng < 0 then
    if eAng ≤ 0 then [(p0, eAng - sAng)]
    else if eAng ≤ p then [(p0, -sAng), (right, eAng)]
    else [(p0, -sAng), (right, p), (left, eAng - p)]
  else if eAng ≤ p ∨ (sAng ≥ p ∧ eAng ≤ 2 * p) then [(p0, eAng - sAng)]
  else if sAng < p then
    if eAng ≤ 2 * p then [(p0, p - sAng), (left, eAng - p)]
    else [(p0, p - sAng), (left, p), (right, eAng - 2 * p)]
  else if eAng ≤ 2 * p then [(p0, eAng - sAng)]
  else [(p0, 2 * p - sAng), (right, eAng - 2 * p)]

/-- `copArc`, iges_geom_pcb.cpp:1764-1853, for a clockwise arc: each arc starts where the following one would, the last one
at `p1`, and the order is turned round -/
def copBack (p1 : ℝ × ℝ) (l : List ((ℝ × ℝ) × ℝ)) : List ((ℝ × ℝ) × ℝ) :=
  (List.zip (l.tail.map Prod.fst ++ [p1]) (l.map Prod.snd)).reverse

/-- `copArc`, iges_geom_pcb.cpp:1609-1856 -/
def copArc (offX offY scale : ℝ) (rev : Bool) (s : Seg) : List PlaneCurve :=
  let p0 := onFace offX offY scale rev s.getStart.x s.getStart.y
  let p1 := onFace offX offY scale rev s.getEnd.x s.getEnd.y
  let c := onFace offX offY scale rev s.center.x s.center.y
  let sAng := if s.startAngle > Real.pi then s.startAngle - 2 * Real.pi else s.startAngle
  let eAng := if s.startAngle > Real.pi then s.endAngle - 2 * Real.pi else s.endAngle
  let l := copPieces p0 c (s.radius * scale) sAng eAng
  (if s.cw then copBack p1 l else l).map fun x =>
    .arc x.1 c x.2 (!((s.cw && !rev) || (!s.cw && rev)))

/-- `IGES_GEOM_PCB::GetCurveOnPlane`, iges_geom_pcb.cpp:958-996 -/
def curveOnPlane (minX maxX minY : ℝ) (rev : Bool) (s : Seg) : Option (List PlaneCurve) :=
  let scale := 1 / (maxX - minX)
  match s.kind with
  | .circle => some (copCircle minX minY scale rev s)
  | .arc => some (copArc minX minY scale rev s)
  | .line => some (copLine minX minY scale rev s)
  | .none => none

/-- `getUntrimmedPlane`, iges_geom_pcb.cpp:738-788: the points given to `s1536` in the order (0,0), (1,0), (0,1), (1,1) -/
def facePlane (lo hi : Point ℝ) (h : ℝ) (rev : Bool) : Point ℝ × Point ℝ × Point ℝ × Point ℝ :=
  if rev then (⟨lo.x, hi.y, h⟩, ⟨hi.x, hi.y, h⟩, ⟨lo.x, lo.y, h⟩, ⟨hi.x, lo.y, h⟩)
  else (⟨lo.x, lo.y, h⟩, ⟨hi.x, lo.y, h⟩, ⟨lo.x, hi.y, h⟩, ⟨hi.x, hi.y, h⟩)

/-- `calcBoundingBox`, mcad_outline.cpp:2161-2196, for a closed outline with segments: the corners.  A segment without type
leaves the corners as they are; in the code the box of the segment before it is joined again. -/
def calcBox (lo hi : Point ℝ) : List Seg → Point ℝ × Point ℝ
  | [] => (lo, hi)
  | s :: l =>
    let b := l.foldl (fun b t => joinBox b.1 b.2 (boxOr t b.1 b.2)) (boxOr s lo hi)
    adjustBox b.1 b.2

/-- the loops over segments of `GetTrimmedPlane`, iges_geom_pcb.cpp:361-391, 510-537 and 619-641: the curves in the
parameter plane and those in space, which are put into two composite curves; `none` when a segment cannot be rendered -/
def loopCurves (lo hi : Point ℝ) (h : ℝ) (rev : Bool) : List Seg → Option (List PlaneCurve × List Curve)
  | [] => some ([], [])
  | s :: l =>
    (curveOnPlane lo.x hi.x lo.y rev s).bind fun b => (getCurves h s).bind fun n =>
      (loopCurves lo hi h rev l).map fun r => (b ++ r.1, n ++ r.2)

/-- the trimmed plane: the points of the bilinear patch, the outer boundary and the inner ones -/
structure Face where
  plane : Point ℝ × Point ℝ × Point ℝ × Point ℝ
  outer : List PlaneCurve × List Curve
  inner : List (List PlaneCurve × List Curve)

/-- `GetTrimmedPlane`, iges_geom_pcb.cpp:297-734: the surface appended to the caller's list, `none` when it returns false.
The entities made before a failure stay in the model; they are left out. -/
def trimmedPlane (b : Board) (h : ℝ) (rev : Bool) : Option Face :=
  if !b.outline.closed then none
  else if b.outline.segs = [] then none
  else
    let x := calcBox b.outline.lo b.outline.hi b.outline.segs
    (loopCurves x.1 x.2 h rev b.outline.segs).bind fun o =>
      ((b.cutouts.mapM (loopCurves x.1 x.2 h rev)).bind fun c =>
        (b.holes.mapM fun s => loopCurves x.1 x.2 h rev [s]).map fun d =>
          ⟨facePlane x.1 x.2 h rev, o, c ++ d⟩)

end
end Iges.Geo
