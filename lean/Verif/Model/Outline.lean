import Verif.Model.SegSplit
/-
Closed outlines made of segments: `MCAD_OUTLINE`, geom/mcad_outline.cpp.

Simplifications: as for segments a `double` is a real number (Model/Segment.lean), so the conversions to `int` of
`adjustBoundingBox` neither overflow nor lose anything.  A segment is a value: the code keeps the pointers it is given, so
the caller's segments are turned round with those of the outline, and giving the same object to an outline twice is not
modelled.  The list of error messages and the validity flags (mcad_outline.cpp:131-219) are left out.
-/
namespace Iges.Geo
open Classical

noncomputable section

/-- the members of `MCAD_OUTLINE` that describe its border, mcad_outline.h: `msegments`, `mIsClosed`, `mWinding`,
`mBBisOK`, `mBottomLeft` and `mTopRight` -/
structure Outline where
  segs : List Seg
  closed : Bool
  winding : ℝ
  boxOk : Bool
  lo : Point ℝ
  hi : Point ℝ

/-- `MCAD_OUTLINE()`, mcad_outline.cpp:112-119 -/
def Outline.new : Outline := ⟨[], false, 0, false, origin, origin⟩

/-- `adjustBoundingBox`, mcad_outline.cpp:2199-2226: the corners afterwards -/
def adjustBox (lo hi : Point ℝ) : Point ℝ × Point ℝ :=
  let minX := ⌊lo.x⌋
  let maxX := ⌈hi.x⌉
  let minY := ⌊lo.y⌋
  let maxY := ⌈hi.y⌉
  let dx := maxX - minX
  let dy := maxY - minY
  let dx := if dx % 2 ≠ 0 then dx + 1 else dx
  let dy := if dy % 2 ≠ 0 then dy + 1 else dy
  let dv := max dx dy
  (⟨minX, minY, lo.z⟩, ⟨minX + dv, minY + dv, hi.z⟩)

/-- `AddSegment`, mcad_outline.cpp:539-555 (and `calcBoundingBox`, 2173-2190): the corners enlarged by the box of another
segment -/
def joinBox (lo hi : Point ℝ) (b : Point ℝ × Point ℝ) : Point ℝ × Point ℝ :=
  (⟨if b.1.x < lo.x then b.1.x else lo.x, if b.1.y < lo.y then b.1.y else lo.y, lo.z⟩,
   ⟨if b.2.x > hi.x then b.2.x else hi.x, if b.2.y > hi.y then b.2.y else hi.y, hi.z⟩)

/-- the box of a segment, or the caller's corners when `GetBoundingBox` fails and leaves them alone -/
def boxOr (s : Seg) (lo hi : Point ℝ) : Point ℝ × Point ℝ := s.box.getD (lo, hi)

/-- what a segment adds to `mWinding`, mcad_outline.cpp:512-535 -/
def windingOf (s : Seg) : ℝ :=
  match s.kind with
  | .arc =>
      let m := s.midpoint.getD origin
      (s.stop.x - m.x) * (s.stop.y + m.y) + (m.x - s.start.x) * (m.y + s.start.y)
  | _ => (s.stop.x - s.start.x) * (s.stop.y + s.start.y)

/-- `AddSegment`, mcad_outline.cpp:566-601: the segments of an outline that has just been closed -/
def orient (segs : List Seg) (winding : ℝ) : List Seg :=
  if winding > 0 then
    if segs.length = 2 then segs.map Seg.reverse else (segs.map Seg.reverse).reverse
  else segs

/-- `AddSegment`, mcad_outline.cpp:504-607: a line or an arc whose start has been found to fit -/
def addPiece (o : Outline) (s : Seg) : Outline :=
  let first := if o.segs = [] then boxOr s o.lo o.hi else (o.lo, o.hi)
  let segs := o.segs ++ [s]
  let w := o.winding + windingOf s
  if o.segs = [] then { o with segs, winding := w, lo := first.1, hi := first.2 }
  else
    let b := joinBox first.1 first.2 (boxOr s origin origin)
    match o.segs.head? with
    | none => { o with segs, winding := w, lo := b.1, hi := b.2 }
    | some f =>
      if PointMatches s.stop f.start 1e-8 then
        let c := adjustBox b.1 b.2
        { segs := orient segs w, closed := true, winding := w, boxOk := true, lo := c.1, hi := c.2 }
      else { o with segs, winding := w, lo := b.1, hi := b.2 }

/-- `AddSegment`, mcad_outline.cpp:421-608: the outline afterwards and the result.  `none` is the NULL pointer.  The flag
`error` is set exactly when the result is false. -/
def addSegment (o : Outline) (a : Option Seg) : Outline × Bool :=
  match a with
  | none => (o, false)
  | some s =>
    if s.kind = .none then (o, false)
    else if o.closed then (o, false)
    else if s.kind = .circle then
      if o.segs ≠ [] then (o, false)
      else
        let b := boxOr s o.lo o.hi
        let c := adjustBox b.1 b.2
        ({ o with segs := [s], closed := true, boxOk := true, lo := c.1, hi := c.2 }, true)
    else
      match o.segs.getLast? with
      | some l => if PointMatches l.stop s.start 1e-8 then (addPiece o s, true) else (o, false)
      | none => (addPiece o s, true)

/-- the loop of `IsContiguous`, mcad_outline.cpp:256-270, over the segments that follow `prev` -/
def contiguousFrom (prev : Seg) : List Seg → Bool
  | [] => true
  | s :: rest => PointMatches s.start prev.stop 1e-8 && contiguousFrom s rest

/-- `IsContiguous`, mcad_outline.cpp:235-276 -/
def isContiguous (o : Outline) : Bool :=
  match o.segs, o.segs.getLast? with
  | s :: rest, some l =>
      if !o.closed then false
      else if s.kind = .circle then true
      else contiguousFrom l (s :: rest)
  | _, _ => false

/-- `IsInside`, mcad_outline.cpp:339-399: how much a point `q` in which the ray meets the segment `s` adds to the number
of crossings; `prev` and `next` are the neighbours of `s` in the outline and `y` is the height of the ray. -/
def nodeCount (prev s next : Seg) (y : ℝ) (q : Point ℝ) : Nat :=
  if s.kind = .circle then 1
  else
    let e0 := PointMatches q s.start 1e-8
    let e1 := PointMatches q s.stop 1e-8
    if e0 || e1 then
      let b := boxOr s origin origin
      if b.1.y ≤ y ∧ b.2.y ≤ y then 1
      else if s.kind = .arc ∧ b.1.y < y then
        let t := if e1 then next else prev
        let c := boxOr t b.1 b.2
        if c.1.y ≥ y ∧ c.2.y ≥ y then 1 else 0
      else 0
    else 1

/-- the crossings of one segment with the ray, mcad_outline.cpp:331-402 -/
def segCount (ray prev s next : Seg) (y : ℝ) : Nat :=
  let h := intersections s ray
  if h.ret then (h.pts.map (nodeCount prev s next y)).sum else 0

/-- the loop over the segments, mcad_outline.cpp:329-405: `prev` is the segment before the list and `first` the one that
follows the last of it -/
def countFrom (ray : Seg) (y : ℝ) (first prev : Seg) : List Seg → Nat
  | [] => 0
  | s :: rest => segCount ray prev s (rest.head?.getD first) y + countFrom ray y first s rest

/-- where the ray ends, mcad_outline.cpp:302-322: 5 to the left or to the right of the box, whichever side is nearer -/
def rayEnd (o : Outline) (p : Point ℝ) : Point ℝ :=
  ⟨if p.x - o.lo.x ≤ o.hi.x - p.x then o.lo.x - 5 else o.hi.x + 5, p.y, 0⟩

/-- `IsInside`, mcad_outline.cpp:280-415: `none` when it reports an error -/
def isInside (o : Outline) (p : Point ℝ) : Option Bool :=
  if !o.closed then none
  else
    let ray := (setLine p (rayEnd o p)).1
    match o.segs, o.segs.getLast? with
    | s :: rest, some l => some (countFrom ray p.y s l (s :: rest) % 2 == 1)
    | _, _ => some false

end
end Iges.Geo
