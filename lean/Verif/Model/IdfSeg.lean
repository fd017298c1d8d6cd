import Verif.Model.Segment
/-
Segments and loops of IDF files: `IDF_POINT`, `IDF_SEGMENT`, `IDF_OUTLINE` and `GetOutline` of idf/idf_common.cpp.

Simplifications: a `double` is a real number, as in Model/Segment.lean, and `M_PI` is π.  Memory allocation succeeds.
-/
namespace Iges.Idf
open Classical Iges.Geo

noncomputable section

/-- `IDF_POINT`, idf_common.h:470-500 -/
@[ext] structure P2 where
  x : ℝ
  y : ℝ

/-- `IDF_POINT::Matches`, idf_common.cpp:844-855 -/
def P2.matches (p q : P2) (r : ℝ) : Bool :=
  decide ((p.x - q.x) * (p.x - q.x) + (p.y - q.y) * (p.y - q.y) ≤ r * r)

/-- `IDF_POINT::CalcDistance`, idf_common.cpp:858-865 -/
def P2.dist (p q : P2) : ℝ := Real.sqrt ((q.x - p.x) * (q.x - p.x) + (q.y - p.y) * (q.y - p.y))

/-- `CalcAngleRad`, idf_common.cpp:868-871 -/
def angRad (a b : P2) : ℝ := atan2 (b.y - a.y) (b.x - a.x)

/-- the conversion of a `double` to `int`: the fraction is dropped -/
def toInt (x : ℝ) : ℤ := if 0 ≤ x then ⌊x⌋ else ⌈x⌉

/-- `CalcAngleDeg`, idf_common.cpp:874-884 -/
def angDeg (a b : P2) : ℝ := (toInt (angRad a b / Real.pi * 1800000) : ℝ) / 10000

/-- `MIN_ANG`, idf_common.h:36 -/
def minAng : ℝ := 0.01

/-- the members of `IDF_SEGMENT`, idf_common.h:524-529 -/
@[ext] structure Seg where
  start : P2
  stop : P2
  center : P2
  angle : ℝ
  off : ℝ
  radius : ℝ

/-- `IDF_SEGMENT( aStartPoint, aEndPoint )`, idf_common.cpp:1042-1049 -/
def lineSeg (a b : P2) : Seg := ⟨a, b, ⟨0, 0⟩, 0, 0, 0⟩

/-- `CalcCenterAndRadius`, idf_common.cpp:1113-1153, on a segment that has its ends and its angle -/
def centreAndRadius (a b : P2) (angle : ℝ) : Seg :=
  let offAng := angRad a b
  let d := a.dist b / 2
  let xm := (a.x + b.x) * 0.5
  let ym := (a.y + b.y) * 0.5
  let radius := d / Real.sin (angle * Real.pi / 360)
  let radius := if radius < 0 then -radius else radius
  let dh2 := radius * radius - d * d
  let dh2 := if dh2 < 0 then 0 else dh2
  let h := Real.sqrt dh2
  let offAng := if angle > 0 then offAng + Real.pi / 2 else offAng - Real.pi / 2
  let offAng := if angle > 180 ∨ angle < -180 then offAng + Real.pi else offAng
  let c : P2 := ⟨h * Real.cos offAng + xm, h * Real.sin offAng + ym⟩
  ⟨a, b, c, angle, angDeg c a, radius⟩

/-- the test `diff < MIN_ANG && diff > -MIN_ANG` on `abs( angle ) - 360`, idf_common.cpp:1057-1060 and 1156-1164 -/
def fullTurn (angle : ℝ) : Prop := |angle| - 360 < minAng ∧ |angle| - 360 > -minAng

/-- `IDF_SEGMENT( aStartPoint, aEndPoint, aAngle, aFromKicad )`, idf_common.cpp:1052-1098.  In the first branch the members
`center`, `offsetAngle` and `radius` of a straight line are not set by the code; they are 0 here. -/
def arcSeg (a b : P2) (angle : ℝ) (kicad : Bool) : Seg :=
  if fullTurn angle ∨ (angle < minAng ∧ angle > -minAng) ∨ kicad = false then
    if fullTurn angle then ⟨a, b, a, 360, 0, a.dist b⟩
    else if angle > minAng ∨ angle < -minAng then centreAndRadius a b angle
    else lineSeg a b
  else
    let off := angDeg a b
    let r := a.dist b
    let ang := (off + angle) / 180 * Real.pi
    ⟨b, ⟨r * Real.cos ang + a.x, r * Real.sin ang + a.y⟩, a, angle, off, r⟩

/-- `IsCircle`, idf_common.cpp:1156-1164 -/
def Seg.isCircle (s : Seg) : Bool := decide (fullTurn s.angle)

/-- `GetMinX`, idf_common.cpp:1167-1208 -/
def Seg.minX (s : Seg) : ℝ :=
  if s.angle = 0 then min s.start.x s.stop.x
  else if s.isCircle then s.center.x - s.radius
  else if s.angle > 0 then
    if s.off + s.angle ≥ 180 then s.center.x - s.radius else min s.start.x s.stop.x
  else if s.off + s.angle ≤ -180 then s.center.x - s.radius
  else min s.start.x s.stop.x

/-- `SwapEnds`, idf_common.cpp:1211-1231 -/
def Seg.swap (s : Seg) : Seg :=
  if s.isCircle then { s with angle := -s.angle }
  else if s.angle < minAng ∧ s.angle > -minAng then { s with start := s.stop, stop := s.start }
  else { s with start := s.stop, stop := s.start, angle := -s.angle, off := angDeg s.center s.stop }

/-- `MatchesStart` and `MatchesEnd` with the default radius, idf_common.h:567, 579 and idf_common.cpp:1101-1110 -/
def Seg.matchesStart (s : Seg) (p : P2) : Bool := s.start.matches p 1e-3
/-- see `Seg.matchesStart` -/
def Seg.matchesEnd (s : Seg) (p : P2) : Bool := s.stop.matches p 1e-3

/-- the members of `IDF_OUTLINE`, idf_common.h:609-610 -/
structure Loop where
  dir : ℝ
  segs : List Seg

/-- `IDF_OUTLINE()` and `Clear`, idf_common.h:613, 632-641 -/
def Loop.empty : Loop := ⟨0, []⟩

/-- what a segment adds to `dir`, idf_common.cpp:1358-1384 -/
def windOf (s : Seg) : ℝ :=
  if s.angle < -minAng ∨ s.angle > minAng then
    let oang := (s.off + s.angle / 2) * Real.pi / 180
    let midx := s.center.x + s.radius * Real.cos oang
    let midy := s.center.y + s.radius * Real.sin oang
    (s.stop.x - midx) * (s.stop.y + midy) + (midx - s.start.x) * (midy + s.start.y)
  else (s.stop.x - s.start.x) * (s.stop.y + s.start.y)

/-- `IDF_OUTLINE::push`, idf_common.cpp:1327-1387: the outline afterwards and the result -/
def Loop.push (o : Loop) (s : Seg) : Loop × Bool :=
  match o.segs.getLast? with
  | some l =>
      if s.isCircle then (o, false)
      else if l.isCircle then (o, false)
      else if !s.matchesStart l.stop then (o, false)
      else (⟨o.dir + windOf s, o.segs ++ [s]⟩, true)
  | none => (⟨o.dir + windOf s, o.segs ++ [s]⟩, true)

/-- `IDF_OUTLINE::IsCCW`, idf_common.cpp:1234-1314 -/
def Loop.isCCW (o : Loop) : Bool :=
  match o.segs with
  | [] => false
  | [s] => s.isCircle
  | [s, t] =>
      let a1 := s.angle
      let a2 := t.angle
      if (a1 < -minAng ∨ a1 > minAng) ∧ (a2 < -minAng ∨ a2 > minAng) then
        if |a1 * s.radius| ≥ |a2 * t.radius| then !decide (a1 < 0) else !decide (a2 < 0)
      else if a1 < -minAng then false
      else if a1 > minAng then true
      else if a2 < -minAng then false
      else if a2 > minAng then true
      else false
  | s :: rest =>
      let l := rest.getLast?.getD s
      !decide (o.dir + (s.start.x - l.stop.x) * (s.start.y + l.stop.y) > 0)

/-- `GetOutline`, idf_common.cpp:898-921: the segments before the first one with the leftmost point, that segment and those
after it; `none` for an empty list -/
def leftmost : List Seg → Option (List Seg × Seg × List Seg)
  | [] => none
  | s :: l =>
    match leftmost l with
    | none => some ([], s, [])
    | some (pre, t, post) => if t.minX < s.minX then some (s :: pre, t, post) else some ([], s, l)

/-- `GetOutline`, idf_common.cpp:932-988: the first segment in the list that is not a circle and passes the test, and the
list without it -/
def takeFirst (f : Seg → Bool) : List Seg → Option (Seg × List Seg)
  | [] => none
  | s :: l =>
    if f s && !s.isCircle then some (s, l)
    else (takeFirst f l).map fun r => (r.1, s :: r.2)

theorem takeFirst_length {f : Seg → Bool} {l : List Seg} {s : Seg} {r : List Seg} (h : takeFirst f l = some (s, r)) :
    r.length < l.length := by
  induction l generalizing r with
  | nil => simp [takeFirst] at h
  | cons a l ih =>
    unfold takeFirst at h
    split at h
    · obtain ⟨-, rfl⟩ := Prod.mk.inj (Option.some.inj h); simp
    · cases h' : takeFirst f l with
      | none => rw [h'] at h; simp at h
      | some w =>
        rw [h'] at h
        obtain ⟨h1, h2⟩ := Prod.mk.inj (Option.some.inj h)
        have : takeFirst f l = some (s, w.2) := by rw [h', ← h1]
        have := ih this
        rw [← h2]; simpa using this

/-- the loop of `GetOutline`, idf_common.cpp:928-1030, with a non-empty outline `o`: the outline and the list afterwards.
The result of `push` is not looked at. -/
def assemble (o : Loop) (lines : List Seg) : Loop × List Seg :=
  let front := o.segs.head?.getD (lineSeg ⟨0, 0⟩ ⟨0, 0⟩)
  let back := o.segs.getLast?.getD front
  match h : takeFirst (fun s => s.matchesStart back.stop) lines with
  | some (s, rest) =>
      let o' := (o.push s).1
      if front.matchesStart (o'.segs.getLast?.getD front).stop then (o', rest)
      else
        have := takeFirst_length h
        assemble o' rest
  | none =>
      match h' : takeFirst (fun s => s.matchesEnd back.stop) lines with
      | some (s, rest) =>
          let o' := (o.push s.swap).1
          if front.matchesStart (o'.segs.getLast?.getD front).stop then (o', rest)
          else
            have := takeFirst_length h'
            assemble o' rest
      | none =>
          if o.segs.length > 1 ∨ front.angle < -minAng ∨ front.angle > minAng then
            ((o.push (lineSeg back.stop front.start)).1, lines)
          else (Loop.empty, lines)
  termination_by lines.length

/-- `GetOutline`, idf_common.cpp:887-1031: the outline and what is left of the list.  `none` for an empty list, where the
code reads through the end iterator and the behaviour is undefined. -/
def getOutline (lines : List Seg) : Option (Loop × List Seg) :=
  match leftmost lines with
  | none => none
  | some (pre, s, post) =>
      let o := (Loop.empty.push s).1
      if s.isCircle then some (o, pre ++ post) else some (assemble o (pre ++ post))

end
end Iges.Idf
