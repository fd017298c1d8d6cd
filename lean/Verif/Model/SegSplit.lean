import Verif.Model.Segment
/-
Splitting a segment at one or two points: `MCAD_SEGMENT::Split`, geom/mcad_segment.cpp:352-427 and 1649-2023.
Exact real arithmetic as in Model/Segment.lean.
-/
namespace Iges.Geo
open Classical

noncomputable section

/-- the parameter of a split point on a line, mcad_segment.cpp:1683-1697, 1712, 1741 (`(num + y) * den`) -/
def lineParam (s : Seg) (p : Point ℝ) : ℝ :=
  if |s.stop.x - s.start.x| < |s.stop.y - s.start.y| then (-s.start.y + p.y) * (1 / (s.stop.y - s.start.y))
  else (-s.start.x + p.x) * (1 / (s.stop.x - s.start.x))

/-- the tests of `splitLine` on one split point, mcad_segment.cpp:1708-1770 -/
def lineTakes (s : Seg) (p : Point ℝ) : Prop :=
  let t := lineParam s p
  ¬ (t < 0 ∨ t > 1) ∧
  (if |s.stop.x - s.start.x| < |s.stop.y - s.start.y| then ¬ |t * (s.stop.x - s.start.x) + s.start.x - p.x| > 1e-8
   else ¬ |t * (s.stop.y - s.start.y) + s.start.y - p.y| > 1e-8)

/-- `splitLine`, mcad_segment.cpp:1649-1796: the segment afterwards and the new segments, `none` when it returns
false (and then nothing has changed). -/
def splitLine (s : Seg) : List (Point ℝ) → Option (Seg × List Seg)
  | [p] => if lineTakes s p then some ({ s with stop := p }, [(setLine p s.stop).1]) else none
  | [p, q] =>
      if lineTakes s p ∧ lineTakes s q then
        let u := if lineParam s p < lineParam s q then (p, q) else (q, p)
        some ({ s with stop := u.1 }, [(setLine u.1 u.2).1, (setLine u.2 s.stop).1])
      else none
  | _ => none

/-- the first loop of `NORMALIZE_ANGLES`, mcad_segment.cpp:41-45 -/
def normDown (a b : ℝ) : ℝ × ℝ :=
  if h : a > Real.pi ∧ b > Real.pi then normDown (a - 2 * Real.pi) (b - 2 * Real.pi) else (a, b)
  termination_by ⌈a / (2 * Real.pi)⌉₊
  decreasing_by
    have hp := Real.pi_pos
    have e : (a - 2 * Real.pi) / (2 * Real.pi) = a / (2 * Real.pi) - 1 := by field_simp
    rw [e, Nat.ceil_sub_one]
    have : 0 < ⌈a / (2 * Real.pi)⌉₊ := Nat.ceil_pos.2 (div_pos (lt_trans hp h.1) (by positivity))
    omega

/-- the second loop of `NORMALIZE_ANGLES`, mcad_segment.cpp:47-51 -/
def normUp (a b : ℝ) : ℝ × ℝ :=
  if h : a ≤ -Real.pi ∧ b ≤ -Real.pi then normUp (a + 2 * Real.pi) (b + 2 * Real.pi) else (a, b)
  termination_by ⌈-a / (2 * Real.pi)⌉₊
  decreasing_by
    have hp := Real.pi_pos
    have e : -(a + 2 * Real.pi) / (2 * Real.pi) = -a / (2 * Real.pi) - 1 := by field_simp; ring
    rw [e, Nat.ceil_sub_one]
    have : 0 < ⌈-a / (2 * Real.pi)⌉₊ := Nat.ceil_pos.2 (div_pos (by linarith [h.1]) (by positivity))
    omega

/-- `NORMALIZE_ANGLES`, mcad_segment.cpp:39-52 -/
def normalize (a b : ℝ) : ℝ × ℝ := let n := normDown a b; normUp n.1 n.2

/-- the arc `sp` that `splitArc` fills in member by member, mcad_segment.cpp:1829-1842, 1893-1906, 1910-1922: the circle,
sense and kind of `s` with new ends and normalized angles -/
def subArc (s : Seg) (p q : Point ℝ) (a b : ℝ) : Seg :=
  let n := normalize a b
  ⟨.arc, s.center, p, q, s.radius, n.1, n.2, s.cw⟩

/-- the direction of a split point as `splitArc` brings it into the range of the arc, mcad_segment.cpp:1816-1819 -/
def arcParam (s : Seg) (p : Point ℝ) : ℝ :=
  let a := atan2 (p.y - s.center.y) (p.x - s.center.x)
  if a < s.startAngle then a + 2 * Real.pi else a

/-- the test `abs( dd - dr ) > 1e-8` on a split point, mcad_segment.cpp:1803-1813, 1850-1860 -/
def onCircle (s : Seg) (p : Point ℝ) : Prop :=
  ¬ |((p.x - s.center.x) * (p.x - s.center.x) + (p.y - s.center.y) * (p.y - s.center.y)) - s.radius * s.radius| > 1e-8

/-- the tests of `splitArc` on one split point, mcad_segment.cpp:1803-1825 -/
def arcTakes (s : Seg) (p : Point ℝ) : Prop := onCircle s p ∧ ¬ arcParam s p > s.endAngle

/-- `splitArc`, mcad_segment.cpp:1799-1936 -/
def splitArc (s : Seg) : List (Point ℝ) → Option (Seg × List Seg)
  | [p] =>
      if arcTakes s p then
        some ({ s with stop := p, eang := arcParam s p }, [subArc s p s.stop (arcParam s p) s.eang])
      else none
  | [p, q] =>
      if arcTakes s p ∧ arcTakes s q then
        let a := arcParam s p
        let b := arcParam s q
        let u := if (s.cw = true ∧ b > a) ∨ (s.cw = false ∧ b < a) then ((q, b), (p, a)) else ((p, a), (q, b))
        some ({ s with stop := u.1.1, eang := u.1.2 },
              [subArc s u.1.1 u.2.1 u.1.2 u.2.2, subArc s u.2.1 s.stop u.2.2 s.eang])
      else none
  | _ => none

/-- one of the two arcs of `splitCircle`, mcad_segment.cpp:1992-2020: counterclockwise from `p` to `q` -/
def circleArc (s : Seg) (p q : Point ℝ) : Seg :=
  let a := atan2 (p.y - s.center.y) (p.x - s.center.x)
  let b := atan2 (q.y - s.center.y) (q.x - s.center.x)
  let n := normalize a (if a > b then b + 2 * Real.pi else b)
  ⟨.arc, s.center, p, q, s.radius, n.1, n.2, false⟩

/-- `splitCircle`, mcad_segment.cpp:1939-2023 -/
def splitCircle (s : Seg) : List (Point ℝ) → Option (Seg × List Seg)
  | [p, q] =>
      if |p.x - q.x| < 1e-8 ∧ |p.y - q.y| < 1e-8 then none
      else if onCircle s p ∧ onCircle s q then some (circleArc s q p, [circleArc s p q])
      else none
  | _ => none

/-- `Split`, mcad_segment.cpp:352-427: the segment afterwards and the new segments, `none` when it returns false.  The
list of points is a reference in the code and loses the points at the ends of the segment; no caller reads it again. -/
def Seg.split (s : Seg) (pts : List (Point ℝ)) : Option (Seg × List Seg) :=
  if s.kind = .none then none
  else if pts.length = 0 ∨ pts.length > 2 then none
  else
    let inner := pts.filter fun p => !(PointMatches p s.start 1e-8 || PointMatches p s.stop 1e-8)
    match s.kind with
    | .none => none
    | .line => if inner = [] then none else splitLine s inner
    | .arc => if inner = [] then none else splitArc s inner
    | .circle => splitCircle s pts

end
end Iges.Geo
