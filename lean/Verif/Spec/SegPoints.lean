import Verif.Model.SegSplit
import Verif.Spec.Segment
/-
Independent specification for C61-C65, in terms of what the getters of a segment give back.
-/
namespace Iges.Spec
open Iges.Geo

/-- the point at distance `r` from `c` in the direction `a` -/
noncomputable def polar (c : Point ℝ) (r a : ℝ) : Point ℝ := pt (c.x + r * Real.cos a) (c.y + r * Real.sin a)

/-- the points a segment stands for, by its kind, ends, centre, radius and angles (`GetSegType`, `GetStart`, `GetEnd`,
`GetCenter`, `GetRadius`, `GetStartAngle`, `GetEndAngle`) -/
def Covers (s : Seg) (p : Point ℝ) : Prop :=
  match s.kind with
  | .none => False
  | .line => OnLine s.getStart s.getEnd p
  | .circle => OnCircle s.center s.radius p
  | .arc => ∃ a, s.startAngle ≤ a ∧ a ≤ s.endAngle ∧ p = polar s.center s.radius a

/-- `p` is in the direction of a point of the arc or circle, as seen from the centre -/
def Facing (s : Seg) (p : Point ℝ) : Prop :=
  match s.kind with
  | .arc => ∃ a ρ, s.startAngle ≤ a ∧ a ≤ s.endAngle ∧ 0 < ρ ∧ p = polar s.center ρ a
  | .circle => p.x ≠ s.center.x ∨ p.y ≠ s.center.y
  | _ => True

/-- The segments run end to end from `a` to `b`, by `GetMStart` and `GetMEnd`. -/
def Joined (a : Point ℝ) : List Seg → Point ℝ → Prop
  | [], b => a = b
  | t :: l, b => t.start = a ∧ Joined t.stop l b

/-- The segments a program can have: those set by `SetParams`, and what reversing (done by outlines) and splitting make of
them.  The points at which a segment is split lie in the plane and face the segment. -/
inductive Made : Seg → Prop where
  | line {a b s} : setLine a b = (s, true) → Made s
  | arc {c a b cw s} : setArc c a b cw = (s, true) → Made s
  | reverse {s} : Made s → Made s.reverse
  | split {s pts s' l t} : Made s → s.split pts = some (s', l) → (∀ p ∈ pts, p.z = 0 ∧ Facing s p) →
      t ∈ s' :: l → Made t

/-- The segments in the list divide `s`: they have exactly its points and together its length, so they do not overlap. -/
def Divides (s : Seg) (l : List Seg) : Prop :=
  (∀ x, Covers s x ↔ ∃ t ∈ l, Covers t x) ∧ (l.map Seg.length).sum = s.length ∧ ∀ t ∈ l, t.kind ≠ .none

/-- how far the box of `GetBoundingBox` may be off: nothing for a circle; 1e-8 for a line, because a line that is vertical
up to 1e-8 is taken as vertical; for an arc the distance of its end points from its circle, which `SetParams` accepts up
to 1e-8 and `Split` up to a difference of the squares of 1e-8 -/
noncomputable def boxTol (s : Seg) : ℝ :=
  match s.kind with
  | .line => 1e-8
  | .arc => max 1e-8 (1e-8 / s.radius)
  | _ => 0

end Iges.Spec
