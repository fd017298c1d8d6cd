import Verif.Model.OutlineOp
import Verif.Spec.Outline
/-
Independent specification for C82: cutting a circle out of an outline and joining a circle to it.
-/
namespace Iges.Spec
open Iges.Geo

/-- `GetIntersections` of the segment with the circle gives points that are exactly on both.  C62 and C64 say when. -/
def Exact (c s : Seg) : Prop := ∀ x ∈ (intersections s c).pts, Covers s x ∧ Covers c x

/-- the segment has at most one point on the circle, as far as `GetIntersections` tells -/
def OneHit (c s : Seg) : Prop := ∀ x ∈ (intersections s c).pts, ∀ y ∈ (intersections s c).pts, x = y

/-- the point of the circle `c` farthest to the left of the line `s`, looking from its start to its end -/
noncomputable def leftmost (c s : Seg) : Point ℝ :=
  let d := √(planar2 s.stop s.start)
  pt (c.center.x - c.radius * ((s.stop.y - s.start.y) / d)) (c.center.y + c.radius * ((s.stop.x - s.start.x) / d))

/-- An outline that has a border: one circle, or lines and arcs only. -/
def Bordered (o : Outline) : Prop :=
  (∃ s, o.segs = [s] ∧ s.kind = .circle) ∨ ∀ s ∈ o.segs, s.kind = .line ∨ s.kind = .arc

end Iges.Spec
