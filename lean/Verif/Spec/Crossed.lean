import Verif.Spec.OutlineOp
import Verif.Spec.Turns
/-
Independent specification for C83: an outline and a circle that crosses it.
-/
namespace Iges.Spec
open Iges.Geo

/-- a point that the circle and the border of the outline have in common -/
def Common (l : List Seg) (c : Seg) (x : Point ℝ) : Prop := Covers c x ∧ ∃ s ∈ l, Covers s x

/-- The circle `c` crosses the outline with the segments `l` away from its corners. -/
structure Crossed (l : List Seg) (c : Seg) : Prop where
  /-- `GetIntersections` finds exactly the common points.  C62 and C64 say when. -/
  found : ∀ s ∈ l, ∀ x, (Covers s x ∧ Covers c x) ↔ ((intersections s c).ret = true ∧ x ∈ (intersections s c).pts)
  /-- different common points are not within the tolerance -/
  apart : ∀ x y, Common l c x → Common l c y → PointMatches x y 1e-8 = true → x = y
  /-- no corner is on the circle, up to the tolerance -/
  corner : ∀ s ∈ l, ∀ x, Covers c x → PointMatches x s.start 1e-8 = false
  /-- no point of the circle is on two segments -/
  single : l.Pairwise fun s t => ∀ x, Covers s x → Covers t x → ¬ Covers c x
  /-- an arc that the circle meets twice starts outside of the circle -/
  twice : ∀ s ∈ l, s.kind = .arc → (∃ x y, x ≠ y ∧ Covers s x ∧ Covers c x ∧ Covers s y ∧ Covers c y) →
    c.radius ^ 2 < planar2 s.start c.center

/-- `IsInside` is right about the points of the circle halfway between the common points.  C68 says when. -/
def Judged (o : Outline) (c : Seg) : Prop :=
  ∀ y, Covers c y → (∀ x x', Common o.segs c x → Common o.segs c x' → planar2 y x = planar2 y x') →
    ∀ b, isInside o y = some b → (b = true ↔ Inside o.segs y)

/-- `IsInside` is right about the points of the circle `c` halfway between the points that it has in common with the
circle `b`. -/
def JudgedDisc (o : Outline) (b c : Seg) : Prop :=
  ∀ y, Covers c y → (∀ x x', Common [b] c x → Common [b] c x' → planar2 y x = planar2 y x') →
    ∀ β, isInside o y = some β → (β = true ↔ planar2 y b.center < b.radius ^ 2)

end Iges.Spec
