import Verif.Model.Cutout
import Verif.Spec.Crossed
import Verif.Spec.Merged
/-
Independent specification for C85: a board with its cutouts and holes.
-/
namespace Iges.Spec
open Iges.Geo

/-- the point is in the hole, not on its edge -/
def InHole (c : Seg) (x : Point ℝ) : Prop := planar2 x c.center < c.radius ^ 2

/-- There is material at the point: it is inside of the board, in none of the cutouts and in none of the holes. -/
def Material (p : Plate) (x : Point ℝ) : Prop :=
  Inside p.main.segs x ∧ (∀ c ∈ p.cutouts, ¬ Inside c.segs x) ∧ ∀ c ∈ p.holes, ¬ InHole c x

/-- At the point the cutouts are as they should be: no two of them overlap, and they are within the board. -/
def Orderly (p : Plate) (x : Point ℝ) : Prop :=
  (p.cutouts.Pairwise fun c d => ¬ (Inside c.segs x ∧ Inside d.segs x)) ∧ ∀ c ∈ p.cutouts, Inside c.segs x → Inside p.main.segs x

/-- a closed outline made of lines and arcs that runs once, counterclockwise, round a region in one piece -/
structure Regular (o : Outline) : Prop where
  closed : o.closed = true
  kind : ∀ s ∈ o.segs, s.kind = .line ∨ s.kind = .arc
  made : ∀ s ∈ o.segs, Made s
  sharp : ∀ s ∈ o.segs, Sharp s
  round : Round o.segs
  proper : Proper o.segs
  piece : OnePiece o.segs

/-- `GetIntersections` finds no common point of the two borders, and nothing else to report -/
def Separate (o a : Outline) : Prop := ∀ s ∈ o.segs, ∀ t ∈ a.segs, intersections s t = ⟨[], .none, false⟩

/-- The outlines cross in exactly two points, away from their corners, and the computed intersections and the answers of
`IsInside` are right. -/
structure Meeting (o a : Outline) : Prop where
  overlap : Overlap o.segs a.segs
  crosses : Crosses o.segs a.segs
  judged : JudgedBoth o a
  clean : Clean o.segs a.segs
  twice : Twice o.segs a.segs

/-- the point is on none of the borders -/
def OffBorders (p : Plate) (x : Point ℝ) : Prop := OffBorder p.main.segs x ∧ ∀ c ∈ p.cutouts, OffBorder c.segs x

end Iges.Spec
