import Verif.Spec.Outline
/-! What C68 asks of a straight segment and a point when corners at the height of the point are allowed. -/
namespace Iges.Spec
open Iges.Geo

/-- The segment is straight and does not come close to `p` at its height.  An end of it is at the height of `p` or not close to that height, and it is horizontal
or rises noticeably.  `w` is the width of the bounding box of the outline. -/
def Apart (w : ℝ) (p : Point ℝ) (s : Seg) : Prop :=
  s.kind = .line ∧ (∀ q, Covers s q → q.y = p.y → 1e-8 * (w + 5) < |q.x - p.x|) ∧
  (s.start.y = p.y ∨ 4e-8 + 1e-8 * |s.stop.y - s.start.y| < |p.y - s.start.y|) ∧
  (s.stop.y = p.y ∨ 4e-8 + 1e-8 * |s.stop.y - s.start.y| < |p.y - s.stop.y|) ∧
  ((s.start.y = s.stop.y ∧ s.start.x ≠ s.stop.x ∧ (s.start.y = p.y ∨ 1e-6 < |s.stop.x - s.start.x| * |p.y - s.start.y|)) ∨
    2e-7 ≤ |s.stop.y - s.start.y|)

end Iges.Spec
