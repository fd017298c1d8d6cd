import Verif.Spec.IdfSeg
/-
Independent specification for C96: the shape of a slot.
-/
namespace Iges.Idf.Spec
open Iges.Idf

/-- the straight line of the given length and direction (in degrees) whose middle is (x, y) -/
def Axis (length direction x y : ℝ) (a : P2) : Prop :=
  ∃ s : ℝ, |s| ≤ length / 2 ∧ a = ⟨x + s * Real.cos (direction * Real.pi / 180), y + s * Real.sin (direction * Real.pi / 180)⟩

/-- the point `p` is at distance `d` from the set: no point of it is nearer, and one is as near as that -/
def AtDistance (d : ℝ) (S : P2 → Prop) (p : P2) : Prop :=
  (∀ a, S a → d ^ 2 ≤ gap2 p a) ∧ ∃ a, S a ∧ gap2 p a = d ^ 2

/-- `p` is a point of the segment -/
def OnSeg (s : Seg) (p : P2) : Prop :=
  (s.angle = 0 ∧ OnLine s.start s.stop p) ∨ (s.angle ≠ 0 ∧ OnArc s.center s.start s.angle p)

end Iges.Idf.Spec
