import Mathlib.Analysis.SpecialFunctions.Trigonometric.Basic
import Verif.Model.Geom
/-
Independent specification for C61-C65: the points of a line, an arc and a circle in the plane, and boxes.  Nothing here
uses `atan2` or the angles kept by the code.
-/
namespace Iges.Spec

/-- the point of the plane at coordinates `x`, `y` -/
def pt (x y : ℝ) : Point ℝ := ⟨x, y, 0⟩

/-- squared distance in the plane -/
def planar2 (p q : Point ℝ) : ℝ := (p.x - q.x) ^ 2 + (p.y - q.y) ^ 2

/-- `p` lies on the straight line from `a` to `b`. -/
def OnLine (a b p : Point ℝ) : Prop :=
  ∃ t : ℝ, 0 ≤ t ∧ t ≤ 1 ∧ p = pt (a.x + t * (b.x - a.x)) (a.y + t * (b.y - a.y))

/-- `p` turned about `c` by `θ`, counterclockwise for positive `θ` -/
noncomputable def turn (c : Point ℝ) (θ : ℝ) (p : Point ℝ) : Point ℝ :=
  pt (c.x + (p.x - c.x) * Real.cos θ - (p.y - c.y) * Real.sin θ)
     (c.y + (p.x - c.x) * Real.sin θ + (p.y - c.y) * Real.cos θ)

/-- `b` is in the same direction from `c` as `a`. -/
def SameDirection (c a b : Point ℝ) : Prop :=
  ∃ k : ℝ, 0 < k ∧ b.x - c.x = k * (a.x - c.x) ∧ b.y - c.y = k * (a.y - c.y)

/-- Turning `s` about `c` by less than a full turn, clockwise when `cw` is set and otherwise counterclockwise, first
brings it in the direction of `e` after the angle `φ`. -/
def Sweep (c s e : Point ℝ) (cw : Bool) (φ : ℝ) : Prop :=
  0 < φ ∧ φ < 2 * Real.pi ∧ SameDirection c (turn c (if cw then -φ else φ) s) e

/-- `p` lies on the arc about `c` that starts at `s` and runs, in the given sense, to the direction of `e`. -/
def OnArc (c s e : Point ℝ) (cw : Bool) (p : Point ℝ) : Prop :=
  ∃ φ : ℝ, Sweep c s e cw φ ∧ ∃ θ : ℝ, 0 ≤ θ ∧ θ ≤ φ ∧ p = turn c (if cw then -θ else θ) s

/-- `p` lies on the circle about `c` of radius `r`. -/
def OnCircle (c : Point ℝ) (r : ℝ) (p : Point ℝ) : Prop := planar2 p c = r ^ 2 ∧ p.z = 0

/-- `p` lies in the box, or outside of it by at most `ε`. -/
def InBox (ε : ℝ) (b : Point ℝ × Point ℝ) (p : Point ℝ) : Prop :=
  b.1.x - ε ≤ p.x ∧ p.x ≤ b.2.x + ε ∧ b.1.y - ε ≤ p.y ∧ p.y ≤ b.2.y + ε

/-- Each of the four sides of the box comes within `ε` of a point that has the property. -/
def Tight (ε : ℝ) (P : Point ℝ → Prop) (b : Point ℝ × Point ℝ) : Prop :=
  (∃ p, P p ∧ |p.x - b.1.x| ≤ ε) ∧ (∃ p, P p ∧ |p.x - b.2.x| ≤ ε) ∧
  (∃ p, P p ∧ |p.y - b.1.y| ≤ ε) ∧ (∃ p, P p ∧ |p.y - b.2.y| ≤ ε)

/-- twice the area of the triangle spanned by the directions of two lines: its absolute value is the product of their
lengths and the sine of the angle between them -/
def across (a b c d : Point ℝ) : ℝ := (d.x - c.x) * (b.y - a.y) - (d.y - c.y) * (b.x - a.x)

/-- `p` is the point of the straight line through `a` and `b` at parameter `t`: `a` is at 0 and `b` at 1. -/
def AtParam (a b : Point ℝ) (t : ℝ) (p : Point ℝ) : Prop := p = pt (a.x + t * (b.x - a.x)) (a.y + t * (b.y - a.y))

end Iges.Spec
