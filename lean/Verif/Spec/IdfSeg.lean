import Verif.Model.IdfSeg
/-
Independent specification for C71 and C72: arcs as turned points, chains of segments, loops.
-/
namespace Iges.Idf.Spec
open Iges.Idf

/-- `p` turned about `c` by `θ` degrees, counterclockwise for positive `θ` -/
noncomputable def turnDeg (c : P2) (θ : ℝ) (p : P2) : P2 :=
  ⟨c.x + (p.x - c.x) * Real.cos (θ * Real.pi / 180) - (p.y - c.y) * Real.sin (θ * Real.pi / 180),
   c.y + (p.x - c.x) * Real.sin (θ * Real.pi / 180) + (p.y - c.y) * Real.cos (θ * Real.pi / 180)⟩

/-- squared distance -/
def gap2 (p q : P2) : ℝ := (p.x - q.x) ^ 2 + (p.y - q.y) ^ 2

/-- `p` lies on the arc about `c` that starts at `a` and turns by `θ` degrees. -/
def OnArc (c a : P2) (θ : ℝ) (p : P2) : Prop := ∃ t : ℝ, 0 ≤ t ∧ t ≤ 1 ∧ p = turnDeg c (t * θ) a

/-- `p` lies on the straight line from `a` to `b`. -/
def OnLine (a b p : P2) : Prop := ∃ t : ℝ, 0 ≤ t ∧ t ≤ 1 ∧ p = ⟨a.x + t * (b.x - a.x), a.y + t * (b.y - a.y)⟩

/-- two points are at most a micrometre apart -/
def Close (p q : P2) : Prop := gap2 p q ≤ (1 / 1000) ^ 2

/-- the same segment, perhaps walked from the other end -/
def SameSeg (s t : Seg) : Prop := t = s ∨ (t.start = s.stop ∧ t.stop = s.start ∧ (t.angle = s.angle ∨ t.angle = -s.angle) ∧
  t.center = s.center ∧ t.radius = s.radius)

/-- every segment begins where the one before it ends -/
def Chain : List Seg → Prop
  | s :: t :: l => Close s.stop t.start ∧ Chain (t :: l)
  | _ => True

/-- a segment that is not a full circle and joins two points, in either direction -/
def Joins (s : Seg) (p q : P2) : Prop :=
  |s.angle| ≤ 359.99 ∧ ((s.start = p ∧ s.stop = q) ∨ (s.start = q ∧ s.stop = p))

/-- twice the signed area of the polygon with these edges, positive when it is walked counterclockwise (the shoelace sum) -/
def area2 (edges : List (P2 × P2)) : ℝ := (edges.map fun e => e.1.x * e.2.y - e.2.x * e.1.y).sum

end Iges.Idf.Spec
