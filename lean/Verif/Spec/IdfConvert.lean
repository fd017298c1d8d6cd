import Verif.Spec.IdfSeg
import Verif.Spec.Outline
import Verif.Model.DrillBundle
import Verif.Spec.IdfOutline
/-
Independent specification for C87: the outline of an IDF file, as the lines of the file give it.
-/
namespace Iges.Idf.Spec
open Iges.Idf Iges.Geo

/-- two successive points of an outline in the file, with the angle that goes with the second one -/
inductive Item where
  /-- a straight line -/
  | line (a b : P2)
  /-- an arc from `a` to `b` that turns by `θ` degrees -/
  | arc (a b : P2) (θ : ℝ)
  /-- the circle about `c` through `b`; the angle is 360 or -360 -/
  | circle (c b : P2) (θ : ℝ)

/-- the points -/
def Item.On (p : P2) : Item → Prop
  | .line a b => OnLine a b p
  | .arc a b θ => ∃ c, turnDeg c θ a = b ∧ OnArc c a θ p
  | .circle c b _ => gap2 p c = gap2 b c

/-- what the reader makes of it, idf_outlines.cpp:600-607 -/
noncomputable def Item.seg : Item → Seg
  | .line a b => lineSeg a b
  | .arc a b θ => arcSeg a b θ false
  | .circle c b θ => arcSeg c b θ false

/-- The two points are different, the angle is as it should be for the kind, and no radius is so small that the IGES library takes the
centre and the points of the arc for the same. -/
def Item.Valid : Item → Prop
  | .line a b => PointMatches a.flat b.flat 1e-8 = false
  | .arc a b θ => 0.01 < |θ| ∧ |θ| ≤ 359.99 ∧ PointMatches a.flat b.flat 1e-8 = false ∧
      ∀ c, turnDeg c θ a = b → PointMatches c.flat a.flat 1e-8 = false ∧ PointMatches c.flat b.flat 1e-8 = false
  | .circle c b θ => |(|θ| - 360)| < 0.01 ∧ ∀ q, gap2 q c = gap2 b c → PointMatches c.flat q.flat 1e-8 = false

/-- A segment of the IGES library is of the same kind and has the same ends; a circle has the same centre and an arc the same direction. -/
def Item.Like (m : Geo.Seg) : Item → Prop
  | .line a b => m.kind = .line ∧ m.start = a.flat ∧ m.stop = b.flat
  | .arc a b θ => m.kind = .arc ∧ m.start = a.flat ∧ m.stop = b.flat ∧ (m.cw = true ↔ θ < 0)
  | .circle c _ _ => m.kind = .circle ∧ m.center = c.flat

/-- a segment that was read from a file -/
noncomputable def _root_.Iges.Idf.QSeg.item (s : QSeg) : Item :=
  if s.angle = 0 then .line s.start.real s.stop.real
  else if s.isCircle then .circle s.start.real s.stop.real s.angle
  else .arc s.start.real s.stop.real s.angle

/-- The ends are not more than ten kilometres from the axes (the lengths are millimetres). -/
def _root_.Iges.Idf.QSeg.small (s : QSeg) : Prop :=
  |s.start.x| ≤ 10 ^ 7 ∧ |s.start.y| ≤ 10 ^ 7 ∧ |s.stop.x| ≤ 10 ^ 7 ∧ |s.stop.y| ≤ 10 ^ 7

end Iges.Idf.Spec
