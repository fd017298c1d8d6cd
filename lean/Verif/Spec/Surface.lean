import Mathlib.Analysis.Convex.Basic
import Mathlib.Analysis.Convex.Hull
import Mathlib.Analysis.Calculus.Deriv.Basic
import Verif.Model.Surface
import Verif.Spec.SegPoints
import Verif.Spec.Geom
/-
Independent specification for C69 and C70: what the entities 100, 110, 120, 128 and 144 stand for according to the IGES
standard, and what it means that a set of points is another one up to a tolerance.
-/
namespace Iges.Spec
open Iges.Geo

/-- the point `(x, y)` of the plane at the height `h` -/
def lift (p : Point ℝ) (h : ℝ) : Point ℝ := ⟨p.x, p.y, h⟩

/-- the point at parameter `t` of the straight line from `a` to `b` -/
def along (a b : Point ℝ) (t : ℝ) : Point ℝ := (a.scale (1 - t)).add (b.scale t)

/-- Entity 110 is the straight line between its points.  Entity 100 is the arc which, in the plane at height `zOffset`,
runs counterclockwise about the centre from the start point to the end point, and is then moved by its transform. -/
def CurveOn : Curve → Point ℝ → Prop
  | .line a b, p => ∃ t : ℝ, 0 ≤ t ∧ t ≤ 1 ∧ p = along a b t
  | .arc a, p => ∃ q, OnArc (pt a.xCenter a.yCenter) (pt a.xStart a.yStart) (pt a.xEnd a.yEnd) false q ∧
      p = (a.tx.getD Transform.one).act (lift q a.zOffset)

/-- where a curve starts -/
def curveFirst : Curve → Point ℝ
  | .line a _ => a
  | .arc a => (a.tx.getD Transform.one).act ⟨a.xStart, a.yStart, a.zOffset⟩

/-- where a curve ends -/
def curveLast : Curve → Point ℝ
  | .line _ b => b
  | .arc a => (a.tx.getD Transform.one).act ⟨a.xEnd, a.yEnd, a.zOffset⟩

/-- The curves run end to end from `a` to `b`. -/
def Runs (a : Point ℝ) : List Curve → Point ℝ → Prop
  | [], b => a = b
  | c :: l, b => curveFirst c = a ∧ Runs (curveLast c) l b

/-- Each point of either set has a point of the other set at a distance of at most `ε`. -/
def Fits (ε : ℝ) (P Q : Point ℝ → Prop) : Prop :=
  (∀ p, P p → ∃ q, Q q ∧ dist2 p q ≤ ε ^ 2) ∧ ∀ q, Q q → ∃ p, P p ∧ dist2 p q ≤ ε ^ 2

/-- how far the end points of a segment may be off the points it stands for: only those of an arc are not exact, see
`boxTol` -/
noncomputable def endTol (s : Seg) : ℝ :=
  match s.kind with
  | .arc => max 1e-8 (1e-8 / s.radius)
  | _ => 0

def dot (p q : Point ℝ) : ℝ := p.x * q.x + p.y * q.y + p.z * q.z

def cross (p q : Point ℝ) : Point ℝ := ⟨p.y * q.z - p.z * q.y, p.z * q.x - p.x * q.z, p.x * q.y - p.y * q.x⟩

/-- `p` turned by `θ` about the straight line from `a` to `b`, counterclockwise for someone who looks from `b` towards `a`
(the formula of Rodrigues) -/
noncomputable def revolve (a b : Point ℝ) (θ : ℝ) (p : Point ℝ) : Point ℝ :=
  let n := (b.sub a).scale (1 / Real.sqrt (norm2 (b.sub a)))
  let v := p.sub a
  a.add (((v.scale (Real.cos θ)).add ((cross n v).scale (Real.sin θ))).add (n.scale (dot n v * (1 - Real.cos θ))))

/-- the point at `(u, v)` of a surface: entity 120 turns the point at `u` of the generatrix by `v` about the axis; entity
128 is here the bilinear patch through four points -/
noncomputable def surfaceAt : Patch → ℝ → ℝ → Point ℝ
  | .revolved a0 a1 g0 g1 _ _, u, v => revolve a0 a1 v (along g0 g1 u)
  | .bilinear d00 d10 d01 d11 _ _, u, v => along (along d00 d10 u) (along d01 d11 u) v

/-- the corners of the boundary in the parameter plane -/
def cornersOf : Patch → List (ℝ × ℝ)
  | .revolved _ _ _ _ l _ => l
  | .bilinear _ _ _ _ l _ => l

/-- the boundary in space -/
def outerOf : Patch → List Curve
  | .revolved _ _ _ _ _ l => l
  | .bilinear _ _ _ _ _ l => l

/-- The points of a trimmed surface whose boundary in the parameter plane is a convex polygon: those with parameters in
the convex hull of the corners. -/
def PatchOn (w : Patch) (p : Point ℝ) : Prop :=
  ∃ u v : ℝ, (u, v) ∈ convexHull ℝ {c | c ∈ cornersOf w} ∧ p = surfaceAt w u v

/-- the side of the polygon from corner `a` to corner `b`, as points of the surface -/
def SideOn (w : Patch) (a b : ℝ × ℝ) (p : Point ℝ) : Prop :=
  ∃ t : ℝ, 0 ≤ t ∧ t ≤ 1 ∧ p = surfaceAt w ((1 - t) * a.1 + t * b.1) ((1 - t) * a.2 + t * b.2)

/-- The boundary of a surface with four sides: the curves in space run round and come back, and each side of the boundary in
the parameter plane is, on the surface, the curve in space up to `ε`. -/
def Bounded (ε : ℝ) (w : Patch) : Prop :=
  ∃ k0 k1 k2 k3 c0 c1 c2 c3,
    cornersOf w = [k0, k1, k2, k3] ∧ outerOf w = [c0, c1, c2, c3] ∧
    Runs (curveFirst c0) [c0, c1, c2, c3] (curveFirst c0) ∧
    Fits ε (SideOn w k0 k1) (CurveOn c0) ∧ Fits ε (SideOn w k1 k2) (CurveOn c1) ∧
    Fits ε (SideOn w k2 k3) (CurveOn c2) ∧ Fits ε (SideOn w k3 k0) (CurveOn c3)

/-- the points of a wall: above or below a point of the plane with the property, between the heights `a` and `b` in either
order -/
def Upright (P : Point ℝ → Prop) (a b : ℝ) (p : Point ℝ) : Prop :=
  P (pt p.x p.y) ∧ min a b ≤ p.z ∧ p.z ≤ max a b

/-- the direction in which a segment runs at one of its points, with any positive length: along the line, or at right
angles to the radius, counterclockwise or clockwise -/
def Heading (s : Seg) (p d : Point ℝ) : Prop :=
  d.z = 0 ∧ match s.kind with
  | .none => False
  | .line => ∃ k : ℝ, 0 < k ∧ d.x = k * (s.stop.x - s.start.x) ∧ d.y = k * (s.stop.y - s.start.y)
  | _ => ∃ k : ℝ, 0 < k ∧
      d.x = (if s.cw then 1 else -1) * (k * (p.y - s.center.y)) ∧ d.y = (if s.cw then -1 else 1) * (k * (p.x - s.center.x))

/-- `n` is a normal of the surface at `(u, v)` on the side for which the parameters run counterclockwise: the vector product
of the derivatives by `u` and by `v`. -/
def NormalAt (w : Patch) (u v : ℝ) (n : Point ℝ) : Prop :=
  ∃ du dv : Point ℝ,
    (HasDerivAt (fun t => (surfaceAt w t v).x) du.x u ∧ HasDerivAt (fun t => (surfaceAt w t v).y) du.y u ∧
      HasDerivAt (fun t => (surfaceAt w t v).z) du.z u) ∧
    (HasDerivAt (fun t => (surfaceAt w u t).x) dv.x v ∧ HasDerivAt (fun t => (surfaceAt w u t).y) dv.y v ∧
      HasDerivAt (fun t => (surfaceAt w u t).z) dv.z v) ∧
    n = cross du dv

/-- the points of a curve in the parameter plane: the straight line, or what the start point passes when it is turned about
the centre by up to `angle`, counterclockwise if `up` is set -/
def PlaneCurveOn : PlaneCurve → ℝ × ℝ → Prop
  | .line a b, p => ∃ t : ℝ, 0 ≤ t ∧ t ≤ 1 ∧ p = ((1 - t) * a.1 + t * b.1, (1 - t) * a.2 + t * b.2)
  | .arc s c φ up, p => ∃ t : ℝ, 0 ≤ t ∧ t ≤ φ ∧
      pt p.1 p.2 = turn (pt c.1 c.2) (if up then t else -t) (pt s.1 s.2)

def planeFirst : PlaneCurve → ℝ × ℝ
  | .line a _ => a
  | .arc s _ _ _ => s

noncomputable def planeLast : PlaneCurve → ℝ × ℝ
  | .line _ b => b
  | .arc s c φ up =>
      let q := turn (pt c.1 c.2) (if up then φ else -φ) (pt s.1 s.2)
      (q.x, q.y)

/-- the point of a face at `(u, v)`: the bilinear patch through the four points -/
def faceAt (d : Point ℝ × Point ℝ × Point ℝ × Point ℝ) (p : ℝ × ℝ) : Point ℝ :=
  along (along d.1 d.2.1 p.1) (along d.2.2.1 d.2.2.2 p.1) p.2

/-- The curves, seen as curves on the face, run from `a` to `b` with gaps of at most `ε`. -/
def RunsOn (ε : ℝ) (d : Point ℝ × Point ℝ × Point ℝ × Point ℝ) (a : Point ℝ) : List PlaneCurve → Point ℝ → Prop
  | [], b => dist2 a b ≤ ε ^ 2
  | c :: l, b => dist2 a (faceAt d (planeFirst c)) ≤ ε ^ 2 ∧ RunsOn ε d (faceAt d (planeLast c)) l b

/-- the points with the property, at the height `h` -/
def AtHeight (P : Point ℝ → Prop) (h : ℝ) (p : Point ℝ) : Prop := P (pt p.x p.y) ∧ p.z = h

end Iges.Spec
