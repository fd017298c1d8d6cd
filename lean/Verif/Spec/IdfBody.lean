import Verif.Model.IdfBody
import Verif.Spec.IdfConvert
import Verif.Spec.Surface
/-
Independent specification for C89: a straight body over an outline.
-/
namespace Iges.Idf.Spec
open Iges.Idf Iges.Geo Iges.Spec

/-- The surfaces, together, are the points above or below the set `S` of the plane, between the heights `a` and `b`; up to `ε`. -/
def Walled (ε : ℝ) (S : P2 → Prop) (a b : ℝ) (ws : List Patch) : Prop :=
  Fits ε (fun x => ∃ w ∈ ws, PatchOn w x) (Upright (fun p => S ⟨p.x, p.y⟩) a b)

/-- A face has one boundary, which is the set `S` at the height `h`; both the curves in space and, through the surface, those in the parameter
plane; up to `ε`. -/
def Edged (ε : ℝ) (S : P2 → Prop) (h : ℝ) (f : Face) : Prop :=
  f.inner = [] ∧
  Fits ε (fun x => ∃ c ∈ f.outer.1, ∃ p, PlaneCurveOn c p ∧ x = faceAt f.plane p) (AtHeight (fun p => S ⟨p.x, p.y⟩) h) ∧
  Fits ε (fun x => ∃ c ∈ f.outer.2, CurveOn c x) (AtHeight (fun p => S ⟨p.x, p.y⟩) h)

/-- the surface that a face is cut out of -/
def under (f : Face) : Patch := .bilinear f.plane.1 f.plane.2.1 f.plane.2.2.1 f.plane.2.2.2 [] []

/-- a face whose normal points up everywhere -/
def FacesUp (f : Face) : Prop := ∀ u v, ∃ n, NormalAt (under f) u v n ∧ n.x = 0 ∧ n.y = 0 ∧ 0 < n.z

/-- a face whose normal points down everywhere -/
def FacesDown (f : Face) : Prop := ∀ u v, ∃ n, NormalAt (under f) u v n ∧ n.x = 0 ∧ n.y = 0 ∧ n.z < 0

/-- A wall whose normal points everywhere to the right of the direction in which a segment of the outline runs. -/
def FacesRight (o : Outline) (w : Patch) : Prop :=
  ∃ s ∈ o.segs, ∀ u v, ∃ d, Heading s (surfaceAt w u v) d ∧ NormalAt w u v (cross d ⟨0, 0, 1⟩)

/-- A wall whose normal points everywhere to the left of the direction in which a segment of the outline runs. -/
def FacesLeft (o : Outline) (w : Patch) : Prop :=
  ∃ s ∈ o.segs, ∀ u v, ∃ d, Heading s (surfaceAt w u v) d ∧ NormalAt w u v (cross ⟨0, 0, 1⟩ d)

/-- The tolerance for the ends of arcs; lines and circles need none. -/
def Item.Within (ε : ℝ) : Item → Prop
  | .arc a b θ => ∀ c, turnDeg c θ a = b → 1e-8 ≤ ε ∧ 1e-8 ≤ ε * Real.sqrt (gap2 a c)
  | _ => 0 ≤ ε

/-- What the surfaces of a segment need: it was made by the functions of the library, its ends differ, it has a length, an arc that runs
counterclockwise starts at an angle of at most π, the ends are exact up to `ε` and a wall of ordinary height can be made over it. -/
structure Ready (ε : ℝ) (s : Geo.Seg) : Prop where
  made : Iges.Spec.Made s
  ends : s.kind = .arc → PointMatches s.getStart s.getEnd 1e-8 = false
  tol : endTol s ≤ ε
  angle : s.kind = .arc → s.cw = false → s.startAngle ≤ Real.pi
  length : 0 < s.length
  wall : ∀ top bot rev, 0.001 ≤ |top - bot| → (segmentWall top bot s rev).isSome
  size : ∀ b, s.box = some b → b.1.x < b.2.x ∨ b.1.y < b.2.y

/-- The boundaries of the face of a board: the outline, then each cutout and each hole, all at the height `h`. -/
def EdgedBoard (ε : ℝ) (b : Geo.Board) (h : ℝ) (f : Face) : Prop :=
  List.Forall₂ (fun (l : List Geo.Seg) (o : List PlaneCurve × List Curve) =>
      Fits ε (fun x => ∃ c ∈ o.1, ∃ p, PlaneCurveOn c p ∧ x = faceAt f.plane p) (AtHeight (fun p => ∃ s ∈ l, Covers s p) h) ∧
      Fits ε (fun x => ∃ c ∈ o.2, CurveOn c x) (AtHeight (fun p => ∃ s ∈ l, Covers s p) h))
    (b.outline.segs :: b.cutouts ++ b.holes.map fun s => [s]) (f.outer :: f.inner)

/-- all the segments of a board -/
def edges (b : Geo.Board) : List Geo.Seg := b.outline.segs ++ b.holes ++ b.cutouts.flatten

end Iges.Idf.Spec
