import Verif.Model.DrillBundle
import Verif.Spec.Plate
import Mathlib.Logic.Relation
/-
Independent specification for C88: drilled holes that overlap, and the board with its holes.
-/
namespace Iges.Spec
open Iges.Geo Relation

/-- The circles of two holes cross in two points: neither is within the other one, they overlap by a thousandth of a unit or
more, and they are not the same within a thousandth of a unit. -/
def HolesCross (a b : Seg) : Prop :=
  |a.radius - b.radius| < √(planar2 a.center b.center) ∧ √(planar2 a.center b.center) ≤ a.radius + b.radius - 0.001 ∧
    ¬ (PointMatches a.center b.center 1e-3 = true ∧ |a.radius - b.radius| < 1e-3)

/-- two holes have no point in common -/
def HolesApart (a b : Seg) : Prop := a.radius + b.radius < √(planar2 a.center b.center)

/-- The holes are divided into those that stay by themselves and bundles of holes that are connected by overlaps. -/
structure Bundled (drills alone : List Seg) (bundles : List (List Seg)) : Prop where
  /-- every hole is in one place -/
  all : (alone ++ bundles.flatten).Perm drills
  size : ∀ b ∈ bundles, 2 ≤ b.length
  linked : ∀ b ∈ bundles, ∀ x ∈ b, ∀ y ∈ b, ReflTransGen (fun u v => u ∈ b ∧ v ∈ b ∧ HolesCross u v) x y
  /-- holes that are not in the same bundle do not overlap -/
  alone_apart : alone.Pairwise HolesApart
  apart : ∀ x ∈ alone, ∀ b ∈ bundles, ∀ y ∈ b, HolesApart x y
  bundles_apart : bundles.Pairwise fun b b' => ∀ x ∈ b, ∀ y ∈ b', HolesApart x y

/-- an outline that is one circle, or is made of lines and arcs and runs once, counterclockwise, round its region -/
def SimpleBorder (o : Outline) : Prop :=
  (∃ b, o.segs = [b] ∧ Made b ∧ b.kind = .circle) ∨
  ((∀ s ∈ o.segs, (s.kind = .line ∨ s.kind = .arc) ∧ Made s ∧ Sharp s) ∧ Round o.segs ∧ Proper o.segs)

/-- the conditions of C83 for a circle that crosses an outline -/
def Apt (o : Outline) (d : Seg) : Prop :=
  (∃ b, o.segs = [b] ∧ b.kind = .circle ∧ JudgedDisc o b d) ∨
  ((∀ s ∈ o.segs, s.kind = .line ∨ s.kind = .arc) ∧ Crossed o.segs d ∧ Judged o d)

/-- Circles are cut out of an outline, or joined to it, one after the other: no call reports an error, and a circle that is
taken meets the conditions of C83. -/
def Tame (opsub : Bool) : Outline → List Seg → Prop
  | _, [] => True
  | o, d :: l => (opCircle o (some d) opsub).error = false ∧ ((opCircle o (some d) opsub).ret = true → Apt o d) ∧
      Tame opsub (opCircle o (some d) opsub).out l

/-- the outlines on the way -/
noncomputable def stages (opsub : Bool) : Outline → List Seg → List Outline
  | o, [] => [o]
  | o, d :: l => o :: stages opsub (opCircle o (some d) opsub).out l

/-- the circles that the outline does not take -/
noncomputable def untaken (opsub : Bool) : Outline → List Seg → List Seg
  | _, [] => []
  | o, d :: l =>
    if (opCircle o (some d) opsub).ret = true then untaken opsub (opCircle o (some d) opsub).out l
    else d :: untaken opsub (opCircle o (some d) opsub).out l

/-- the outline at the end of the way -/
noncomputable def final (opsub : Bool) : Outline → List Seg → Outline
  | o, [] => o
  | o, d :: l => final opsub (opCircle o (some d) opsub).out l

/-- as `Tame`, for a list of outlines each of which is given the circles that the ones before it have not taken -/
def TameAll : List Seg → List Outline → Prop
  | _, [] => True
  | l, c :: cs => Tame false c l ∧ TameAll (untaken false c l) cs

/-- the outlines on the way, for a list of outlines -/
noncomputable def stagesAll : List Seg → List Outline → List Outline
  | _, [] => []
  | l, c :: cs => stages false c l ++ stagesAll (untaken false c l) cs

/-- the outlines at the end -/
noncomputable def finalAll : List Seg → List Outline → List Outline
  | _, [] => []
  | l, c :: cs => final false c l :: finalAll (untaken false c l) cs

/-- The holes are in the order of their distance from the edge of the hole `f`. -/
def ByDistance (f : Seg) (l : List Seg) : Prop :=
  l.Pairwise fun a b => √(planar2 f.center a.center) - a.radius ≤ √(planar2 f.center b.center) - b.radius

/-- the outline that is the edge of a hole -/
noncomputable def edgeOf (f : Seg) : Outline := (addSegment .new (some f)).1

/-- `f :: l` is a bundle of the holes, and `l'` are the holes of `l` in the order in which they are to be joined to `f` -/
def Order (drills : List Seg) (f : Seg) (l l' : List Seg) : Prop :=
  (∃ alone bundles, Bundled drills alone bundles ∧ f :: l ∈ bundles) ∧ l'.Perm l ∧ ByDistance f l'

/-- the conditions of C83 when the holes of each bundle are joined -/
def BundlesTame (drills : List Seg) : Prop := ∀ f l l', Order drills f l l' → Tame false (edgeOf f) l'

/-- the point is on none of the borders that occur when the holes of the bundles are joined -/
def OffBundles (drills : List Seg) (x : Point ℝ) : Prop :=
  ∀ f l l', Order drills f l l' → ∀ s ∈ stages false (edgeOf f) l', OffBorder s.segs x

end Iges.Spec
