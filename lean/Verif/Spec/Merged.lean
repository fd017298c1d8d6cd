import Mathlib.Topology.Connected.Basic
import Verif.Model.OutlineMerge
import Verif.Spec.Turns
/-
Independent specification for C84: two outlines that cross in two points.
-/
namespace Iges.Spec
open Iges.Geo

/-- a point that the borders of two outlines have in common -/
def Shared (l m : List Seg) (x : Point ℝ) : Prop := (∃ s ∈ l, Covers s x) ∧ ∃ t ∈ m, Covers t x

/-- The outlines with the segments `l` and `m` cross away from their corners. -/
structure Crosses (l m : List Seg) : Prop where
  /-- `GetIntersections` finds exactly the common points.  C62 and C64 say when. -/
  found : ∀ s ∈ l, ∀ t ∈ m, ∀ x, (Covers s x ∧ Covers t x) ↔ ((intersections s t).ret = true ∧ x ∈ (intersections s t).pts)
  /-- different common points are not within the tolerance -/
  apart : ∀ x y, Shared l m x → Shared l m y → PointMatches x y 1e-8 = true → x = y
  /-- no corner of an outline is a common point, up to the tolerance -/
  corner : ∀ s ∈ l ++ m, ∀ x, Shared l m x → PointMatches x s.start 1e-8 = false
  /-- no common point is on two segments of the same outline -/
  single : ∀ x, Shared l m x → (l.Pairwise fun s t => ¬ (Covers s x ∧ Covers t x)) ∧ m.Pairwise fun s t => ¬ (Covers s x ∧ Covers t x)

/-- `GetIntersections` reports no overlap of two segments: with points it reports nothing worse than an end or a tangent, and
without points it reports nothing. -/
def Clean (l m : List Seg) : Prop :=
  ∀ s ∈ l, ∀ t ∈ m, ((intersections s t).ret = true → (intersections s t).flag.fine = true) ∧
    ((intersections s t).ret = false → (intersections s t).flag = .none)

/-- The borders have exactly two points in common. -/
def Twice (l m : List Seg) : Prop := ∃ p q, p ≠ q ∧ ∀ x, Shared l m x ↔ x = p ∨ x = q

/-- The region of an outline is in one piece, and so is what is outside of it. -/
def OnePiece (l : List Seg) : Prop :=
  IsPreconnected {x : ℝ × ℝ | OffBorder l (pt x.1 x.2) ∧ Inside l (pt x.1 x.2)} ∧
  IsPreconnected {x : ℝ × ℝ | OffBorder l (pt x.1 x.2) ∧ ¬ Inside l (pt x.1 x.2)}

/-- The regions have points in common, and each has points that are not in the other one. -/
def Overlap (l m : List Seg) : Prop :=
  (∃ x, OffBorder l x ∧ OffBorder m x ∧ Inside l x ∧ Inside m x) ∧
  (∃ x, OffBorder l x ∧ OffBorder m x ∧ Inside l x ∧ ¬ Inside m x) ∧
  ∃ x, OffBorder l x ∧ OffBorder m x ∧ ¬ Inside l x ∧ Inside m x

/-- the pieces of one segment: those that `Split` makes of it at its common points -/
def Pieces (l m : List Seg) (s : Seg) (pcs : List Seg) : Prop :=
  (pcs = [s] ∧ ∀ x, Covers s x → ¬ Shared l m x) ∨
  ∃ pts t rest, pts.Nodup ∧ (∀ x, x ∈ pts ↔ Covers s x ∧ Shared l m x) ∧ s.split pts = some (t, rest) ∧ pcs = t :: rest

/-- `l'` is `l` with the segments split at the points that `l` and `m` have in common. -/
def Parted (l m l' : List Seg) : Prop := ∃ P : List (List Seg), l' = P.flatten ∧ List.Forall₂ (Pieces l m) l P

/-- `IsInside` is right about the midpoints of the pieces that start at a common point.  C68 says when. -/
def JudgedBoth (o a : Outline) : Prop :=
  ∀ l1 l2, Parted o.segs a.segs l1 → Parted a.segs o.segs l2 →
    (∀ u ∈ l1, Shared o.segs a.segs u.start → ∀ y, u.midpoint = some y → ∀ b, isInside { a with segs := l2 } y = some b →
      (b = true ↔ Inside a.segs y)) ∧
    ∀ u ∈ l2, Shared o.segs a.segs u.start → ∀ y, u.midpoint = some y → ∀ b,
      isInside { o with boxOk := false, segs := l1 } y = some b → (b = true ↔ Inside o.segs y)

end Iges.Spec
