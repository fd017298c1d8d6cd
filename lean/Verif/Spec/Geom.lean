import Mathlib.Data.Real.Basic
import Verif.Model.Geom
/-
Independent specification for C36 and C51.
-/
namespace Iges.Spec

/-- squared distance of two points -/
def dist2 (p q : Point ℝ) : ℝ := (p.x - q.x) ^ 2 + (p.y - q.y) ^ 2 + (p.z - q.z) ^ 2

/-- squared distance from the origin -/
def norm2 (p : Point ℝ) : ℝ := p.x ^ 2 + p.y ^ 2 + p.z ^ 2

/-- `ids` is the chain of transform entities reached from its head: each points to the following one and
the last one has no transform of its own. -/
def IsChain {K : Type} (s : TxStore K) : List Nat → Prop
  | [] => False
  | [a] => s.next a = none
  | a :: b :: l => s.next a = some b ∧ IsChain s (b :: l)

/-- The own transform of the first entity is applied first, that of the last entity last. -/
def applyChain {K : Type} [CommRing K] (s : TxStore K) (ids : List Nat) (p : Point K) : Point K :=
  ids.foldl (fun q i => (s.own i).act q) p

end Iges.Spec
