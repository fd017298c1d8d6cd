import Verif.Model.LoopEdge
/-!
What a user expects of the edges of a loop.
-/
namespace Iges.Spec

open Iges.Graph

/-- The table of a loop: every edge or vertex list that the edges use stands in it once, with the number of
edges that use it, and nothing else stands in it. -/
def Counted (o : Obj) : Prop :=
  (o.redges.map Prod.fst).Nodup
    ∧ ∀ x n, (x, n) ∈ o.redges ↔ (n = (o.loops.countP (fun q => q.1 == x) : Nat) ∧ 0 < n)

/-- The same entity, except for the list of its users. -/
def SameButUsers (o o' : Obj) : Prop := o' = { o with refs := o'.refs }

end Iges.Spec
