import Verif.Model.Graph

/-!
Nesting of subfigure definitions.
-/

namespace Iges.Spec.Depth

open Iges.Graph

/-- Definition `a` contains definition `b` or an instance of it. -/
def Contains (h : Heap) (a b : Nat) : Prop :=
  ∃ oa c oc, h a = some oa ∧ c ∈ oa.kids ∧ h c = some oc
    ∧ (oc.etype = 308 ∧ c = b ∨ oc.etype = 408 ∧ oc.slot (.own 0) = some b)

/-- There is a descent of `n` steps from `a`, each from a definition to one it contains. -/
inductive Descent (h : Heap) : Nat → Nat → Prop
  | stop (a : Nat) : Descent h a 0
  | step {a b n : Nat} : Contains h a b → Descent h b n → Descent h a (n + 1)

/-- A descent that never ends. -/
def Endless (h : Heap) (a : Nat) : Prop := ∃ f : Nat → Nat, f 0 = a ∧ ∀ i, Contains h (f i) (f (i + 1))

/-- Definitions and their members are alive, and the instances among them have their definition. -/
structure Complete (h : Heap) : Prop where
  member : ∀ a oa, h a = some oa → ∀ c ∈ oa.kids, ∃ oc, h c = some oc
    ∧ (oc.etype = 408 → ∃ d, oc.slot (.own 0) = some d)
  defn : ∀ c oc d, h c = some oc → oc.slot (.own 0) = some d → ∃ od, h d = some od

end Iges.Spec.Depth
