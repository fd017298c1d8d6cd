import Verif.Model.Lists
import Verif.Spec.Graph

/-!
What a user expects of models and the entities they own.
-/

namespace Iges.Spec.Lists

open Iges.Graph Iges.Lists

/-- The entity is alive. -/
def Alive (W : World) (e : Nat) : Prop := ∃ o, W.heap e = some o

/-- The model is alive. -/
def Open (W : World) (m : Nat) : Prop := ∃ L, W.list m = some L

/-- Model `m` holds entity `e`. -/
def Holds (W : World) (m e : Nat) : Prop := ∃ L, W.list m = some L ∧ e ∈ L

/-- The entities passed as arguments of a call. -/
def args : Call → List Nat
  | .setTransform _ t => t.toList
  | .setColor _ t => t.toList
  | .addOptional _ c => [c]
  | .addSegment _ c _ => c.toList
  | .setL _ c => c.toList
  | .setC _ c => c.toList
  | .setDE122 _ c => c.toList
  | .set142 _ _ c => c.toList
  | .setPTS _ c => c.toList
  | .setPTO _ c => c.toList
  | .addPTI _ c => c.toList
  | .setClosedCurve _ c _ => c.toList
  | .addArg _ c => c.toList
  | .addDE _ c => c.toList
  | .setDE408 _ c => c.toList
  | .addEdge _ c s _ t _ => c.toList ++ s.toList ++ t.toList
  | .setSurface _ c => c.toList
  | .addBound _ c => c.toList
  | _ => []

/-- What the lifetime of objects demands of an operation: models and entities passed are null or
alive, a new model or entity gets an address not in use, calls to entities are legal. -/
def Legal (W : World) : Op → Prop
  | .newModel m => W.list m = none
  | .delModel m => Open W m
  | .new m i _ => Open W m ∧ W.heap i = none
  | .add m e => Open W m ∧ ∀ x, e = some x → Alive W x
  | .del m e => Open W m ∧ ∀ x, e = some x → Alive W x
  | .unlink m e => Open W m ∧ ∀ x, e = some x → Alive W x
  | .clear m => Open W m
  | .cull m _ => Open W m
  | .call c => Spec.Legal W.heap c
  | .export m n _ p => Open W m ∧ (∀ k, n = some k → Open W k) ∧ W.heap p = none

/-- The user keeps every entity in one model:

* an entity is added to a model, or passed to an entity of a model, only if no other model
  holds it;
* `delete` is not called directly for an entity a model holds. -/
def Sole (W : World) : Op → Prop
  | .add m (some e) => ∀ m', Holds W m' e → m' = m
  | .call (.del e) => ∀ m, ¬ Holds W m e
  | .call c => ∀ x ∈ args c, ∀ m p, Holds W m x → W.parent (receiver c) = some p → m = p
  | _ => True

/-- A program all of whose operations are legal and keep every entity in one model. -/
def SoleRun : World → List Op → Prop
  | _, [] => True
  | W, o :: l => Legal W o ∧ Sole W o ∧ ∀ W' b, step W o = some (W', b) → SoleRun W' l

/-- A program all of whose operations are legal. -/
def LegalRun : World → List Op → Prop
  | _, [] => True
  | W, o :: l => Legal W o ∧ ∀ W' b, step W o = some (W', b) → LegalRun W' l

/-- The operation concerns model `m` only, and does not call `delete` directly. -/
def Only (m : Nat) : Op → Prop
  | .newModel n => n = m
  | .delModel n => n = m
  | .new n _ _ => n = m
  | .add n _ => n = m
  | .del n _ => n = m
  | .unlink n _ => n = m
  | .clear n => n = m
  | .cull n _ => n = m
  | .call (.del _) => False
  | .call _ => True
  | .export a b _ _ => a = m ∧ ∀ k, b = some k → k = m

/-- Every model holds each of its entities once. -/
def NoDuplicates (W : World) : Prop := ∀ m L, W.list m = some L → ∀ e, L.count e ≤ 1

/-- Every entity a model holds is alive. -/
def NoStale (W : World) : Prop := ∀ m e, Holds W m e → Alive W e

/-- No entity is held by two models. -/
def OneModel (W : World) : Prop := ∀ m m' e, Holds W m e → Holds W m' e → m = m'

/-- The model that holds an entity is the one the entity reports. -/
def ParentRight (W : World) : Prop := ∀ m e, Holds W m e → W.parent e = some m

/-- `a` comes before `b` in the list. -/
def Before (L : List Nat) (a b : Nat) : Prop := ∃ s t, L = s ++ b :: t ∧ a ∈ s

/-- Every boolean tree and every edge list comes before the entities it uses. -/
def SolidsFirst (h : Heap) (L : List Nat) : Prop :=
  ∀ p o e, h p = some o → (o.etype = 180 ∨ o.etype = 504) → uses h p e ≠ 0 → e ∈ L → Before L p e

end Iges.Spec.Lists

