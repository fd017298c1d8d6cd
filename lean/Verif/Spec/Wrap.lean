import Verif.Model.Wrap

/-!
What a program may do with wrappers, and what it expects of them.
-/

namespace Iges.Spec.Wrap

open Iges.Wrap

/-- What C++ demands: wrappers and objects passed are alive and of the right class; new objects
take unused addresses. -/
def Legal (W : World) : Op → Prop
  | .libNew i _ => W.objs i = none
  | .libDel i => W.objs i ≠ none
  | .new w _ p c => W.wraps w = none ∧ (∀ m, p = some m → W.objs m ≠ none) ∧
      ∀ e, c = some e → W.objs e = none
  | .del w => ∃ r, W.wraps w = some r ∧ r.owner = false
  | .attach w e => (∃ r, W.wraps w = some r ∧ r.owner = false) ∧ ∀ i, e = some i → W.objs i ≠ none
  | .detach w => W.wraps w ≠ none
  | .delEntity w => ∃ r, W.wraps w = some r ∧ r.owner = false
  | .newEntity w e => (∃ r, W.wraps w = some r ∧ r.owner = false) ∧ W.objs e = none
  | .setParent w m => (∃ r, W.wraps w = some r ∧ r.owner = false) ∧
      ∀ i, m = some i → W.objs i ≠ none
  | .isValid w => W.wraps w ≠ none
  | .getRawPtr w => W.wraps w ≠ none
  | .query w => W.wraps w ≠ none
  | .newOwner w _ c => W.wraps w = none ∧ ∀ e, c = some e → W.objs e = none
  | .delOwner w => ∃ r, W.wraps w = some r ∧ r.owner = true
  | .attachOwner w e => ∃ r, W.wraps w = some r ∧ r.owner = true ∧
      ∀ i, e = some i → ∃ o, W.objs i = some o ∧ o.ty = r.ty
  | .newOwned w e => (∃ r, W.wraps w = some r ∧ r.owner = true) ∧ W.objs e = none
  | .delOwned w => ∃ r, W.wraps w = some r ∧ r.owner = true
  | .curveOnPlane w => ∃ r, W.wraps w = some r ∧ r.owner = true ∧ r.ty = 3
  | .segmentWall w => ∃ r, W.wraps w = some r ∧ r.owner = true ∧ r.ty = 3
  | .copy w v => W.wraps w = none ∧ W.wraps v ≠ none

/-- Left out, with a counterexample for each: the two methods of `DLL_IGES_GEOM_PCB` with a wrong
guard, copies of wrappers, and `SetAPIParentIGES` on a wrapper that was made without a model. -/
def Careful (W : World) : Op → Prop
  | .curveOnPlane _ => False
  | .segmentWall _ => False
  | .copy _ _ => False
  | .setParent w _ => ∀ r, W.wraps w = some r → r.hasParent ≠ none
  | _ => True

/-- A program all of whose operations are legal and careful at the moment they are made. -/
def CarefulRun : World → List Op → Prop
  | _, [] => True
  | W, o :: l => Legal W o ∧ Careful W o ∧ ∀ W' a, step W o = some (W', a) → CarefulRun W' l

/-- A program all of whose operations are legal at the moment they are made. -/
def LegalRun : World → List Op → Prop
  | _, [] => True
  | W, o :: l => Legal W o ∧ ∀ W' a, step W o = some (W', a) → LegalRun W' l

/-- Asked now, the wrapper uses object `i`. -/
def Uses (W : World) (w i : Nat) : Prop := ∃ W', step W (.query w) = some (W', .ptr (some i))

/-- The operation is one that is meant to change what wrapper `w` refers to. -/
def rebinds (w : Nat) : Op → Prop
  | .attach v _ | .detach v | .delEntity v | .newEntity v _ => v = w
  | .attachOwner v _ | .newOwned v _ | .delOwned v => v = w
  | _ => False

/-- The operation destroys object `i`. -/
def destroys (W : World) (i : Nat) : Op → Prop
  | .libDel j => j = i
  | .delEntity v | .delOwner v | .newOwned v _ | .delOwned v => Uses W v i
  | _ => False

end Iges.Spec.Wrap
