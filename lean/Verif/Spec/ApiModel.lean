import Verif.Model.ApiModel
/-
Specification for the model behind the handle (C91).
-/
namespace Iges.Api.Spec

/-- Every entity that the model lists exists and is listed once. -/
structure Sound (s : State) : Prop where
  alive : ∀ e ∈ s.list, ∃ t, s.ents[e]? = some (some t)
  once : s.list.Nodup

/-- The wrapper refers to an entity that exists. -/
def RefersTo (s : State) (h e : ℕ) : Prop :=
  ∃ w : Handle, s.hands[h]? = some (some w) ∧ w.entity = some e ∧ ∃ t, s.ents[e]? = some (some t)

/-- What a careful program calls next: it uses wrappers and entities that exist, asks `NewAPIEntity` for types that it knows,
leaves `NewIGESEntity` alone, and deletes through a wrapper only entities that the model does not list. -/
def Careful (s : State) : Call → Prop
  | .newApi ty old => ty ∈ apiTypes ∧ ∀ h, old = some h → ∃ w, s.hands[h]? = some (some w)
  | .newIges _ => False
  | .addRaw e => ∃ t, s.ents[e]? = some (some t)
  | .delRaw _ | .unlinkRaw _ | .clear => True
  | .killModel => s.model = true
  | .newHandle _ parent create => parent = true → create = true → s.model = true
  | .addHandle h | .delHandle h | .unlinkHandle h | .newEntity h | .detach h | .killHandle h => ∃ w, s.hands[h]? = some (some w)
  | .attach h e => (∃ w, s.hands[h]? = some (some w)) ∧ ∃ t, s.ents[e]? = some (some t)
  | .delEntity h => (∃ w, s.hands[h]? = some (some w)) ∧ ∀ e, RefersTo s h e → e ∉ s.list

/-- Every call of the program is made carefully. -/
def CarefulRun (s : State) : List Call → Prop
  | [] => True
  | c :: cs => Careful s c ∧ ∀ s' r, s.step c = some (s', r) → CarefulRun s' cs

end Iges.Api.Spec
