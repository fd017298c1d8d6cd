import Verif.Model.Flags

/-!
Which objects are alive and which flags are attached, read off the history alone.
-/

namespace Iges.Spec.Flags

open Iges.Flags

/-- Object `i` is alive after the history: it was made and not destroyed since. -/
def Alive (l : List Op) (i : Nat) : Prop :=
  ∃ a b, l = a ++ Op.make i :: b ∧ Op.destroy i ∉ b

/-- Flag `f` is attached to object `i` after the history: it was attached, and since then neither
detached nor the object destroyed. -/
def Attached (l : List Op) (i f : Nat) : Prop :=
  ∃ a b, l = a ++ Op.attach i (some f) :: b ∧ Op.detach i (some f) ∉ b ∧ Op.destroy i ∉ b

/-- What C++ demands: methods are called on living objects only; a new object takes an address
not in use. -/
def LegalOp (l : List Op) : Op → Prop
  | .make i => ¬ Alive l i
  | .attach i _ => Alive l i
  | .detach i _ => Alive l i
  | .destroy i => Alive l i

/-- Every operation is legal at the moment it is carried out. -/
def Legal (l : List Op) : Prop := ∀ a o b, l = a ++ o :: b → LegalOp a o

/-- A flag is never attached to an object while it is attached to another one. -/
def OneOwner (l : List Op) : Prop :=
  ∀ a i f b, l = a ++ Op.attach i (some f) :: b → ∀ j, Attached a j f → j = i

end Iges.Spec.Flags
