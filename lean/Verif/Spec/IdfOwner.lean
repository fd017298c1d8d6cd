import Verif.Model.IdfOwner
/-
Specification for the ownership rules (C77).
-/
namespace Iges.Idf.Spec

/-- The component belongs to the other kind of system. -/
def Foreign (cad : Cad) (c : Comp) : Prop :=
  (c.placement = some .mcad ∧ cad = .elec) ∨ (c.placement = some .ecad ∧ cad = .mech)

/-- The owner of a hole or an outline is the other kind of system. -/
def ForeignOwner (cad : Cad) (o : Owner) : Prop := (o = .mcad ∧ cad = .elec) ∨ (o = .ecad ∧ cad = .mech)

instance (cad : Cad) (o : Owner) : Decidable (ForeignOwner cad o) := inferInstanceAs (Decidable (_ ∨ _))

/-- A component keeps its name, position and status; holes and outlines may be added, but not taken away or changed. -/
structure Kept (c c' : Comp) : Prop where
  refdes : c'.refdes = c.refdes
  pos : c'.pos = c.pos
  placement : c'.placement = c.placement
  drills : c.drills <+: c'.drills
  outs : c.outs <+: c'.outs

/-- `DelComponent` is called only with components that are not namesakes of a different component on the board. -/
def Honest (b : OBoard) : List OCall → Prop
  | [] => True
  | c :: cs =>
    (∀ i, c = .delComponent i → ∀ ci, b.obj i = some ci → ∀ j, b.map.find ci.refdes = some j → j = i) ∧
    ∀ b' r, b.step c = some (b', r) → Honest b' cs

/-- The calls that delete an outline of the board. -/
def Deletes : BCall → Prop
  | .delOutline _ | .delOutlineAt _ => True
  | _ => False

end Iges.Idf.Spec
