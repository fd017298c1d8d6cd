import Verif.Model.Attr

/-!
Setters and getters of the common attributes: when a value that was set is observed.
-/

namespace Iges.Spec.Attr
open Iges.Attr

/-- The getters see what the setter was given. -/
def Observed (a : Attr) : Setter → Prop
  | .font n => GetLineFontPattern a = (true, n)
  | .fontEnt c => (GetLineFontPatternEntity a).2 = c.map (·.id)
  | .level n => GetLevel a = (true, n)
  | .levelEnt c => (GetLevelEntity a).2 = c.map (·.id)
  | .view c => (GetView a).2 = c.map (·.id)
  | .labelAssoc c => (GetLabelAssoc a).2 = c.map (·.id)
  | .color n => GetColor a = (true, n)
  | .colorEnt c => (GetColorEntity a).2 = c.map (·.id)
  | .weight n => a.weight = n
  | .label l => a.label = l
  | .subscript n => a.subscript = n
  | .visible b => a.visible = b
  | .depends n => a.depends = n
  | .use n => a.use = n
  | .hier n => a.hier = n

/-- The attributes. -/
inductive Field where
  | font | level | view | labelAssoc | color | weight | label | subscript | visible | depends | use | hier
  deriving DecidableEq

/-- The attribute a setter is about. -/
def field : Setter → Field
  | .font _ => .font
  | .fontEnt _ => .font
  | .level _ => .level
  | .levelEnt _ => .level
  | .view _ => .view
  | .labelAssoc _ => .labelAssoc
  | .color _ => .color
  | .colorEnt _ => .color
  | .weight _ => .weight
  | .label _ => .label
  | .subscript _ => .subscript
  | .visible _ => .visible
  | .depends _ => .depends
  | .use _ => .use
  | .hier _ => .hier

/-- The getters of an attribute answer alike. -/
def Same (a b : Attr) : Field → Prop
  | .font => GetLineFontPattern a = GetLineFontPattern b ∧ GetLineFontPatternEntity a = GetLineFontPatternEntity b
  | .level => GetLevel a = GetLevel b ∧ GetLevelEntity a = GetLevelEntity b
  | .view => GetView a = GetView b
  | .labelAssoc => GetLabelAssoc a = GetLabelAssoc b
  | .color => GetColor a = GetColor b ∧ GetColorEntity a = GetColorEntity b
  | .weight => a.weight = b.weight
  | .label => a.label = b.label
  | .subscript => a.subscript = b.subscript
  | .visible => a.visible = b.visible
  | .depends => a.depends = b.depends
  | .use => a.use = b.use
  | .hier => a.hier = b.hier

/-- The setter is one of those that work: the class does not ignore it, the value is not cut off, and
it is neither a label association nor a colour entity. -/
def Works (t : Nat) (grad : Option Int) : Setter → Prop
  | .labelAssoc (some _) => False
  | .colorEnt (some _) => False
  | .weight n => mode t (.weight n) = .base ∧ ∀ g, grad = some g → n ≤ g
  | .label l => l.length ≤ 8
  | s => mode t s = .base

end Iges.Spec.Attr
