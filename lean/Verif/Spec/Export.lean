import Verif.Spec.Lists

/-!
What `Export` packages.
-/

namespace Iges.Spec.Export

open Iges.Graph

/-- A trimmed surface that nothing uses. -/
def TopSurface (h : Heap) (e : Nat) : Prop := ∃ o, h e = some o ∧ o.etype = 144 ∧ o.refs = []

/-- A subfigure instance that nothing uses, or only one subfigure definition that itself is not
used. -/
def TopInstance (h : Heap) (e : Nat) : Prop :=
  ∃ o, h e = some o ∧ o.etype = 408
    ∧ (o.refs = [] ∨ ∃ p po, o.refs = [p] ∧ h p = some po ∧ po.etype = 308 ∧ po.refs = [])

/-- A solid. -/
def Solid (h : Heap) (e : Nat) : Prop := ∃ o, h e = some o ∧ o.etype = 186

/-- What goes into the new subfigure definition: the instances; if there are none, the surfaces;
if there are none either, the solids. -/
def Packaged (h : Heap) (L : List Nat) (e : Nat) : Prop :=
  e ∈ L ∧ (TopInstance h e
    ∨ (¬ ∃ x ∈ L, TopInstance h x)
      ∧ (TopSurface h e ∨ (¬ ∃ x ∈ L, TopSurface h x) ∧ Solid h e))

end Iges.Spec.Export
