import Verif.Spec.Graph

/-!
When an entity is of no use, in the terms of the IGES entities themselves.
-/

namespace Iges.Spec.Cull

open Iges.Graph

/-- The placeholder for an entity type the library does not implement. -/
def Unsupported (o : Obj) : Prop := o.etype = 0

/-- Nobody refers to the entity although it makes sense only in the service of another: it is
marked dependent, or it is a matrix, a colour, a vertex list, an edge list, a loop or a face.
(A solid, type 186, may always stand alone.) -/
def Unused (o : Obj) : Prop :=
  o.refs = [] ∧ (o.depends ≠ 0 ∨ o.etype ∈ [124, 314, 502, 504, 508, 510]) ∧ o.etype ≠ 186

/-- A part without which the entity means nothing is missing. -/
def Incomplete (o : Obj) : Prop :=
  -- composite curve, subfigure definition, shell: no members
  (o.etype ∈ [102, 308, 514] ∧ o.kids = [])
  -- surface of revolution: axis or curve
  ∨ (o.etype = 120 ∧ (o.slot (.own 0) = none ∨ o.slot (.own 1) = none))
  -- cylinder, trimmed surface, extrusion, solid, instance: the defining pointer
  ∨ (o.etype ∈ [122, 144, 164, 186, 408] ∧ o.slot (.own 0) = none)
  -- curve on a surface: the surface, or both descriptions of the curve
  ∨ (o.etype = 142 ∧ (o.slot (.own 0) = none ∨ (o.slot (.own 1) = none ∧ o.slot (.own 2) = none)))
  -- property: the form number
  ∨ (o.etype = 406 ∧ o.form = 0)
  -- vertex list, edge list, loop: no members
  ∨ (o.etype = 502 ∧ o.npts = 0)
  ∨ (o.etype = 504 ∧ o.edges = [])
  ∨ (o.etype = 508 ∧ o.loops = [])
  -- face: surface or bounds
  ∨ (o.etype = 510 ∧ (o.slot (.own 0) = none ∨ o.kids = []))

/-- The entity is of no use. -/
def Orphan (o : Obj) : Prop := Unsupported o ∨ Unused o ∨ Incomplete o

/-- Culling several times. -/
def cullTimes (vicious : Bool) : Nat → Heap → List Nat → Option (Heap × List Nat)
  | 0, h, l => some (h, l)
  | n + 1, h, l =>
    match Graph.Cull vicious h l with
    | none => none
    | some (h', l') => cullTimes vicious n h' l'

/-- In the list every entity comes after those that use it. -/
def UsersFirst (h : Heap) (l : List Nat) : Prop := l.Pairwise (fun a b => listed h a b = 0)

/-- Every entity in use is supported and complete. -/
def UsedComplete (h : Heap) : Prop :=
  ∀ e o, h e = some o → o.refs ≠ [] → ¬ Unsupported o ∧ ¬ Incomplete o

end Iges.Spec.Cull
