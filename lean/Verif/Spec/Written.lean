import Verif.Model.File
/-
The pointers of a model that is written.
-/
namespace Iges.Spec

open Iges.File (Ent Model REnt)

/-- The record that stands for an entity of a model: its class data, and the DE numbers of everything it points to.
(Line font, level and colour pointers stand in the directory entry as negative numbers.) -/
def recordFor (e : Ent) : REnt :=
  ⟨{ e.attrs with
      structure_ := e.ptrs.pStructure.getD 0
      lineFontPattern := -(e.ptrs.pLineFontPattern.getD 0)
      level := -(e.ptrs.pLevel.getD 0)
      view := e.ptrs.pView.getD 0
      transform := e.ptrs.pTransform.getD 0
      labelAssoc := e.ptrs.pLabelAssoc.getD 0
      colorNum := -(e.ptrs.pColor.getD 0) },
    e.body, e.extras.map (·.de), []⟩

/-- The records for all entities of a model. -/
def recordsFor (m : Model) : List REnt := m.ents.map recordFor

/-- The directory pointers of an entity are some that its type has. -/
structure PtrsOfType (e : Ent) : Prop where
  structure_ : e.ptrs.pStructure = none
  font : e.body.etype ∈ [124, 314, 406, 502, 504, 510, 514] → e.ptrs.pLineFontPattern = none
  view : e.body.etype ∈ [124, 314, 406, 502, 504, 508, 510, 514] → e.ptrs.pView = none
  transform : e.body.etype ∈ [314, 406, 502, 504, 508, 510, 514] → e.ptrs.pTransform = none
  label : e.body.etype ∈ [124, 314, 406] → e.ptrs.pLabelAssoc = none
  color : e.body.etype ∈ [502, 504, 510, 514] → e.ptrs.pColor = none

end Iges.Spec
