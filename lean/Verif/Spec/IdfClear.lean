import Verif.Model.IdfClear
/-
Specification for boards used for several files (C94).
-/
namespace Iges.Idf.Spec

/-- The results of reading agree, except that in the first the comments of the board's outline begin with `old`. -/
def AlikeBut (old : List Str) (r r' : Library × Board) : Prop :=
  r.1 = r'.1 ∧ r.2.name = r'.2.name ∧ r.2.unit = r'.2.unit ∧ r.2.version = r'.2.version ∧ r.2.source = r'.2.source ∧ r.2.date = r'.2.date ∧
  r.2.fileVersion = r'.2.fileVersion ∧ r.2.oln.2 = r'.2.oln.2 ∧ r.2.sects = r'.2.sects ∧ r.2.holes = r'.2.holes ∧ r.2.place = r'.2.place ∧
  r.2.notes = r'.2.notes ∧ r.2.drillComments = r'.2.drillComments ∧ r.2.noteComments = r'.2.noteComments ∧ r.2.placeComments = r'.2.placeComments ∧
  r.2.oln.1 = old ++ r'.2.oln.1

/-- Both readings fail, or both succeed with results that agree in this sense. -/
def BothAlikeBut (old : List Str) : Option (Library × Board) → Option (Library × Board) → Prop
  | none, none => True
  | some r, some r' => AlikeBut old r r'
  | _, _ => False

/-- Something done with a board object. -/
inductive Call where
  | read (noSub : Bool) (libInput : Option (List Str)) (input : List Str) (left : (List Str × BoardOln) × Version)
  | clear

/-- The library and board after a sequence of calls. -/
def after (ccw : List QSeg → Bool) (S : Library × Board) : List Call → Library × Board
  | [] => S
  | .read noSub libInput input left :: l => after ccw (ReadFile ccw noSub S libInput input left).2 l
  | .clear :: l => after ccw (Clear S) l

end Iges.Idf.Spec
