import Verif.Model.IdfUse
/-
Specification for the users of a part (C90).
-/
namespace Iges.Idf.Use.Spec

/-- Some record that exists refers to the part. -/
def InUse (w : World) (o : ℕ) : Prop := ∃ (r : ℕ) (d : Rec), w.recs[r]? = some (some d) ∧ d.part = some o

/-- Does the record refer to the part? -/
def refersTo (o : ℕ) : Option Rec → Bool
  | none => false
  | some d => decide (d.part = some o)

/-- The number of records that refer to the part. -/
def users (w : World) (o : ℕ) : ℕ := w.recs.countP (refersTo o)

/-- Nothing has been made yet. -/
def empty (cad : Cad) : World := ⟨cad, [], [], []⟩

/-- The calls that keep the count: no record is made by the constructor with offsets together with a part, no part is
cleared. -/
def Counted : Call → Prop
  | .newRecAt _ o => o = none
  | .clearPart _ => False
  | _ => True

/-- The calls a careful program makes next: pointers are those of objects that exist, a record is given to its own component and
only once, and is deleted through that component. -/
def Careful (w : World) : Call → Prop
  | .newPart | .newComp _ | .newRec => True
  | .newRecFor c o | .newRecAt c o => (∀ p, o = some p → p < w.parts.length) ∧ ∀ i, c = some i → ∃ cc, w.comps[i]? = some (some cc)
  | .setParent _ _ => False
  | .setOutline r o => (∃ d : Rec, w.recs[r]? = some (some d) ∧ ∀ i, d.parent = some i → ∃ cc, w.comps[i]? = some (some cc)) ∧
      ∀ p, o = some p → p < w.parts.length
  | .addRec c r => (∃ cc, w.comps[c]? = some (some cc)) ∧ (∃ d : Rec, w.recs[r]? = some (some d) ∧ d.parent = some c) ∧
      ∀ (i : ℕ) (cc : Cmp), w.comps[i]? = some (some cc) → r ∉ cc.recs
  | .delRec c _ | .delRecAt c _ | .destroyComp c => ∃ cc, w.comps[c]? = some (some cc)
  | .destroyRec r => (∃ d, w.recs[r]? = some (some d)) ∧ ∀ (i : ℕ) (cc : Cmp), w.comps[i]? = some (some cc) → r ∉ cc.recs
  | .read c o => (∃ cc, w.comps[c]? = some (some cc)) ∧ ∀ p, o = some p → p < w.parts.length
  | .clearPart o => o < w.parts.length

/-- Every call is made carefully. -/
def CarefulRun (w : World) : List Call → Prop
  | [] => True
  | c :: cs => Careful w c ∧ ∀ w' r, w.step c = some (w', r) → CarefulRun w' cs

/-- The calls of a program that reads boards and changes what it has read. -/
def Simple : Call → Prop
  | .newPart | .newComp _ | .read _ _ | .setOutline _ _ | .delRec _ _ | .delRecAt _ _ | .destroyComp _ => True
  | _ => False

/-- Some component has a record that refers to the part. -/
def OnBoard (w : World) (o : ℕ) : Prop := ∃ (i : ℕ) (cc : Cmp) (r : ℕ) (d : Rec),
  w.comps[i]? = some (some cc) ∧ r ∈ cc.recs ∧ w.recs[r]? = some (some d) ∧ d.part = some o

end Iges.Idf.Use.Spec
