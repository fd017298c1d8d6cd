import Verif.Model.IdfLib
import Verif.Spec.IdfBoard
/-
Specification for library files (C81).
-/
namespace Iges.Idf.Spec

/-- A part that can be written and read. -/
structure PartOk (g : ℚ) (o : CompOln) : Prop where
  cls : o.cls ≠ none
  names : Plain o.geom ∧ Plain o.part ∧ ¬ (o.geom = [] ∧ o.part = [])
  unit : o.unit ≠ .tnm
  thickness : |o.thickness| ≤ 10 ^ 300
  outlines : o.outlines = [] ∨ ∃ l, o.outlines = [l] ∧ GoodLoop o.unit g l
  comments : ∀ c ∈ o.comments, CommentOk c ∧ c ≠ []
  props : (o.props.map Prod.fst).Nodup ∧ ∀ e ∈ o.props, Plain e.1 ∧ Plain e.2

/-- The part `o'` is the part `o` read back: what is written, with lengths up to the places written.  Only electrical parts have properties in the
file. -/
structure PartBack (g : ℚ) (o o' : CompOln) : Prop where
  cls : o'.cls = o.cls
  geom : o'.geom = o.geom
  part : o'.part = o.part
  unit : o'.unit = o.unit
  thickness : |o'.thickness - o.thickness| ≤ lengthTol o.unit
  outlines : List.Forall₂ (List.Forall₂ (SegNear (lengthTol o.unit + g))) o.outlines o'.outlines
  comments : o'.comments = o.comments
  props : ∀ n, o'.props.find n = if o.cls = some .elec then o.props.find n else none

/-- A library that can be written and read: every part is filed under its unique name, and the parts in use can be written and read. -/
structure LibOk (g : ℚ) (L : Library) : Prop where
  fileVersion : 0 ≤ L.fileVersion ∧ L.fileVersion < 2147483647
  keys : (L.parts.map Prod.fst).Nodup ∧ ∀ e ∈ L.parts, e.1 = e.2.uid
  parts : ∀ e ∈ L.parts, e.2.refs ≠ 0 → PartOk g e.2

/-- The library `L'` is what is read into the library `L0` from the file written for `L`: of the parts those in use, which are not in
use yet in `L'`. -/
structure LibBack (g : ℚ) (L L0 L' : Library) : Prop where
  fileVersion : L'.fileVersion = L.fileVersion + 1
  used : ∀ k o, L.parts.find k = some o → o.refs ≠ 0 → ∃ o', L'.parts.find k = some o' ∧ PartBack g o o' ∧ o'.refs = 0
  others : ∀ k, (∀ o, L.parts.find k = some o → o.refs = 0) → L'.parts.find k = L0.parts.find k

/-- The parts of a component are in the library, in use, under their names. -/
def InLibrary (L : Library) (c : Comp) : Prop :=
  ∀ o ∈ c.outs, ∀ g q, o.outline = some (g, q) → ∃ p, L.parts.find (uidOf g q) = some p ∧ p.refs ≠ 0 ∧ p.geom = g ∧ p.part = q

end Iges.Idf.Spec
