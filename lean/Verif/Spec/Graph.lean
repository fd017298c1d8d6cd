import Verif.Model.GraphOps

/-!
What a user expects of the entity graph.
-/

namespace Iges.Spec

open Iges.Graph

/-- How many pointers of entity `p` lead to entity `c`. -/
def uses (h : Heap) (p c : Nat) : Nat :=
  match h p with
  | none => 0
  | some o => o.children.count c

/-- How often entity `p` stands in the list of users of entity `c`. -/
def listed (h : Heap) (c p : Nat) : Nat :=
  match h c with
  | none => 0
  | some o => o.refs.count p

/-- Pointers and lists of users agree.  A destroyed entity has neither, so nothing points at it
and nothing lists it. -/
def Symmetric (h : Heap) : Prop := ∀ p c, uses h p c = listed h c p

/-- How often an edge list's edges use vertex list `v`, as start or as end. -/
def edgeUses (l : List Edge) (v : Nat) : Nat :=
  l.countP (fun q => q.svp == v) + l.countP (fun q => q.tvp == v)

/-- Curves, as far as the C++ type `IGES_CURVE` goes. -/
def isCurve (t : Nat) : Prop := t = 100 ∨ t = 102 ∨ t = 104 ∨ t = 110 ∨ t = 126

/-- What the C++ types and the lifetime of objects demand of a call: the receiver is alive and
of the class that has the method, pointer arguments are null or alive and of the declared type,
a new entity gets an unused address; a null operand or directrix is not passed. -/
def Legal (h : Heap) (c : Call) : Prop :=
  let is (e : Nat) (P : Nat → Prop) := ∃ o, h e = some o ∧ P o.etype
  let arg (c : Option Nat) (P : Nat → Prop) := ∀ x, c = some x → is x P
  match c with
  | .new i _ => h i = none
  | .del e => is e (fun _ => True)
  | .setTransform e t => is e (fun _ => True) ∧ arg t (fun _ => True)
  | .setColor e t => is e (fun _ => True) ∧ arg t (fun _ => True)
  | .addOptional e c => is e (fun _ => True) ∧ is c (fun _ => True)
  | .addSegment e c _ => is e (· = 102) ∧ arg c isCurve
  | .setL e c => is e (· = 120) ∧ arg c isCurve
  | .setC e c => is e (· = 120) ∧ arg c isCurve
  | .setDE122 e c => is e (· = 122) ∧ arg c isCurve ∧ c ≠ none
  | .set142 e i c => is e (· = 142) ∧ i < 3 ∧ arg c (fun _ => True)
  | .setPTS e c => is e (· = 144) ∧ arg c (fun _ => True)
  | .setPTO e c => is e (· = 144) ∧ arg c (· = 142)
  | .addPTI e c => is e (· = 144) ∧ arg c (· = 142)
  | .delPTI e c => is e (· = 144) ∧ is c (· = 142)
  | .setClosedCurve e c _ => is e (· = 164) ∧ arg c isCurve
  | .addArg e c => is e (· = 180) ∧ arg c (fun _ => True) ∧ c ≠ none
  | .clearNodes e => is e (· = 180)
  | .addDE e c => is e (· = 308) ∧ arg c (fun _ => True)
  | .delDE e c => is e (· = 308) ∧ is c (fun _ => True)
  | .setDE408 e c => is e (· = 408) ∧ arg c (· = 308)
  | .addEdge e c s _ t _ => is e (· = 504) ∧ arg c (fun _ => True) ∧ arg s (· = 502) ∧ arg t (· = 502)
  | .setSurface e c => is e (· = 510) ∧ arg c (fun _ => True)
  | .addBound e c => is e (· = 510) ∧ arg c (· = 508)
  | .addVertex e => is e (· = 502)

/-- The calls known to break the bookkeeping (see the counterexamples in
`Verif/Props/GraphBugs.lean`) are left out:

* an entity added to itself (`AddOptionalEntity`, `AddDE`, `AddArg`);
* an optional entity on a transformation matrix or a placeholder;
* `DelPTI` and `DelDE` of an entry that is in the list;
* `SetSurface` and `AddBound` with an entity;
* deleting an operand of a boolean tree that has further operands;
* deleting a vertex list that an edge list uses. -/
def Careful (h : Heap) (c : Call) : Prop :=
  match c with
  | .addOptional e c => e ≠ c ∧ ∀ o, h e = some o → o.etype ≠ 124 ∧ o.etype ≠ 0
  | .addDE e c => c ≠ some e
  | .addArg e c => c ≠ some e
  | .delPTI e c => ∀ o, h e = some o → c ∉ o.kids
  | .delDE e c => ∀ o, h e = some o → c ∉ o.kids
  | .setSurface _ c => c = none
  | .addBound _ c => c = none
  | .del e =>
    ∀ p o, h p = some o →
      (o.etype = 180 ∧ e ∈ o.kids → o.kids = [e]) ∧ e ∉ o.verts.map Prod.fst
  | _ => True

/-- A program all of whose calls are legal and careful at the moment they are made. -/
def CarefulRun : Heap → List Call → Prop
  | _, [] => True
  | h, c :: l => Legal h c ∧ Careful h c ∧
      ∀ h' b, step h c = some (h', b) → CarefulRun h' l

/-- A program all of whose calls are legal at the moment they are made. -/
def LegalRun : Heap → List Call → Prop
  | _, [] => True
  | h, c :: l => Legal h c ∧ ∀ h' b, step h c = some (h', b) → LegalRun h' l

end Iges.Spec
