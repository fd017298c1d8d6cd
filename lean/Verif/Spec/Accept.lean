import Verif.Spec.Link
/-
Files whose entities can be linked.
-/
namespace Iges.Spec

open Iges.File (REnt Body)
open Iges.Link (Geo)

/-- Everything the record of an entity refers to: directory entry, optional pointers, then the pointers of the
class. -/
def targets (es : List REnt) (r : REnt) : List Nat :=
  (wantDE es r).filterMap id ++ r.extras.map pos ++ (wantOwn r.body).filterMap id ++ wantKids r.body
    ++ (wantEdges r.body).map (·.curv) ++ (wantVerts r.body).map Prod.fst
    ++ (wantLoops r.body).flatMap Prod.snd ++ (wantRedges r.body).map Prod.fst

/-- The entity at a position may be the target of a pointer in a slot of the directory entry: a transformation
matrix must be one; a level may be a property of form 1; a colour may be a colour definition; besides, every entity
of unknown type is accepted except as transformation matrix. -/
def DeTarget (es : List REnt) (slot i : Nat) : Prop :=
  if slot = 4 then typeAt es i = 124
  else typeAt es i = 0 ∨ (slot = 2 ∧ typeAt es i = 406 ∧ formAt es i = 1) ∨ (slot = 6 ∧ typeAt es i = 314)

/-- Pointer numbers of a class that must not be 0. -/
def required : Body → List Int
  | .onSurface k => [k.SPTR]
  | .trimmed k => [k.PTS, k.PTO] ++ k.PTI
  | .extrusion k => [k.PTR]
  | .solid k => k.shell :: k.voids.map Prod.fst
  | .face k => k.surf :: k.loops
  | .shell k => k.map Prod.fst
  | .subfigure k => k.DE
  | .tabCyl k => if k.DE = 0 then [] else [k.DE]
  | .inst k => if k.DE = 0 then [] else [k.DE]
  | _ => []

/-- The pointers of all entities lead to entities of suitable types; no entity refers to another one twice, to itself,
or to one that refers to it; geometric conditions hold. -/
structure Acceptable (G : Geo) (es : List REnt) : Prop where
  /-- DE numbers have seven digits. -/
  size : es.length ≤ 4999999
  de : ∀ i r, es[i]? = some r → ∀ q ∈ [(0, r.de.structure_), (1, -r.de.lineFontPattern), (2, -r.de.level),
    (3, r.de.view), (4, r.de.transform), (5, r.de.labelAssoc), (6, -r.de.colorNum)], 0 < q.2 →
    wantsSlot r.body q.1 = true ∧ pos q.2 < es.length ∧ pos q.2 ≠ i ∧ DeTarget es q.1 (pos q.2)
  extras : ∀ r ∈ es, ∀ v ∈ r.extras, Leads es [406] v
  typed : ∀ r ∈ es, Typed es r
  odd : ∀ r ∈ es, ∀ v ∈ required r.body, 0 < v ∧ v % 2 = 1
  faces : ∀ r ∈ es, r.body ≠ .shell []
  known : ∀ r ∈ es, ∀ c ∈ targets es r, typeAt es c ≠ 0
  once : ∀ r ∈ es, (targets es r).Nodup
  apart : ∀ i j r q, es[i]? = some r → es[j]? = some q → j ∈ targets es r → i ∉ targets es q
  closed : ∀ r ∈ es, ∀ k, r.body = .extrusion k → G.closed (pos k.PTR) = true
  points : ∀ i r k, es[i]? = some r → r.body = .composite k → G.points i = true

end Iges.Spec
