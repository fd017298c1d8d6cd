import Verif.Model.Assoc
/-
What the records of a file say about the pointers between its entities.  The entity with DE number `v`
stands at position `v >> 1` of the list.
-/
namespace Iges.Spec

open Iges.Graph (Obj)
open Iges.File (REnt Body)

/-- The position of the entity a DE number stands for. -/
def pos (v : Int) : Nat := (v / 2).toNat

/-- The type of the entity at a position; 0 for an entity of a type the library does not know. -/
def typeAt (es : List REnt) (i : Nat) : Nat := (es[i]?.map fun r => r.body.etype.toNat).getD 0

/-- A pointer parameter of a class: 0 is the null pointer. -/
def ptr (v : Int) : Option Nat := if v = 0 then none else some (pos v)

/-- A pointer of the directory entry: only positive numbers stand for pointers, and a pointer to an entity of
unknown type is not kept. -/
def dePtr (es : List REnt) (v : Int) : Option Nat := if 0 < v ∧ typeAt es (pos v) ≠ 0 then some (pos v) else none

/-- The slots of the directory entry that a class has a use for (0 structure, 1 line font, 2 level, 3 view,
4 transformation, 5 label, 6 colour). -/
def wantsSlot : Body → Nat → Bool
  | .arc _, s | .composite _, s | .conic _, s | .line _, s | .cylinder _, s | .tabCyl _, s | .extrusion _, s
  | .tree _, s | .inst _, s => s != 0
  | .tx _, s => s == 4
  | .colour _, _ => false
  | .name _, s => s == 2
  | _, _ => true

/-- The directory entry pointers a class keeps. -/
def wantDE (es : List REnt) (r : REnt) : List (Option Nat) :=
  (Link.deNumbers r.de).map fun q => if wantsSlot r.body q.1 then dePtr es q.2 else none

/-- The single pointers of a class. -/
def wantOwn : Body → List (Option Nat)
  | .revolution k => [ptr k.L, ptr k.C]
  | .tabCyl k => [ptr k.DE]
  | .onSurface k => [ptr k.SPTR, ptr k.BPTR, ptr k.CPTR]
  | .trimmed k => [ptr k.PTS, ptr k.PTO]
  | .extrusion k => [ptr k.PTR]
  | .solid k => [ptr k.shell]
  | .inst k => [ptr k.DE]
  | .face k => [ptr k.surf]
  | _ => []

/-- The first occurrence of every element. -/
def firsts : List Nat → List Nat := List.foldl (fun l x => if x ∈ l then l else l ++ [x]) []

/-- The pointer list of a class; a composite curve has every curve once. -/
def wantKids : Body → List Nat
  | .composite k => firsts (k.map pos)
  | .trimmed k => k.PTI.map pos
  | .tree k => k.filterMap fun
    | .op _ => none
    | .arg d => some (pos d)
  | .solid k => k.voids.map fun v => pos v.1
  | .subfigure k => k.DE.map pos
  | .face k => k.loops.map pos
  | .shell k => k.map fun v => pos v.1
  | _ => []

/-- How often each element occurs, in the order of the first occurrences. -/
def tally (l : List Nat) : List (Nat × Int) := (firsts l).map fun x => (x, (l.count x : Int))

/-- The edges of an edge list. -/
def wantEdges : Body → List Graph.Edge
  | .edges k => k.map fun q => ⟨pos q.curv, pos q.svp, q.sv, pos q.tvp, q.tv⟩
  | _ => []

/-- The vertex lists of an edge list, with the number of uses. -/
def wantVerts : Body → List (Nat × Int)
  | .edges k => tally (k.flatMap fun q => [pos q.svp, pos q.tvp])
  | _ => []

/-- The edges of a loop, each with its parameter curves. -/
def wantLoops : Body → List (Nat × List Nat)
  | .loop k => k.map fun q => (pos q.data, q.pcurves.map fun c => pos c.2)
  | _ => []

/-- The edge and vertex lists of a loop, with the number of uses. -/
def wantRedges : Body → List (Nat × Int)
  | .loop k => tally (k.map fun q => pos q.data)
  | _ => []

/-- An entity with exactly the pointers its record asks for; `refs` are its users. -/
def wanted (es : List REnt) (r : REnt) (refs : List Nat) : Obj :=
  { Link.objOf r with
    refs := refs
    de := wantDE es r
    extras := r.extras.map pos
    own := wantOwn r.body
    kids := wantKids r.body
    edges := wantEdges r.body
    verts := wantVerts r.body
    loops := wantLoops r.body
    redges := wantRedges r.body }

/-- No solid lists a shell twice, no face a loop, no shell a face. -/
def ListedOnce (r : REnt) : Prop :=
  match r.body with
  | .solid k => (pos k.shell :: k.voids.map fun v => pos v.1).Nodup
  | .face k => (k.loops.map pos).Nodup
  | .shell k => (k.map fun v => pos v.1).Nodup
  | _ => True

/-- The form of the entity at a position. -/
def formAt (es : List REnt) (i : Nat) : Int := (es[i]?.map fun r => r.de.form).getD 0

/-- The number of points of the vertex list at a position. -/
def pointsAt (es : List REnt) (i : Nat) : Nat :=
  match es[i]? with
  | some ⟨_, .vertices k, _, _⟩ => k.length
  | _ => 0

/-- The number stands for an entity of the file, of one of the types. -/
def Leads (es : List REnt) (types : List Nat) (v : Int) : Prop :=
  0 ≤ v ∧ pos v < es.length ∧ typeAt es (pos v) ∈ types

/-- The number stands for an entity of the file. -/
def InFile (es : List REnt) (v : Int) : Prop := 0 ≤ v ∧ pos v < es.length

/-- Curves without parts. -/
def simpleCurves : List Nat := [100, 104, 110, 126]

/-- The types of what the parameters of an entity refer to. -/
def Typed (es : List REnt) (r : REnt) : Prop :=
  match r.body with
  | .composite k => ∀ v ∈ k, Leads es simpleCurves v
  | .revolution k => (k.L ≠ 0 → Leads es [110] k.L) ∧ (k.C ≠ 0 → Leads es (102 :: simpleCurves) k.C)
  | .tabCyl k => k.DE ≠ 0 → Leads es (102 :: simpleCurves) k.DE
  | .onSurface k => InFile es k.SPTR ∧ (k.BPTR ≠ 0 → InFile es k.BPTR) ∧ (k.CPTR ≠ 0 → InFile es k.CPTR)
  | .trimmed k => Leads es [106, 108, 114, 118, 120, 122, 128, 140, 143, 190, 192, 194, 196, 198] k.PTS
      ∧ Leads es [142] k.PTO ∧ ∀ v ∈ k.PTI, Leads es [142] v
  | .extrusion k => Leads es (102 :: simpleCurves) k.PTR
  | .tree k => ∀ v, BNode.arg v ∈ k → Leads es [150, 152, 154, 156, 158, 160, 162, 164, 168, 180, 430, 186] v
  | .solid k => ∀ v ∈ k.shell :: k.voids.map Prod.fst, Leads es [514] v ∧ formAt es (pos v) = 1
  | .subfigure k => ∀ v ∈ k.DE, InFile es v
  | .inst k => k.DE ≠ 0 → Leads es [308] k.DE
  | .edges k => ∀ q ∈ k, Leads es [502] q.svp ∧ Leads es [502] q.tvp
      ∧ Leads es ([102, 106, 112, 130] ++ simpleCurves) q.curv
      ∧ 1 ≤ q.sv ∧ q.sv ≤ pointsAt es (pos q.svp) ∧ 1 ≤ q.tv ∧ q.tv ≤ pointsAt es (pos q.tvp)
  | .loop k => ∀ q ∈ k, InFile es q.data ∧ ∀ c ∈ q.pcurves, InFile es c.2
  | .face k => Leads es [114, 118, 120, 122, 128, 140, 190, 192, 194, 196, 198] k.surf
      ∧ ∀ v ∈ k.loops, Leads es [508] v
  | .shell k => ∀ v ∈ k.map Prod.fst, Leads es [510] v
  | _ => True

/-- What linking needs of an entity to be defined: no optional pointers, no pointer of the directory entry to the
entity itself, vertex pointers of edge lists that lead to vertex lists if they lead to an entity, no negative numbers
in the pointer lists of solids, faces and shells. -/
structure Linkable (es : List REnt) (e : Nat) (r : REnt) : Prop where
  extras : r.extras = []
  self : ∀ v ∈ [r.de.structure_, -r.de.lineFontPattern, -r.de.level, r.de.view, r.de.transform, r.de.labelAssoc,
    -r.de.colorNum], 0 < v → pos v ≠ e
  vertices : ∀ k, r.body = .edges k → ∀ q ∈ k, (pos q.svp < es.length → typeAt es (pos q.svp) = 502) ∧
    (pos q.tvp < es.length → typeAt es (pos q.tvp) = 502)
  voids : ∀ k, r.body = .solid k → ∀ v ∈ k.voids, 0 ≤ v.1
  loops : ∀ k, r.body = .face k → ∀ v ∈ k.loops, 0 ≤ v
  faces : ∀ k, r.body = .shell k → ∀ v ∈ k, 0 ≤ v.1

end Iges.Spec
