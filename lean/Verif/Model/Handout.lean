import Verif.Model.Header
/-
Queries that hand out a list as an array: the members of a subfigure definition (entity 308), the
holes of a trimmed surface (entity 144), the comments of an entity, the header lines of a model, the
edges of an edge list (entity 504) and the bounds of a face (entity 510).  The array is a copy kept
in the object; it is made anew if its length is not that of the list.
-/
namespace Iges.Handout
open Iges

/-- The test by which all the queries decide whether to make the copy anew (entity308.cpp:484-495,
entity144.cpp:781-792, iges_entity.cpp:2975-2987, iges.cpp:1873-1884): the array handed out. -/
def refresh {α : Type} (list copy : List α) : List α :=
  if list.length ≠ copy.length then list else copy

/-- A list of members (`DE` of entity 308, `PTI` of entity 144) and the copy (`m_DE`, `vPTI`).
Entities are numbers. -/
structure Members where
  items : List Nat
  copy : List Nat
deriving DecidableEq, Repr

/-- `AddDE`, entity308.cpp:503-589, and `AddPTI`, entity144.cpp:816-865.  `fit`: the tests before
the search of the list pass (no NULL pointer, not an attribute, not a parent and not an optional
entity; 505-546); `taken`: the new reference is noted (`addReference` succeeds without finding a
duplicate; 564-577).  The parent model is not looked at. -/
def addMember (m : Members) (e : Nat) (fit taken : Bool) : Members × Bool :=
  if fit = false then (m, false)
  else if e ∈ m.items then ({ m with copy := [] }, true)
  else if taken then (⟨m.items ++ [e], []⟩, true)
  else (m, false)

/-- `DelDE`, entity308.cpp:592-608, `DelPTI`, entity144.cpp:868-886, and the erasing loops of
`unlink`, entity308.cpp:242-258 and entity144.cpp:411-429. -/
def delMember (m : Members) (e : Nat) : Members × Bool :=
  if e ∈ m.items then ({ m with items := m.items.erase e }, true) else (m, false)

/-- `Compact`, entity308.cpp:68-72 and entity144.cpp:119-124. -/
def compactMembers (m : Members) : Members := { m with copy := [] }

/-- `GetDEList`, entity308.cpp:475-500, and `GetPTIList`, entity144.cpp:772-797: `none` is the
return `false` with an empty array. -/
def getMembers (m : Members) : Members × Option (List Nat) :=
  if m.items = [] then (m, none)
  else ({ m with copy := refresh m.items m.copy }, some (refresh m.items m.copy))

/-- `DLL_IGES_ENTITY_308::GetDEList`, dll_entity308.cpp:107-136, of a valid entity: the same without
the first test.  `none`: the address of the first element of an empty vector, undefined. -/
def dllGetMembers (m : Members) : Option (Members × List Nat) :=
  match refresh m.items m.copy with
  | [] => none
  | e :: es => some ({ m with copy := e :: es }, e :: es)

/-- `GetPTI`, entity144.cpp:800-813, and `GetComment`, iges_entity.cpp:2950-2963: `none` is NULL. -/
def getOne {α : Type} (l : List α) (i : Int) : Option α :=
  if i < 0 ∨ i ≥ l.length then none else l[i.toNat]?

/-- What the user of a list of members does. -/
inductive MCall where
  | add (e : Nat) (fit taken : Bool)
  | del (e : Nat)
  | compact
  | list
  | dllList
deriving Repr

/-- One call; `none` is undefined. -/
def MCall.run (m : Members) : MCall → Option Members
  | .add e fit taken => some (addMember m e fit taken).1
  | .del e => some (delMember m e).1
  | .compact => some (compactMembers m)
  | .list => some (getMembers m).1
  | .dllList => (dllGetMembers m).map Prod.fst

/-- A history of calls. -/
def runMembers : Members → List MCall → Option Members
  | m, [] => some m
  | m, c :: cs => (c.run m).bind fun m' => runMembers m' cs

/-- A list of texts (`comments` of an entity, `startSection` of a model) and the copy (`vcomments`,
`vStartSection`), which holds pointers to the texts.  A text has an address as long as it is in the
list: the nodes of a `std::list` do not move. -/
structure Texts where
  items : List (Nat × Str)
  copy : List Nat
deriving DecidableEq, Repr

/-- The text a pointer leads to; `none` if there is none any more. -/
def Texts.deref (t : Texts) (p : Nat) : Option Str := (t.items.find? fun x => x.1 == p).map Prod.snd

/-- `AddComment`, iges_entity.cpp:2995-3005; `a` is the address of the new text. -/
def addComment (t : Texts) (a : Nat) (s : Str) : Texts := ⟨t.items ++ [(a, s)], []⟩

/-- `DelComment`, iges_entity.cpp:3008-3028. -/
def delComment (t : Texts) (i : Int) : Texts × Bool :=
  if i < 0 ∨ i ≥ t.items.length then (t, false)
  else ({ t with items := t.items.eraseIdx i.toNat }, true)

/-- `ClearComments`, iges_entity.cpp:3031-3035. -/
def clearComments (t : Texts) : Texts := { t with items := [] }

/-- `Compact`, iges_entity.cpp:274-277. -/
def compactComments (t : Texts) : Texts := { t with copy := [] }

/-- `GetComments`, iges_entity.cpp:2966-2992: `none` is the return `false`. -/
def getTexts (t : Texts) : Texts × Option (List Nat) :=
  if t.items = [] then (t, none)
  else
    let v := refresh (t.items.map Prod.fst) t.copy
    ({ t with copy := v }, some v)

/-- What the user of the comments of an entity does.  The address of a new comment is the choice of
the allocator. -/
inductive TCall where
  | add (a : Nat) (s : Str)
  | del (i : Int)
  | clear
  | compact
  | list
deriving Repr

/-- One call; `none`: the allocator would give the address of a text that is still there, which
does not happen. -/
def TCall.run (t : Texts) : TCall → Option Texts
  | .add a s => if a ∈ t.items.map Prod.fst then none else some (addComment t a s)
  | .del i => some (delComment t i).1
  | .clear => some (clearComments t)
  | .compact => some (compactComments t)
  | .list => some (getTexts t).1

/-- A history of calls. -/
def runTexts : Texts → List TCall → Option Texts
  | t, [] => some t
  | t, c :: cs => (c.run t).bind fun t' => runTexts t' cs

/-- `AddToHeader`, iges.cpp:1898-1931, with the copy: a text without characters leaves it as it is.
`as` are the addresses of the new lines. -/
def addHeader (t : Texts) (as : List Nat) (s : Str) : Texts :=
  if s = [] then t else ⟨t.items ++ as.zip (AddToHeader [] s), []⟩

/-- The start section after `IGES::Clear`, iges.cpp:404-418 and 394. -/
def clearHeader (t : Texts) : Texts := { t with items := [] }

/-- The start section after `IGES::Read`, iges.cpp:422-620, of a model without entities: `lines` are
the data of the S records.  The number of a record must be the number of lines read and there before
(484); if that or anything later fails (`good = false`), the model is cleared. -/
def readHeader (t : Texts) (as : List Nat) (lines : List Str) (good : Bool) : Texts :=
  if good = false ∨ t.items ≠ [] then clearHeader t else { t with items := as.zip lines }

/-- The start section after `IGES::Write`, iges.cpp:1934-1974: without lines, one is added.  Lines
have 72 columns here, so that none of them is padded or split. -/
def writeHeader (t : Texts) (a : Nat) : Texts :=
  if t.items = [] then { t with items := [(a, pad72 defaultStart)] } else t

/-- `GetHeaders`, iges.cpp:1864-1889, with the caller's variable for the number of lines: it is
passed by value.  The result has the state, the return with the array, and the variable
afterwards. -/
def getHeaders (t : Texts) (size : Nat) : Texts × Option (List Nat) × Nat :=
  ((getTexts t).1, (getTexts t).2, size)

/-- What the user of the header lines of a model does. -/
inductive HCall where
  | add (as : List Nat) (s : Str)
  | clear
  | read (as : List Nat) (lines : List Str) (good : Bool)
  | write (a : Nat)
  | list
deriving Repr

/-- Addresses for `n` new texts: distinct, and none of them in use. -/
def freshFor (t : Texts) (as : List Nat) (n : Nat) : Prop :=
  as.length = n ∧ as.Nodup ∧ ∀ a ∈ as, a ∉ t.items.map Prod.fst

instance (t : Texts) (as : List Nat) (n : Nat) : Decidable (freshFor t as n) := by
  unfold freshFor; infer_instance

/-- One call; `none`: an allocator that gives addresses in use. -/
def HCall.run (t : Texts) : HCall → Option Texts
  | .add as s => if freshFor t as (AddToHeader [] s).length then some (addHeader t as s) else none
  | .clear => some (clearHeader t)
  | .read as lines good => if freshFor t as lines.length then some (readHeader t as lines good) else none
  | .write a => if a ∈ t.items.map Prod.fst then none else some (writeHeader t a)
  | .list => some (getTexts t).1

/-- A history of calls. -/
def runHeaders : Texts → List HCall → Option Texts
  | t, [] => some t
  | t, c :: cs => (c.run t).bind fun t' => runHeaders t' cs

/-- `EDGE_DATA`: curve, vertex lists and indices of the two ends. -/
structure Edge where
  curv : Nat
  svp : Nat
  sv : Int
  tvp : Nat
  tv : Int
deriving DecidableEq, Repr

/-- `edges` and `vedges` of entity 504. -/
structure Edges where
  items : List Edge
  copy : List Edge
deriving DecidableEq, Repr

/-- `AddEdge`, entity504.cpp:589-656, of an edge that passes the tests. -/
def addEdge (t : Edges) (e : Edge) : Edges := { t with items := t.items ++ [e] }

/-- `unlink` of a curve, entity504.cpp:324-342. -/
def unlinkCurve (t : Edges) (c : Nat) : Edges :=
  { t with items := t.items.eraseP fun e => e.curv == c }

/-- `unlink` of a vertex list of the entity, entity504.cpp:289-318. -/
def unlinkVertices (t : Edges) (v : Nat) : Edges :=
  { t with items := t.items.filter fun e => !(v == e.svp || v == e.tvp) }

/-- `GetEdges`, entity504.cpp:559-586: the state, the return value, the array and the caller's
variable for the number, which is passed by value. -/
def getEdges (t : Edges) (size : Nat) : Edges × Bool × List Edge × Nat :=
  if t.items = [] then (⟨t.items, []⟩, false, [], size)
  else
    let v := if t.copy = [] ∨ t.copy.length ≠ t.items.length then t.items else t.copy
    (⟨t.items, v⟩, false, v, size)

/-- `GetBounds`, entity510.cpp:530-541: the number and the array.  `none`: the address of the first
element of an empty vector, undefined (the test for an empty list does not return). -/
def getBounds (loops : List Nat) : Option (Nat × List Nat) :=
  if loops = [] then none else some (loops.length, loops)

end Iges.Handout
