import Mathlib.Data.List.Basic

/-!
The bookkeeping of references between entities: who points at whom
(`/repo/src/entities/iges_entity.cpp`, `/repo/src/entities/entity*.cpp`).

An entity is identified by a number (its address).  The heap maps the addresses of live
entities to their contents; a destroyed entity has no contents.  `none` as the result of an
operation is undefined behaviour: use of a destroyed entity, an iterator moved past the end,
an unbounded recursion, or a virtual call on an object whose destructor already reached the
base class (`unlink`, `addReference` and `delReference` are pure there,
`/repo/src/include/core/iges_entity.h:215-237`).
-/

namespace Iges.Graph

/-- One edge of an edge list (`EDGE_DATA`, `/repo/src/include/core/entity504.h:40-84`): the
curve, and the two vertex lists with the 1-based positions in them. -/
structure Edge where
  curv : Nat
  svp : Nat
  sv : Int
  tvp : Nat
  tv : Int
  deriving DecidableEq, Repr

/-- The part of an entity that concerns references.

* `etype`, `form`, `depends`: `/repo/src/include/core/iges_entity.h:49-90`; `depends = 0` is
  `STAT_INDEPENDENT`, `1` is `STAT_DEP_PHY`; `etype = 0` is the placeholder class
  `IGES_ENTITY_NULL`.
* `refs`, `extras`: the users and the optional pointers (`iges_entity.h:82-84`).
* `de`: the seven Directory Entry pointers in the order in which `unlink` tests them:
  structure, line font, level, view, transform, label, colour.
* `own`: the single pointers of the class: 120 `L, C`; 122 `DE`; 142 `SPTR, BPTR, CPTR`;
  144 `PTS, PTO`; 164 `PTR`; 186 `mshell`; 408 `DE`; 510 `msurface`.
* `kids`: the pointer list of the class: 102 `curves`; 144 `PTI`; 180 the operands in `nodes`
  (the operators are left out here); 186 `mvoids`; 308 `DE`; 510 `mloops`; 514 `mfaces`
  (orientation flags left out).
* `edges`, `verts`: 504 `edges` and `vertices` (each vertex list with its count).
* `loops`, `redges`: 508 `edges` (edge entity, parameter curves) and `redges`.
* `npts`: number of vertices of a vertex list (502).

Coordinates, numbers and texts are left out. -/
structure Obj where
  etype : Nat
  form : Int := 0
  depends : Nat := 0
  refs : List Nat := []
  de : List (Option Nat) := List.replicate 7 none
  extras : List Nat := []
  own : List (Option Nat) := []
  kids : List Nat := []
  edges : List Edge := []
  verts : List (Nat × Int) := []
  loops : List (Nat × List Nat) := []
  redges : List (Nat × Int) := []
  npts : Nat := 0
  deriving DecidableEq, Repr

/-- The live entities. -/
abbrev Heap := Nat → Option Obj

/-- Store an entity. -/
def Heap.put (h : Heap) (i : Nat) (o : Obj) : Heap := fun j => if j = i then some o else h j

/-- Release the storage of an entity. -/
def Heap.free (h : Heap) (i : Nat) : Heap := fun j => if j = i then none else h j

/-- Everything an entity points at, one entry per pointer. -/
def Obj.children (o : Obj) : List Nat :=
  o.de.filterMap id ++ o.extras ++ o.own.filterMap id ++ o.kids
    ++ o.edges.map Edge.curv ++ o.verts.map Prod.fst
    ++ o.loops.flatMap Prod.snd ++ o.redges.map Prod.fst

/-! ### The base class -/

/-- `IGES_ENTITY::addReference` (`iges_entity.cpp:362-413`) together with the overrides:
`IGES_ENTITY_NULL` (`entityNULL.cpp:198-204`) refuses; 102 (`entity102.cpp:454-473`) refuses a
composite curve; 122 (`:241-256`), 142 (`:334-349`), 144 (`:445-477`), 164 (`:251-266`),
308 (`:274-300`), 408 (`:249-264`) refuse an entity they point at; 502 (`:199-211`) refuses
itself; 504 (`:355-401`) refuses itself and its curves (its test of the vertex lists compares
with `this` and never succeeds); 508 (`:392-438`) refuses itself, its edges and curves.  The
other classes call the base version.  The result is (heap, accepted, duplicate). -/
def addRef (h : Heap) (c p : Nat) : Option (Heap × Bool × Bool) :=
  match h c with
  | none => none
  | some o =>
    match h p with
    | none => none
    | some po =>
      if o.etype = 0 then some (h, false, false)
      else if o.etype = 102 ∧ po.etype = 102 then some (h, false, false)
      else if (o.etype = 122 ∨ o.etype = 142 ∨ o.etype = 144 ∨ o.etype = 164 ∨ o.etype = 408)
          ∧ some p ∈ o.own then some (h, false, false)
      else if (o.etype = 144 ∨ o.etype = 308) ∧ p ∈ o.kids then some (h, false, false)
      else if (o.etype = 502 ∨ o.etype = 504 ∨ o.etype = 508) ∧ p = c then some (h, false, false)
      else if o.etype = 504 ∧ p ∈ o.edges.map Edge.curv then some (h, false, false)
      else if o.etype = 508 ∧ (p ∈ o.loops.map Prod.fst ∨ p ∈ o.loops.flatMap Prod.snd) then
        some (h, false, false)
      else if some p ∈ o.de then some (h, false, false)
      else if p ∈ o.refs then some (h, true, true)
      else if p ∈ o.extras then some (h, true, true)
      else some (h.put c { o with refs := o.refs ++ [p] }, true, false)

/-- The nested call of `delReference` (`iges_entity.cpp:446`): entity `x` drops its user `c`.
If `c` is not a user of `x`, the search goes on in `x`'s optional pointers: an empty list ends
it; any other first entry moves the wrong iterator past the end (`iges_entity.cpp:453`), and
`c` itself as first entry would call back without end. -/
def delRefNested (h : Heap) (x c : Nat) : Option Heap :=
  match h x with
  | none => none
  | some o =>
    if o.etype = 0 then some h
    else if c ∈ o.refs then some (h.put x { o with refs := o.refs.erase c })
    else if o.extras = [] then some h
    else none

/-- `IGES_ENTITY::delReference` (`iges_entity.cpp:416-458`); `IGES_ENTITY_NULL` answers false
(`entityNULL.cpp:207-211`), every other class uses this version.  Only the first optional
pointer is ever looked at: the loop advances the wrong iterator. -/
def delRef (h : Heap) (c p : Nat) : Option (Heap × Bool) :=
  match h c with
  | none => none
  | some o =>
    if o.etype = 0 then some (h, false)
    else if p ∈ o.refs then some (h.put c { o with refs := o.refs.erase p }, true)
    else
      match o.extras with
      | [] => some (h, false)
      | x :: _ =>
        if x = p then
          match h x with
          | none => none
          | some ox =>
            match (if ox.etype = 402 then some h else delRefNested h x c) with
            | none => none
            | some h' =>
              match h' c with
              | none => none
              | some o' => some (h'.put c { o' with extras := o'.extras.tail }, true)
        else none

/-- Clear the first pointer that equals `c`; `none` if there is none. -/
def clearFirst : List (Option Nat) → Nat → Option (List (Option Nat))
  | [], _ => none
  | a :: l, c => if a = some c then some (none :: l) else (clearFirst l c).map (a :: ·)

/-- `IGES_ENTITY::unlink` (`iges_entity.cpp:280-359`): the first matching Directory Entry
pointer is cleared, else the first matching optional pointer removed; `none`: no match. -/
def baseUnlink (o : Obj) (c : Nat) : Option Obj :=
  match clearFirst o.de c with
  | some d => some { o with de := d }
  | none => if c ∈ o.extras then some { o with extras := o.extras.erase c } else none

/-- A vertex list is looked up in `vertices` and counted down
(`IGES_ENTITY_504::delVertexList`, `entity504.cpp:771-801`, second argument false); the vertex
list loses its user when the count reaches zero.  The entry is described by its count `n`. -/
def delVertexList (h : Heap) (e v : Nat) : Option Heap :=
  match h e with
  | none => none
  | some o =>
    match o.verts.find? (fun q => q.1 == v) with
    | none => some h
    | some (_, n) =>
      if n - 1 = 0 then
        match delRef h v e with
        | none => none
        | some (h', _) =>
          match h' e with
          | none => none
          | some o' => some (h'.put e { o' with verts := o'.verts.eraseP (fun q => q.1 == v) })
      else some (h.put e { o with
        verts := o.verts.map (fun q => if q.1 = v then (q.1, q.2 - 1) else q) })

/-- Drop the user `p` from each entity of a list (the loops over children in the destructors
and in `IGES_ENTITY_102::unlink`). -/
def delRefs (h : Heap) : List Nat → Nat → Option Heap
  | [], _ => some h
  | c :: l, p =>
    match delRef h c p with
    | none => none
    | some (h', _) => delRefs h' l p

/-- `unlink` as seen from the entity that is being destroyed: `c`, of type `ct`, asks its user
`p` to forget it.

* 124 (`entity124.cpp:229-252`): only its own transform, and only for a child of type 124;
* `IGES_ENTITY_NULL` (`entityNULL.cpp:183-188`): nothing;
* all others first call the base version;
* 102 (`entity102.cpp:397-439`): the curve is removed; if it was neither the first nor the last
  one, all other curves are released; the answer is true even when nothing was found;
* 180 (`entity180.cpp:297-327`): all nodes are dropped, without telling the other operands;
* 504 (`entity504.cpp:280-343`): a vertex list in use is told to drop its user by a virtual
  call while its destructor already runs in the base class (undefined); for a curve both vertex
  lists of the first edge with that curve are counted down and the edge removed;
* 508 (`entity508.cpp:358-380`): with a parameter curve in use the same virtual call happens
  (`:874`), with an edge in use a reverse iterator is moved before the start (`:787`): undefined;
* 120, 122, 142, 144, 164, 186, 308, 408, 510, 514: the pointer is cleared or the list entry
  removed. -/
def unlink (h : Heap) (p c ct : Nat) : Option (Heap × Bool) :=
  match h p with
  | none => none
  | some o =>
    if o.etype = 124 then
      if ct ≠ 124 then some (h, false)
      else if o.de[4]? = some (some c) then
        some (h.put p { o with de := o.de.set 4 none }, true)
      else some (h, false)
    else if o.etype = 0 then some (h, true)
    else
      match baseUnlink o c with
      | some o' => some (h.put p o', true)
      | none =>
        if o.etype = 102 then
          if c ∈ o.kids then
            if o.kids.head? ≠ some c ∧ o.kids.getLast? ≠ some c then
              match delRefs (h.put p { o with kids := o.kids.erase c }) (o.kids.erase c) p with
              | none => none
              | some h' =>
                match h' p with
                | none => none
                | some o' => some (h'.put p { o' with kids := [] }, true)
            else some (h.put p { o with kids := o.kids.erase c }, true)
          else some (h, true)
        else if o.etype = 180 then
          if c ∈ o.kids then some (h.put p { o with kids := [] }, true) else some (h, true)
        else if o.etype = 504 then
          if ct = 502 then
            if c ∈ o.verts.map Prod.fst then none else some (h, false)
          else
            match o.edges.find? (fun q => q.curv == c) with
            | none => some (h, false)
            | some q =>
              match delVertexList h p q.svp with
              | none => none
              | some h1 =>
                match delVertexList h1 p q.tvp with
                | none => none
                | some h2 =>
                  match h2 p with
                  | none => none
                  | some o2 =>
                    some (h2.put p { o2 with
                      edges := o2.edges.eraseP (fun q => q.curv == c) }, true)
        else if o.etype = 508 then
          if c ∈ o.redges.map Prod.fst ∨ c ∈ o.loops.flatMap Prod.snd then none
          else some (h, false)
        else
          match clearFirst o.own c with
          | some w => some (h.put p { o with own := w }, true)
          | none =>
            if c ∈ o.kids then some (h.put p { o with kids := o.kids.erase c }, true)
            else some (h, false)

/-- The users of a dying entity forget it, one after the other (`iges_entity.cpp:131-146`). -/
def unlinkAll (h : Heap) : List Nat → Nat → Nat → Option Heap
  | [], _, _ => some h
  | p :: l, c, ct =>
    match unlink h p c ct with
    | none => none
    | some (h', _) => unlinkAll h' l c ct

/-- The optional pointers of a dying entity (`iges_entity.cpp:148-177`): an entity of type 402
is asked to forget it, any other one drops it as a user. -/
def dropExtras (h : Heap) : List Nat → Nat → Nat → Option Heap
  | [], _, _ => some h
  | x :: l, e, et =>
    match h x with
    | none => none
    | some ox =>
      match (if ox.etype = 402 then (unlink h x e et).map Prod.fst
             else (delRef h x e).map Prod.fst) with
      | none => none
      | some h' => dropExtras h' l e et

/-- The destructor of the class: every own child drops its user.  102 (`entity102.cpp:53-75`),
120 (`:51-60`), 122 (`:54-60`), 142 (`:56-68`), 144 (`:98-116`), 164 (`:54-62`),
180 (`:45-49`, `:89-114`), 186 (`:57-73`), 308 (`:50-63`), 408 (`:56-62`), 504 (`:52-84`),
510 (`:56-72`), 514 (`:50-63`).  508 (`:90-126`) calls `unlink` on its children instead. -/
def ownDtor (h : Heap) (e : Nat) : Option Heap :=
  match h e with
  | none => none
  | some o =>
    if o.etype = 508 then
      (o.loops.flatMap Prod.snd ++ o.redges.map Prod.fst).foldlM
        (fun h c => (unlink h c e 508).map Prod.fst) h
    else
      delRefs h (o.own.filterMap id ++ o.kids ++ o.edges.map Edge.curv ++ o.verts.map Prod.fst) e

/-- `delete` of an entity: the destructor of the class, then `IGES_ENTITY::~IGES_ENTITY`
(`iges_entity.cpp:117-221`): users, optional pointers, Directory Entry pointers.  From the start
of the second part on the entity takes no virtual calls any more, so it is removed from the heap
there. -/
def destroy (h : Heap) (e : Nat) : Option Heap :=
  match ownDtor h e with
  | none => none
  | some h1 =>
    match h1 e with
    | none => none
    | some o =>
      match unlinkAll (h1.free e) o.refs e o.etype with
      | none => none
      | some h2 =>
        match dropExtras h2 o.extras e o.etype with
        | none => none
        | some h3 => delRefs h3 (o.de.filterMap id) e

/-! ### Setting pointers -/

/-- A single pointer of an entity: of the Directory Entry or of the class. -/
inductive Slot where
  | de (i : Nat)
  | own (i : Nat)
  deriving DecidableEq, Repr

/-- Read a pointer. -/
def Obj.slot (o : Obj) : Slot → Option Nat
  | .de i => (o.de[i]?).join
  | .own i => (o.own[i]?).join

/-- Write a pointer. -/
def Obj.setSlot (o : Obj) (s : Slot) (v : Option Nat) : Obj :=
  match s with
  | .de i => { o with de := o.de.set i v }
  | .own i => { o with own := o.own.set i v }

/-- Release what a pointer holds and clear it, as every setter does first. -/
def release (h : Heap) (e : Nat) (s : Slot) : Option Heap :=
  match h e with
  | none => none
  | some o =>
    match o.slot s with
    | none => some h
    | some old =>
      match delRef h old e with
      | none => none
      | some (h', _) =>
        match h' e with
        | none => none
        | some o' => some (h'.put e (o'.setSlot s none))

/-- `SetDependency( STAT_DEP_PHY )` on a child (`iges_entity.cpp:3038-3042`; 124, 314, 502, 504,
508, 510 do not store it: `entity124.cpp:391`, `entity314.cpp:414`, `entity502.cpp:346`,
`entity504.cpp:537`, `entity508.cpp:680`, `entity510.cpp:476`). -/
def setDep (h : Heap) (c : Nat) : Heap :=
  match h c with
  | none => h
  | some o =>
    if o.etype = 124 ∨ o.etype = 314 ∨ o.etype = 502 ∨ o.etype = 504 ∨ o.etype = 508
        ∨ o.etype = 510 then h
    else h.put c { o with depends := 1 }

/-- The setters that store the pointer after the reference was accepted: `SetL`, `SetC`
(`entity120.cpp:437-476`, `503-535`), `IGES_ENTITY_122::SetDE` (`entity122.cpp:398-424`),
`SetColor` (`iges_entity.cpp:2386-2432`).  `dep` tells whether the child is marked dependent. -/
def setAfter (h : Heap) (e : Nat) (s : Slot) (c : Nat) (dep : Bool) : Option (Heap × Bool) :=
  match release h e s with
  | none => none
  | some h1 =>
    match addRef h1 c e with
    | none => none
    | some (h2, ok, dup) =>
      if ok = true ∧ dup = false then
        match h2 e with
        | none => none
        | some o =>
          let h3 := h2.put e (o.setSlot s (some c))
          some (if dep then setDep h3 c else h3, true)
      else some (h2, false)

/-- The setters that store the pointer before asking the child to accept the reference, and clear
it again on refusal: `SetTransform` (`iges_entity.cpp:2205-2259`), the three of 142
(`entity142.cpp:559-683`), `SetPTS`, `SetPTO` (`entity144.cpp:673-763`), `SetClosedCurve`
(`entity164.cpp:465-508`), `IGES_ENTITY_408::SetDE` (`entity408.cpp:420-460`). -/
def setBefore (h : Heap) (e : Nat) (s : Slot) (c : Nat) (dep : Bool) : Option (Heap × Bool) :=
  match release h e s with
  | none => none
  | some h1 =>
    match h1 e with
    | none => none
    | some o1 =>
      match addRef (h1.put e (o1.setSlot s (some c))) c e with
      | none => none
      | some (h2, ok, dup) =>
        if ok = true ∧ dup = false then some (if dep then setDep h2 c else h2, true)
        else
          match h2 e with
          | none => none
          | some o => some (h2.put e (o.setSlot s none), false)

/-- `SetTransform` (`iges_entity.cpp:2205-2259`).  314 (`entity314.cpp:479-483`) answers true and
does nothing; 0, 406, 502, 504, 508, 510, 514 answer false. -/
def SetTransform (h : Heap) (e : Nat) (t : Option Nat) : Option (Heap × Bool) :=
  match h e with
  | none => none
  | some o =>
    if o.etype = 314 then some (h, true)
    else if o.etype = 0 ∨ o.etype = 406 ∨ o.etype = 502 ∨ o.etype = 504 ∨ o.etype = 508
        ∨ o.etype = 510 ∨ o.etype = 514 then some (h, false)
    else
      match t with
      | none => (release h e (.de 4)).map (·, true)
      | some c =>
        match h c with
        | none => none
        | some oc =>
          if oc.etype = 124 then setBefore h e (.de 4) c false
          else (release h e (.de 4)).map (·, false)

/-- `SetColor( IGES_ENTITY* )` (`iges_entity.cpp:2386-2432`).  314 (`entity314.cpp:506-510`)
answers true and does nothing; 0, 124, 406, 502, 504, 510, 514 answer false. -/
def SetColor (h : Heap) (e : Nat) (t : Option Nat) : Option (Heap × Bool) :=
  match h e with
  | none => none
  | some o =>
    if o.etype = 314 then some (h, true)
    else if o.etype = 0 ∨ o.etype = 124 ∨ o.etype = 406 ∨ o.etype = 502 ∨ o.etype = 504
        ∨ o.etype = 510 ∨ o.etype = 514 then some (h, false)
    else
      match t with
      | none => (release h e (.de 6)).map (·, true)
      | some c =>
        match h c with
        | none => none
        | some oc =>
          if oc.etype = 314 then setAfter h e (.de 6) c false
          else (release h e (.de 6)).map (·, false)

/-- `AddOptionalEntity` (`iges_entity.cpp:2858-2900`). -/
def AddOptionalEntity (h : Heap) (e c : Nat) : Option (Heap × Bool) :=
  match h e with
  | none => none
  | some _ =>
    match h c with
    | none => none
    | some oc =>
      if oc.etype = 402 then
        match h e with
        | none => none
        | some o => some (h.put e { o with extras := o.extras ++ [c] }, true)
      else if oc.etype = 406 ∨ oc.etype = 212 ∨ oc.etype = 312 then
        match addRef h c e with
        | none => none
        | some (h1, ok, dup) =>
          if ok = true ∧ dup = false then
            match h1 e with
            | none => none
            | some o => some (h1.put e { o with extras := o.extras ++ [c] }, true)
          else some (h1, false)
      else some (h, false)

/-- `DelOptionalEntity` (`iges_entity.cpp:2903-2941`).  Type 406 is refused; for the others the
entity's own list of users is searched instead of the child's, and what then remains to be found
in the optional pointers is removed. -/
def DelOptionalEntity (h : Heap) (e c : Nat) : Option (Heap × Bool) :=
  match h c with
  | none => none
  | some oc =>
    if oc.etype = 402 ∨ oc.etype = 212 ∨ oc.etype = 312 then
      match delRef h e c with
      | none => none
      | some (h1, false) => some (h1, false)
      | some (h1, true) =>
        match h1 e with
        | none => none
        | some o =>
          if c ∈ o.extras then some (h1.put e { o with extras := o.extras.erase c }, true)
          else some (h1, false)
    else some (h, false)

/-- Add to the pointer list of the class: the child accepts the reference, is marked dependent
(if `dep`) and appended.  `dupOk` is the answer for a child that already lists the user. -/
def addKid (h : Heap) (e c : Nat) (dep dupOk : Bool) : Option (Heap × Bool) :=
  match addRef h c e with
  | none => none
  | some (h1, ok, dup) =>
    if ok = true then
      if dup = true then some (h1, dupOk)
      else
        let h2 := if dep then setDep h1 c else h1
        match h2 e with
        | none => none
        | some o => some (h2.put e { o with kids := o.kids ++ [c] }, true)
    else some (h1, false)

/-- `IGES_ENTITY_102::AddSegment` (`entity102.cpp:723-766`).  `closed` is the answer of
`IsClosed()` on the composite curve. -/
def AddSegment (h : Heap) (e : Nat) (c : Option Nat) (closed : Bool) : Option (Heap × Bool) :=
  match h e, c with
  | none, _ => none
  | some _, none => some (h, false)
  | some o, some c =>
    match h c with
    | none => none
    | some oc =>
      if oc.etype = 102 then some (h, false)
      else if o.kids ≠ [] ∧ closed = true then some (h, false)
      else addKid h e c true true

/-- `IGES_ENTITY_120::SetL` (`entity120.cpp:437-476`). -/
def SetL (h : Heap) (e : Nat) (c : Option Nat) : Option (Heap × Bool) :=
  match c with
  | none => some (h, false)
  | some c =>
    match h c with
    | none => none
    | some oc => if oc.etype = 110 then setAfter h e (.own 0) c true else some (h, false)

/-- `IGES_ENTITY_120::SetC` (`entity120.cpp:503-535`). -/
def SetC (h : Heap) (e : Nat) (c : Option Nat) : Option (Heap × Bool) :=
  match c with
  | none => some (h, false)
  | some c => setAfter h e (.own 1) c true

/-- `IGES_ENTITY_122::SetDE` (`entity122.cpp:398-424`): a null pointer is dereferenced. -/
def SetDE122 (h : Heap) (e : Nat) (c : Option Nat) : Option (Heap × Bool) :=
  match c with
  | none => none
  | some c => setAfter h e (.own 0) c true

/-- `IGES_ENTITY_142::SetSPTR`, `SetBPTR`, `SetCPTR` (`entity142.cpp:559-591`, `605-637`,
`651-683`) for slot 0, 1, 2. -/
def Set142 (h : Heap) (e i : Nat) (c : Option Nat) : Option (Heap × Bool) :=
  match c with
  | none => (release h e (.own i)).map (·, true)
  | some c => setBefore h e (.own i) c true

/-- The surface types accepted by a trimmed surface (`entity144.cpp:37-80`). -/
def surface144 (t : Nat) : Bool :=
  t ∈ [106, 108, 114, 118, 120, 122, 128, 140, 143, 190, 192, 194, 196, 198]

/-- `IGES_ENTITY_144::SetPTS` (`entity144.cpp:673-716`). -/
def SetPTS (h : Heap) (e : Nat) (c : Option Nat) : Option (Heap × Bool) :=
  match c with
  | none => (release h e (.own 0)).map (·, true)
  | some c =>
    match h c with
    | none => none
    | some oc =>
      if surface144 oc.etype then setBefore h e (.own 0) c true
      else (release h e (.own 0)).map (·, false)

/-- `IGES_ENTITY_144::SetPTO` (`entity144.cpp:730-763`). -/
def SetPTO (h : Heap) (e : Nat) (c : Option Nat) : Option (Heap × Bool) :=
  match c with
  | none => (release h e (.own 1)).map (·, true)
  | some c => setBefore h e (.own 1) c true

/-- `IGES_ENTITY_144::AddPTI` (`entity144.cpp:816-865`). -/
def AddPTI (h : Heap) (e : Nat) (c : Option Nat) : Option (Heap × Bool) :=
  match h e, c with
  | none, _ => none
  | some _, none => some (h, false)
  | some o, some c => if c ∈ o.kids then some (h, true) else addKid h e c true false

/-- `IGES_ENTITY_144::DelPTI` (`entity144.cpp:868-886`) and `IGES_ENTITY_308::DelDE`
(`entity308.cpp:592-610`): the list entry is removed; the child is not told. -/
def delKid (h : Heap) (e c : Nat) : Option (Heap × Bool) :=
  match h e with
  | none => none
  | some o =>
    if c ∈ o.kids then some (h.put e { o with kids := o.kids.erase c }, true)
    else some (h, false)

/-- `IGES_ENTITY_164::SetClosedCurve` (`entity164.cpp:465-508`).  `closed` is the answer of
`IsClosed()` on the curve. -/
def SetClosedCurve (h : Heap) (e : Nat) (c : Option Nat) (closed : Bool) :
    Option (Heap × Bool) :=
  match c with
  | none => some (h, false)
  | some c => if closed = true then setBefore h e (.own 0) c true else some (h, false)

/-- The operand types accepted by a boolean tree (`IGES_ENTITY_180::typeOK`,
`entity180.cpp:52-86`). -/
def operand180 (t : Nat) : Bool :=
  t ∈ [150, 152, 154, 156, 158, 160, 162, 164, 168, 180, 430, 186]

/-- `IGES_ENTITY_180::AddArg` (`entity180.cpp:583-623`): a null pointer is dereferenced. -/
def AddArg (h : Heap) (e : Nat) (c : Option Nat) : Option (Heap × Bool) :=
  match c with
  | none => none
  | some c =>
    match h c with
    | none => none
    | some oc => if operand180 oc.etype then addKid h e c false false else some (h, false)

/-- `IGES_ENTITY_180::ClearNodes` (`entity180.cpp:89-114`). -/
def ClearNodes (h : Heap) (e : Nat) : Option Heap :=
  match h e with
  | none => none
  | some o =>
    match delRefs h o.kids e with
    | none => none
    | some h1 =>
      match h1 e with
      | none => none
      | some o1 => some (h1.put e { o1 with kids := [] })

/-- `IGES_ENTITY_308::AddDE` (`entity308.cpp:503-589`). -/
def AddDE (h : Heap) (e : Nat) (c : Option Nat) : Option (Heap × Bool) :=
  match h e, c with
  | none, _ => none
  | some _, none => some (h, false)
  | some o, some c =>
    if some c ∈ o.de ∨ c ∈ o.refs ∨ c ∈ o.extras then some (h, false)
    else if c ∈ o.kids then some (h, true)
    else addKid h e c true false

/-- `IGES_ENTITY_408::SetDE` (`entity408.cpp:420-460`). -/
def SetDE408 (h : Heap) (e : Nat) (c : Option Nat) : Option (Heap × Bool) :=
  match c with
  | none => (release h e (.own 0)).map (·, true)
  | some c =>
    match h c with
    | none => none
    | some oc =>
      if oc.etype = 308 then setBefore h e (.own 0) c false
      else (release h e (.own 0)).map (·, false)

/-- `IGES_ENTITY_504::addVertexList` (`entity504.cpp:725-767`). -/
def addVertexList (h : Heap) (e : Nat) (v : Option Nat) : Option (Heap × Bool) :=
  match h e, v with
  | none, _ => none
  | some _, none => some (h, false)
  | some o, some v =>
    if v ∈ o.verts.map Prod.fst then
      some (h.put e { o with
        verts := o.verts.map (fun q => if q.1 = v then (q.1, q.2 + 1) else q) }, true)
    else
      match addRef h v e with
      | none => none
      | some (h1, ok, dup) =>
        if ok = true ∧ dup = false then
          match h1 e with
          | none => none
          | some o1 => some (h1.put e { o1 with verts := o1.verts ++ [(v, 1)] }, true)
        else some (h1, false)

/-- The curve types accepted by an edge list (`entity504.cpp:672-701`). -/
def curve504 (o : Obj) : Bool :=
  o.etype ∈ [100, 102, 104, 110, 112, 126, 130]
    || (o.etype == 106 && (o.form == 11 || o.form == 12 || o.form == 63))

/-- `IGES_ENTITY_504::AddEdge` with `addCurve` (`entity504.cpp:589-656`, `660-721`). -/
def AddEdge (h : Heap) (e : Nat) (c s : Option Nat) (sv : Int) (t : Option Nat) (tv : Int) :
    Option (Heap × Bool) :=
  match c with
  | none => some (h, false)
  | some c =>
    match h c with
    | none => none
    | some oc =>
      if curve504 oc = false then some (h, false)
      else
        match addRef h c e with
        | none => none
        | some (h1, ok, dup) =>
          if ok = false ∨ dup = true then some (h1, false)
          else
            match addVertexList h1 e s with
            | none => none
            | some (h2, false) => (delRef h2 c e).map (fun r => (r.1, false))
            | some (h2, true) =>
              match addVertexList h2 e t with
              | none => none
              | some (h3, false) =>
                match delRef h3 c e with
                | none => none
                | some (h4, _) => (s.elim (some h4) (delVertexList h4 e)).map (·, false)
              | some (h3, true) =>
                match s, t with
                | some s, some t =>
                  match h3 s, h3 t with
                  | some os, some ot =>
                    if sv < 1 ∨ (os.npts : Int) < sv ∨ tv < 1 ∨ (ot.npts : Int) < tv then
                      match delRef h3 c e with
                      | none => none
                      | some (h4, _) =>
                        match delVertexList h4 e s with
                        | none => none
                        | some h5 => (delVertexList h5 e t).map (·, false)
                    else
                      match h3 e with
                      | none => none
                      | some o =>
                        some (h3.put e { o with edges := o.edges ++ [⟨c, s, sv, t, tv⟩] }, true)
                  | _, _ => none
                | _, _ => none

/-- `IGES_ENTITY_510::SetSurface` (`entity510.cpp:562-573`): the pointer is stored, no reference
is registered, an old one is not released. -/
def SetSurface (h : Heap) (e : Nat) (c : Option Nat) : Option (Heap × Bool) :=
  match h e, c with
  | none, _ => none
  | some _, none => some (h, false)
  | some o, some c => some (h.put e (o.setSlot (.own 0) (some c)), true)

/-- `IGES_ENTITY_510::AddBound` (`entity510.cpp:544-559`): as `SetSurface`, for a loop. -/
def AddBound (h : Heap) (e : Nat) (c : Option Nat) : Option (Heap × Bool) :=
  match h e, c with
  | none, _ => none
  | some _, none => some (h, false)
  | some o, some c => some (h.put e { o with kids := o.kids ++ [c] }, true)

/-! ### Creation, orphans, culling -/

/-- A new entity (`IGES::NewEntity`, `/repo/src/iges/iges.cpp:825-944`, and the constructors:
base `iges_entity.cpp:39-114`, the pointers of each class set to null, the form and dependency of
502, 504, 508, 510, 406).  A type outside the list makes a placeholder (type 0). -/
def newObj (t : Nat) : Obj :=
  if t ∈ [100, 102, 104, 110, 124, 126, 128, 154, 180, 308, 314] then { etype := t }
  else if t = 120 ∨ t = 144 then { etype := t, own := [none, none] }
  else if t = 122 ∨ t = 164 ∨ t = 186 ∨ t = 408 then { etype := t, own := [none] }
  else if t = 142 then { etype := t, own := [none, none, none] }
  else if t = 406 then { etype := t, form := 15 }
  else if t = 502 ∨ t = 504 ∨ t = 508 then { etype := t, form := 1, depends := 1 }
  else if t = 510 then { etype := t, form := 1, depends := 1, own := [none] }
  else if t = 514 then { etype := t, form := -1 }
  else { etype := 0, form := -1 }

/-- `isOrphaned` of each class: base pattern "no users and not independent" (100, 104, 110, 126,
128, 154, 180: e.g. `entity100.cpp:212-218`), and `entity102.cpp:442-451`, `entity120.cpp:267-273`,
`entity122.cpp:232-238`, `entity124.cpp:255-261`, `entity142.cpp:324-331`,
`entity144.cpp:435-442`, `entity164.cpp:242-248`, `entity186.cpp:318-324`, `entity308.cpp:264-271`,
`entity314.cpp:260-266`, `entity406.cpp:276-282`, `entity408.cpp:240-246`, `entity502.cpp:190-196`,
`entity504.cpp:346-352`, `entity508.cpp:383-389`, `entity510.cpp:279-285`, `entity514.cpp:256-262`,
`entityNULL.cpp:191-195`. -/
def isOrphaned (o : Obj) : Bool :=
  let unused := o.refs.isEmpty && o.depends != 0
  if o.etype = 0 then true
  else if o.etype = 102 ∨ o.etype = 308 ∨ o.etype = 514 then unused || o.kids.isEmpty
  else if o.etype = 120 then
    unused || (o.slot (.own 0)).isNone || (o.slot (.own 1)).isNone
  else if o.etype = 122 ∨ o.etype = 144 ∨ o.etype = 164 ∨ o.etype = 408 then
    unused || (o.slot (.own 0)).isNone
  else if o.etype = 124 ∨ o.etype = 314 then o.refs.isEmpty
  else if o.etype = 142 then
    unused || (o.slot (.own 0)).isNone
      || ((o.slot (.own 1)).isNone && (o.slot (.own 2)).isNone)
  else if o.etype = 186 then (o.slot (.own 0)).isNone
  else if o.etype = 406 then o.form == 0 || unused
  else if o.etype = 502 then o.refs.isEmpty || o.npts == 0
  else if o.etype = 504 then o.refs.isEmpty || o.edges.isEmpty
  else if o.etype = 508 then o.refs.isEmpty || o.loops.isEmpty
  else if o.etype = 510 then o.refs.isEmpty || (o.slot (.own 0)).isNone || o.kids.isEmpty
  else unused

/-- Is the entity deleted by `Cull( vicious )` at the moment it is looked at
(`iges.cpp:1755-1758`)? -/
def culled (vicious : Bool) (o : Obj) : Bool :=
  isOrphaned o || (vicious && o.refs.isEmpty && o.etype != 408)

/-- `IGES::Cull` (`iges.cpp:1746-1781`): one pass over the list; the result is the heap and the
new list. -/
def Cull (vicious : Bool) (h : Heap) : List Nat → Option (Heap × List Nat)
  | [] => some (h, [])
  | e :: l =>
    match h e with
    | none => none
    | some o =>
      if culled vicious o then
        match destroy h e with
        | none => none
        | some h' => Cull vicious h' l
      else (Cull vicious h l).map (fun r => (r.1, e :: r.2))

end Iges.Graph
