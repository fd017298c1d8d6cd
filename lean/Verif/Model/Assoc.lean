import Verif.Model.File
import Verif.Model.Graph
/-
Linking after a file has been read: `associate` of the base class and of the entity classes, and the loop
in `IGES::Read` (iges.cpp:595-618).

The entity at position `i` of the vector `entities` is given the address `i`.  All entities have the same
parent, so `AddEntity` (entity504.cpp:644-654, entity508.cpp:738 and similar) does nothing here.  `none` is
undefined behaviour.
-/
namespace Iges.Link

open Iges.Graph (Obj Heap addRef delRef release newObj setDep surface144 operand180)
open Iges.File (REnt Body)

/-- Geometric answers that linking asks for: `closed e`: `IsClosed()` of the curve `e` (entity164.cpp:122);
`points e`: the start and end points needed to compare neighbours in the composite curve `e` could all be
determined (entity102.cpp:255-260). -/
structure Geo where
  closed : Nat → Bool
  points : Nat → Bool

/-- The entity as `readDE` and `readPD` leave it: constructor (see `newObj`), form and dependency from the
directory entry, number of vertices of a vertex list. -/
def objOf (r : REnt) : Obj :=
  { newObj r.body.etype.toNat with
    form := r.de.form
    depends := r.de.depends.toNat
    npts := match r.body with
      | .vertices k => k.length
      | _ => 0 }

/-- All entities before linking. -/
def heapOf (es : List REnt) : Heap := fun i => es[i]?.map objOf

/-- Read an entity. -/
def get (h : Heap) (e : Nat) : Option Obj := h e

/-- Change an entity. -/
def edit (h : Heap) (e : Nat) (f : Obj → Obj) : Option Heap := (h e).map fun o => h.put e (f o)

/-! ### The base class -/

/-- The numbers in the directory entry that stand for pointers if they are positive, with their slot
(`Obj.de`): the tests at iges_entity.cpp:488, 543, 618, 697, 760, 833, 896. -/
def deNumbers (d : DE) : List (Nat × Int) :=
  [(0, d.structure_), (1, -d.lineFontPattern), (2, -d.level), (3, d.view), (4, d.transform), (5, d.labelAssoc),
    (6, -d.colorNum)]

/-- The pointers of the directory entry that `IGES_ENTITY::associate` follows. -/
def dePointers (d : DE) : List (Nat × Int) := (deNumbers d).filter fun q => 0 < q.2

/-- Is the target of the right type, for the slot: structure (any), 591-592, 667, 746-747, 811, 884,
948.  The transform has been cast to class 124 before (768-775). -/
def goodTarget (slot : Nat) (o : Obj) : Bool :=
  match slot with
  | 0 => true
  | 1 => o.etype == 304 || o.etype == 0
  | 2 => o.etype == 0 || (o.etype == 406 && o.form == 1)
  | 3 => o.etype == 0 || o.etype == 410 || (o.etype == 402 && (o.form == 3 || o.form == 4 || o.form == 19))
  | 4 => o.etype == 124 || o.etype == 0
  | 5 => o.etype == 0 || (o.etype == 402 && o.form == 5)
  | _ => o.etype == 0 || o.etype == 314

/-- How the treatment of one pointer ends: as it should, with `ok = false`, or with `return false`. -/
inductive Verdict where
  | fine
  | bad
  | stop
  deriving DecidableEq, Repr

/-- One directory entry pointer, iges_entity.cpp:488-540 for the structure and the same for the others: a
pointer to the entity itself is set to NULL, and then `addReference` is called through it (503-510). -/
def linkDE (h : Heap) (n e slot : Nat) (v : Int) : Option (Heap × Verdict) :=
  let c := (v / 2).toNat
  if c < n then do
    let oc ← get h c
    if slot = 4 ∧ oc.etype ≠ 124 then some (h, .stop)                 -- 768-775
    else if c = e then none
    else do
      let h1 ← edit h e (·.setSlot (.de slot) (some c))
      match ← addRef h1 c e with
      | (h2, false, _) => do
        let h3 ← edit h2 e (·.setSlot (.de slot) none)
        some (h3, if oc.etype = 0 then .fine else .bad)               -- 510-532
      | (h2, true, true) => do
        let h3 ← edit h2 e (·.setSlot (.de slot) none)
        some (h3, .stop)                                              -- 534-539
      | (h2, true, false) =>
        if goodTarget slot oc then some (h2, .fine)
        else do
          let h3 ← edit h2 e (·.setSlot (.de slot) none)
          some (h3, .bad)                                             -- 591-598
  else some (h, .bad)

/-- All directory entry pointers; the result is the heap, `ok`, and whether `return false` was met. -/
def linkDEs (n e : Nat) : List (Nat × Int) → Bool → Heap → Option (Heap × Bool × Bool)
  | [], ok, h => some (h, ok, false)
  | (s, v) :: l, ok, h => do
    match ← linkDE h n e s v with
    | (h1, .fine) => linkDEs n e l ok h1
    | (h1, .bad) => linkDEs n e l false h1
    | (h1, .stop) => some (h1, false, true)

/-- One optional pointer, iges_entity.cpp:980-1042. -/
def linkExtra (h : Heap) (n e : Nat) (v : Int) : Option (Heap × Bool) :=
  if 0 ≤ v / 2 ∧ (v / 2).toNat < n then do
    let c := (v / 2).toNat
    let oc ← get h c
    if oc.etype = 406 ∨ oc.etype = 212 ∨ oc.etype = 312 then
      match ← addRef h c e with
      | (h1, true, false) => do
        let h2 ← edit h1 e (fun o => { o with extras := o.extras ++ [c] })
        some (h2, true)
      | (h1, _, _) => some (h1, false)
    else if oc.etype = 402 then do
      let h1 ← edit h e (fun o => { o with extras := o.extras ++ [c] })
      some (h1, true)
    else some (h, false)
  else some (h, false)

/-- All optional pointers. -/
def linkExtras (n e : Nat) : List Int → Bool → Heap → Option (Heap × Bool)
  | [], ok, h => some (h, ok)
  | v :: l, ok, h => do
    let (h1, b) ← linkExtra h n e v
    linkExtras n e l (ok && b) h1

/-- `IGES_ENTITY::associate`, iges_entity.cpp:461-1053.  `done` holds the entities with `massoc`. -/
def linkBase (n e : Nat) (r : REnt) (h : Heap) (done : List Nat) : Option (Heap × List Nat × Bool) :=
  if e ∈ done then some (h, done, true)                               -- 480-481
  else do
    match ← linkDEs n e (dePointers r.de) true h with
    | (h1, _, true) => some (h1, done, false)
    | (h1, ok, false) => do
      let (h2, ok) ← linkExtras n e r.extras ok h1
      some (h2, if ok then e :: done else done, ok)

/-! ### Pieces of the classes -/

/-- Directory entry pointers that a class does not want are given back: the blocks
`if( pX ) { pX->delReference( this ); pX = NULL; }`, e.g. entity100.cpp:74-79. -/
def dropDEs (h : Heap) (e : Nat) : List Nat → Option Heap
  | [] => some h
  | i :: l => do
    let h1 ← release h e (.de i)
    dropDEs h1 e l

/-- How a number from the file is turned into a list position: `none`: undefined, `some none`: refused. -/
abbrev Find := Int → Option (Option Nat)

/-- Range tested on both sides, e.g. entity120.cpp:76-82. -/
def findRange (n : Nat) : Find := fun v =>
  some (if 0 ≤ v / 2 ∧ (v / 2).toNat < n then some (v / 2).toNat else none)

/-- Odd, positive and at most 9999997 first, e.g. entity308.cpp:97-111. -/
def findOdd (n : Nat) : Find := fun v =>
  if v ≤ 0 ∨ v % 2 = 0 ∨ v > 9999997 then some none else findRange n v

/-- Range tested from above only, e.g. entity514.cpp:90-98: a negative position is outside the vector. -/
def findAbove (n : Nat) : Find := fun v =>
  if v / 2 < 0 then none else findRange n v

/-- What a class does when the child already lists it as a user: clears its pointer and fails, keeps the
pointer and fails, or takes no notice. -/
inductive OnDup where
  | clear
  | stay
  | ignore
  deriving DecidableEq, Repr

/-- A single pointer of a class: stored, then `addReference`. -/
def linkOwn (h : Heap) (e i c : Nat) (refused : Bool) (d : OnDup) : Option (Heap × Bool) := do
  let h1 ← edit h e (·.setSlot (.own i) (some c))
  match ← addRef h1 c e with
  | (h2, false, _) => do
    let h3 ← edit h2 e (·.setSlot (.own i) none)
    some (h3, refused)
  | (h2, true, false) => some (h2, true)
  | (h2, true, true) =>
    match d with
    | .clear => do
      let h3 ← edit h2 e (·.setSlot (.own i) none)
      some (h3, false)
    | .stay => some (h2, false)
    | .ignore => some (h2, true)

/-- A number in a file that must lead to an entity that satisfies `good`; the pointer `i` is set to it. -/
def linkOwnAt (find : Find) (good : Obj → Bool) (h : Heap) (e i : Nat) (v : Int) (refused : Bool) (d : OnDup) :
    Option (Heap × Bool) := do
  match ← find v with
  | none => some (h, false)
  | some c => do
    let oc ← get h c
    if good oc then linkOwn h e i c refused d else some (h, false)

/-- An entry of the pointer list of a class: `addReference`, then `push_back`. -/
def linkKid (h : Heap) (e c : Nat) (ignoreDup : Bool) : Option (Heap × Bool) := do
  match ← addRef h c e with
  | (h1, false, _) => some (h1, false)
  | (h1, true, dup) =>
    if dup && !ignoreDup then some (h1, false)
    else do
      let h2 ← edit h1 e (fun o => { o with kids := o.kids ++ [c] })
      some (h2, true)

/-- A pointer list; the first failure ends it. -/
def linkKids (find : Find) (good : Obj → Bool) (ignoreDup : Bool) (e : Nat) : List Int → Heap → Option (Heap × Bool)
  | [], h => some (h, true)
  | v :: l, h => do
    match ← find v with
    | none => some (h, false)
    | some c => do
      let oc ← get h c
      if good oc then
        match ← linkKid h e c ignoreDup with
        | (h1, true) => linkKids find good ignoreDup e l h1
        | (h1, false) => some (h1, false)
      else some (h, false)

/-- Run the second step if the first succeeded. -/
def andThen (r : Option (Heap × Bool)) (f : Heap → Option (Heap × Bool)) : Option (Heap × Bool) := do
  match ← r with
  | (h, false) => some (h, false)
  | (h, true) => f h

/-- The classes derived from `IGES_CURVE`. -/
def isCurveObj (o : Obj) : Bool := o.etype ∈ [100, 102, 104, 110, 126]

/-! ### The classes -/

/-- Operands of a boolean tree, entity180.cpp:141-182: the pointer is stored before `addReference` and
stays on failure. -/
def linkArgs (n e : Nat) : List Int → Heap → Option (Heap × Bool)
  | [], h => some (h, true)
  | v :: l, h => do
    match ← findRange n v with
    | none => some (h, false)
    | some c => do
      let oc ← get h c
      if operand180 oc.etype then do
        let h1 ← edit h e (fun o => { o with kids := o.kids ++ [c] })
        match ← addRef h1 c e with
        | (h2, true, false) => linkArgs n e l h2
        | (h2, _, _) => some (h2, false)
      else some (h, false)

/-- The edges of an edge list, entity504.cpp:116-165; another class cast to `IGES_ENTITY_502` is undefined. -/
def linkEdges (n e : Nat) : List Iges.Edge → Heap → Option (Heap × Bool)
  | [], h => some (h, true)
  | q :: l, h => do
    match ← findRange n q.curv, ← findRange n q.svp, ← findRange n q.tvp with
    | some c, some s, some t => do
      let os ← get h s
      let ot ← get h t
      if os.etype ≠ 502 ∨ ot.etype ≠ 502 then none
      else
        match ← Graph.AddEdge h e (some c) (some s) q.sv (some t) q.tv with
        | (h1, true) => linkEdges n e l h1
        | (h1, false) => some (h1, false)
    | some _, some s, none => do                                      -- the casts come one after the other
      let os ← get h s
      if os.etype ≠ 502 then none else some (h, false)
    | _, _, _ => some (h, false)

/-- `IGES_ENTITY_508::addEdge`, entity508.cpp:706-742. -/
def addLoopEdge (h : Heap) (e c : Nat) : Option (Heap × Bool) := do
  let o ← get h e
  if c ∈ o.redges.map Prod.fst then do
    let h1 ← edit h e (fun o => { o with redges := o.redges.map fun q => if q.1 = c then (q.1, q.2 + 1) else q })
    some (h1, true)
  else
    match ← addRef h c e with
    | (h1, true, false) => do
      let h2 ← edit h1 e (fun o => { o with redges := o.redges ++ [(c, 1)] })
      some (h2, true)
    | (h1, _, _) => some (h1, false)

/-- The parameter curves of one edge, entity508.cpp:929-948 with `addPCurve` (805-846): `seen` are the
curves before, in reverse; on failure they and the current one drop their user. -/
def addPCurves (e : Nat) : List Nat → List Nat → Heap → Option (Heap × Bool)
  | _, [], h => some (h, true)
  | seen, c :: l, h => do
    let o ← get h e
    if c ∈ o.loops.flatMap Prod.snd then do
      let h1 ← Graph.delRefs h (c :: seen) e
      some (h1, false)
    else
      match ← addRef h c e with
      | (h1, true, false) => addPCurves e (c :: seen) l h1
      | (h1, _, _) => do
        let h2 ← Graph.delRefs h1 (c :: seen) e
        some (h2, false)

/-- The positions of all parameter curves of an edge, entity508.cpp:167-188. -/
def findAll (n : Nat) : List Int → Option (List Nat)
  | [] => some []
  | v :: l =>
    match findRange n v with
    | some (some c) => (findAll n l).map (c :: ·)
    | _ => none

/-- The edges of a loop, entity508.cpp:148-203 with `AddEdge` (915-953). -/
def linkLoops (n e : Nat) : List LoopEdge → Heap → Option (Heap × Bool)
  | [], h => some (h, true)
  | q :: l, h => do
    match ← findRange n q.data with
    | none => some (h, false)
    | some c =>
      match findAll n (q.pcurves.map Prod.snd) with
      | none => some (h, false)
      | some ps =>
        match ← addLoopEdge h e c with
        | (h1, false) => some (h1, false)
        | (h1, true) =>
          match ← addPCurves e [] ps h1 with
          | (h2, false) => some (h2, false)
          | (h2, true) => do
            let h3 ← edit h2 e (fun o => { o with loops := o.loops ++ [(c, ps)] })
            linkLoops n e l h3

/-- The surfaces a face takes, entity510.cpp:595-650. -/
def surface510 (o : Obj) : Bool :=
  o.etype ∈ [114, 120, 122, 128, 140, 190, 192, 194, 196, 198] || (o.etype == 118 && o.form == 1)

/-- The class part of `associate` behind the call of the base version, for all classes but 102:
100:74-79, 104:132-137, 110:59-64, 120:71-147, 122:71-114, 124:75-122, 126, 128, 142:79-179, 144:136-281,
154:71-78, 164:73-129, 180:125-184, 186:85-175, 308:83-134, 314:62-117, 406:118-166, 408:73-123, 502,
504:104-165, 508:138-204, 510:84-153, 514:74-123, NULL.  Left out: a cutout listed twice makes 144 forget
its surface before it fails (entity144.cpp:271). -/
def linkClass (G : Geo) (n e : Nat) (b : Body) (h : Heap) : Option (Heap × Bool) :=
  match b with
  | .arc _ | .conic _ | .line _ | .cylinder _ => (dropDEs h e [0]).map (·, true)
  | .composite _ | .curve _ | .surf _ | .vertices _ | .null _ => some (h, true)
  | .tx _ => (dropDEs h e [0, 1, 2, 3, 5, 6]).map (·, true)
  | .colour _ => (dropDEs h e [0, 1, 2, 3, 4, 5, 6]).map (·, true)
  | .name _ => (dropDEs h e [0, 1, 3, 4, 5, 6]).map (·, true)
  | .revolution k =>
    andThen (if k.L = 0 then some (h, true)
        else linkOwnAt (findRange n) (fun o => isCurveObj o && o.etype == 110) h e 0 k.L true .clear) fun h1 =>
    if k.C = 0 then some (h1, true) else linkOwnAt (findRange n) isCurveObj h1 e 1 k.C true .clear
  | .tabCyl k =>
    andThen ((dropDEs h e [0]).map (·, true)) fun h1 =>
    if k.DE = 0 then some (h1, true) else linkOwnAt (findOdd n) isCurveObj h1 e 0 k.DE false .ignore
  | .onSurface k =>
    if k.SPTR = 0 then some (h, false)
    else
      andThen (linkOwnAt (findRange n) (fun _ => true) h e 0 k.SPTR false .clear) fun h1 =>
      andThen (if k.BPTR = 0 then some (h1, true)
          else linkOwnAt (findRange n) (fun _ => true) h1 e 1 k.BPTR false .clear) fun h2 =>
      if k.CPTR = 0 then some (h2, true) else linkOwnAt (findRange n) (fun _ => true) h2 e 2 k.CPTR false .clear
  | .trimmed k =>
    if k.PTS = 0 then some (h, false)
    else
      andThen (linkOwnAt (findRange n) (fun o => surface144 o.etype) h e 0 k.PTS false .clear) fun h1 =>
      if k.PTO = 0 then some (h1, false)
      else
        andThen (linkOwnAt (findRange n) (fun o => o.etype == 142) h1 e 1 k.PTO false .clear) fun h2 =>
        linkKids (findOdd n) (fun o => o.etype == 142) false e k.PTI h2
  | .extrusion k =>
    andThen ((dropDEs h e [0]).map (·, true)) fun h1 =>
    if k.PTR < 1 then some (h1, false)
    else do
      match ← findRange n k.PTR with
      | none => some (h1, false)
      | some c =>
        match ← addRef h1 c e with
        | (h2, true, false) => do
          let oc ← get h2 c
          if isCurveObj oc then do
            let h3 ← edit h2 e (·.setSlot (.own 0) (some c))
            some (h3, G.closed c)
          else some (h2, false)
        | (h2, _, _) => some (h2, false)
  | .tree k =>
    andThen ((dropDEs h e [0]).map (·, true)) fun h1 =>
    linkArgs n e (k.filterMap fun | .op _ => none | .arg d => some d) h1
  | .solid k =>
    if k.shell ≤ 0 then some (h, false)
    else
      andThen (linkOwnAt (findRange n) (fun o => o.etype == 514 && o.form == 1) h e 0 k.shell false .ignore) fun h1 =>
      linkKids (findAbove n) (fun o => o.etype == 514 && o.form == 1) true e (k.voids.map Prod.fst) h1
  | .subfigure k => linkKids (findOdd n) (fun _ => true) false e k.DE h
  | .inst k =>
    andThen ((dropDEs h e [0]).map (·, true)) fun h1 =>
    if k.DE = 0 then some (h1, true)
    else linkOwnAt (findOdd n) (fun o => o.etype == 308) h1 e 0 k.DE false .stay
  | .edges k => linkEdges n e k h
  | .loop k => linkLoops n e k h
  | .face k =>
    if k.surf ≤ 0 then some (h, false)
    else
      andThen (linkOwnAt (findRange n) surface510 h e 0 k.surf false .ignore) fun h1 =>
      linkKids (findAbove n) (fun o => o.etype == 508) true e k.loops h1
  | .shell k =>
    if k = [] then some (h, false)
    else linkKids (findAbove n) (fun o => o.etype == 510) true e (k.map Prod.fst) h

/-- `associate` of a class other than 102, for the entity `e` with the data `r`. -/
def linkPlain (G : Geo) (n e : Nat) (r : REnt) (h : Heap) (done : List Nat) : Option (Heap × List Nat × Bool) := do
  let (h1, done, ok) ← linkBase n e r h done
  if ok then do
    let (h2, ok) ← linkClass G n e r.body h1
    some (h2, done, ok)
  else some (h1, done, false)

/-- The curves of a composite curve, entity102.cpp:103-167: every curve taken is linked at once, whether
that succeeds or not; a curve that already lists the composite curve is left out. -/
def linkCurves (G : Geo) (es : List REnt) (e : Nat) : List Int → Bool → Heap → List Nat →
    Option (Heap × List Nat × Bool)
  | [], ok, h, done => some (h, done, ok)
  | v :: l, ok, h, done => do
    match ← findRange es.length v with
    | none => linkCurves G es e l false h done
    | some c => do
      let oc ← get h c
      if isCurveObj oc && oc.etype != 102 then
        match ← addRef h c e with
        | (h1, false, _) => linkCurves G es e l false h1 done
        | (h1, true, true) => linkCurves G es e l ok h1 done
        | (h1, true, false) => do
          let h2 ← edit h1 e (fun o => { o with kids := o.kids ++ [c] })
          let r ← es[c]?
          let (h3, done, _) ← linkPlain G es.length c r h2 done
          linkCurves G es e l ok h3 done
      else linkCurves G es e l false h done

/-- `associate` of the entity at position `e`; for 102: entity102.cpp:78-301, where the types accepted at
207-217 are those of the curves that exist, so that only the points can be missing. -/
def linkEnt (G : Geo) (es : List REnt) (e : Nat) (h : Heap) (done : List Nat) : Option (Heap × List Nat × Bool) := do
  let r ← es[e]?
  match r.body with
  | .composite k => do
    let (h1, done, ok) ← linkBase es.length e r h done
    if ok then do
      let h2 ← dropDEs h1 e [0]
      let (h3, done, ok) ← linkCurves G es e k true h2 done
      some (h3, done, ok && G.points e)
    else some (h1, done, false)
  | _ => linkPlain G es.length e r h done

/-- The loop of `IGES::Read`, iges.cpp:598-606: the first failure ends it. -/
def linkFrom (G : Geo) (es : List REnt) : List Nat → Heap → List Nat → Option (Heap × Bool)
  | [], h, _ => some (h, true)
  | e :: l, h, done => do
    match ← linkEnt G es e h done with
    | (h1, done, true) => linkFrom G es l h1 done
    | (h1, _, false) => some (h1, false)

/-- Linking of all entities of a file. -/
def linkAll (G : Geo) (es : List REnt) : Option (Heap × Bool) :=
  linkFrom G es (List.range es.length) (heapOf es) []

/-- The entities of the model behind a successful `Read`: linking, then `Cull()` (iges.cpp:616). -/
def readGraph (G : Geo) (es : List REnt) : Option (Heap × List Nat × Bool) := do
  match ← linkAll G es with
  | (h, false) => some (h, List.range es.length, false)
  | (h, true) => do
    let (h1, l) ← Graph.Cull false h (List.range es.length)
    some (h1, l, true)

/-- `IGES::Clear` as far as the entities are concerned (iges.cpp:404-412): they are deleted in order. -/
def clearAll : List Nat → Heap → Option Heap
  | [], h => some h
  | e :: l, h => do
    let h1 ← Graph.destroy h e
    clearAll l h1

end Iges.Link
