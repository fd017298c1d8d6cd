import Verif.Model.GraphOps

/-!
Models and the entities they own: the entity list of each `IGES` object and the `parent` pointer
of each entity (`/repo/src/iges/iges.cpp`, `/repo/src/entities/*.cpp`).

`none` as the result of an operation is undefined behaviour: use of a destroyed entity or model,
or a null pointer that is written through.
-/

namespace Iges.Lists

open Iges.Graph

/-- The live entities, the model each entity believes to belong to (`IGES_ENTITY::parent`,
`/repo/src/include/core/iges_entity.h:50`), and the entity list of each live model
(`IGES::entities`, `/repo/src/include/core/iges.h:98`). -/
structure World where
  heap : Heap
  parent : Nat → Option Nat
  list : Nat → Option (List Nat)

/-- Replace the entity list of a model. -/
def World.setList (W : World) (m : Nat) (l : Option (List Nat)) : World :=
  { W with list := fun n => if n = m then l else W.list n }

/-- Store the model an entity belongs to. -/
def World.setParent (W : World) (e : Nat) (p : Option Nat) : World :=
  { W with parent := fun x => if x = e then p else W.parent x }

/-- `IGES::NewEntity` (`iges.cpp:825-944`): the entity at the new address `i`. -/
def NewEntity (W : World) (m i t : Nat) : Option (World × Bool) :=
  match W.list m with
  | none => none
  | some l =>
    some ((({ W with heap := W.heap.put i (newObj t) }).setParent i (some m)).setList m (some (l ++ [i])), true)

/-- `IGES::AddEntity` (`iges.cpp:948-971`).  The list of the model the entity came from is not
changed. -/
def AddEntity (W : World) (m : Nat) (e : Option Nat) : Option (World × Bool) :=
  match W.list m, e with
  | none, _ => none
  | some _, none => some (W, false)
  | some l, some e =>
    if e ∈ l then some (W, true)
    else
      match W.heap e with
      | none => none
      | some _ => some ((W.setList m (some (l ++ [e]))).setParent e (some m), true)

/-- `IGES::DelEntity` (`iges.cpp:975-999`). -/
def DelEntity (W : World) (m : Nat) (e : Option Nat) : Option (World × Bool) :=
  match W.list m, e with
  | none, _ => none
  | some _, none => some (W, false)
  | some l, some e =>
    if e ∈ l then
      match destroy W.heap e with
      | none => none
      | some h => some (({ W with heap := h }).setList m (some (l.erase e)), true)
    else some (W, false)

/-- `IGES::UnlinkEntity` (`iges.cpp:1003-1026`): the entity keeps its `parent`. -/
def UnlinkEntity (W : World) (m : Nat) (e : Option Nat) : Option (World × Bool) :=
  match W.list m, e with
  | none, _ => none
  | some _, none => some (W, false)
  | some l, some e =>
    if e ∈ l then some (W.setList m (some (l.erase e)), true) else some (W, false)

/-- Delete entities one after the other (`iges.cpp:408-411`). -/
def destroyAll (h : Heap) : List Nat → Option Heap
  | [] => some h
  | e :: l =>
    match destroy h e with
    | none => none
    | some h' => destroyAll h' l

/-- `IGES::Clear` (`iges.cpp:404-418`); the global data are left out. -/
def Clear (W : World) (m : Nat) : Option (World × Bool) :=
  match W.list m with
  | none => none
  | some l =>
    match destroyAll W.heap l with
    | none => none
    | some h => some (({ W with heap := h }).setList m (some []), true)

/-- `IGES::~IGES` (`iges.cpp:273-286`). -/
def DelModel (W : World) (m : Nat) : Option (World × Bool) :=
  match Clear W m with
  | none => none
  | some (W', _) => some (W'.setList m none, true)

/-- `IGES::Cull` (`iges.cpp:1746-1781`). -/
def CullModel (W : World) (m : Nat) (vicious : Bool) : Option (World × Bool) :=
  match W.list m with
  | none => none
  | some l =>
    match Cull vicious W.heap l with
    | none => none
    | some (h, l') => some (({ W with heap := h }).setList m (some l'), true)

/-- The entity that receives a call. -/
def receiver : Call → Nat
  | .new i _ => i
  | .del e => e
  | .setTransform e _ => e
  | .setColor e _ => e
  | .addOptional e _ => e
  | .addSegment e _ _ => e
  | .setL e _ => e
  | .setC e _ => e
  | .setDE122 e _ => e
  | .set142 e _ _ => e
  | .setPTS e _ => e
  | .setPTO e _ => e
  | .addPTI e _ => e
  | .delPTI e _ => e
  | .setClosedCurve e _ _ => e
  | .addArg e _ => e
  | .clearNodes e => e
  | .addDE e _ => e
  | .delDE e _ => e
  | .setDE408 e _ => e
  | .addEdge e _ _ _ _ _ => e
  | .setSurface e _ => e
  | .addBound e _ => e
  | .addVertex e => e

/-- The vertex list that `addVertexList` hands to the model: only a list that is not yet in use
reaches that statement (`/repo/src/entities/entity504.cpp:736-746`, `763-764`). -/
def adoptVertices (h : Heap) (e : Nat) (v : Option Nat) : List Nat :=
  match h e, v with
  | some o, some v => if v ∈ o.verts.map Prod.fst then [] else [v]
  | _, _ => []

/-- The entities `AddEdge` hands to the model (`entity504.cpp:643-653`, and on the way to a
refusal `717-718`, `763-764`). -/
def adoptEdge (h : Heap) (e : Nat) (c s t : Option Nat) : List Nat :=
  match c with
  | none => []
  | some c =>
    match h c, addRef h c e with
    | some oc, some (h1, true, false) =>
      if curve504 oc then
        c :: (match addVertexList h1 e s with
          | some (h2, true) =>
            adoptVertices h1 e s ++ (match addVertexList h2 e t with
              | some (_, true) => adoptVertices h2 e t
              | _ => [])
          | _ => [])
      else []
    | _, _ => []

/-- The entities that a call with answer `b` hands to the model of the receiver.  The statement
`if( NULL != parent && parent != child->GetParentIGES() ) parent->AddEntity( child )` ends each
of these functions: `entity102.cpp:762`, `entity120.cpp:472`, `531`, `entity122.cpp:420`,
`entity142.cpp:587`, `633`, `679`, `entity144.cpp:712`, `759`, `861`, `entity164.cpp:504`,
`entity180.cpp:619`, `entity308.cpp:585`, `entity408.cpp:456`, `entity510.cpp:555`, `569`,
`iges_entity.cpp:2253`, `2426`, `2895`.  It is not reached for an entry already in the list of
144 and 308 (`entity144.cpp:831-835`, `entity308.cpp:555-559`), nor for the colour definition,
which ignores transforms and colours (`entity314.cpp:479-483`, `506-510`). -/
def adopts (h : Heap) (c : Call) (b : Bool) : List Nat :=
  match c with
  | .setTransform e t => if b ∧ (h e).map Obj.etype ≠ some 314 then t.toList else []
  | .setColor e t => if b ∧ (h e).map Obj.etype ≠ some 314 then t.toList else []
  | .addOptional _ c => if b then [c] else []
  | .addSegment _ c _ => if b then c.toList else []
  | .setL _ c => if b then c.toList else []
  | .setC _ c => if b then c.toList else []
  | .setDE122 _ c => if b then c.toList else []
  | .set142 _ _ c => if b then c.toList else []
  | .setPTS _ c => if b then c.toList else []
  | .setPTO _ c => if b then c.toList else []
  | .addPTI e c => if b then c.toList.filter (fun x => !((h e).elim false (fun o => decide (x ∈ o.kids)))) else []
  | .setClosedCurve _ c _ => if b then c.toList else []
  | .addArg _ c => if b then c.toList else []
  | .addDE e c => if b then c.toList.filter (fun x => !((h e).elim false (fun o => decide (x ∈ o.kids)))) else []
  | .setDE408 _ c => if b then c.toList else []
  | .addEdge e c s _ t _ => if b then c.toList ++ s.toList ++ t.toList else adoptEdge h e c s t
  | .setSurface _ c => if b then c.toList else []
  | .addBound _ c => if b then c.toList else []
  | _ => []

/-- `if( NULL != parent && parent != child->GetParentIGES() ) parent->AddEntity( child );` -/
def adopt (W : World) (e c : Nat) : Option World :=
  match W.parent e with
  | none => some W
  | some p => if W.parent c = some p then some W else (AddEntity W p (some c)).map Prod.fst

/-- Adopt several entities, one after the other. -/
def adoptAll (W : World) (e : Nat) : List Nat → Option World
  | [] => some W
  | c :: l =>
    match adopt W e c with
    | none => none
    | some W' => adoptAll W' e l

/-- A call to an entity, with its effect on the models. -/
def callEntity (W : World) (c : Call) : Option (World × Bool) :=
  match Graph.step W.heap c with
  | none => none
  | some (h, b) =>
    match adoptAll { W with heap := h } (receiver c) (adopts W.heap c b) with
    | none => none
    | some W' => some (W', b)

/-- Whether `Export` puts an entity into the list of a kind (`iges.cpp:2452-2475`): 0 top level
trimmed surfaces, 1 top level instances, 2 solids.  `none`: the user of an instance does not
exist (`:2463-2466`). -/
def keeps (h : Heap) (kind : Nat) (o : Obj) : Option Bool :=
  if o.etype = 144 ∧ o.refs.length = 0 then some (kind == 0)
  else if o.etype = 408 ∧ o.refs.length ≤ 1 then
    match o.refs with
    | [] => some (kind == 1)
    | p :: _ => (h p).map (fun po => kind == 1 && decide (po.refs.length = 0 ∧ po.etype = 308))
  else if o.etype = 186 then some (kind == 2)
  else some false

/-- The list of a kind (`iges.cpp:2446-2480`). -/
def pick (h : Heap) (kind : Nat) : List Nat → Option (List Nat)
  | [] => some []
  | e :: l =>
    match h e with
    | none => none
    | some o =>
      match keeps h kind o, pick h kind l with
      | some true, some r => some (e :: r)
      | some false, some r => some r
      | _, _ => none

/-- Add entities to a subfigure definition, each with its adoption; the answer is false at the
first refusal.  (`iges.cpp:2504-2573`; the clean-up after a refusal is left out: the result then
is `none`.  A refusal is impossible here, see `Verif/Props/Export.lean`.) -/
def fill (W : World) (p : Nat) : List Nat → Option World
  | [] => some W
  | e :: l =>
    match callEntity W (.addDE p (some e)) with
    | some (W', true) => fill W' p l
    | _ => none

/-- Add entities to a model (`iges.cpp:2577-2596`; `AddEntity` fails for null only). -/
def addAll (W : World) (n : Nat) : List Nat → Option World
  | [] => some W
  | e :: l =>
    match AddEntity W n (some e) with
    | some (W', true) => addAll W' n l
    | _ => none

/-- The selected entities: instances if there are any, else trimmed surfaces, else solids
(`iges.cpp:2504-2573`). -/
def selected (h : Heap) (l : List Nat) : Option (List Nat) :=
  match pick h 0 l, pick h 1 l, pick h 2 l with
  | some tp, some ss, some br => some (if ss ≠ [] then ss else if tp ≠ [] then tp else br)
  | _, _, _ => none

/-- `IGES::Export` (`iges.cpp:2381-2620`).  The handle for the new subfigure definition is
written through before it is tested.  `p` is the address of the new entity; the second result is
the handle.  Left out: units, scale, line weights and the name of the definition. -/
def Export (W : World) (m : Nat) (n : Option Nat) (handle : Bool) (p : Nat) :
    Option (World × Bool × Option Nat) :=
  if handle = false then none
  else
    match W.list m, n with
    | none, _ => none
    | some _, none => some (W, false, none)
    | some l, some n =>
      if l = [] then some (W, true, none)
      else
        match W.list n with
        | none => none
        | some _ =>
          match selected W.heap l with
          | none => none
          | some sel =>
            if sel = [] then some (W, true, none)
            else
              match NewEntity W n p 308 with
              | none => none
              | some (W1, _) =>
                match fill W1 p sel with
                | none => none
                | some W2 =>
                  -- the loop bound was read before the new entity was made (`iges.cpp:2408`)
                  match addAll W2 n l with
                  | none => none
                  | some W3 => some (W3.setList m (some []), true, some p)

/-- The operations on models and entities. -/
inductive Op where
  /-- `IGES()` -/
  | newModel (m : Nat)
  /-- `~IGES()` -/
  | delModel (m : Nat)
  /-- `IGES::NewEntity( t )`; `i` is the address of the new entity. -/
  | new (m i t : Nat)
  | add (m : Nat) (e : Option Nat)
  | del (m : Nat) (e : Option Nat)
  | unlink (m : Nat) (e : Option Nat)
  | clear (m : Nat)
  | cull (m : Nat) (vicious : Bool)
  /-- A call to an entity.  `Call.new` is the constructor called with a null model, `Call.del`
  the destructor called directly. -/
  | call (c : Call)
  | export (m : Nat) (n : Option Nat) (handle : Bool) (p : Nat)
  deriving Repr

/-- The effect of an operation. -/
def step (W : World) : Op → Option (World × Bool)
  | .newModel m => some (W.setList m (some []), true)
  | .delModel m => DelModel W m
  | .new m i t => NewEntity W m i t
  | .add m e => AddEntity W m e
  | .del m e => DelEntity W m e
  | .unlink m e => UnlinkEntity W m e
  | .clear m => Clear W m
  | .cull m v => CullModel W m v
  | .call (.new i t) => some (({ W with heap := W.heap.put i (newObj t) }).setParent i none, true)
  | .call c => callEntity W c
  | .export m n k p => (Export W m n k p).map (fun r => (r.1, r.2.1))

/-- The effect of a program. -/
def runFrom (W : World) : List Op → Option World
  | [] => some W
  | o :: l =>
    match step W o with
    | none => none
    | some (W', _) => runFrom W' l

/-- No model, no entity. -/
def start : World := ⟨emptyHeap, fun _ => none, fun _ => none⟩

/-- The effect of a whole program. -/
def run (l : List Op) : Option World := runFrom start l

end Iges.Lists
