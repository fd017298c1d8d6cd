import Mathlib.Data.List.Basic

/-!
The wrapper classes of the DLL interface (`/repo/src/dllapi/*.cpp`): `DLL_IGES_ENTITY` and its
subclasses, which refer to an entity and to a model, and `DLL_IGES`, `DLL_MCAD_SEGMENT`,
`DLL_MCAD_OUTLINE`, `DLL_IGES_GEOM_PCB`, which own one object.

Library objects (entities, models, segments, outlines) and wrappers are identified by numbers
(addresses).  Of a library object only its type and the list of flags registered with it are
kept; of the flags only those of wrappers.  `none` as a result is undefined behaviour: use of a
destroyed object, a write to the flag of a destroyed wrapper, or a read of a `bool` that was never
written.
-/

namespace Iges.Wrap

/-- The two flags of a wrapper: `m_valid` and `m_hasParent`. -/
inductive Which where
  | valid
  | parent
  deriving DecidableEq, Repr

/-- The address of a flag: the wrapper that contains it, and which of the two it is. -/
abbrev Cell := Nat × Which

/-- A library object: its type (entity type; 1 for a model, 2 for a segment, 3 for an outline) and
its list `m_validFlags`. -/
structure Obj where
  ty : Nat
  flags : List Cell := []
  deriving DecidableEq, Repr

/-- A wrapper (`/repo/src/include/api/dll_iges_entity.h:48-53`): `owner` tells the classes that
own their object from the entity wrappers; `target` is `m_entity` (`m_iges`, `m_segment`,
`m_outline`); `hasParent = none` is a `bool` never written. -/
structure Wr where
  ty : Nat
  owner : Bool
  target : Option Nat := none
  valid : Bool := false
  parent : Option Nat := none
  hasParent : Option Bool := none
  deriving DecidableEq, Repr

/-- All library objects and wrappers alive. -/
structure World where
  objs : Nat → Option Obj
  wraps : Nat → Option Wr

/-- Replace the contents of a library object. -/
def World.putObj (W : World) (i : Nat) (o : Option Obj) : World :=
  { W with objs := fun j => if j = i then o else W.objs j }

/-- Replace the contents of a wrapper. -/
def World.putWr (W : World) (w : Nat) (r : Option Wr) : World :=
  { W with wraps := fun v => if v = w then r else W.wraps v }

/-- The wrapper with one of its flags set. -/
def Wr.set (r : Wr) (b : Bool) : Which → Wr
  | .valid => { r with valid := b }
  | .parent => { r with hasParent := some b }

/-- A library object writes a flag. -/
def write (W : World) (c : Cell) (b : Bool) : Option World :=
  (W.wraps c.1).map (fun r => W.putWr c.1 (some (r.set b c.2)))

/-- `AttachValidFlag` (`/repo/src/entities/iges_entity.cpp:224-249`). -/
def attachFlag (W : World) (i : Nat) (c : Cell) : Option World :=
  match W.objs i with
  | none => none
  | some o =>
    if c ∈ o.flags then write W c true
    else (write W c true).map (fun W => W.putObj i (some { o with flags := o.flags ++ [c] }))

/-- `DetachValidFlag` (`iges_entity.cpp:252-278`). -/
def detachFlag (W : World) (i : Nat) (c : Cell) : Option World :=
  match W.objs i with
  | none => none
  | some o =>
    if c ∈ o.flags then
      (write W c false).map (fun W => W.putObj i (some { o with flags := o.flags.erase c }))
    else some W

/-- The loop over the flags in the destructors (`iges_entity.cpp:117-127`). -/
def writeAll (W : World) : List Cell → Option World
  | [] => some W
  | c :: l => (write W c false).bind (fun W => writeAll W l)

/-- Destruction of a library object. -/
def destroy (W : World) (i : Nat) : Option World :=
  match W.objs i with
  | none => none
  | some o => (writeAll W o.flags).map (fun W => W.putObj i none)

/-- A change of a wrapper by its own code; `none` if the wrapper does not exist. -/
def own (W : World) (w : Nat) (f : Wr → Wr) : Option World :=
  (W.wraps w).map (fun r => W.putWr w (some (f r)))

/-- The guarded release of the wrapped object (e.g. `dll_iges_entity.cpp:75-76, 226-230`):
`if( m_valid && NULL != m_entity ) m_entity->DetachValidFlag( &m_valid )`. -/
def release (W : World) (w : Nat) : Option World :=
  match W.wraps w with
  | none => none
  | some r =>
    match r.valid, r.target with
    | true, some i => detachFlag W i (w, .valid)
    | _, _ => some W

/-- The same with `delete` after it (`dll_iges_entity.cpp:204-208`, `dll_mcad_segment.cpp:53-57`). -/
def releaseDelete (W : World) (w : Nat) : Option World :=
  match W.wraps w with
  | none => none
  | some r =>
    match r.valid, r.target with
    | true, some i => (detachFlag W i (w, .valid)).bind (fun W => destroy W i)
    | _, _ => some W

/-- `m_entity = aEntity; m_entity->AttachValidFlag( &m_valid )`. -/
def bind (W : World) (w i : Nat) : Option World :=
  (own W w (fun r => { r with target := some i })).bind (fun W => attachFlag W i (w, .valid))

/-- The constructor registers `m_hasParent` if there is a model (`dll_iges_entity.cpp:45-48`). -/
def joinParent (W : World) (w : Nat) : Option Nat → Option World
  | none => some W
  | some m => attachFlag W m (w, .parent)

/-- The destructor: `if( m_parent && m_hasParent )` (`dll_iges_entity.cpp:74-75`); the `bool` is
read only if the pointer is set. -/
def leaveParent (W : World) (w : Nat) (r : Wr) : Option World :=
  match r.parent, r.hasParent with
  | none, _ => some W
  | some _, none => none
  | some m, some true => detachFlag W m (w, .parent)
  | some _, some false => some W

/-- `SetAPIParentIGES`: `if( m_hasParent && NULL != m_parent )` (`dll_iges_entity.cpp:86-87`); the
`bool` is read first. -/
def leaveParentSet (W : World) (w : Nat) (r : Wr) : Option World :=
  match r.hasParent, r.parent with
  | none, _ => none
  | some true, some p => detachFlag W p (w, .parent)
  | _, _ => some W

/-- `if( m_valid && m_segment ) delete m_segment` (`dll_mcad_segment.cpp:71-72`). -/
def dropOwned (W : World) (r : Wr) : Option World :=
  match r.valid, r.target with
  | true, some i => destroy W i
  | _, _ => some W

/-- What the program gets to see. -/
inductive Ans where
  | done
  | bool (b : Bool)
  | ptr (p : Option Nat)
  deriving DecidableEq, Repr

/-- The operations. -/
inductive Op where
  /-- The library creates an object (entity, model, segment, outline) of the given type. -/
  | libNew (i ty : Nat)
  /-- The library or the program destroys an object. -/
  | libDel (i : Nat)
  /-- Constructor of an entity wrapper with a model (or null); `create` is the entity made. -/
  | new (w ty : Nat) (parent : Option Nat) (create : Option Nat)
  /-- Destructor of an entity wrapper. -/
  | del (w : Nat)
  | attach (w : Nat) (e : Option Nat)
  | detach (w : Nat)
  | delEntity (w : Nat)
  /-- `NewEntity`; the entity made gets the address `e`. -/
  | newEntity (w e : Nat)
  | setParent (w : Nat) (m : Option Nat)
  | isValid (w : Nat)
  | getRawPtr (w : Nat)
  /-- Any of the guarded methods of any wrapper class. -/
  | query (w : Nat)
  /-- Constructor of a class that owns its object. -/
  | newOwner (w ty : Nat) (create : Option Nat)
  | delOwner (w : Nat)
  | attachOwner (w : Nat) (e : Option Nat)
  | newOwned (w e : Nat)
  | delOwned (w : Nat)
  /-- `DLL_IGES_GEOM_PCB::GetCurveOnPlane`. -/
  | curveOnPlane (w : Nat)
  /-- `DLL_IGES_GEOM_PCB::GetSegmentWall`. -/
  | segmentWall (w : Nat)
  /-- The copy constructor the compiler supplies. -/
  | copy (w v : Nat)
  deriving DecidableEq, Repr

/-- One operation.

* `new`: `dll_iges_entity.cpp:43-69` and e.g. `dll_entity100.cpp:33-70` (`m_hasParent` is written
  only if there is a model; whether the entity is also entered in the model's list is left out);
* `del`: `dll_iges_entity.cpp:72-81`; `attach`: 216-234; `detach`: 183-197; `delEntity`: 200-213;
  `newEntity`: `dll_entity100.cpp:79-99`; `setParent`: `dll_iges_entity.cpp:84-125`;
  `isValid`: 179-182; `getRawPtr`: 168-176;
* `query`: the guard `if( !m_valid || NULL == m_entity ) return false`, then use of the object; the
  answer is the object used;
* `newOwner`, `delOwner`, `attachOwner`, `newOwned`, `delOwned`: `dll_mcad_segment.cpp:38-128`,
  `dll_mcad_outline.cpp:39-130`, `dll_iges.cpp:39-60` (always creates, has no `Attach`);
* `curveOnPlane`: `dll_iges_geom_pcb.cpp:247-259` (guard `NULL == m_outline && !m_valid`);
* `segmentWall`: `dll_iges_geom_pcb.cpp:300-311` (guard `NULL == m_outline || m_valid`). -/
def step (W : World) : Op → Option (World × Ans)
  | .libNew i ty => some (W.putObj i (some { ty := ty }), .done)
  | .libDel i => (destroy W i).map (·, .done)
  | .new w ty parent create =>
    let W1 := W.putWr w (some { ty := ty, owner := false, parent := parent })
    match create with
    | none => (joinParent W1 w parent).map (·, .done)
    | some e => ((joinParent W1 w parent).bind (fun W => bind (W.putObj e (some { ty := ty })) w e)).map (·, .done)
  | .del w =>
    match W.wraps w with
    | none => none
    | some r =>
      ((leaveParent W w r).bind (release · w)).map (fun W => (W.putWr w none, .done))
  | .attach w e =>
    match W.wraps w, e with
    | none, _ => none
    | some _, none => some (W, .bool false)
    | some r, some e =>
      match W.objs e with
      | none => none
      | some o =>
        if r.ty ≠ o.ty then some (W, .bool false)
        else ((release W w).bind (bind · w e)).map (·, .bool true)
  | .detach w =>
    match W.wraps w with
    | none => none
    | some r =>
      ((release W w).bind (own · w (fun r => { r with target := none, valid := false }))).map
        (·, .ptr (if r.valid then r.target else none))
  | .delEntity w =>
    ((releaseDelete W w).bind (own · w (fun r => { r with target := none, valid := false }))).map
      (·, .done)
  | .newEntity w e =>
    match W.wraps w with
    | none => none
    | some r =>
      -- the model is used only if m_parent is set and m_hasParent is true; the entity made is
      -- the same either way
      match r.parent, r.hasParent with
      | some _, none => none
      | some m, some true =>
        match W.objs m with
        | none => none
        | some _ =>
          ((release W w).bind (fun W => bind (W.putObj e (some { ty := r.ty })) w e)).map
            (·, .bool true)
      | _, _ =>
        ((release W w).bind (fun W => bind (W.putObj e (some { ty := r.ty })) w e)).map
          (·, .bool true)
  | .setParent w m =>
    match W.wraps w with
    | none => none
    | some r =>
      match m with
      | some m =>
        (((leaveParentSet W w r).bind (own · w (fun r => { r with parent := some m }))).bind
          (attachFlag · m (w, .parent))).map (·, .bool true)
      | none =>
        ((leaveParentSet W w r).bind (own · w (fun r => { r with parent := none, hasParent := some false }))).map
          (·, .bool true)
  | .isValid w => (W.wraps w).map (fun r => (W, .bool r.valid))
  | .getRawPtr w =>
    match W.wraps w with
    | none => none
    | some r =>
      if r.valid ∧ r.target ≠ none then some (W, .ptr r.target)
      else some (W.putWr w (some { r with valid := false, target := none }), .ptr none)
  | .query w =>
    match W.wraps w with
    | none => none
    | some r =>
      match r.valid, r.target with
      | true, some i => (W.objs i).map (fun _ => (W, .ptr (some i)))
      | _, _ => some (W, .ptr none)
  | .newOwner w ty create =>
    let W1 := W.putWr w (some { ty := ty, owner := true })
    match create with
    | none => some (W1, .done)
    | some e => (bind (W1.putObj e (some { ty := ty })) w e).map (·, .done)
  | .delOwner w => (releaseDelete W w).map (fun W => (W.putWr w none, .done))
  | .attachOwner w e =>
    match W.wraps w, e with
    | none, _ => none
    | some _, none => some (W, .bool false)
    | some r, some e =>
      if r.valid = true ∧ r.target ≠ none then some (W, .bool false)
      else (bind W w e).map (·, .bool true)
  | .newOwned w e =>
    match W.wraps w with
    | none => none
    | some r =>
      (((dropOwned W r).bind (own · w (fun r => { r with target := none, valid := false }))).bind
        (fun W => bind (W.putObj e (some { ty := r.ty })) w e)).map (·, .bool true)
  | .delOwned w =>
    match W.wraps w with
    | none => none
    | some r =>
      if r.valid = true ∧ r.target ≠ none then
        ((releaseDelete W w).bind (own · w (fun r => { r with target := none }))).map (·, .done)
      else some (W, .done)
  | .curveOnPlane w =>
    match W.wraps w with
    | none => none
    | some r =>
      match r.target with
      | none => if r.valid then none else some (W, .ptr none)
      | some i => (W.objs i).map (fun _ => (W, .ptr (some i)))
  | .segmentWall w =>
    match W.wraps w with
    | none => none
    | some r =>
      match r.valid, r.target with
      | false, some i => (W.objs i).map (fun _ => (W, .ptr (some i)))
      | _, _ => some (W, .ptr none)
  | .copy w v =>
    match W.wraps v with
    | none => none
    | some r => some (W.putWr w (some r), .done)

/-- A program. -/
def run (W : World) : List Op → Option World
  | [] => some W
  | o :: l =>
    match step W o with
    | none => none
    | some (W', _) => run W' l

/-- Nothing exists. -/
def start : World := ⟨fun _ => none, fun _ => none⟩

end Iges.Wrap
