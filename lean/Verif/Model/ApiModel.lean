import Mathlib.Data.List.Nodup
/-
A model behind the handle `DLL_IGES` and the wrappers of its entities (dllapi/dll_iges.cpp, dllapi/dll_iges_entity.cpp,
dllapi/dll_entity*.cpp): which entities exist, which of them the model lists, and what the wrappers refer to.

Simplified: one model; the contents of the entities and the references between them are left out (they are in the graph model).
The flags `m_valid` are right about the objects they watch (C50), so that a wrapper is valid if its entity exists.
-/
namespace Iges.Api

/-- A wrapper `DLL_IGES_ENTITY`: its type, its entity and whether it was made with the model as parent. -/
structure Handle where
  ty : ℕ
  entity : Option ℕ
  parent : Bool
  deriving DecidableEq, Repr

/-- All objects.  Entities and wrappers are numbers, `none` is an object that was deleted. -/
structure State where
  ents : List (Option ℕ)            -- the entities by their types
  list : List ℕ                     -- IGES::entities
  model : Bool                      -- does the model exist?
  hands : List (Option Handle)
  deriving DecidableEq, Repr

/-- Calls. -/
inductive Call where
  | newApi (ty : ℕ) (old : Option ℕ)          -- DLL_IGES::NewAPIEntity
  | newIges (ty : ℕ)                          -- DLL_IGES::NewIGESEntity
  | addHandle (h : ℕ)                         -- DLL_IGES::AddEntity( DLL_IGES_ENTITY* )
  | addRaw (e : ℕ)                            -- DLL_IGES::AddEntity( IGES_ENTITY* )
  | delHandle (h : ℕ)                         -- DLL_IGES::DelEntity( DLL_IGES_ENTITY* )
  | delRaw (e : ℕ)                            -- DLL_IGES::DelEntity( IGES_ENTITY* )
  | unlinkHandle (h : ℕ)                      -- DLL_IGES::UnlinkEntity( DLL_IGES_ENTITY* )
  | unlinkRaw (e : ℕ)                         -- DLL_IGES::UnlinkEntity( IGES_ENTITY* )
  | clear                                     -- DLL_IGES::Clear
  | killModel                                 -- delete of the IGES object
  | newHandle (ty : ℕ) (parent create : Bool) -- DLL_IGES_ENTITY_nnn( model or NULL, create )
  | newEntity (h : ℕ)                         -- DLL_IGES_ENTITY_nnn::NewEntity
  | delEntity (h : ℕ)                         -- DLL_IGES_ENTITY::DelEntity
  | detach (h : ℕ)                            -- DLL_IGES_ENTITY::Detach
  | attach (h e : ℕ)                          -- DLL_IGES_ENTITY::Attach
  | killHandle (h : ℕ)                        -- delete of a wrapper

/-- The type of an entity; `none` for a deleted one. -/
def State.ent (s : State) (e : ℕ) : Option ℕ := (s.ents[e]?).getD none

/-- The wrapper behind a pointer; `none` for a deleted one. -/
def State.hand (s : State) (h : ℕ) : Option Handle := (s.hands[h]?).getD none

/-- `GetRawPtr`, dll_iges_entity.cpp:131-139: the entity if it still exists (the wrapper forgets it otherwise, which makes no
difference). -/
def State.raw (s : State) (w : Handle) : Option ℕ := w.entity.filter fun e => (s.ent e).isSome

/-- `IGES::NewEntity`, iges.cpp:825-944: an entity is made and listed; its number is the length of `ents` before. -/
def State.make (s : State) (ty : ℕ) : State := { s with ents := s.ents ++ [some ty], list := s.list ++ [s.ents.length] }

/-- `delete` of an entity; `none` if it has been deleted already. -/
def State.kill (s : State) (e : ℕ) : Option State := (s.ent e).map fun _ => { s with ents := s.ents.set e none }

/-- `IGES::Clear`, iges.cpp:404-418. -/
def State.killAll (s : State) : List ℕ → Option State
  | [] => some s
  | e :: es => (s.kill e).bind fun s' => s'.killAll es

/-- `IGES::AddEntity`, iges.cpp:948-971; writing the parent of a deleted entity is undefined. -/
def State.add (s : State) : Option ℕ → Option (State × Bool)
  | none => some (s, false)
  | some e =>
    if e ∈ s.list then some (s, true)
    else (s.ent e).map fun _ => ({ s with list := s.list ++ [e] }, true)

/-- `IGES::DelEntity`, iges.cpp:975-999. -/
def State.del (s : State) : Option ℕ → Option (State × Bool)
  | none => some (s, false)
  | some e => if e ∈ s.list then (s.kill e).map fun s' => ({ s' with list := s.list.erase e }, true) else some (s, false)

/-- `IGES::UnlinkEntity`, iges.cpp:1003-1026. -/
def State.unlink (s : State) : Option ℕ → State × Bool
  | none => (s, false)
  | some e => if e ∈ s.list then ({ s with list := s.list.erase e }, true) else (s, false)

/-- The types for which `NewAPIEntity` has a case, dll_iges.cpp:236-311. -/
def apiTypes : List ℕ := [100, 102, 104, 110, 120, 122, 124, 126, 128, 142, 144, 308, 314, 408]

/-- One call and its answer; `none` is undefined behaviour. -/
def State.step (s : State) : Call → Option (State × Bool)
  | .newApi ty old =>                                                         -- dll_iges.cpp:214-356
    if s.model = false then some (s, false)
    else
      -- 222-227: the wrapper passed in is deleted
      match (match old with
        | none => some s
        | some h => (s.hand h).map fun _ => { s with hands := s.hands.set h none }) with
      | none => none
      | some s =>
        let ep := s.ents.length
        let s1 := s.make ty                                                   -- 231
        if ty ∈ apiTypes then
          -- the constructor with create = true makes an entity of its own, then Attach exchanges it for `ep`, 346
          let s2 := s1.make ty
          some ({ s2 with hands := s2.hands ++ [some ⟨ty, some ep, true⟩] }, true)
        else (s1.kill ep).map fun s2 => (s2, false)                           -- 333-336: delete ep
  | .newIges _ => if s.model = false then some (s, false) else none           -- 359-369: NULL is passed on and written through
  | .addHandle h => (s.hand h).bind fun w => if s.model = false then some (s, false) else s.add (s.raw w)       -- 372-387
  | .addRaw e => if s.model = false then some (s, false) else s.add (some e)                                    -- 390-405
  | .delHandle h => (s.hand h).bind fun w => if s.model = false then some (s, false) else s.del (s.raw w)       -- 408-423
  | .delRaw e => if s.model = false then some (s, false) else s.del (some e)                                    -- 426-441
  | .unlinkHandle h => (s.hand h).map fun w => if s.model = false then (s, false) else s.unlink (s.raw w)       -- 444-459
  | .unlinkRaw e => if s.model = false then some (s, false) else some (s.unlink (some e))                       -- 462-477
  | .clear => if s.model = false then some (s, false)                                                           -- 98-108
    else (s.killAll s.list).map fun s' => ({ s' with list := [] }, true)
  | .killModel => if s.model = false then none                                -- iges.cpp:273-287
    else (s.killAll s.list).map fun s' => ({ s' with list := [], model := false }, true)
  | .newHandle ty parent create =>                                            -- e.g. dll_entity110.cpp:32-48
    if create = false then some ({ s with hands := s.hands ++ [some ⟨ty, none, parent⟩] }, true)
    else if parent = false then
      some ({ s with ents := s.ents ++ [some ty], hands := s.hands ++ [some ⟨ty, some s.ents.length, false⟩] }, true)
    else if s.model = false then none
    else some ({ s.make ty with hands := s.hands ++ [some ⟨ty, some s.ents.length, true⟩] }, true)
  | .newEntity h => (s.hand h).map fun w =>                                   -- e.g. dll_entity110.cpp:75-94
    if w.parent = true ∧ s.model = true then
      ({ s.make w.ty with hands := s.hands.set h (some { w with entity := some s.ents.length }) }, true)
    else ({ s with ents := s.ents ++ [some w.ty], hands := s.hands.set h (some { w with entity := some s.ents.length }) }, true)
  | .delEntity h => (s.hand h).bind fun w =>                                  -- dll_iges_entity.cpp:165-176
    match s.raw w with
    | none => some ({ s with hands := s.hands.set h (some { w with entity := none }) }, true)
    | some e => (s.kill e).map fun s' => ({ s' with hands := s.hands.set h (some { w with entity := none }) }, true)
  | .detach h => (s.hand h).map fun w => ({ s with hands := s.hands.set h (some { w with entity := none }) }, true)   -- 148-162
  | .attach h e => (s.hand h).bind fun w => (s.ent e).map fun t =>            -- 179-196
    if w.ty ≠ t then (s, false) else ({ s with hands := s.hands.set h (some { w with entity := some e }) }, true)
  | .killHandle h => (s.hand h).map fun _ => ({ s with hands := s.hands.set h none }, true)                     -- 71-80

/-- A program. -/
def State.run (s : State) : List Call → Option State
  | [] => some s
  | c :: cs =>
    match s.step c with
    | none => none
    | some (s', _) => s'.run cs

/-- A new model. -/
def start : State := ⟨[], [], true, []⟩

end Iges.Api
