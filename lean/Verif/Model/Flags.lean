import Mathlib.Data.List.Basic

/-!
Validity flags: a caller hands the address of a `bool` to an object, and the object keeps the
`bool` up to date (`IGES_ENTITY`: `/repo/src/entities/iges_entity.cpp:117-131, 224-278`; `IGES`:
`/repo/src/iges/iges.cpp:273-337`; `MCAD_SEGMENT`: `/repo/src/geom/mcad_segment.cpp:47-60, 101-150`;
`MCAD_OUTLINE`: `/repo/src/geom/mcad_outline.cpp:142-213`).  The four classes have the same code.

Objects and flags are identified by numbers (addresses).  Every write to a flag is kept in the
result of an operation, so that a write to a flag that belongs to nobody is visible.
-/

namespace Iges.Flags

/-- Objects that are alive, each with its list `m_validFlags`, and the values of the flags. -/
structure St where
  reg : Nat → Option (List Nat)
  mem : Nat → Bool

/-- The writes of one operation, in order. -/
abbrev Writes := List (Nat × Bool)

/-- Writes carried out on the memory. -/
def store (mem : Nat → Bool) : Writes → Nat → Bool
  | [] => mem
  | (f, b) :: l => store (fun g => if g = f then b else mem g) l

/-- `AttachValidFlag` on the list of an object (`iges_entity.cpp:224-249`): the new list and the
writes.  A null address is ignored. -/
def attach (l : List Nat) : Option Nat → List Nat × Writes
  | none => (l, [])
  | some f => if f ∈ l then (l, [(f, true)]) else (l ++ [f], [(f, true)])

/-- `DetachValidFlag` (`iges_entity.cpp:252-278`). -/
def detach (l : List Nat) : Option Nat → List Nat × Writes
  | none => (l, [])
  | some f => if f ∈ l then (l.erase f, [(f, false)]) else (l, [])

/-- The loop over the flags in the destructor (`iges_entity.cpp:117-127`). -/
def dropAll (l : List Nat) : Writes := l.map (fun f => (f, false))

/-- The operations of a program on the objects of one of the four classes. -/
inductive Op where
  | make (i : Nat)
  | attach (i : Nat) (f : Option Nat)
  | detach (i : Nat) (f : Option Nat)
  | destroy (i : Nat)
  deriving DecidableEq, Repr

/-- One operation; `none` is undefined behaviour (a method of a destroyed object). -/
def step (s : St) : Op → Option (St × Writes)
  | .make i => some ({ s with reg := fun j => if j = i then some [] else s.reg j }, [])
  | .attach i f =>
    match s.reg i with
    | none => none
    | some l =>
      some (⟨fun j => if j = i then some (attach l f).1 else s.reg j, store s.mem (attach l f).2⟩,
        (attach l f).2)
  | .detach i f =>
    match s.reg i with
    | none => none
    | some l =>
      some (⟨fun j => if j = i then some (detach l f).1 else s.reg j, store s.mem (detach l f).2⟩,
        (detach l f).2)
  | .destroy i =>
    match s.reg i with
    | none => none
    | some l =>
      some (⟨fun j => if j = i then none else s.reg j, store s.mem (dropAll l)⟩, dropAll l)

/-- A program; the operations already carried out come first. -/
def run (s : St) : List Op → Option St
  | [] => some s
  | o :: l =>
    match step s o with
    | none => none
    | some (s', _) => run s' l

/-- No object yet; every flag holds false. -/
def start : St := ⟨fun _ => none, fun _ => false⟩

end Iges.Flags
