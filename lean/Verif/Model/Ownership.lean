import Mathlib.Data.Finset.Card
import Mathlib.Order.Interval.Finset.Nat
/-
C102: who deletes the segments and outlines (src/dllapi/dll_mcad_segment.cpp, src/dllapi/dll_mcad_outline.cpp, src/geom/mcad_outline.cpp).
Segments and outlines are objects with a number; a segment is an object that never owns another. What outlines look like is left out (C74, C83,
C84): the answer of a geometric operation is an argument of the call.
-/
namespace Iges.Own

/-- The objects, and the pointers to them. `live`: allocated and not yet deleted. `kids`: the pointers in `msegments`, `mcutouts` and
`mholes` of an outline. `hnd`: the object of a handle whose `m_valid` is set. `raw`: not in the program; objects that the caller has taken
out of a handle by `Detach` and has to look after. `next`: the number of the next object. -/
structure Heap where
  live : Finset Nat
  kids : Nat → List Nat
  hnd : Nat → Option Nat
  raw : Finset Nat
  next : Nat

/-- Before the first call. -/
def Heap.empty : Heap := ⟨∅, fun _ => [], fun _ => none, ∅, 0⟩

/-- One `delete`: the object is gone, and the destructor clears the flags of all its handles, mcad_outline.cpp:143-150,
mcad_segment.cpp:64-71. -/
def Heap.drop (s : Heap) (a : Nat) : Heap :=
  { s with live := s.live.erase a, hnd := fun h => if s.hnd h = some a then none else s.hnd h }

/-- `delete` of all objects of a list and of what they own, mcad_outline.cpp:123-153. `none`: an object is deleted that does not exist
(undefined behaviour). The outline itself is taken to be gone before what it owns; that makes no difference for what exists afterwards. The first argument
bounds the depth; the number of objects is enough. -/
def freeAll : Nat → Heap → List Nat → Option Heap
  | _, s, [] => some s
  | 0, _, _ :: _ => none
  | n + 1, s, a :: w => if a ∈ s.live then freeAll n (s.drop a) (s.kids a ++ w) else none

/-- The handle lets go. -/
def Heap.letGo (s : Heap) (h : Nat) : Heap := { s with hnd := fun g => if g = h then none else s.hnd g }

/-- `DelSegment`, `DelOutline`, and the destructors of handles, dll_mcad_segment.cpp:51-59, 88-98, dll_mcad_outline.cpp:51-60, 89-99. -/
def destroy (s : Heap) (h : Nat) : Option Heap :=
  match s.hnd h with
  | none => some s
  | some a => freeAll s.live.card (s.letGo h) [a]

/-- `NewSegment`, `NewOutline`, dll_mcad_segment.cpp:68-85, dll_mcad_outline.cpp:69-86. -/
def create (s : Heap) (h : Nat) : Option Heap :=
  (destroy s h).map fun s =>
    { s with live := insert s.next s.live, kids := fun a => if a = s.next then [] else s.kids a,
             hnd := fun g => if g = h then some s.next else s.hnd g, next := s.next + 1 }

/-- What comes of an object that is given to an outline: it is refused; the pointer is kept in a list of the outline (`AddSegment`,
mcad_outline.cpp:421-604; `AddCutout`, 2041-2045, 2078-2079, 2117-2121, 2154-2155); or it is worked into the outline `c`, which is the outline itself or
one of its cutouts, and deleted (`opOutline`, 1143-1920; circles: 1955-1956, 1979-1980, 2064, 2140): `c` then has the objects `ks`, of which
`n` are new. -/
inductive Answer
  | refused
  | kept
  | merged (c : Nat) (ks : List Nat) (n : Nat)

/-- The outline `o` is given the object `a`, with that answer. -/
def join (s : Heap) (o a : Nat) : Answer → Option Heap
  | .refused => some s
  | .kept => some { s with kids := fun x => if x = o then s.kids o ++ [a] else s.kids x }
  | .merged c ks n =>
    let s1 : Heap :=
      { s with live := s.live ∪ Finset.Ico s.next (s.next + n), next := s.next + n,
               kids := fun x => if x = c then ks
                 else if x = a then (s.kids c ++ s.kids a).filter fun k => decide (k ∉ ks)
                 else if s.next ≤ x then [] else s.kids x }
    freeAll s1.live.card s1 [a]

/-- The calls of the handles. `give h g r`: the outline of the handle `h` is given the object of the handle `g`; on success that handle is
detached, dll_mcad_outline.cpp:302-316 and the like. `giveRaw`: the overloads with a pointer, 293-299. `attach`: dll_mcad_segment.cpp:112-124,
dll_mcad_outline.cpp:113-122. -/
inductive Call
  | create (h : Nat)
  | destroy (h : Nat)
  | detach (h : Nat)
  | attach (h a : Nat)
  | give (h g : Nat) (r : Answer)
  | giveRaw (h a : Nat) (r : Answer)

/-- One call; `none` is undefined behaviour. -/
def step (s : Heap) : Call → Option Heap
  | .create h => create s h
  | .destroy h => destroy s h
  | .detach h =>
    match s.hnd h with
    | none => some s
    | some a => some { s.letGo h with raw := insert a s.raw }
  | .attach h a =>
    if (s.hnd h).isSome then some s
    else if a ∈ s.live then some { s with hnd := fun g => if g = h then some a else s.hnd g, raw := s.raw.erase a }
    else none
  | .give h g r =>
    match s.hnd h, s.hnd g with
    | some o, some a =>
      match r with
      | .refused => some s
      | r => join (s.letGo g) o a r
    | _, _ => some s
  | .giveRaw h a r =>
    match s.hnd h with
    | none => some s
    | some o =>
      if a ∈ s.live then
        match r with
        | .refused => some s
        | r => join { s with raw := s.raw.erase a } o a r
      else none

/-- A history of calls. -/
def run (s : Heap) : List Call → Option Heap
  | [] => some s
  | c :: cs => (step s c).bind fun s => run s cs

end Iges.Own
