import Verif.Model.Assoc
/-
The calls of a loop (entity 508) that change its list of edges: `AddEdge`, and what happens when an edge or
vertex list that the loop uses is deleted.  `none` is undefined behaviour.
-/
namespace Iges.LoopEdge

open Iges.Graph (Obj Heap)
open Iges.Link (addLoopEdge addPCurves edit)

/-- `IGES_ENTITY_508::AddEdge`, entity508.cpp:915-953.  `c` is `aEdge->data`, `ps` the curves of
`aEdge->pcurves`.  Left out: the index, the flags and the call of `AddEntity` for an entity of another model
(738, 846).  Modelled by the functions that `associate` uses as well (705-742, 808-850). -/
def addEdge (h : Heap) (e : Nat) (c : Option Nat) (ps : List Nat) : Option (Heap × Bool) :=
  match c with
  | none => some (h, false)                                              -- 917-921
  | some c =>
    match addLoopEdge h e c with                                         -- 923-927
    | none => none
    | some (h1, false) => some (h1, false)
    | some (h1, true) =>
      match addPCurves e [] ps h1 with                                   -- 929-948
      | none => none
      | some (h2, false) => some (h2, false)
      | some (h2, true) =>                                               -- 951
        (edit h2 e (fun o => { o with loops := o.loops ++ [(c, ps)] })).map (·, true)

/-- One entry of the vector `edges`: a pointer to a live `LOOP_DATA` (entity, curves) or to one that has been
deleted. -/
abbrev Slot := Option (Nat × List Nat)

/-- The loop over `edges` in `delEdge`, entity508.cpp:769-793.  `v` is the vector, `b` the base of the reverse
iterator `sF` (it stands on the entry `b - 1`; `b = 0` is `rend`).  Undefined: reading a deleted entry; an
entry with curves (each is deleted by `delPCurve`, 885, and once more here, 782); moving `rbegin` back (787);
using an iterator that `pop_back` (788) has made invalid. -/
def scan (c : Nat) (v : List Slot) (b : Nat) : Option (List Slot) :=
  if hb : b = 0 then some v
  else
    match hv : v[b - 1]? with
    | none => none
    | some none => none
    | some (some (x, ps)) =>
      if x = c then
        if ps ≠ [] then none
        else if b = v.length then none
        else if v.length - 1 ≤ b + 1 then none
        else scan c (v.set (b - 1) none).dropLast (b + 1)
      else scan c v (b - 1)
termination_by (v.length, b)
decreasing_by
  · have : b - 1 < v.length := by
      by_contra hn
      rw [List.getElem?_eq_none (by omega)] at hv
      cases hv
    apply Prod.Lex.left
    simp
    omega
  · apply Prod.Lex.right
    omega

/-- `IGES_ENTITY_508::unlink` of an edge or vertex list behind the call of the base version, entity508.cpp:
363-371, with `delEdge` (749-804), whose second and third argument are true: the counts and users are not
looked at.  The new list of edges, the new table and the answer. -/
def unlinkEdge (redges : List (Nat × Int)) (edges : List (Nat × List Nat)) (c : Nat) :
    Option (List Slot × List (Nat × Int) × Bool) :=
  if c ∈ redges.map Prod.fst then
    (scan c (edges.map some) edges.length).map fun v => (v, redges.filter (·.1 ≠ c), true)
  else some (edges.map some, redges, false)

end Iges.LoopEdge
