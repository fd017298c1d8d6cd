import Verif.Model.GraphOps

/-!
The nesting depth of subfigure definitions (`/repo/src/entities/entity308.cpp:613-654`,
`/repo/src/entities/entity408.cpp:463-476`).
-/

namespace Iges.Depth

open Iges.Graph

/-- One round of the loop (`entity308.cpp:624-651`): `depth` answers for a definition, `nd` is the
depth found so far.  An instance without definition has depth 0 (`entity408.cpp:472-475`).  Type
320 cannot be a member (it is read as a placeholder, which accepts no reference) and is left
out.  `none`: a pointer to a destroyed entity, or no answer. -/
def round (depth : Nat → Option Nat) (h : Heap) (nd c : Nat) : Option Nat :=
  match h c with
  | none => none
  | some o =>
    if o.etype = 308 then (depth c).map (fun tm => if tm ≥ nd then tm + 1 else nd)
    else if o.etype = 408 then
      match o.slot (.own 0) with
      | none => some (if 0 ≥ nd then 1 else nd)
      | some d => (depth d).map (fun tm => if tm ≥ nd then tm + 1 else nd)
    else some nd

/-- The loop over the members. -/
def rounds (depth : Nat → Option Nat) (h : Heap) : Nat → List Nat → Option Nat
  | nd, [] => some nd
  | nd, c :: l =>
    match round depth h nd c with
    | none => none
    | some nd' => rounds depth h nd' l

/-- `IGES_ENTITY_308::getDepthLevel`; the first argument bounds the depth of the recursion:
`none` means that there is no answer within that bound (or that a pointer is dangling). -/
def getDepthLevel : Nat → Heap → Nat → Option Nat
  | 0, _, _ => none
  | n + 1, h, e =>
    match h e with
    | none => none
    | some o => rounds (getDepthLevel n h) h 0 o.kids

end Iges.Depth
