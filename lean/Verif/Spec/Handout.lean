import Verif.Model.Handout
/-
C99: what the lists contain after a history of calls, by themselves.
-/
namespace Iges.Spec
open Iges Handout

/-- The members after the calls, `l` being there at the start: an accepted addition appends an
entity that is not there yet, a deletion takes it away, queries change nothing. -/
def members (l : List Nat) : List MCall → List Nat
  | [] => l
  | .add e fit taken :: cs =>
    members (if fit && taken && !l.contains e then l ++ [e] else l) cs
  | .del e :: cs => members (l.erase e) cs
  | .compact :: cs => members l cs
  | .list :: cs => members l cs
  | .dllList :: cs => members l cs

/-- The comments after the calls. -/
def comments (l : List Str) : List TCall → List Str
  | [] => l
  | .add _ s :: cs => comments (l ++ [s]) cs
  | .del i :: cs => comments (if 0 ≤ i then l.eraseIdx i.toNat else l) cs
  | .clear :: cs => comments [] cs
  | .compact :: cs => comments l cs
  | .list :: cs => comments l cs

/-- The header lines after the calls.  Reading succeeds only if there are none before. -/
def headers (l : List Str) : List HCall → List Str
  | [] => l
  | .add _ s :: cs => headers (AddToHeader l s) cs
  | .clear :: cs => headers [] cs
  | .read _ lines good :: cs => headers (if good && l.isEmpty then lines else []) cs
  | .write _ :: cs => headers (if l.isEmpty then [pad72 defaultStart] else l) cs
  | .list :: cs => headers l cs

/-- The model is cleared and read only before its header lines are asked for. -/
def ClearsFirst : List HCall → Prop
  | [] => True
  | .list :: cs => ∀ c ∈ cs, match c with
    | .clear => False
    | .read _ _ _ => False
    | _ => True
  | _ :: cs => ClearsFirst cs

/-- The query for a list hands out exactly `l`, each element with its text still there; it fails if
and only if there is nothing to hand out. -/
def HandsOut (t : Texts) (l : List Str) : Prop :=
  (getTexts t).2.map (fun v => v.map (getTexts t).1.deref) = if l = [] then none else some (l.map some)

end Iges.Spec
