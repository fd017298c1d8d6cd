import Verif.Model.Params
/-
Sequences of global-section emitter calls.
-/
namespace Iges

/-- One emitter call of `writeGlobals` (iges.cpp:2005-2378). -/
inductive SecOp where
  | item (t : Str)
  | hstr (s : Str) (delim : Char)
  deriving Repr, DecidableEq

/-- `AddSecItem` / `AddSecHStr`. -/
def SecOp.run (pd rd : Char) (o : SecOp) (e : Emit) : Res (Emit × Bool) :=
  match o with
  | .item t => .ok (AddSecItem t e pd rd)
  | .hstr s d => AddSecHStr s e pd rd d

/-- A sequence of calls where the first failing one ends the function with `false`, as
`writeGlobals` does after every call. -/
def runSecOps (pd rd : Char) : List SecOp → Emit → Res (Emit × Bool)
  | [], e => .ok (e, true)
  | o :: os, e => (o.run pd rd e).bind fun (e', ok) =>
      if ok then runSecOps pd rd os e' else .ok (e', false)

/-- The emitter call for a parameter closed by `d`. -/
def Param.secOp (p : Param) (d : Char) : SecOp :=
  match p with
  | .int n => .item (intStr n ++ [d])
  | .str s => .hstr s d
  | .real t => .item (t ++ [d])
  | .dflt => .item [d]

/-- The emitter calls for a delimited parameter list. -/
def secParamOps (ps : List (Param × Char)) : List SecOp := ps.map fun x => x.1.secOp x.2

end Iges
