import Verif.Model.PdOps
import Verif.Model.Real
/-
Parameters as the entities' `format` functions emit them.
-/
namespace Iges

/-- A parameter: integer or DE pointer (`ostr << n << delim; AddPDItem`), string (`AddPDHStr`),
real number given by its text without delimiter (`FormatPDREal; AddPDItem`), or a defaulted
parameter (the delimiter alone). -/
inductive Param where
  | int (n : Int)
  | str (s : Str)
  | real (t : Str)
  | dflt
  deriving Repr, DecidableEq

/-- The emitter call for a parameter closed by `d`. -/
def Param.op (p : Param) (d : Char) : PdOp :=
  match p with
  | .int n => .item (intStr n ++ [d])
  | .str s => .hstr s d
  | .real t => .item (t ++ [d])
  | .dflt => .item [d]

/-- The text of a parameter without delimiter. -/
def Param.body (p : Param) : Str :=
  match p with
  | .int n => intStr n
  | .str s => if s = [] then [] else natStr s.length ++ 'H' :: s
  | .real t => t
  | .dflt => []

/-- Delimit a parameter list: parameter delimiter after each but the last, which gets the record
delimiter. -/
def delimit (pd rd : Char) : List Param → List (Param × Char)
  | [] => []
  | [p] => [(p, rd)]
  | p :: q :: ps => (p, pd) :: delimit pd rd (q :: ps)

/-- The emitter calls for a delimited parameter list. -/
def paramOps (ps : List (Param × Char)) : List PdOp := ps.map fun x => x.1.op x.2

end Iges

namespace Iges

/-- The value of a parameter in a reader's variables. -/
inductive PValue where
  | int (n : Int)
  | str (s : Str)
  | real (v : RealTok)
  | dflt
  deriving Repr, DecidableEq

/-- Read one parameter of the kind of `p` with the parser the entities use for that kind.
`none` is a parser failure. -/
def readParam (pd rd : Char) (p : Param) (data : Str) (i : Nat) (eor : Bool) :
    Res (Option (PValue × Nat × Bool)) :=
  match p with
  | .int _ => (ParseInt data i eor pd rd none).bind fun r =>
      match r.ok, r.param with
      | true, some v => .ok (some (.int v, r.idx, r.eor))
      | _, _ => .ok none
  | .str _ => (ParseHString data i eor pd rd).bind fun r =>
      if r.ok then .ok (some (.str r.param, r.idx, r.eor)) else .ok none
  | .real _ => (ParseReal data i eor pd rd none).bind fun r =>
      match r.ok, r.param with
      | true, some v => .ok (some (.real v, r.idx, r.eor))
      | _, _ => .ok none
  | .dflt => (ParseLString data i eor pd rd).bind fun r =>
      if r.ok ∧ r.param = [] then .ok (some (.dflt, r.idx, r.eor)) else .ok none

/-- Read a list of parameters in order; the result has the values, the final cursor and whether the
end of the record was seen. -/
def readParams (pd rd : Char) : List Param → Str → Nat → Bool → Res (Option (List PValue × Nat × Bool))
  | [], _, i, eor => .ok (some ([], i, eor))
  | p :: ps, data, i, eor => (readParam pd rd p data i eor).bind fun r =>
      match r with
      | none => .ok none
      | some (v, i', eor') => (readParams pd rd ps data i' eor').bind fun r' =>
          match r' with
          | none => .ok none
          | some (vs, i'', eor'') => .ok (some (v :: vs, i'', eor''))

end Iges
