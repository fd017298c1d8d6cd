import Verif.Model.Io
/-
Sequences of emitter calls as the `format` functions of the entities make them, and the
line-gathering part of reading parameter data.
-/
namespace Iges

/-- One emitter call of an entity's `format` function. -/
inductive PdOp where
  | item (t : Str)                       -- AddPDItem
  | hstr (s : Str) (delim : Char)        -- AddPDHStr
  deriving Repr, DecidableEq

/-- Execute one emitter call. -/
def PdOp.run (de : Int) (pd rd : Char) (o : PdOp) (e : Emit) : Res (Emit × Bool) :=
  match o with
  | .item t => AddPDItem t e de rd
  | .hstr s d => AddPDHStr s e de pd rd d

/-- A sequence of emitter calls.  As in the callers (e.g. entity110.cpp:format, entity308.cpp:format),
the Boolean results are ignored and the sequence continues. -/
def runOps (de : Int) (pd rd : Char) : List PdOp → Emit → Res Emit
  | [], e => .ok e
  | o :: os, e => (o.run de pd rd e).bind fun r => runOps de pd rd os r.1

/-- `std::getline` applied repeatedly: the text cut at newlines; a last line without newline is
also returned. -/
def getlines : Str → Str → List Str
  | acc, [] => if acc.isEmpty then [] else [acc.reverse]
  | acc, c :: r => if c = '\n' then acc.reverse :: getlines [] r else getlines (c :: acc) r

/-- The body of the loop of `IGES_ENTITY::readPD`, iges_entity.cpp:1470-1571: `n` lines are still
to be read, `i` is the number already read.  `none` is the `false` return. -/
def gatherPD (etype seqNum pdata : Int) (pd rd : Char) : Nat → Nat → List Str → Str → Res (Option Str)
  | 0, _, _, acc => .ok (some acc)
  | n + 1, i, ls, acc =>
    match ls with
    | [] => .ok none                                                  -- 1472: end of file
    | l :: ls =>
      match ReadIGESRecord l with
      | none => .ok none                                              -- 1472-1480
      | some rec =>
        if rec.section_type ≠ 'P' then .ok none                       -- 1486-1495
        else if rec.index ≠ pdata + i then .ok none                   -- 1497-1506
        else if (rec.data.drop 64).head? ≠ some ' ' then .ok none     -- 1509-1516
        else
          match DEItemToInt rec.data 8 0 none with
          | (false, _) => .ok none                                    -- 1518-1525
          | (true, v) =>
            if v ≠ seqNum then .ok none                               -- 1526-1534
            else if i = 0 then                                        -- 1536-1567
              (ParseInt rec.data 0 false pd rd none).bind fun p =>
                if ¬ p.ok then .ok none
                else if p.param ≠ some etype then .ok none
                else if p.eor then .ok none
                else gatherPD etype seqNum pdata pd rd n (i + 1) ls (acc ++ rec.data.take 64)
            else gatherPD etype seqNum pdata pd rd n (i + 1) ls (acc ++ rec.data.take 64)

/-- `IGES_ENTITY::readPD`, iges_entity.cpp:1430-1578: the parameter data of one entity as one
string.  `ls` are the lines of the file at the current position. -/
def readPDText (etype seqNum pdata count : Int) (pd rd : Char) (ls : List Str) : Res (Option Str) :=
  if pdata = 0 ∧ etype = 0 then .ok (some [])                         -- 1436-1437
  else if pdata < 1 ∨ pdata > 9999999 then .ok none                   -- 1439-1443
  else if count < 1 ∨ pdata + count > 10000000 then .ok none          -- 1445-1450
  else gatherPD etype seqNum pdata pd rd count.toNat 0 ls []

end Iges
