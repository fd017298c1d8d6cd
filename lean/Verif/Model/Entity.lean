import Verif.Model.Params
import Verif.Model.Reader
import Verif.Model.Directory
/-
The common part of the `format` and `readPD` functions of all entity types: parameters, optional
pointers and comments.  Pointers to other entities are represented by the DE sequence number that is
written for them.  The check `if( !parent ) return false;` is left out: entities are part of a model.
-/
namespace Iges

/-- What `format` and `readPD` use from their surroundings: delimiters and resolution of the global
section, the digit estimate of `FormatPDREal`, the conversion of decimals to doubles and the square
root. -/
structure PdEnv where
  pd : Char
  rd : Char
  res : ℚ
  est : ℚ → ℚ → Nat
  num : RealTok → ℚ
  sqrt : ℚ → ℚ

/-- One parameter of a `format` function: an integer or DE pointer, a string (`AddPDHStr`), a real
with the resolution passed to `FormatPDREal`, a string written with `AddPDItem` (entity314.cpp:219-222). -/
inductive Item where
  | int (n : Int)
  | str (s : Str)
  | real (x r : ℚ)
  | hitem (s : Str)
  deriving DecidableEq

/-- The text put in a stream for a parameter and its delimiter; `none` if `FormatPDREal` fails.
Strings are not put in a stream, see `emitGroup`. -/
def Item.text (E : PdEnv) (d : Char) : Item → Option Str
  | .int n => some (intStr n ++ [d])
  | .real x r => FormatPDREal (E.est x r) x d r
  | .hitem s => some (natStr s.length ++ 'H' :: (s ++ [d]))
  | .str _ => none

/-- The text of several parameters put in one stream. -/
def groupText (E : PdEnv) : List (Item × Char) → Option Str
  | [] => some []
  | (it, d) :: g =>
    match it.text E d, groupText E g with
    | some t, some u => some (t ++ u)
    | _, _ => none

/-- One emitter call with the parameters it is given.  A failing `FormatPDREal` or `AddPDHStr` makes
`format` return false; the result of `AddPDItem` is ignored. -/
def emitGroup (E : PdEnv) (de : Int) (g : List (Item × Char)) (e : Emit) : Rd Emit :=
  match g with
  | [(.str s, d)] => Rd.lift (AddPDHStr s e de E.pd E.rd d) fun r => if r.2 then .val r.1 else .fail
  | g =>
    match groupText E g with
    | none => .fail
    | some t => Rd.lift (AddPDItem t e de E.rd) fun r => .val r.1

/-- The emitter calls one after the other. -/
def emitGroups (E : PdEnv) (de : Int) : List (List (Item × Char)) → Emit → Rd Emit
  | [], e => .val e
  | g :: gs, e => emitGroup E de g e >>= emitGroups E de gs

/-- Several integers in the stream that starts the line: `ostr << entityType << pd << ... << pd`. -/
def preText (pd : Char) : List Int → Str
  | [] => []
  | n :: ns => intStr n ++ pd :: preText pd ns

/-- An entry of the `extras` list: its entity type and DE sequence number. -/
structure ExtraRef where
  etype : Int
  de : Int
  deriving DecidableEq, Repr

/-- The associativities and notes among the extras, iges_entity.cpp:2687-2693. -/
def secA (xs : List ExtraRef) : List Int :=
  (xs.filter fun x => x.etype == 212 || x.etype == 312 || x.etype == 402).map (·.de)

/-- The properties among the extras, iges_entity.cpp:2695-2697. -/
def secB (xs : List ExtraRef) : List Int := (xs.filter fun x => x.etype == 406).map (·.de)

/-- One optional parameter list without its count: the last entry is closed by `last`. -/
def closeInts (pd last : Char) : List Int → List (Param × Char)
  | [] => []
  | [n] => [(.int n, last)]
  | n :: m :: ns => (.int n, pd) :: closeInts pd last (m :: ns)

/-- The items of `formatExtraParams`, iges_entity.cpp:2711-2772. -/
def extraItems (pd rd : Char) (A B : List Int) : List (Param × Char) :=
  if A = [] then
    (.dflt, pd) :: (.int B.length, pd) :: closeInts pd rd B           -- 2711-2715, 2753-2770
  else if B = [] then
    (.int A.length, pd) :: closeInts pd rd A                          -- 2718-2748
  else
    (.int A.length, pd) :: closeInts pd pd A ++ (.int B.length, pd) :: closeInts pd rd B

/-- `IGES_ENTITY::formatExtraParams`, iges_entity.cpp:2661-2773. -/
def formatExtraParams (E : PdEnv) (de : Int) (xs : List ExtraRef) (e : Emit) : Rd Emit :=
  if xs = [] then .fail                                               -- 2663-2667
  else if ∃ x ∈ xs, x.etype ≠ 212 ∧ x.etype ≠ 312 ∧ x.etype ≠ 402 ∧ x.etype ≠ 406 then .fail  -- 2699-2703
  else Rd.lift (runOps de E.pd E.rd (paramOps (extraItems E.pd E.rd (secA xs) (secB xs))) e) fun r => .val r

/-- The lines of one comment, iges_entity.cpp:2796-2818: 72 columns, no DE pointer. -/
def commentLines (fuel : Nat) (c : Str) (seq : Int) (out : Str) : Option (Str × Int) :=
  match fuel with
  | 0 => some (out, seq)
  | fuel + 1 =>
    if c = [] then some (out, seq)
    else
      let t := c.take 72
      let t := t ++ List.replicate (72 - t.length) ' '
      match FormatDEInt seq with
      | none => none
      | some s => commentLines fuel (c.drop 72) (seq + 1) (out ++ (t ++ s.set 0 'P' ++ ['\n']))

/-- All comments, iges_entity.cpp:2787-2821. -/
def commentsLines : List Str → Int → Str → Option (Str × Int)
  | [], seq, out => some (out, seq)
  | c :: cs, seq, out =>
    match commentLines c.length c seq out with
    | none => none
    | some (out, seq) => commentsLines cs seq out

/-- `IGES_ENTITY::formatComments`, iges_entity.cpp:2777-2824: the parameter text and the next
sequence number. -/
def formatComments (cs : List Str) (out : Str) (seq : Int) : Rd (Str × Int) :=
  if out.length % 81 ≠ 0 then .fail                                   -- 2780-2785
  else
    match commentsLines cs seq out with
    | none => .fail
    | some r => .val r

/-- The common shape of `format`: `pre` is the text started in the stream (the entity type and the
integers written with it), `groups` are the emitter calls, then optional pointers and comments.
`last` of the entity-specific parts is `if extras.empty() rd else pd`. -/
def formatPD (E : PdEnv) (de : Int) (pre : List Int) (groups : List (List (Item × Char)))
    (xs : List ExtraRef) (cs : List Str) (limit index : Int) : Rd (Str × Int) :=
  if index < 1 ∨ index > limit then .fail
  else do
    let e ← emitGroups E de groups ⟨preText E.pd pre, [], index⟩
    let e ← if xs = [] then .val e else formatExtraParams E de xs e
    formatComments cs e.fOut e.index

/-- The delimiter of the last entity-specific parameter. -/
def PdEnv.last (E : PdEnv) (xs : List ExtraRef) : Char := if xs = [] then E.rd else E.pd

/-- A test on a DE pointer read: positive, odd and at most 9999997. -/
def goodDE (n : Int) : Prop := ¬ (n < 1 ∨ n % 2 = 0 ∨ n > 9999997)

instance (n : Int) : Decidable (goodDE n) := by unfold goodDE; infer_instance

/-- Read `n` values with the same function. -/
def readN {α : Type} (f : Cur → Rd (α × Cur)) : Nat → Cur → Rd (List α × Cur)
  | 0, c => .val ([], c)
  | n + 1, c => do
    let (a, c) ← f c
    let (as, c) ← readN f n c
    pure (a :: as, c)

/-- One DE pointer of an optional list, iges_entity.cpp:2578-2593. -/
def readExtraDE (s : Src) (c : Cur) : Rd (Int × Cur) := do
  let (n, c) ← s.int c
  Rd.need (goodDE n)
  pure (n, c)

/-- `IGES_ENTITY::readExtraParams`, iges_entity.cpp:2552-2633. -/
def readExtraParams (s : Src) (idx : Nat) : Rd (List Int × Nat) := do
  let (nA, c) ← s.int ⟨idx, false⟩ (some 0)
  Rd.need (0 ≤ nA)
  let (as, c) ← readN (readExtraDE s) nA.toNat c
  if c.eor then pure (as, c.idx)
  else do
    let (nB, c) ← s.int c (some 0)
    Rd.need (0 ≤ nB)
    let (bs, c) ← readN (readExtraDE s) nB.toNat c
    Rd.need (c.eor = true)
    pure (as ++ bs, c.idx)

/-- Cut complete pieces of 64 characters. -/
def cut64 : Nat → Str → List Str
  | 0, _ => []
  | n + 1, s => if s.length < 64 then [] else s.take 64 :: cut64 n (s.drop 64)

/-- `IGES_ENTITY::readComments`, iges_entity.cpp:2637-2658. -/
def readComments (data : Str) (idx : Nat) : List Str :=
  let idx := if idx % 64 = 0 then idx else idx + (64 - idx % 64)
  cut64 data.length (data.drop idx)

/-- Position of the first parameter delimiter, `pdout.find( pd )`. -/
def findChar (c : Char) : Str → Option Nat
  | [] => none
  | a :: s => if a = c then some 0 else (findChar c s).map (· + 1)

/-- The common shape of `readPD`: gather the lines, skip the type number, read the entity-specific
part, the optional pointers and the comments. -/
def readPDWith {α : Type} (E : PdEnv) (etype de pdata count : Int) (ls : List Str)
    (body : Src → Cur → Rd (α × Cur)) : Rd (α × List Int × List Str) :=
  Rd.lift (readPDText etype de pdata count E.pd E.rd ls) fun
    | none => .fail
    | some data =>
      match findChar E.pd data with
      | none => .fail
      | some i =>
        if i < 1 ∨ i > 8 then .fail
        else do
          let s : Src := ⟨data, E.pd, E.rd, E.num⟩
          let (a, c) ← body s ⟨i + 1, false⟩
          let (xs, j) ← if c.eor then .val ([], c.idx) else readExtraParams s c.idx
          pure (a, xs, readComments data j)

end Iges
