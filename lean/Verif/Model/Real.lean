import Verif.Model.Io
/-
Real numbers as text: `strtod` as used by `ParseReal`, and the post-processing of the stream
output in `FormatPDREal`.  Values are exact decimals; the final rounding of a decimal to the
nearest double is not modelled.
-/
namespace Iges

/-- The decimal `m * 10^e`. -/
structure Dec where
  m : Int
  e : Int
  deriving Repr, DecidableEq

/-- What a real parameter can denote: a decimal number, or one of the texts `strtod` also accepts
(infinity, NaN, hexadecimal), whose value is not modelled. -/
inductive RealTok where
  | dec (d : Dec)
  | special
  deriving Repr, DecidableEq

/-- Result of `strtod(s, &end)`. -/
structure Strtod where
  val : RealTok
  used : Nat
  err : Bool
  deriving Repr, DecidableEq

/-- `strtod` recognises infinity, NaN and hexadecimal numbers (C11 7.22.1.3); `r` is the text after
white space and sign. -/
def startsSpecial (r : Str) : Bool :=
  let l := (r.take 3).map Char.toLower
  l == ['i', 'n', 'f'] || l == ['n', 'a', 'n'] || l.take 2 == ['0', 'x']

/-- Least integer that rounds to infinity as a double. -/
def dblOverflow : Nat := 2 ^ 1024 - 2 ^ 970

/-- Inverse of the least normal double. -/
def dblTinyInv : Nat := 2 ^ 1022

/-- Magnitude test for `ERANGE`: `m * 10^e ≥ 2^1024 - 2^970` (overflow) or
`0 < m * 10^e < 2^-1022` (underflow; the C library reports underflow only when the result is also
inexact, a simplification that only concerns denormal numbers). -/
def decErange (m : Nat) (e : Int) : Bool :=
  if m = 0 then false
  else if e ≥ 0 then m * 10 ^ e.toNat ≥ dblOverflow
  else m ≥ dblOverflow * 10 ^ (-e).toNat || m * dblTinyInv < 10 ^ (-e).toNat

/-- Optional exponent part: letter, optional sign, digits.  Returns the exponent and the number of
characters used, `(0, 0)` when there is none. -/
def takeExp (s : Str) : Int × Nat :=
  match s with
  | c :: r =>
    if c = 'e' ∨ c = 'E' then
      let (neg, n, r') := takeSign r
      let ds := r'.takeWhile isDigitC
      if ds.isEmpty then (0, 0)
      else ((if neg then - (digitsVal ds : Int) else digitsVal ds), 1 + n + ds.length)
    else (0, 0)
  | [] => (0, 0)

/-- Optional fraction part: the dot and digits.  Returns the digits and the number of characters
used, given whether there were integer digits (a lone dot is not part of a number). -/
def takeFrac (haveInt : Bool) (s : Str) : Str × Nat :=
  match s with
  | c :: r =>
    if c = '.' then
      let ds := r.takeWhile isDigitC
      if ds.isEmpty ∧ ¬ haveInt then ([], 0) else (ds, 1 + ds.length)
    else ([], 0)
  | [] => ([], 0)

/-- `strtod` of the C library for decimal input (C11 7.22.1.3). -/
def strtod (s : Str) : Strtod :=
  let ws := s.takeWhile isSpaceC
  let r := s.dropWhile isSpaceC
  let (neg, n, r') := takeSign r
  if startsSpecial r' then ⟨.special, ws.length + n + 3, false⟩
  else
    let ip := r'.takeWhile isDigitC
    let r2 := r'.dropWhile isDigitC
    let (fp, nf) := takeFrac (!ip.isEmpty) r2
    if ip.isEmpty ∧ fp.isEmpty then ⟨.dec ⟨0, 0⟩, 0, false⟩
    else
      let (ex, ne) := takeExp (r2.drop nf)
      let m := digitsVal (ip ++ fp)
      let e := ex - fp.length
      ⟨.dec ⟨if neg then - (m : Int) else m, e⟩, ws.length + n + ip.length + nf + ne, decErange m e⟩

/-- Replace the first `D` by `E`, iges_io.cpp:444-447. -/
def dToE : Str → Str
  | [] => []
  | c :: r => if c = 'D' then 'E' :: r else c :: dToE r

/-- `ParseReal`, iges_io.cpp:420-471. -/
def ParseReal (data : Str) (idx : Nat) (eor : Bool) (pd rd : Char) (ddefault : Option RealTok) :
    Res (PVal RealTok) :=
  (ParseLString data idx eor pd rd).bind fun p =>
    if ¬ p.ok then .ok ⟨false, none, p.idx, p.eor⟩                   -- 425-429
    else if p.param.isEmpty then                                      -- 431-442
      match ddefault with
      | some d => .ok ⟨true, some d, p.idx, p.eor⟩
      | none => .ok ⟨false, none, p.idx, p.eor⟩
    else
      let r := strtod (dToE p.param)                                  -- 444-453
      if r.err ∨ r.used = 0 then .ok ⟨false, none, p.idx, p.eor⟩      -- 455-460
      else .ok ⟨true, some r.val, p.idx, p.eor⟩                       -- 469

/-- Remove zeros from the end of a reversed text, iges_io.cpp:567-572: trailing zeros are dropped
but the first digit after the dot is kept.  `kept` is the last character removed so far, if any. -/
def trimZerosRev (kept : Option Char) : Str → Str
  | [] => kept.toList
  | c :: r =>
    if c = '0' then trimZerosRev (some '0') r
    else if c = '.' then kept.toList ++ c :: r
    else c :: r

/-- iges_io.cpp:562-572 applied to the mantissa text. -/
def trimZeros (s : Str) : Str := (trimZerosRev none s.reverse).reverse

/-- Split at the first exponent letter. -/
def splitExp (s : Str) : Str × Str :=
  (s.takeWhile (fun c => !(c == 'e' || c == 'E')), s.dropWhile (fun c => !(c == 'e' || c == 'E')))

/-- The text produced by `FormatPDREal` from the text `raw` that the stream printed with precision
`nc`, iges_io.cpp:552-617.  The pieces before and after the exponent letter are handled as the code
does with `pdot`, `pexp`, `pidx`; a dot after the exponent letter, or directly in front of it, is
not possible in stream output (the code would then copy the exponent letter twice). -/
def realBody (raw : Str) (nc : Nat) : Str :=
  let (man, ex) := splitExp raw
  if '.' ∈ raw then                                                   -- 559
    match ex with
    | [] => trimZeros man                                             -- 594
    | _ :: x => trimZeros man ++ 'E' :: x                             -- 589-590
  else
    match ex with
    | [] => raw ++ ".0".toList                                        -- 602-605
    | _ :: x => man ++ (if nc > 7 then 'D' else 'E') :: x             -- 608-611

/-- The delimiter is appended, iges_io.cpp:615. -/
def realPost (raw : Str) (nc : Nat) (delim : Char) : Str := realBody raw nc ++ [delim]

end Iges
