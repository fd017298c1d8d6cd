import Verif.Model.Real
import Mathlib.Data.Int.Log
import Mathlib.Data.Rat.Floor
/-
Printing of real numbers: the stream output used by `FormatPDREal`, over exact rationals.
Every finite double is a rational number and the C library prints it correctly rounded (ties to
even), so the printed text is a function of the rational value.
-/
namespace Iges

/-- Round to the nearest integer, ties to even. -/
def roundHE (q : ℚ) : ℤ :=
  let f := ⌊q⌋
  let r := q - f
  if r < 1 / 2 then f else if 1 / 2 < r then f + 1 else if f % 2 = 0 then f else f + 1

/-- The `p` significant digits `n` and the decimal exponent `k` of a positive number: the printed
value is `n * 10^(k - p + 1)`. -/
def sigDigits (p : Nat) (x : ℚ) : Nat × Int :=
  let k := Int.log 10 x
  let n := (roundHE (x * 10 ^ ((p : Int) - 1 - k))).toNat
  if n = 10 ^ p then (10 ^ (p - 1), k + 1) else (n, k)

/-- Exponent as printed: sign and at least two digits. -/
def expDigits (k : Int) : Str :=
  (if k < 0 then '-' else '+') :: (List.replicate (2 - (natStr k.natAbs).length) '0' ++ natStr k.natAbs)

/-- Minus sign if negative. -/
def signText (neg : Bool) : Str := if neg then ['-'] else []

/-- `printf("%.<p>e")`, p ≥ 1: the output of a stream in scientific mode with precision `p`. -/
def fmtE (p : Nat) (x : ℚ) : Str :=
  if x = 0 then '0' :: '.' :: List.replicate p '0' ++ "e+00".toList
  else
    let (n, k) := sigDigits (p + 1) |x|
    signText (x < 0) ++ ((natStr n).take 1 ++ '.' :: (natStr n).drop 1) ++ 'e' :: expDigits k

/-- Remove trailing zeros. -/
def stripZeros (s : Str) : Str := (s.reverse.dropWhile (· == '0')).reverse

/-- The dot and the fraction, nothing if there is no fraction. -/
def dotFrac (fp : Str) : Str := if fp = [] then [] else '.' :: fp

/-- `printf("%.<p>g")`, p ≥ 1: the output of a stream in default mode with precision `p`. -/
def fmtG (p : Nat) (x : ℚ) : Str :=
  if x = 0 then ['0']
  else
    let (n, k) := sigDigits p |x|
    let ds := natStr n
    if k < -4 ∨ k ≥ p then
      signText (x < 0) ++ (ds.take 1 ++ dotFrac (stripZeros (ds.drop 1))) ++ 'e' :: expDigits k
    else if k ≥ 0 then
      signText (x < 0) ++ (ds.take (k.toNat + 1) ++ dotFrac (stripZeros (ds.drop (k.toNat + 1))))
    else
      signText (x < 0) ++ ('0' :: dotFrac (stripZeros (List.replicate ((-k).toNat - 1) '0' ++ ds)))

/-- The number of digits used for a value, iges_io.cpp:507-535.  The code computes
`(int)(log(vlim)/ln 10 + 1.00000000000001) + 4`, at most 16, with `vlim = max(|x|/minRes, 10)`.
That is the floor of the decimal logarithm plus 5, or plus 6 if `vlim` is just below a power of
ten; the model allows both, so no property depends on the rounding of `log`. -/
def DigitEstimate (x minRes : ℚ) (nc : Nat) : Prop :=
  let l := (Int.log 10 (max (|x| / minRes) 10)).toNat
  nc = min 16 (l + 5) ∨ nc = min 16 (l + 6)

/-- `FormatPDREal`, iges_io.cpp:498-619, for a finite value `x`; `nc` is the digit estimate. -/
def FormatPDREal (nc : Nat) (x : ℚ) (delim : Char) (minRes : ℚ) : Option Str :=
  if minRes ≤ 0 then none                                             -- 500-504
  else
    let x := if |x| < 1 / 10 ^ 8 then 0 else x                        -- 520-524
    let raw := if |x| > 9999 / 10 then fmtE nc x else fmtG nc x       -- 542-550
    some (realPost raw nc delim)

/-- The text of a value without its delimiter: what `FormatPDREal` produces for a positive resolution
(`FormatPDREal_eq`). -/
def realText (est : ℚ → ℚ → Nat) (minRes x : ℚ) : Str :=
  let y := if |x| < 1 / 10 ^ 8 then 0 else x
  realBody (if |y| > 9999 / 10 then fmtE (est x minRes) y else fmtG (est x minRes) y) (est x minRes)

theorem FormatPDREal_eq {est : ℚ → ℚ → Nat} {minRes x : ℚ} {d : Char} (h : 0 < minRes) :
    FormatPDREal (est x minRes) x d minRes = some (realText est minRes x ++ [d]) := by
  unfold FormatPDREal
  rw [if_neg (not_le.mpr h)]
  rfl

/-- The value of a decimal. -/
def Dec.toRat (d : Dec) : ℚ := d.m * (10 : ℚ) ^ d.e

end Iges
