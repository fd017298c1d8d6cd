import Mathlib.Data.Real.Basic
/-
Independent specification for C105: numbers written in a line.
-/
namespace Iges.MergeTool.Spec

/-- every character is a decimal digit -/
def Digits (s : List Char) : Prop := ∀ c ∈ s, '0' ≤ c ∧ c ≤ '9'

/-- the number that digits stand for -/
def whole (s : List Char) : Nat := s.foldl (fun n c => 10 * n + (c.toNat - '0'.toNat)) 0

/-- a decimal number: a sign, the digits before the point and those after it -/
structure Numeral where
  neg : Bool
  ip : List Char
  fp : List Char

/-- there is a digit before the point, and there are not more than 300 in all -/
structure Numeral.Proper (n : Numeral) : Prop where
  some : n.ip ≠ []
  ip : Digits n.ip
  fp : Digits n.fp
  len : n.ip.length + n.fp.length ≤ 300

/-- as it is written -/
def Numeral.text (n : Numeral) : List Char := (if n.neg then ['-'] else []) ++ n.ip ++ (if n.fp = [] then [] else '.' :: n.fp)

/-- the number meant -/
noncomputable def Numeral.number (n : Numeral) : ℝ :=
  (if n.neg then -1 else 1) * ((whole n.ip : ℝ) + (whole n.fp : ℝ) / 10 ^ n.fp.length)

/-- The field holds the number, perhaps after blanks. -/
def Field (t : List Char) (x : ℝ) : Prop := ∃ k n, Numeral.Proper n ∧ t = List.replicate k ' ' ++ n.text ∧ x = n.number

/-- The field holds a flag: zero or another number. -/
def FlagField (t : List Char) (b : Bool) : Prop :=
  ∃ k ds, t = List.replicate k ' ' ++ ds ∧ Digits ds ∧ ds ≠ [] ∧ ds.length ≤ 9 ∧ b = decide (whole ds ≠ 0)

/-- fields with commas between them and a semicolon after the last one -/
def listed : List (List Char) → List Char
  | [] => []
  | [t] => t ++ [';']
  | t :: l => t ++ ',' :: listed l

end Iges.MergeTool.Spec
