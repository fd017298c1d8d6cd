/-
Independent specification of the free-format sections as text: how data columns are laid out
into 80-column lines.  Nothing here refers to the model.
-/
namespace Iges.Spec

/-- Decimal text of an integer. -/
def decimal (n : Int) : List Char :=
  if n < 0 then '-' :: Nat.toDigits 10 n.natAbs else Nat.toDigits 10 n.natAbs

/-- Right-justified decimal text in a field of width `w`. -/
def rjust (w : Nat) (n : Int) : List Char :=
  List.replicate (w - (decimal n).length) ' ' ++ decimal n

/-- Columns 65-80 of a parameter-data line: DE pointer, letter P, sequence number. -/
def pdTail (de seq : Int) : List Char := rjust 8 de ++ 'P' :: rjust 7 seq

/-- Columns 73-80 of a global-section line. -/
def globalTail (seq : Int) : List Char := 'G' :: rjust 7 seq

/-- The text of consecutive lines with the given data columns, numbered from `i`. -/
def lines (tail : Int → List Char) (i : Int) : List (List Char) → List Char
  | [] => []
  | d :: ds => d ++ tail i ++ '\n' :: lines tail (i + 1) ds

end Iges.Spec
