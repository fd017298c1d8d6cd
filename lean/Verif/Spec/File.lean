import Verif.Spec.Lines
/-
What the whole-file properties say, apart from the model of the code.
-/
namespace Iges.Spec

/-- `ls` are the lines of the text file `text`, each closed by a line end. -/
def TextLines (text : List Char) (ls : List (List Char)) : Prop :=
  text = ls.flatMap (· ++ ['\n']) ∧ ∀ l ∈ ls, '\n' ∉ l

/-- The number of lines with the letter `c` in column 73. -/
def countLetter (c : Char) (ls : List (List Char)) : Nat := ls.countP fun l => l[72]? == some c

/-- The terminate line that states the given numbers of lines. -/
def terminateLine (nS nG nD nP : Nat) : List Char :=
  'S' :: rjust 7 nS ++ 'G' :: rjust 7 nG ++ 'D' :: rjust 7 nD ++ 'P' :: rjust 7 nP ++ List.replicate 40 ' ' ++
    'T' :: rjust 7 1

end Iges.Spec
