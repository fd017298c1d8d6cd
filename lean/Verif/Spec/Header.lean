/-
Independent specification of start-section text.
-/
namespace Iges.Spec

/-- The lines a text is kept in: 72 columns each, and joined they are the text followed by fewer than
72 blanks. -/
def HeaderLines (text : List Char) (ls : List (List Char)) : Prop :=
  (∀ l ∈ ls, l.length = 72) ∧ ∃ k, k < 72 ∧ ls.flatten = text ++ List.replicate k ' '

end Iges.Spec
