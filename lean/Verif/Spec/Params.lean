/-
Independent specification of free-format parameters.  Nothing here refers to the model.
-/
namespace Iges.Spec

/-- Characters that may be parameter or record delimiters (IGES 5.3, 2.2.4.3.1): not a control
character, blank, digit, sign, dot, `D`, `E`, `H`. -/
def LegalDelim (c : Char) : Prop :=
  33 ≤ c.toNat ∧ c.toNat ≤ 126 ∧ c.isDigit = false ∧
  c ≠ '+' ∧ c ≠ '-' ∧ c ≠ '.' ∧ c ≠ 'D' ∧ c ≠ 'E' ∧ c ≠ 'H'

instance (c : Char) : Decidable (LegalDelim c) := by unfold LegalDelim; infer_instance

/-- The text at position `i` of `data` is the token `tok` closed by the delimiter `d`. -/
def TokenAt (data : List Char) (i : Nat) (pd rd : Char) (tok : List Char) (d : Char) : Prop :=
  ∃ rest, data.drop i = tok ++ d :: rest ∧ (d = pd ∨ d = rd) ∧ pd ∉ tok ∧ rd ∉ tok

end Iges.Spec
