import Verif.Model.Entities
/-
The text of a parameter record given by its fields, and what the fields stand for.
-/
namespace Iges.Spec

/-- The text of a record: the fields separated by `pd`, ended by `rd`. -/
def record (pd rd : Char) : List Str → Str
  | [] => []
  | [f] => f ++ [rd]
  | f :: g :: fs => f ++ pd :: record pd rd (g :: fs)

/-- The text of a number. -/
def IsNumber (t : Str) : Prop := t ≠ [] ∧ (strtod (dToE t)).err = false ∧ (strtod (dToE t)).used ≠ 0

/-- The number a text stands for. -/
def number (num : RealTok → ℚ) (t : Str) : ℚ := num (strtod (dToE t)).val

/-- The text of the integer `n`. -/
def IsInteger (t : Str) (n : Int) : Prop :=
  t ≠ [] ∧ (strtol t).err = false ∧ (strtol t).used ≠ 0 ∧ toI32 (strtol t).val = n

/-- What parameter `i` of a record stands for: its number, or the default `d` if the field is empty or the record ends
before it. -/
def valueAt (num : RealTok → ℚ) (fs : List Str) (i : Nat) (d : ℚ) : ℚ :=
  match fs[i]? with
  | some t => if t = [] then d else number num t
  | none => d

/-- No field contains a delimiter, and every field is empty or a number. -/
def Fields (pd rd : Char) (fs : List Str) : Prop := ∀ t ∈ fs, pd ∉ t ∧ rd ∉ t ∧ (t = [] ∨ IsNumber t)

end Iges.Spec
