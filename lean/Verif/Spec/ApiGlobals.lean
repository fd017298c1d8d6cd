import Verif.Model.ApiGlobals
/-
Specification for the global data set through the handle (C92).
-/
namespace Iges.ApiGlobals.Spec

/-- `v` is what the last of the calls that set something has set, or the old value if no call sets it. -/
def Last {α : Type} (calls : List Call) (sets : Call → Option α) (old v : α) : Prop :=
  (∃ pre c post, calls = pre ++ c :: post ∧ sets c = some v ∧ ∀ c' ∈ post, sets c' = none) ∨ (v = old ∧ ∀ c ∈ calls, sets c = none)

/-- What a call is to set: a text (the characters up to the terminating zero, nothing for a null pointer), ... -/
def setsText (a : Text) : Call → Option Str
  | .text b v => if b = a then some (cView (v.getD [])) else none
  | _ => none

/-- ... a number of line widths, if it is positive, ... -/
def setsGrad : Call → Option Int
  | .grad n => if 0 < n then some n else none
  | _ => none

/-- ... a line width, if it is positive, ... -/
def setsWidth : Call → Option ℚ
  | .width x => if 0 < x then some x else none
  | _ => none

/-- ... a resolution of at least a billionth, ... -/
def setsResolution : Call → Option ℚ
  | .resolution x => if 1 / 10 ^ 9 ≤ x then some x else none
  | _ => none

/-- ... a drafting standard. -/
def setsStandard : Call → Option Int
  | .standard n => some n
  | _ => none

/-- Calls that scale the model. -/
def Scales : Call → Prop
  | .units _ | .scale _ => True
  | _ => False

/-- The number of characters that are passed with a call, and with a program. -/
def argLen : Call → ℕ
  | .text _ (some s) => s.length
  | _ => 0
def chars (calls : List Call) : ℕ := (calls.map argLen).sum

/-- A setter with an argument that can be written to a file: texts of one line, a resolution between 1e-8 and 1000, ints. -/
def Storable : Call → Prop
  | .text a v => (a = .receiver → v ≠ none) ∧ ∀ s, v = some s → '\n' ∉ s
  | .grad n => n ≤ 2147483647
  | .width _ => True
  | .resolution x => x < 1 / 10 ^ 9 ∨ 1 / 10 ^ 8 ≤ x ∧ x ≤ 1000
  | .standard n => -2147483648 ≤ n ∧ n ≤ 2147483647
  | .units _ | .scale _ => False

end Iges.ApiGlobals.Spec
