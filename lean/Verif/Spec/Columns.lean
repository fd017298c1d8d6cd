/-
Independent specification of the fixed-column parts of an IGES file.
Nothing here refers to the model.
-/
namespace Iges.Spec

/-- White space in the sense of the C library. -/
def Blank (c : Char) : Prop := c ∈ [' ', '\t', '\n', '\x0b', '\x0c', '\r']

/-- The number denoted by an optional sign and decimal digits. -/
def signed (sign : List Char) (digits : List Char) : Int :=
  if sign = ['-'] then - (Nat.ofDigitChars 10 digits 0 : Int) else Nat.ofDigitChars 10 digits 0

/-- A column holding the integer `v`: white space, optional sign, at least one digit, and then the
end of the column or a NUL byte (a C string ends there). -/
def IntColumn (col : List Char) (v : Int) : Prop :=
  ∃ ws sign digits rest, col = ws ++ sign ++ digits ++ rest ∧
    (∀ c ∈ ws, Blank c) ∧ (sign = [] ∨ sign = ['-'] ∨ sign = ['+']) ∧
    digits ≠ [] ∧ (∀ c ∈ digits, c.isDigit = true) ∧
    (rest = [] ∨ rest.head? = some '\x00') ∧ v = signed sign digits

/-- A blank column. -/
def BlankColumn (col : List Char) : Prop := ∀ c ∈ col, c = ' '

instance (col : List Char) : Decidable (BlankColumn col) :=
  inferInstanceAs (Decidable (∀ c ∈ col, c = ' '))

/-- Line-end characters. -/
def Eol (c : Char) : Prop := c = '\n' ∨ c = '\r' ∨ c = '\x0c'

/-- `body` is the line without its line-end characters. -/
def LineBody (line body : List Char) : Prop :=
  ∃ eols, line = body ++ eols ∧ (∀ c ∈ eols, Eol c) ∧ (∀ c, body.getLast? = some c → ¬ Eol c)

/-- A well-formed record: 72 data columns, a section letter, seven columns with a positive
sequence number. -/
def RecordText (body data : List Char) (sec : Char) (seq : Int) : Prop :=
  data.length = 72 ∧ sec ∈ ['F', 'S', 'G', 'D', 'P', 'T'] ∧ 0 < seq ∧
  ∃ num, num.length = 7 ∧ body = data ++ sec :: num ∧ IntColumn num seq

end Iges.Spec
