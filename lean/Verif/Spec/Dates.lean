/-
Independent specification of date strings.  Nothing here refers to the model.
-/
namespace Iges.Spec

/-- Days in a month; every February may have 29. -/
def daysIn (month : Nat) : Nat :=
  if month = 2 then 29 else if month ∈ [4, 6, 9, 11] then 30 else 31

/-- The two decimal digits of a number below 100. -/
def two (n : Nat) : List Char := [Nat.digitChar (n / 10), Nat.digitChar (n % 10)]

/-- `s` is the text of a date: two or four year digits, month, day, a dot, hour, minute, second. -/
def DateText (s : List Char) : Prop :=
  ∃ year mon day hour min sec, s = year ++ two mon ++ two day ++ '.' :: (two hour ++ two min ++ two sec) ∧
    (year.length = 2 ∨ year.length = 4) ∧ (∀ c ∈ year, c.isDigit = true) ∧
    1 ≤ mon ∧ mon ≤ 12 ∧ 1 ≤ day ∧ day ≤ daysIn mon ∧ hour ≤ 23 ∧ min ≤ 59 ∧ sec ≤ 60

/-- A number filling a column of width `w` completely: white space, optional sign, digits. -/
def Number (w : Nat) (s : List Char) (v : Int) : Prop :=
  s.length = w ∧ ∃ ws sign digits, s = ws ++ sign ++ digits ∧
    (∀ c ∈ ws, c ∈ [' ', '\t', '\n', '\x0b', '\x0c', '\r']) ∧
    (sign = [] ∨ sign = ['-'] ∨ sign = ['+']) ∧ digits ≠ [] ∧ (∀ c ∈ digits, c.isDigit = true) ∧
    v = if sign = ['-'] then - (Nat.ofDigitChars 10 digits 0 : Int) else Nat.ofDigitChars 10 digits 0

/-- What the library accepts as a date: every number may be padded with white space or carry a sign,
and the seconds have no upper limit. -/
def LaxDateText (s : List Char) : Prop :=
  ∃ year M D H N S mon day hour min sec,
    s = year ++ M ++ D ++ '.' :: (H ++ N ++ S) ∧
    ((∃ v, Number 4 year v) ∨ (year.length = 2 ∧ ∀ c ∈ year, c.isDigit = true)) ∧
    Number 2 M mon ∧ Number 2 D day ∧ Number 2 H hour ∧ Number 2 N min ∧
    Number 2 S sec ∧ 1 ≤ mon ∧ mon ≤ 12 ∧ 1 ≤ day ∧ day ≤ daysIn mon.toNat ∧
    0 ≤ hour ∧ hour ≤ 23 ∧ 0 ≤ min ∧ min ≤ 59 ∧ 0 ≤ sec

end Iges.Spec
