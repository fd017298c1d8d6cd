import Mathlib.Data.Rat.Defs
/-
Independent specification of the IGES unit codes: names and lengths in millimetres.
-/
namespace Iges.Spec

/-- Standard name of a unit code; code 3 is a unit named by the file. -/
def unitName : Int → Option String
  | 1 => some "IN" | 2 => some "MM" | 3 => some "CUST" | 4 => some "FT" | 5 => some "MI" | 6 => some "M"
  | 7 => some "KM" | 8 => some "MIL" | 9 => some "UM" | 10 => some "CM" | 11 => some "UIN" | _ => none

/-- Length of a unit in millimetres. -/
def unitLength : Int → Option ℚ
  | 1 => some (254 / 10) | 2 => some 1 | 4 => some (3048 / 10) | 5 => some 1609344 | 6 => some 1000
  | 7 => some 1000000 | 8 => some (254 / 10000) | 9 => some (1 / 1000) | 10 => some 10
  | 11 => some (254 / 10000000) | _ => none

end Iges.Spec
