import Verif.Model.Globals
/-
Generated names and the unit name of a model: `IGES::GetNewPartName`, `IGES::GetNewAssemblyName`,
`IGES::GetUnitName`.
-/
namespace Iges

/-- The broken-down time the generators use (`gmtime_r`, year and day of the year already shifted by
1900 and 1). -/
structure Tm where
  year : Nat
  yday : Nat
  hour : Nat
  min : Nat
  sec : Nat
  deriving Repr, DecidableEq

/-- `ostr << setw(w) << setfill('0') << n` for a non-negative number. -/
def zeroPad (w n : Nat) : Str := List.replicate (w - (natStr n).length) '0' ++ natStr n

/-- `IGES::idxPartNum`, iges.cpp:72: no statement of the library changes it. -/
def idxPartNum : Nat := 1

/-- The common part of the two functions, iges.cpp:2631-2638 and 2651-2658. -/
def stamp (t : Tm) : Str :=
  zeroPad 4 t.year ++ zeroPad 3 t.yday ++ zeroPad 2 t.hour ++ zeroPad 2 t.min ++ zeroPad 2 t.sec ++
    zeroPad 4 idxPartNum

/-- `IGES::GetNewPartName`, iges.cpp:2623-2641; `t` is the time of the call. -/
def GetNewPartName (t : Tm) : Str := "part".toList ++ stamp t

/-- `IGES::GetNewAssemblyName`, iges.cpp:2643-2661: also uses `idxPartNum`. -/
def GetNewAssemblyName (t : Tm) : Str := "assy".toList ++ stamp t

/-- `IGES::GetUnitName`, iges.cpp:2663-2666: indexed by the unit code itself; an index outside the
array of twelve elements is undefined. -/
def GetUnitName (g : Globals) : Res Str :=
  if 0 ≤ g.unitsFlag ∧ g.unitsFlag < 12 then .ok (unitNames.getD g.unitsFlag.toNat []) else .ub

end Iges
