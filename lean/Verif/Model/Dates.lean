import Verif.Model.Str
/-
Date strings of the global section.
-/
namespace Iges

/-- `mdays`, iges.cpp:108. -/
def mdays : List Int := [31, 29, 31, 30, 31, 30, 31, 31, 30, 31, 30, 31]

/-- One number of a date, e.g. iges.cpp:157-162: whether `strtol` consumed exactly the `w` characters,
and the value. -/
def dateField (s : Str) (w : Nat) : Bool × Int :=
  let r := strtol s
  (!(r.err || r.used == 0 || r.used != w), toI32 r.val)

/-- `iday < 1 || iday > mdays[imon - 1]` negated, iges.cpp:199.  The table is read even if the month was
found to be bad; outside the table this is undefined. -/
def dayInMonth (imon iday : Int) : Res Bool :=
  if iday < 1 then .ok false
  else if imon - 1 < 0 then .ub
  else match mdays[(imon - 1).toNat]? with
    | none => .ub
    | some m => .ok (decide (iday ≤ m))

/-- `checkDate`, iges.cpp:111-234.  The warning at 171-175 is not modelled. -/
def checkDate (s : Str) : Res Bool :=
  if s.length ≠ 13 ∧ s.length ≠ 15 then .ok false                     -- 113-114
  else
    let dyear := if s.length = 13 then "19".toList ++ s.take 2 else s.take 4   -- 126-135
    let r := if s.length = 13 then s.drop 2 else s.drop 4
    let dot := decide ((r.drop 4).head? = some '.')                   -- 142-143
    let (okY, _) := dateField dyear 4                                 -- 164-169
    let (okM, imon) := dateField (substr r 0 2) 2                     -- 182-190
    let (okD, iday) := dateField (substr r 2 2) 2                     -- 192-197
    let (okH, ihour) := dateField (substr r 5 2) 2
    let (okN, imin) := dateField (substr r 7 2) 2
    let (okS, isec) := dateField (substr r 9 2) 2
    (dayInMonth imon iday).bind fun dayOk =>
    .ok (dot && okY && okM && decide (1 ≤ imon ∧ imon ≤ 12) && okD && dayOk &&
      okH && decide (0 ≤ ihour ∧ ihour ≤ 23) && okN && decide (0 ≤ imin ∧ imin ≤ 59) &&
      okS && decide (¬ (isec < 0 ∨ imin > 60)))                       -- 230

end Iges
