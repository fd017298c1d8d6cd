import Verif.Model.Handout
/-
C99: the arrays that the handle of a segment hands out (src/dllapi/dll_mcad_segment.cpp).
-/
namespace Iges.Handout

/-- Result of `DLL_MCAD_SEGMENT::GetIntersections`, dll_mcad_segment.cpp:288-366: the array (`none` is NULL), the count and the answer.
`found` is what the segment itself answers: `none` is `false`. The array is made by `new MCAD_POINT[n]`, which is not NULL for `n = 0`. -/
def pointsOut {α : Type} (valid : Bool) (list : Option (List α)) (n : Int) (found : Option (List α)) : Option (List α) × Int × Bool :=
  if valid = false then (list, n, false)
  else if list.isSome ∨ n ≠ 0 then (list, n, false)
  else match found with
    | none => (list, n, false)
    | some ps => (some ps, ps.length, true)

/-- `DLL_MCAD_SEGMENT::Split`, dll_mcad_segment.cpp:387-441, after the checks of the points: `list` and `n` are the array and the count
given, `parts` what the segment makes of itself (`none`: it fails). The outer `none` is undefined behaviour: more elements are copied than the array has.
The count returned is a C++ `int`, taken as unbounded. -/
def splitOut {α : Type} (list : Option (List α)) (n : Int) (parts : Option (List α)) : Option (Option (List α) × Int × Bool) :=
  match parts with
  | none => some (list, n, false)
  | some ps =>
    match list with
    | some l =>
      if n > 0 then
        if n > l.length then none
        else some (some (l.take n.toNat ++ ps), n + ps.length, true)
      else some (some ps, n + ps.length, true)
    | none => some (some ps, n + ps.length, true)

end Iges.Handout
