import Verif.Model.IdfInstance
/-
The program that merges models: tests/test_merge.cpp (`mergetest`).  Its input is a text; each line names a file, puts one instance of the
last named file somewhere, says how that file has to be turned first, or names the unit of the result.

Numbers are exact real numbers.  What the runs of `ParseReal` and `ParseInt` after the colon make of a line is a parameter (`Numbers`); Model/MergeLine.lean gives it.  The
exported subfigure is represented by the name of its file; reading and exporting succeed or not by name.
-/
namespace Iges.MergeTool
open Iges

/-- `TPARAMS`, test_merge.cpp:94-112 -/
structure Pos where
  zRot : ℝ
  flip : Bool
  x : ℝ
  y : ℝ
  z : ℝ

/-- the seven numbers of an `orient` line, in their order: an angle, a direction and an offset, test_merge.cpp:713-779 -/
structure Turn where
  angle : ℝ
  axis : Point ℝ
  off : Point ℝ

/-- `ORIENT`, test_merge.cpp:71-92 -/
structure Orient where
  w : ℝ
  x : ℝ
  y : ℝ
  z : ℝ
  off : Point ℝ

/-- what is made of the numbers of a line by parsePos, 603-652, and by parseOrient, 706-779; `none` when a number is refused -/
structure Numbers where
  pos : Str → Option Pos
  turn : Str → Option Turn

noncomputable section

/-- `rotateX`, test_merge.cpp:660-670 -/
def rotateX (m : Mat ℝ) (angle : ℝ) : Mat ℝ :=
  { m with v11 := Real.cos angle, v12 := -Real.sin angle, v21 := Real.sin angle, v22 := Real.cos angle }

/-- `rotateZ`, test_merge.cpp:686-694 -/
def rotateZ (m : Mat ℝ) (angle : ℝ) : Mat ℝ :=
  { m with v00 := Real.cos angle, v01 := -Real.sin angle, v10 := Real.sin angle, v11 := Real.cos angle }

/-- `TPARAMS::GetTransform`, test_merge.cpp:372-403 -/
def getTransform (p : Pos) : Transform ℝ :=
  let rotx := if p.flip then 0 + Real.pi else 0
  let rotz := if p.flip then p.zRot * Real.pi / 180 + Real.pi else p.zRot * Real.pi / 180
  let mx := rotateX Mat.one rotx
  let mz := rotateZ Mat.one rotz
  ⟨mx.mul mz, if p.flip then ⟨p.x, p.y, -p.z⟩ else ⟨p.x, p.y, p.z⟩⟩

/-- the part of `parseOrient` after the numbers, test_merge.cpp:719-721, 747-755, 763-779 -/
def orientOf (t : Turn) : Orient :=
  let ang := Real.pi * t.angle / 360
  let n := CheckNormal t.axis
  let sang := Real.sin ang
  ⟨Real.cos ang, n.x * sang, n.y * sang, n.z * sang, t.off⟩

/-- the transform made from an `ORIENT`, test_merge.cpp:301-317 -/
def orientTransform (o : Orient) : Transform ℝ where
  R :=
    { v00 := 1 - 2 * (o.y * o.y + o.z * o.z)
      v01 := 2 * (o.x * o.y - o.z * o.w)
      v02 := 2 * (o.x * o.z + o.y * o.w)
      v10 := 2 * (o.x * o.y + o.z * o.w)
      v11 := 1 - 2 * (o.x * o.x + o.z * o.z)
      v12 := 2 * (o.y * o.z - o.x * o.w)
      v20 := 2 * (o.x * o.z - o.y * o.w)
      v21 := 2 * (o.y * o.z + o.x * o.w)
      v22 := 1 - 2 * (o.x * o.x + o.y * o.y) }
  T := o.off

/-- everything after the first `c` of a text; everything if there is none: `find_first_of` and `+ 1` -/
def afterFirst (c : Char) (s : Str) : Str := if c ∈ s then (s.dropWhile (· ≠ c)).drop 1 else s

/-- everything before the last `c` of a text; everything if there is none: `find_last_of` -/
def beforeLast (c : Char) (s : Str) : Str := if c ∈ s then ((s.reverse.dropWhile (· ≠ c)).drop 1).reverse else s

/-- the name found by `parseFile`, test_merge.cpp:583-593: the messages do not end the function, so a line without quotes is taken whole -/
def fileName (s : Str) : Str := beforeLast '"' (afterFirst '"' s)

/-- `AUNIT` and `IUNIT`, test_merge.cpp:139-163, with the numbers of the enumeration, include/core/iges_base.h:57-72 -/
def unitTable : List (Str × Int) :=
  [("in".toList, 1), ("mm".toList, 2), ("ft".toList, 4), ("mi".toList, 5), ("m".toList, 6), ("km".toList, 7), ("mil".toList, 8),
   ("micron".toList, 9), ("cm".toList, 10), ("microinch".toList, 11)]

/-- `parseUnit`, test_merge.cpp:786-817: the unit that is set, if any -/
def parseUnit (s : Str) : Option Int :=
  let a := (afterFirst ':' s).dropWhile (· ∉ "imfkc".toList)
  let b := (a.reverse.dropWhile (· ∉ "nmtilh".toList)).reverse
  (unitTable.find? (·.1 = b)).map (·.2)

/-- the lists kept by `main`, test_merge.cpp:169-170, and the global unit, 137 (`none`: UNIT_END) -/
structure State where
  models : List (Str × List Pos)
  orients : List (Str × Orient)
  unit : Option Int

/-- `std::string::find( key ) != npos` -/
def has (key : String) (s : Str) : Prop := key.toList <:+: s

/-- `models.back().second->push_back( arg )`, test_merge.cpp:654 -/
def pushPos (models : List (Str × List Pos)) (p : Pos) : List (Str × List Pos) :=
  match models.getLast? with
  | none => models
  | some m => models.dropLast ++ [(m.1, m.2 ++ [p])]

/-- `parseOrient`, test_merge.cpp:698-783 -/
def parseOrient (num : Numbers) (fname : Str) (os : List (Str × Orient)) (s : Str) : List (Str × Orient) :=
  if (os.getLast?.map (·.1)) = some fname then os                                    -- 700-704
  else
    match num.turn s with
    | none => os
    | some t => os ++ [(fname, orientOf t)]

open Classical in
/-- `parseLine`, test_merge.cpp:564-579 -/
def parseLine (num : Numbers) (st : State) (s : Str) : State :=
  if has "file:" s then { st with models := st.models ++ [(fileName s, [])] }
  else if has "pos:" s ∧ st.models ≠ [] then
    match num.pos s with
    | none => st
    | some p => { st with models := pushPos st.models p }
  else if has "unit:" s ∧ st.unit = none then { st with unit := parseUnit s }
  else if has "orient:" s ∧ st.models ≠ [] then
    match st.models.getLast? with
    | none => st
    | some m => { st with orients := parseOrient num m.1 st.orients s }
  else st

/-- an entity 408 of the result: the file whose subfigure it shows, and what its transform entity holds -/
structure Shown where
  file : Str
  tx : Transform ℝ

/-- `merge`, test_merge.cpp:262-370: the instances added; `none` when the function returns false.  `good` says which files can be read and
exported. -/
def merge (good : Str → Bool) (os : List (Str × Orient)) (m : Str × List Pos) : Option (List Shown) :=
  if m.2 = [] then some []                                                           -- 265-269
  else if good m.1 = false then none                                                 -- 273-277, 337-344
  else
    let pO := (os.find? (·.1 = m.1)).map fun o => orientTransform o.2                -- 283-324
    some (m.2.map fun p =>
      let TX := getTransform p
      ⟨m.1, match pO with
        | none => TX
        | some o => TX.mul o⟩)

/-- the loop over the files, test_merge.cpp:237-244 -/
def mergeAll (good : Str → Bool) (os : List (Str × Orient)) : List (Str × List Pos) → Option (List Shown)
  | [] => some []
  | m :: l =>
    match merge good os m with
    | none => none
    | some a => (mergeAll good os l).map (a ++ ·)

/-- `main`, test_merge.cpp:216-250: the unit and the instances of the model that is written, if one is.  Empty lines are passed over, 222.  Removing unused
entities and writing are left out. -/
def run (num : Numbers) (good : Str → Bool) (lines : List Str) : Option (Int × List Shown) :=
  let st := lines.foldl (fun st s => if s = [] then st else parseLine num st s) ⟨[], [], none⟩
  if st.models = [] then none                                                        -- 225-229
  else
    let unit := st.unit.getD 2                                                       -- 231-232
    (mergeAll good st.orients st.models).map fun l => (unit, l)

end
end Iges.MergeTool
