import Verif.Model.DrillBundle
import Verif.Model.Surface
/-
The bodies that the converter from IDF makes: idf/idf2igs.cpp, the end of `MakeBoard`, `buildComponent` and `MakeOtherOutlines`, with the
functions of dllapi/dll_iges_geom_pcb.cpp that they use.

Simplifications: a `double` is a real number.  The surfaces that the subfigure gets are represented by what the entities hold; names,
colours and the entities 308 and 408 themselves are left out.  The number of surfaces that the caller hands over is the length of the
caller's array.
-/
namespace Iges.Idf
open Classical Iges.Geo

noncomputable section

/-- a trimmed surface made for a board: a wall or a face -/
inductive Surf where
  | wall (w : Patch)
  | face (f : Face)

/-- an array of pointers of the caller: `none` is the null pointer, an entry `none` is a pointer that was never set -/
abbrev PList (α : Type) := Option (List (Option α))

/-- the second half of `GetVerticalSurface` and `GetTrimmedPlane`, dll_iges_geom_pcb.cpp:105-141 and 157-193: a new array with the old
entries and the new ones -/
def appendTo {α : Type} (a : PList α) (ok : Bool) (l : List α) : PList α × Bool :=
  if ok = true ∧ l ≠ [] then (some (a.getD [] ++ l.map some), true) else (a, false)

/-- the second half of `GetCurves` and `GetCurveOnPlane`, dll_iges_geom_pcb.cpp:207-244 and 260-297: both iterators are `begin()`, so no new entry is
set -/
def appendUnset {α : Type} (a : PList α) (ok : Bool) (l : List α) : PList α × Bool :=
  if ok = true ∧ l ≠ [] then (some (a.getD [] ++ l.map fun _ => none), true) else (a, false)

/-- `DLL_IGES_GEOM_PCB::GetVerticalSurface`, dll_iges_geom_pcb.cpp:93-142, of a wrapper that has an outline -/
def getVertical (b : Geo.Board) (a : PList Surf) (top bot : ℝ) : PList Surf × Bool :=
  let r := verticalSurface b top bot
  appendTo a r.2 (r.1.map .wall)

/-- `DLL_IGES_GEOM_PCB::GetTrimmedPlane`, dll_iges_geom_pcb.cpp:145-194 -/
def getPlane (b : Geo.Board) (a : PList Surf) (h : ℝ) (rev : Bool) : PList Surf × Bool :=
  match trimmedPlane b h rev with
  | none => appendTo a false []
  | some f => appendTo a true [.face f]

/-- `DLL_IGES_GEOM_PCB::GetCurves`, dll_iges_geom_pcb.cpp:197-245 -/
def getCurvesOf (a : PList Curve) (h : ℝ) (s : Geo.Seg) : PList Curve × Bool :=
  match getCurves h s with
  | none => appendUnset a false []
  | some l => appendUnset a true l

/-- the three calls of idf2igs.cpp:351-353, 1012-1023 and 1142-1144, whose results are not looked at: the surfaces that the subfigure gets -/
def bodyOf (b : Geo.Board) (top bot : ℝ) (revTop revBot : Bool) : List (Option Surf) :=
  (getPlane b (getPlane b (getVertical b none top bot).1 top revTop).1 bot revBot).1.getD []

/-- the outline with its cutouts and holes, as the surfaces are made of it -/
def _root_.Iges.Geo.Plate.board (p : Plate) : Geo.Board := ⟨p.main, p.holes, p.cutouts.map (·.segs)⟩

/-- the body of the board, idf2igs.cpp:346-370; `th` is half of the thickness -/
def boardBody (p : Plate) (th : ℝ) : List (Option Surf) := bodyOf p.board th (-th) false true

/-- `buildComponent`, idf2igs.cpp:1114-1181: `none` if no model is made -/
def buildComponent (l : List Seg) (th : ℝ) : Option (List (Option Surf)) :=
  if l = [] then none                                                       -- 1121-1122
  else if th < 1e-3 then none                                               -- 1126-1130
  else
    match convertOln l with
    | none => none                                                          -- 1134-1138
    | some o => some (bodyOf ⟨o, [], []⟩ th 0 false true)

/-- what `MakeOtherOutlines` looks at in an `OTHER_OUTLINE` -/
structure OtherOln where
  outlines : List (List Seg)
  bottom : Bool
  th : ℝ

/-- how `MakeOtherOutlines` ends: the bodies made and the result -/
inductive Others where
  | returns (l : List (List (Option Surf))) (ok : Bool)
  | hangs
  | undefined

/-- one more body -/
def Others.put (x : List (Option Surf)) : Others → Others
  | .returns l ok => .returns (x :: l) ok
  | r => r

/-- the calls of idf2igs.cpp:1012-1023 -/
def otherBody (p : Plate) (bt : ℝ) (o : OtherOln) : List (Option Surf) :=
  if o.bottom then bodyOf p.board (-(o.th + bt)) (-bt) true true
  else bodyOf p.board (o.th + bt) bt false false

/-- the loop of `MakeOtherOutlines`, idf2igs.cpp:970-1089; `bt` is half of the thickness of the board and `p` is the outline `otln`, which is made
once, before the loop.  What a failed conversion leaves in `otln` does not matter, because the function ends. -/
def makeOthers (bt : ℝ) : Plate → List OtherOln → Others
  | _, [] => .returns [] true
  | p, o :: rest =>
    match o.outlines with
    | [] => makeOthers bt p rest                                             -- 972-976
    | l :: ls =>
      if l = [] then .returns [] false
      else
        match convertSegs p.main l with
        | none => .returns [] false                                          -- 998-1004
        | some main =>
          match convertAll ls with
          | none => .returns [] false
          | some cutouts =>
            match addCutouts { p with main := main } cutouts with
            | .hangs => .hangs
            | .undefined => .undefined
            | .fails => .returns [] false
            | .plate p => (makeOthers bt p rest).put (otherBody p bt o)

end
end Iges.Idf
