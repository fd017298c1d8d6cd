import Verif.Model.Lists
import Verif.Model.Rescale
/-
`IGES::Export` with everything that `Model/Lists.lean` leaves out: model scale, units, line weights and the name of the new definition.
Arithmetic on doubles is replaced by exact arithmetic on rationals.
-/
namespace Iges.ExportScale
open Iges.Lists

/-- The state that an export concerns: the lists and links (`Model/Lists.lean`), the global data of each model, the data of each entity with
its users (`Model/Rescale.lean`), `lineWeightNum` of each entity (iges_entity.h:63) and `NAME` of the subfigure definitions. -/
structure State where
  world : World
  globals : Nat → Globals
  data : Iges.Heap
  weight : Nat → Int
  name : Nat → Str

/-- The double is converted to `int`; beyond the range of `int` this is undefined. -/
def toInt32 (x : Int) : Option Int := if -2147483648 ≤ x ∧ x ≤ 2147483647 then some x else none

/-- The new weight of one entity, iges.cpp:2424-2434. -/
def newWeight (lws llw : Int) : Option Int :=
  if llw > 0 then (toInt32 (llw * lws)).map fun x => if x = 0 then 1 else x
  else some llw

/-- The loop over the entities, iges.cpp:2422-2435. -/
def newWeights (lws : Int) : List Nat → (Nat → Int) → Option (Nat → Int)
  | [], w => some w
  | i :: is, w => (newWeight lws (w i)).bind fun x => newWeights lws is (Function.update w i x)

/-- `double lws = maxLWG / globalData.maxLinewidthGrad` and the loop after it, iges.cpp:2419-2435.  Both numbers are of type `int`: the
quotient is cut off, division by zero is undefined. -/
def adjustWeights (maxLWG own : Int) (is : List Nat) (w : Nat → Int) : Option (Nat → Int) :=
  if own = 0 then none else newWeights (maxLWG.tdiv own) is w

/-- The conversions at the start of `Export`, iges.cpp:2408-2412: their answers are not looked at. -/
def adjustSizes (fuel : Nat) (m : ScaleModel) (pms : ℚ) (pUF : Int) : Option ScaleModel :=
  (if m.globals.modelScale ≠ pms then (ChangeModelScale fuel m pms).map Prod.snd else some m).bind fun m1 =>
    if m1.globals.unitsFlag ≠ pUF then (ConvertUnits fuel m1 pUF).map Prod.snd else some m1

/-- `find_last_of( '.' )`: the text before the last point, if there is one. -/
def beforeLastDot : Str → Option Str
  | [] => none
  | c :: cs =>
    match beforeLastDot cs with
    | some b => some (c :: b)
    | none => if c = '.' then some [] else none

/-- `GetNewPartName` and `GetNewAssemblyName`, iges.cpp:2623-2661: `stamp` is the text of year, day and time; the number at the end is the
static member `idxPartNum`, which is 1 (iges.cpp:72) and never changed. -/
def newName (isAssy : Bool) (stamp : Str) : Str :=
  (if isAssy then "assy".toList else "part".toList) ++ stamp ++ "0001".toList

/-- The name of the definition, iges.cpp:2599-2615. -/
def definitionName (fileName : Str) (isAssy : Bool) (stamp : Str) : Str :=
  if fileName = [] then newName isAssy stamp
  else match beforeLastDot fileName with
    | some (c :: b) => c :: b
    | _ => fileName

/-- `IGES::Export`, iges.cpp:2381-2620, of the model `m` into `n`.  The lists and links are treated by `Lists.Export`; conversions and
weights come before them, the name after them. -/
def ExportAll (fuel : Nat) (s : State) (m : Nat) (n : Option Nat) (handle : Bool) (p : Nat) (stamp : Str) :
    Option (State × Bool × Option Nat) :=
  if handle = false then none
  else
    match s.world.list m, n with
    | none, _ => none
    | some _, none => some (s, false, none)
    | some [], some _ => some (s, true, none)
    | some (e :: l), some n =>
      if s.world.list n = none then none
      else
        let g := s.globals n
        (adjustSizes fuel ⟨s.globals m, s.data, e :: l⟩ g.modelScale g.unitsFlag).bind fun m' =>
          (adjustWeights g.maxLinewidthGrad m'.globals.maxLinewidthGrad (e :: l) s.weight).bind fun w =>
            (Lists.Export s.world m (some n) true p).bind fun r =>
              let s' : State := { s with world := r.1, globals := Function.update s.globals m m'.globals, data := m'.heap, weight := w }
              match r.2.2 with
              | none => some (s', r.2.1, none)
              | some q =>
                -- more than one instance makes the definition an assembly, iges.cpp:2511-2512
                let isAssy := match pick s.world.heap 1 (e :: l) with
                  | some (_ :: _ :: _) => true
                  | _ => false
                some ({ s' with name := Function.update s.name q (definitionName m'.globals.fileName isAssy stamp) }, r.2.1, some q)

end Iges.ExportScale
