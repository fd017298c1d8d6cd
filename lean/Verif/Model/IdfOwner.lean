import Verif.Model.IdfPlace
/-
Ownership rules of an IDF board (idf/idf_parser.cpp, idf/idf_outlines.cpp): components, holes of the board and the outline
of the board, changed by calls of the API.
-/
namespace Iges.Idf

/-- `IDF3_COMPONENT::checkOwnership`, idf_parser.cpp:883-943; the parent is always set. -/
def mayChange (cad : Cad) (c : Comp) : Bool :=
  match c.placement with
  | some .mcad => decide (cad = .mech)
  | some .ecad => decide (cad = .elec)
  | _ => true

/-- `IDF3_BOARD::checkComponentOwnership` (1395-1438) and `IDF3_COMP_OUTLINE_DATA::checkOwnership` (160-201): as
before, but a component without placement is refused, too. -/
def mayChangePlaced (cad : Cad) (c : Comp) : Bool :=
  match c.placement with
  | some .mcad => decide (cad = .mech)
  | some .ecad => decide (cad = .elec)
  | some .placed | some .unplaced => true
  | none => false

/-- `IDF_DRILL_DATA::Matches` and `IDF_POINT::Matches`, idf_common.cpp:391-405, 844-855. -/
def Drill.isAt (d : Drill) (dia x y : ℚ) : Bool :=
  decide (-(1 / 100000) < dia - d.dia ∧ dia - d.dia < 1 / 100000 ∧
    (d.x - x) * (d.x - x) + (d.y - y) * (d.y - y) ≤ 1 / 100000 * (1 / 100000))

/-- `erase` of a map. -/
def SMap.del {α : Type} (k : Str) : SMap α → SMap α
  | [] => []
  | (k', c) :: r => if k' = k then r else (k', c) :: SMap.del k r

/-- A board: its kind, the component objects (`none` after `delete`), the map of components by name and the holes of the
board. -/
structure OBoard where
  cad : Cad
  objs : List (Option Comp)
  map : SMap ℕ
  holes : List Drill

/-- Calls of the API.  A component is given by the number of its object. -/
inductive OCall where
  | new                                                     -- new IDF3_COMPONENT( board )
  | setRefDes (i : ℕ) (r : Str)
  | setPosition (i : ℕ) (p : CompPos)
  | setPlacement (i : ℕ) (p : Placement)
  | addHole (i : ℕ) (dia x y : ℚ) (plated : Bool) (hole : Str) (owner : Owner)
  | delHole (i : ℕ) (dia x y : ℚ)
  | addOutline (i : ℕ) (o : OutData)
  | delOutline (i k : ℕ)
  | setOffsets (i k : ℕ) (x y z a : ℚ)
  | addComponent (i : ℕ)
  | delComponent (i : ℕ)
  | delComponentAt (k : ℕ)
  | addBoardHole (dia x y : ℚ) (plated : Bool) (hole : Str) (owner : Owner)
  | delBoardHole (dia x y : ℚ)

/-- The component behind a pointer; `none` is a dangling pointer. -/
def OBoard.obj (b : OBoard) (i : ℕ) : Option Comp := (b.objs[i]?).getD none

/-- Store a component object. -/
def OBoard.put (b : OBoard) (i : ℕ) (c : Comp) : OBoard := { b with objs := b.objs.set i (some c) }

/-- `delete`. -/
def OBoard.free (b : OBoard) (i : ℕ) : OBoard := { b with objs := b.objs.set i none }

/-- May this kind of system delete the hole?  `DelBoardDrill`, idf_parser.cpp:3371-3374. -/
def mayDelete (cad : Cad) (d : Drill) : Bool :=
  match d.owner with
  | .unowned => true
  | .mcad => decide (cad = .mech)
  | .ecad => decide (cad = .elec)

/-- One call: the board afterwards and the answer; `none` is undefined behaviour, the use of a deleted component. -/
def OBoard.step (b : OBoard) : OCall → Option (OBoard × Bool)
  | .new => some ({ b with objs := b.objs ++ [some ⟨[], none, none, [], []⟩] }, true)                   -- 842-855
  | .setRefDes i r => (b.obj i).map fun c =>                                                           -- 974-1006
    if mayChange b.cad c = false ∨ r = [] ∨ compareToken "PANEL" r then (b, false) else (b.put i { c with refdes := r }, true)
  | .setPosition i p => (b.obj i).map fun c =>                                                         -- 1246-1284
    if mayChange b.cad c = false ∨ c.pos.isSome then (b, false) else (b.put i { c with pos := some p }, true)
  | .setPlacement i p => (b.obj i).map fun c =>                                                        -- 1294-1315
    if mayChange b.cad c = false then (b, false) else (b.put i { c with placement := some p }, true)
  | .addHole i dia x y plated hole owner => (b.obj i).map fun c =>                                     -- 1014-1029
    (b.put i { c with drills := c.drills ++ [mkDrill dia x y plated c.refdes hole owner] }, true)
  | .delHole i dia x y => (b.obj i).map fun c =>                                                       -- 1057-1087
    if mayChange b.cad c = false then (b, false)
    else (b.put i { c with drills := c.drills.filter fun d => !d.isAt dia x y }, c.drills.any fun d => d.isAt dia x y)
  | .addOutline i o => (b.obj i).map fun c => (b.put i { c with outs := c.outs ++ [o] }, true)          -- 1120-1136
  | .delOutline i k => (b.obj i).map fun c =>                                                          -- 1181-1217
    if mayChange b.cad c = false ∨ c.outs.length ≤ k then (b, false) else (b.put i { c with outs := c.outs.eraseIdx k }, true)
  | .setOffsets i k x y z a => (b.obj i).map fun c =>                                                  -- 204-217
    match c.outs[k]? with
    | none => (b, false)
    | some o => if mayChangePlaced b.cad c = false then (b, false)
      else (b.put i { c with outs := c.outs.set k { o with x, y, z, a } }, true)
  | .addComponent i => (b.obj i).map fun c =>                                                          -- 3668-3695
    match b.map.find c.refdes with
    | some _ => (b, false)
    | none => ({ b with map := b.map.add c.refdes i }, true)
  | .delComponent i =>                                                                                 -- 3698-3718
    match b.obj i with
    | none => none
    | some c =>
      if mayChangePlaced b.cad c = false then some (b, false)
      else
        match b.map.find c.refdes with
        | none => some (b, false)
        | some j => if b.obj j = none then none else some ({ b.free j with map := b.map.del c.refdes }, true)
  | .delComponentAt k =>                                                                               -- 3721-3747
    match b.map[k]? with
    | none => some (b, false)
    | some (key, j) =>
      match b.obj j with
      | none => none
      | some c => if mayChangePlaced b.cad c = false then some (b, false)
        else some ({ b.free j with map := b.map.del key }, true)
  | .addBoardHole dia x y plated hole owner =>                                                         -- 3321-3333
    some ({ b with holes := b.holes ++ [mkDrill dia x y plated "BOARD".toList hole owner] }, true)
  | .delBoardHole dia x y =>                                                                           -- 3354-3422
    some ({ b with holes := b.holes.filter fun d => !(d.isAt dia x y && mayDelete b.cad d) },
      b.holes.any fun d => d.isAt dia x y && mayDelete b.cad d)

/-- A history of calls. -/
def OBoard.run (b : OBoard) : List OCall → Option OBoard
  | [] => some b
  | c :: cs =>
    match b.step c with
    | none => none
    | some (b', _) => b'.run cs

/-- The outline of a board: owner, thickness and the outlines (the first is the board, the others are cutouts), each by the
number of its object. -/
structure BOutline where
  owner : Owner
  thickness : ℚ
  outlines : List ℕ
  deriving DecidableEq, Repr

/-- Calls on the outline of a board. -/
inductive BCall where
  | setThickness (t : ℚ)
  | setOwner (o : Owner)
  | addOutline (i : ℕ)
  | delOutline (i : ℕ)
  | delOutlineAt (k : ℕ)
  | clear
  | addSlot (i : ℕ)                  -- AddSlot with the number of the new outline

/-- `CheckOwnership` for an outline with a parent, idf_outlines.cpp:79-128. -/
def mayChangeOutline (cad : Cad) (o : BOutline) : Bool :=
  match o.owner with
  | .unowned => true
  | .mcad => decide (cad = .mech)
  | .ecad => decide (cad = .elec)

/-- `addOutline`, idf_outlines.cpp:1278-1305. -/
def BOutline.add (o : BOutline) (i : ℕ) : BOutline × Bool :=
  if i ∈ o.outlines then (o, false) else ({ o with outlines := o.outlines ++ [i] }, true)

/-- One call on the outline of a board. -/
def BOutline.step (cad : Cad) (o : BOutline) : BCall → BOutline × Bool
  | .setThickness t =>                                       -- idf_outlines.cpp:1000-1026
    if mayChangeOutline cad o = false ∨ t < 0 then (o, false) else ({ o with thickness := t }, true)
  | .setOwner w => if mayChangeOutline cad o = false then (o, false) else ({ o with owner := w }, true)       -- 1462-1471
  | .addOutline i => if mayChangeOutline cad o = false then (o, false) else o.add i                           -- 1307-1315
  | .delOutline i =>                                         -- 1317-1372: no check of the owner
    match o.outlines with
    | [] => (o, false)
    | f :: r =>
      if i = f then (if r = [] then ({ o with outlines := [] }, true) else (o, false))
      else if i ∈ r then ({ o with outlines := f :: r.erase i }, true) else (o, false)
  | .delOutlineAt k =>                                       -- 1375-1424: no check of the owner
    if o.outlines.length ≤ k then (o, false)
    else if k = 0 then (if 1 < o.outlines.length then (o, false) else ({ o with outlines := [] }, true))
    else ({ o with outlines := o.outlines.eraseIdx k }, true)
  | .clear => if mayChangeOutline cad o = false then (o, false) else ({ o with owner := .unowned, outlines := [] }, true) -- 1246-1266
  | .addSlot i => o.add i                                    -- idf_parser.cpp:3514-3518

/-- A history of calls on the outline of a board. -/
def BOutline.run (cad : Cad) (o : BOutline) (cs : List BCall) : BOutline := cs.foldl (fun o c => (o.step cad c).1) o

end Iges.Idf
