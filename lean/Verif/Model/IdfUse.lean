import Verif.Model.IdfOwner
/-
Counting the users of a part of the library (idf/idf_parser.cpp, idf/idf_outlines.cpp): an outline of a component knows how many
outline records (`IDF3_COMP_OUTLINE_DATA`) refer to it, and is written to the library file only if there are any.
-/
namespace Iges.Idf.Use

/-- `IDF3_COMP_OUTLINE_DATA`: its component and its part, by number; the offsets are left out. -/
structure Rec where
  parent : Option ℕ
  part : Option ℕ
  deriving DecidableEq, Repr

/-- `IDF3_COMPONENT`: its placement and the list of its records; the rest is in `Comp`. -/
structure Cmp where
  placement : Option Placement
  recs : List ℕ
  deriving DecidableEq, Repr

/-- What a program has made: for each part its `refNum`, the records and the components (`none` after `delete`). -/
structure World where
  cad : Cad
  parts : List ℕ
  recs : List (Option Rec)
  comps : List (Option Cmp)
  deriving DecidableEq, Repr

/-- Calls of the API. -/
inductive Call where
  | newPart                                              -- new IDF3_COMP_OUTLINE( board )
  | newComp (p : Option Placement)                       -- new IDF3_COMPONENT( board ), SetPlacement( p )
  | newRec                                               -- new IDF3_COMP_OUTLINE_DATA
  | newRecFor (c o : Option ℕ)                           -- new IDF3_COMP_OUTLINE_DATA( c, o )
  | newRecAt (c o : Option ℕ)                            -- new IDF3_COMP_OUTLINE_DATA( c, o, x, y, z, angle )
  | setParent (r : ℕ) (c : Option ℕ)
  | setOutline (r : ℕ) (o : Option ℕ)
  | addRec (c r : ℕ)                                     -- AddOutlineData
  | delRec (c r : ℕ)                                     -- DeleteOutlineData( pointer )
  | delRecAt (c k : ℕ)                                   -- DeleteOutlineData( index )
  | destroyRec (r : ℕ)                                   -- delete record
  | destroyComp (c : ℕ)                                  -- delete component
  | read (c : ℕ) (o : Option ℕ)                          -- a record of the placement section is read
  | clearPart (o : ℕ)                                    -- IDF3_COMP_OUTLINE::Clear, when it succeeds

/-- `incrementRef`, idf_outlines.cpp:3515-3518, unless the pointer is null. -/
def World.inc (w : World) : Option ℕ → World
  | none => w
  | some o => { w with parts := w.parts.modify o (· + 1) }

/-- `decrementRef`, idf_outlines.cpp:3520-3534, unless the pointer is null; a count of zero stays (`x - 1` is zero for zero). -/
def World.dec (w : World) : Option ℕ → World
  | none => w
  | some o => { w with parts := w.parts.modify o (· - 1) }

/-- The record behind a pointer; `none` is a dangling pointer. -/
def World.rec? (w : World) (r : ℕ) : Option Rec := (w.recs[r]?).getD none

/-- The component behind a pointer. -/
def World.cmp? (w : World) (c : ℕ) : Option Cmp := (w.comps[c]?).getD none

/-- Is the pointer to a part null or that of a part? -/
def World.known (w : World) (o : Option ℕ) : Bool := o.all fun p => decide (p < w.parts.length)

/-- `~IDF3_COMP_OUTLINE_DATA`, idf_parser.cpp:152-158; `none` is a second `delete`. -/
def World.kill (w : World) (r : ℕ) : Option World :=
  (w.rec? r).map fun d => { w.dec d.part with recs := w.recs.set r none }

/-- The records of a list are deleted, idf_parser.cpp:860-867. -/
def World.killAll (w : World) : List ℕ → Option World
  | [] => some w
  | r :: rs => (w.kill r).bind fun w' => w'.killAll rs

/-- `IDF3_COMP_OUTLINE_DATA::checkOwnership` (160-201) once the component is known. -/
def ownRecord (cad : Cad) (p : Option Placement) : Bool := mayChangePlaced cad ⟨[], none, p, [], []⟩

/-- `IDF3_COMPONENT::checkOwnership` (883-943). -/
def ownComponent (cad : Cad) (p : Option Placement) : Bool := mayChange cad ⟨[], none, p, [], []⟩

/-- One call: the objects afterwards and the answer; `none` is undefined behaviour, the use of a pointer to nothing. -/
def World.step (w : World) : Call → Option (World × Bool)
  | .newPart => some ({ w with parts := w.parts ++ [0] }, true)                          -- idf_outlines.cpp:2966-2976
  | .newComp p => some ({ w with comps := w.comps ++ [some ⟨p, []⟩] }, true)             -- idf_parser.cpp:844-856
  | .newRec => some ({ w with recs := w.recs ++ [some ⟨none, none⟩] }, true)             -- 110-120
  | .newRecFor c o =>                                                                    -- 122-136
    if w.known o then some ({ w.inc o with recs := w.recs ++ [some ⟨c, o⟩] }, true) else none
  | .newRecAt c o =>                                                                     -- 138-150: the part is not told
    if w.known o then some ({ w with recs := w.recs ++ [some ⟨c, o⟩] }, true) else none
  | .setParent r c => (w.rec? r).map fun d =>                                            -- 231-234
    ({ w with recs := w.recs.set r (some { d with parent := c }) }, true)
  | .setOutline r o =>                                                                   -- 236-252
    match w.rec? r with
    | none => none
    | some d =>
      match d.parent with
      | none => some (w, false)
      | some c =>
        match w.cmp? c with
        | none => none
        | some cc =>
          if ownRecord w.cad cc.placement = false then some (w, false)
          else if w.known o then
            some ({ (w.dec d.part).inc o with recs := w.recs.set r (some { d with part := o }) }, true)
          else none
  | .addRec c r => (w.cmp? c).map fun cc =>                                              -- 1120-1135
    ({ w with comps := w.comps.set c (some { cc with recs := cc.recs ++ [r] }) }, true)
  | .delRec c r =>                                                                       -- 1137-1179
    match w.cmp? c with
    | none => none
    | some cc =>
      if ownComponent w.cad cc.placement = false ∨ r ∉ cc.recs then some (w, false)
      else (w.kill r).map fun w' =>
        ({ w' with comps := w.comps.set c (some { cc with recs := cc.recs.erase r }) }, true)
  | .delRecAt c k =>                                                                     -- 1181-1217
    match w.cmp? c with
    | none => none
    | some cc =>
      if ownComponent w.cad cc.placement = false then some (w, false)
      else
        match cc.recs[k]? with
        | none => some (w, false)
        | some r => (w.kill r).map fun w' =>
          ({ w' with comps := w.comps.set c (some { cc with recs := cc.recs.eraseIdx k }) }, true)
  | .destroyRec r => (w.kill r).map fun w' => (w', true)                                 -- 152-158
  | .destroyComp c =>                                                                    -- 858-882
    match w.cmp? c with
    | none => none
    | some cc => (w.killAll cc.recs).map fun w' => ({ w' with comps := w.comps.set c none }, true)
  | .read c o =>                                                                         -- 721-734
    match w.cmp? c with
    | none => none
    | some cc =>
      if w.known o then
        some ({ w.inc o with recs := w.recs ++ [some ⟨some c, o⟩],
                             comps := w.comps.set c (some { cc with recs := cc.recs ++ [w.recs.length] }) }, true)
      else none
  | .clearPart o => some ({ w with parts := w.parts.set o 0 }, true)                     -- idf_outlines.cpp:3426-3442

/-- A history of calls. -/
def World.run (w : World) : List Call → Option World
  | [] => some w
  | c :: cs =>
    match w.step c with
    | none => none
    | some (w', _) => w'.run cs

/-- Is the part written to the library file?  `writeData`, idf_outlines.cpp:3380-3383, called for every part of the library
(idf_parser.cpp:2811-2822). -/
def World.written (w : World) (o : ℕ) : Bool :=
  match w.parts[o]? with
  | none => false
  | some n => decide (n ≠ 0)

end Iges.Idf.Use
