import Verif.Model.Header
import Verif.Model.Directory
import Verif.Model.Globals
import Verif.Model.Entities
import Verif.Model.ListEntities
import Verif.Model.Nurbs
import Verif.Model.Path
/-
Whole files: `IGES::Read` and `IGES::Write` with the section loops between them and the entities.

Simplifications.  A file is the text at one path together with its permission bits; stream errors (full
disk, failing seek) are not modelled.  Pointers between entities are represented by DE numbers: for
`Write` by the numbers assigned at iges.cpp:651-652, for `Read` by the numbers in the file, before
`associate` turns them into pointers.  The linking itself, the rescaling after it and the removal of
orphans are parameters of `Read` (see Model/Assoc, Model/Rescale and Model/Lists for these parts).
-/
namespace Iges.File

/-- The class-specific data of an entity, one constructor for each class `IGES::NewEntity` can create
(iges.cpp:825-945); `null` is `IGES_ENTITY_NULL` with the type found in the file. -/
inductive Body where
  | arc (k : Arc) | composite (k : List Int) | conic (k : Conic) | line (k : Line) | revolution (k : Revolution)
  | tabCyl (k : TabCyl) | tx (k : Transform ℚ) | curve (k : Nurbs) | surf (k : NurbsSurf)
  | onSurface (k : SurfCurve) | trimmed (k : Trimmed) | cylinder (k : Cylinder) | extrusion (k : Extrusion)
  | tree (k : List BNode) | solid (k : Solid) | subfigure (k : Subfigure) | colour (k : Colour) | name (k : Str)
  | inst (k : SubInstance) | vertices (k : List (Point ℚ)) | edges (k : List Edge) | loop (k : List LoopEdge)
  | face (k : Face) | shell (k : List (Int × Bool)) | null (trueType : Int)

/-- `GetEntityType`; the type set by the constructors. -/
def Body.etype : Body → Int
  | .arc _ => 100 | .composite _ => 102 | .conic _ => 104 | .line _ => 110 | .revolution _ => 120
  | .tabCyl _ => 122 | .tx _ => 124 | .curve _ => 126 | .surf _ => 128 | .onSurface _ => 142 | .trimmed _ => 144
  | .cylinder _ => 154 | .extrusion _ => 164 | .tree _ => 180 | .solid _ => 186 | .subfigure _ => 308
  | .colour _ => 314 | .name _ => 406 | .inst _ => 408 | .vertices _ => 502 | .edges _ => 504 | .loop _ => 508
  | .face _ => 510 | .shell _ => 514 | .null _ => 0

/-- The virtual function `format` of the entity with sequence number `de`; `IGES_ENTITY_NULL` refuses
(entityNULL.cpp:290-294). -/
def Body.format (E : PdEnv) (de : Int) (xs : List ExtraRef) (cs : List Str) (index : Int) : Body → Rd (Str × Int)
  | .arc k => k.format E de xs cs index
  | .composite k => compositeFormat E de k xs cs index
  | .conic k => k.format E de xs cs index
  | .line k => k.format E de xs cs index
  | .revolution k => k.format E de xs cs index
  | .tabCyl k => k.format E de xs cs index
  | .tx k => txFormat E de k xs cs index
  | .curve k => k.format E de xs cs index
  | .surf k => k.format E de xs cs index
  | .onSurface k => k.format E de xs cs index
  | .trimmed k => k.format E de xs cs index
  | .cylinder k => k.format E de xs cs index
  | .extrusion k => k.format E de xs cs index
  | .tree k => treeFormat E de k xs cs index
  | .solid k => k.format E de xs cs index
  | .subfigure k => k.format E de xs cs index
  | .colour k => k.format E de xs cs index
  | .name k => nameFormat E de k xs cs index
  | .inst k => k.format E de xs cs index
  | .vertices k => vertexFormat E de k xs cs index
  | .edges k => edgeFormat E de k xs cs index
  | .loop k => loopFormat E de k xs cs index
  | .face k => k.format E de xs cs index
  | .shell k => shellFormat E de k xs cs index
  | .null _ => .fail

/-- The loop of `IGES_ENTITY_NULL::readPD`, entityNULL.cpp:255-284: `n` lines from number `i` on. -/
def nullLines : Nat → Int → List Str → Bool
  | 0, _, _ => true
  | _ + 1, _, [] => false
  | n + 1, i, l :: ls =>
    match ReadIGESRecord l with
    | none => false
    | some rec => rec.section_type = 'P' && rec.index = i && nullLines n (i + 1) ls

/-- `IGES_ENTITY_NULL::readPD`, entityNULL.cpp:230-289: the lines are skipped. -/
def nullReadPD (t pdata count : Int) (ls : List Str) : Rd (Body × List Int × List Str) :=
  if pdata < 1 ∨ pdata > 9999999 then .fail
  else if count < 1 ∨ pdata + count > 10000000 then .fail
  else if nullLines count.toNat pdata ls then .val (.null t, [], []) else .fail

/-- Apply a constructor to the data read. -/
def keep {α : Type} (f : α → Body) (r : Rd (α × List Int × List Str)) : Rd (Body × List Int × List Str) :=
  r >>= fun x => .val (f x.1, x.2)

/-- `IGES::NewEntity` (iges.cpp:825-945) followed by `readPD` of the class chosen for type `t`. -/
def readBody (E : PdEnv) (t de pdata count : Int) (ls : List Str) : Rd (Body × List Int × List Str) :=
  if t = 100 then keep .arc (Arc.readPD E de pdata count ls)
  else if t = 102 then keep .composite (compositeReadPD E de pdata count ls)
  else if t = 104 then keep .conic (Conic.readPD E de pdata count ls)
  else if t = 110 then keep .line (Line.readPD E de pdata count ls)
  else if t = 120 then keep .revolution (Revolution.readPD E de pdata count ls)
  else if t = 122 then keep .tabCyl (TabCyl.readPD E de pdata count ls)
  else if t = 124 then keep .tx (txReadPD E de pdata count ls)
  else if t = 126 then keep .curve (Nurbs.readPD E de pdata count ls)
  else if t = 128 then keep .surf (NurbsSurf.readPD E de pdata count ls)
  else if t = 142 then keep .onSurface (SurfCurve.readPD E de pdata count ls)
  else if t = 144 then keep .trimmed (Trimmed.readPD E de pdata count ls)
  else if t = 154 then keep .cylinder (Cylinder.readPD E de pdata count ls)
  else if t = 164 then keep .extrusion (Extrusion.readPD E de pdata count ls)
  else if t = 180 then keep .tree (treeReadPD E de pdata count ls)
  else if t = 186 then keep .solid (Solid.readPD E de pdata count ls)
  else if t = 308 then keep .subfigure (Subfigure.readPD E de pdata count ls)
  else if t = 314 then keep .colour (Colour.readPD E de pdata count ls)
  else if t = 406 then keep .name (nameReadPD E de pdata count ls)
  else if t = 408 then keep .inst (SubInstance.readPD E de pdata count ls)
  else if t = 502 then keep .vertices (vertexReadPD E de pdata count ls)
  else if t = 504 then keep .edges (edgeReadPD E de pdata count ls)
  else if t = 508 then keep .loop (loopReadPD E de pdata count ls)
  else if t = 510 then keep .face (Face.readPD E de pdata count ls)
  else if t = 514 then keep .shell (shellReadPD E de pdata count ls)
  else nullReadPD t pdata count ls

/-- The types with a class of their own in `IGES::NewEntity`, iges.cpp:830-927. -/
def supported (t : Int) : Bool :=
  [100, 102, 104, 110, 120, 122, 124, 126, 128, 142, 144, 154, 164, 180, 186, 308, 314, 406, 408, 502, 504, 508,
    510, 514].contains t

/-! ### Writing -/

/-- The surroundings of the library: digit estimate, decimal conversion, square root, the version text and
the current time. -/
structure Sys where
  est : ℚ → ℚ → Nat
  num : RealTok → ℚ
  sqrt : ℚ → ℚ
  ver : Str
  now : Str

/-- An entity as `Write` finds it.  Sequence number, parameter pointer and line count of `attrs` are those
of the last write or read. -/
structure Ent where
  attrs : DE
  ptrs : DEPtrs
  body : Body
  extras : List ExtraRef
  comments : List Str

/-- What `Write` works with: start lines, global data and the entities that `Cull` (iges.cpp:638) left. -/
structure Model where
  start : List Str
  globals : Globals
  ents : List Ent

/-- What `format` and `readPD` see of the global data. -/
def env (S : Sys) (g : Globals) : PdEnv := ⟨g.pdelim, g.rdelim, g.minResolution, S.est, S.num, S.sqrt⟩

/-- Assignment of sequence numbers and formatting of the parameter data, iges.cpp:646-672, with
`parameterData = index` and `paramLineCount = index - parameterData` of the `format` functions (e.g.
entity110.cpp:81, 140).  `i` is the position of the first entity of the list. -/
def formatAll (E : PdEnv) : Nat → Int → List Ent → Rd (List (DE × DEPtrs × Str) × Int)
  | _, index, [] => .val ([], index)
  | i, index, e :: es => do
    let (pd, next) ← e.body.format E (writeSeq i) e.extras e.comments index
    let (r, last) ← formatAll E (i + 1) next es
    .val (({ e.attrs with seq := writeSeq i, entityType := e.body.etype, parameterData := index,
                          paramLineCount := next - index }, e.ptrs, pd) :: r, last)

/-- The directory section, iges.cpp:734-742. -/
def writeDEs : List (DE × DEPtrs × Str) → Option Str
  | [] => some []
  | x :: xs => do
    let t ← writeDE x.1 x.2.1
    let r ← writeDEs xs
    some (t ++ r)

/-- The parameter section, iges.cpp:745-753, with `IGES_ENTITY::writePD` (iges_entity.cpp:1843-1864). -/
def writePDs : List (DE × DEPtrs × Str) → Option Str
  | [] => some []
  | x :: xs =>
    if x.2.2 = [] ∨ x.2.2.length % 81 ≠ 0 then none
    else (writePDs xs).map (x.2.2 ++ ·)

/-- A result that is `false` if there is none. -/
def orFail {α : Type} : Option α → Rd α
  | none => .fail
  | some a => .val a

/-- The sections one after the other, iges.cpp:716-811: the text of the file, the start lines and the
global data afterwards. -/
def writeSections (S : Sys) (start : List Str) (g : Globals) (xs : List (DE × DEPtrs × Str)) (nP : Int) :
    Rd (Str × List Str × Globals) :=
  Rd.lift (writeStart start) fun r => do
    let (s, start) ← orFail r
    let (gs, nG, g) ← writeGlobals S.est S.ver S.now g
    let d ← orFail (writeDEs xs)
    let p ← orFail (writePDs xs)
    let t ← orFail (writeTerminate start.length nG (2 * xs.length : Nat) nP)
    .val (s ++ gs ++ d ++ p ++ t, start, g)

/-- A file on disk: its text and permission bits. -/
structure OnDisk where
  text : Str
  readable : Bool
  writable : Bool
  deriving DecidableEq

/-- How `Write` returns and what it leaves at the path: `refused`: false, nothing touched; `broken`: false,
after the file has been truncated or created, with any part of the text in it; `done`: true, the text and
the model afterwards. -/
inductive WriteOut where
  | refused
  | broken
  | done (text : Str) (start : List Str) (globals : Globals)

/-- Opening with `ios::in|ios::out` (iges.cpp:678): the file must exist and allow reading and writing. -/
def opensBoth (disk : Option OnDisk) : Bool :=
  match disk with
  | none => false
  | some f => f.readable && f.writable

/-- Opening with `ios::out` (iges.cpp:696): the file is truncated or created. -/
def opensOut (disk : Option OnDisk) (creatable : Bool) : Bool :=
  match disk with
  | none => creatable
  | some f => f.writable

/-- The part of `Write` behind the successful opening, iges.cpp:709-820.  An exception (from the path
functions) leaves `Write` with the file truncated. -/
def writeOpened (S : Sys) (m : Model) (path : Str) (xs : List (DE × DEPtrs × Str)) (nP : Int) : Rd WriteOut :=
  Rd.lift (GetFileName (SetPath (some path))) fun r =>
    match writeSections S m.start { m.globals with fileName := r.2.getD [] } xs nP with
    | .val (t, start, g) => .val (.done t start g)
    | .fail => .val .broken
    | .ub => .ub
    | .exn => .exn

/-- `IGES::Write`, iges.cpp:628-821, after `Cull`.  `disk` is the file at the path, `creatable` says whether
a file can be created there. -/
def Write (S : Sys) (m : Model) (path : Option Str) (overwrite : Bool) (disk : Option OnDisk) (creatable : Bool) :
    Rd WriteOut :=
  match path with
  | none => .val .refused                                             -- 632-636
  | some path =>
    if m.ents = [] then .val .refused                                 -- 640-644
    else
      match formatAll (env S m.globals) 0 1 m.ents with
      | .fail => .val .refused                                        -- 660-669
      | .ub => .ub
      | .exn => .exn
      | .val (xs, last) =>
        if opensBoth disk then
          if overwrite then writeOpened S m path xs (last - 1)        -- 690-692
          else .val .refused                                          -- 682-688
        else if opensOut disk creatable then writeOpened S m path xs (last - 1)  -- 694-697
        else .val .refused                                            -- 699-707

/-! ### Reading -/

/-- An entity as read, before `associate`: pointers are DE numbers. -/
structure REnt where
  de : DE
  body : Body
  extras : List Int
  comments : List Str

/-- The loop of `IGES::readDE`, iges.cpp:1562-1588: `rec` is the first line of an entry, `ls` are the lines
behind it.  The result has the type and the entry of each entity, and the lines from the first record on
that is not a directory line (the stream is set back to its start, 1590-1595) together with its letter. -/
def readDEs (maxGrad : Int) (rec : Record) : List Str → Option (List (Int × DE) × Char × List Str)
  | [] => none
  | [_] => none
  | l2 :: l3 :: ls => do
    let t ← deInt rec.data 0 none                                     -- 1564-1568
    let d ← (if supported t then readEntityDE t.toNat (some maxGrad) rec (some l2)
      else (readDE t (some maxGrad) rec (some l2)).map fun d => { d with entityType := 0 })  -- entityNULL.cpp:214-227
    let r ← ReadIGESRecord l3                                         -- 1583-1587
    if r.section_type ≠ 'D' then some ([(t, d)], r.section_type, l3 :: ls)
    else do
      let (es, c, rest) ← readDEs maxGrad r ls
      some ((t, d) :: es, c, rest)

/-- The loop of `IGES::readPD`, iges.cpp:1617-1630: every entity reads its own lines from the current
position. -/
def readPDs (E : PdEnv) : List (Int × DE) → List Str → Rd (List REnt × List Str)
  | [], ls => .val ([], ls)
  | (t, d) :: es, ls => do
    let (b, xs, cs) ← readBody E t d.seq d.parameterData d.paramLineCount ls
    let (r, rest) ← readPDs E es (ls.drop d.paramLineCount.toNat)
    .val (⟨d, b, xs, cs⟩ :: r, rest)

/-- The state of a model that matters to `Read`. -/
structure State where
  start : List Str
  nGlob : Nat
  globals : Globals
  ents : List REnt

/-- The state after `IGES::Clear` (iges.cpp:404-417, with `init`, 355-400). -/
def cleared : State := ⟨[], 0, initGlobals, []⟩

/-- The name part of a path as stored in the global data, iges.cpp:523-536. -/
def nameOf (path : Str) : Rd Str := Rd.lift (GetFileName (SetPath (some path))) fun r => .val (r.2.getD [])

/-- The sections of a file, iges.cpp:450-589: everything that happens before entities are linked.  Every
`fail` is followed by `Clear(); return false`. -/
def readSections (S : Sys) (m : State) (path text : Str) : Rd State := do
  let (rec, ls) ← orFail (nextRecord (getlines [] text))              -- 453-460
  Rd.need (rec.section_type = 'S')                                    -- 462-478
  let (ss, rec, ls) ← orFail (gatherSection 'S' m.start.length rec ls)  -- 480-505
  Rd.need (rec.section_type = 'G')                                    -- 507-514
  let (gs, rec, ls) ← orFail (gatherSection 'G' m.nGlob rec ls)       -- 1034-1053
  let g ← readGlobals S.num gs.flatten m.globals                      -- 517-524
  let name ← nameOf path
  let g := { g with fileName := name }                                -- 538-544
  Rd.need (rec.section_type = 'D')                                    -- 547-554
  Rd.need (rec.index = 1)                                             -- 1553-1558
  let (ds, c, ls) ← orFail (readDEs g.maxLinewidthGrad rec ls)
  Rd.need (c = 'P')                                                   -- 566-573
  let (es, ls) ← readPDs (env S g) ds ls
  let _ ← orFail (readTS ls.head?)                                    -- 585-592
  .val ⟨m.start ++ ss, m.nGlob + gs.length, g, es⟩

/-- `IGES::Read`, iges.cpp:422-624: the returned value and the model afterwards.  `file` is the text of the
file, if it can be opened.  `assoc` is the linking of the entities (598-606; `none`: undefined behaviour),
`finish` the rescaling and the removal of orphans (608-617). -/
def Read (S : Sys) (assoc : List REnt → Option Bool) (finish : State → State) (m : State) (path file : Option Str) :
    Rd (Bool × State) :=
  match path with
  | none => .val (false, m)                                           -- 426-430
  | some path =>
    if m.ents ≠ [] then .val (false, m)                               -- 432-437
    else
      match file with
      | none => .val (false, m)                                       -- 443-448
      | some text =>
        match readSections S m path text with
        | .fail => .val (false, cleared)
        | .ub => .ub
        | .exn => .exn
        | .val m' =>
          match assoc m'.ents with
          | none => .ub
          | some false => .val (false, m')                            -- 600-605: no Clear
          | some true => .val (true, finish m')

end Iges.File
