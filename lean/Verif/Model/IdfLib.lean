import Verif.Model.IdfBoard
/-
The library of component outlines: sections, the library file (idf/idf_outlines.cpp, idf/idf_parser.cpp), and a board file together
with its library file.
-/
namespace Iges.Idf

/-- `COMP_TYPE` -/
inductive CompClass where
  | elec | mech
  deriving DecidableEq, Repr

/-- The members of `IDF3_COMP_OUTLINE`: `cls = none` is `COMP_INVALID`, `refs` is `refNum`, `props` is the map `props`. -/
structure CompOln where
  cls : Option CompClass
  geom : Str
  part : Str
  unit : Unit
  thickness : ℚ
  outlines : List (List QSeg)
  props : SMap Str
  comments : List Str
  refs : ℕ
  deriving DecidableEq

/-- The unit of a part, idf_outlines.cpp:3246-3268: in version 2 the comparison with TNM is the wrong way round. -/
def compUnit (v : Version) (t : Str) : Option Unit :=
  if compareToken "MM" t then some .mm
  else if compareToken "THOU" t then some .thou
  else if v = .v2 ∧ compareToken "TNM" t = false then some .tnm
  else none

/-- Record 2 of a part, idf_outlines.cpp:3192-3319: names, unit and height. -/
def compRecord (v : Version) (s : Str) : Option (Str × Str × Unit × ℚ) :=
  match getWord s with
  | .word geom _ s =>
    match getWord s with
    | .word part _ s =>
      if part = [] ∧ geom = [] then none
      else
        match getWord s with
        | .word t _ s =>
          match compUnit v t with
          | none => none
          | some u =>
            match getWord s with
            | .word h _ _ =>
              match readNum h with
              | none => none
              | some h => (unitFactor u v).map fun f => (geom, part, u, h * f)
            | _ => none
        | _ => none
    | _ => none
  | _ => none

/-- `IDF3_COMP_OUTLINE::readProperties`, idf_outlines.cpp:2977-3089: the properties and the lines from the end of the section on. -/
def readProps (m : SMap Str) : List Str → Option (SMap Str × List Str)
  | [] => some (m, [])
  | raw :: rest =>
    match fetchLine raw with
    | none => readProps m rest
    | some l =>
      if l.comment then none
      else
        match getWord l.text with
        | .word t q s =>
          if q then none
          else if 5 ≤ t.length ∧ compareToken ".END_" (t.take 5) = true then some (m, raw :: rest)
          else if compareToken "PROP" t = false then none
          else
            match getWord s with
            | .word name _ s =>
              match getWord s with
              | .word value _ _ => if (m.find name).isSome then none else readProps (m.add name value) rest
              | _ => none
            | _ => none
        | _ => none

/-- The name of a class of parts in the section keywords. -/
def CompClass.name : CompClass → String
  | .elec => "ELECTRICAL"
  | .mech => "MECHANICAL"

/-- `IDF3_COMP_OUTLINE::readData`, idf_outlines.cpp:3114-3377, on a new object; the keyword has been read.  `none` is an exception. -/
def readComp (ccw : List QSeg → Bool) (v : Version) (c : CompClass) (input : List Str) : Option (CompOln × List Str) :=
  match headLine input with                                           -- 3169-3198
  | none => none
  | some (s, rest) =>
    match compRecord v s with
    | none => none
    | some (geom, part, u, h) =>
      match readOutlines true true ccw u v .start rest with
      | none => none
      | some (ls, rest) =>
        match (if c = .elec ∧ v = .v3 then readProps [] rest else some ([], rest)) with  -- 3324-3325
        | none => none
        | some (props, rest) =>
          let (l, rest) := nextLine rest                              -- 3328-3374
          if rest = [] ∨ l.text = [] ∨ l.comment then none
          else if compareToken (".END_" ++ c.name) l.text = false then none
          else some (⟨some c, geom, part, u, h, ls, props, [], 0⟩, rest)

/-- The class of parts a keyword stands for. -/
def compKey (t : Str) : Option CompClass :=
  if compareToken ".ELECTRICAL" t then some .elec else if compareToken ".MECHANICAL" t then some .mech else none

/-- `MatchesStart`, `MatchesEnd`: within a thousandth of a millimetre, idf_common.cpp:844-855, 1101-1110. -/
def Pt.close (p q : Pt) : Bool := decide ((p.x - q.x) * (p.x - q.x) + (p.y - q.y) * (p.y - q.y) ≤ 1 / 1000 * (1 / 1000))

/-- The segments of two outlines with the same number of segments match, idf_parser.cpp:90-102. -/
def matchSegs : List QSeg → List QSeg → Bool
  | s :: l, t :: m => s.start.close t.start && s.stop.close t.stop && matchSegs l m
  | _, _ => true

/-- `MatchCompOutline`, idf_parser.cpp:63-104: class, number of outlines, and the ends of the segments of the first outline. -/
def matchComp (a b : CompOln) : Bool :=
  decide (a.cls = b.cls) && decide (a.outlines.length = b.outlines.length) &&
    match a.outlines, b.outlines with
    | l :: _, m :: _ => decide (l.length = m.length) && matchSegs l m
    | _, _ => true

/-- `GetUID`, idf_outlines.cpp:3501-3512. -/
def CompOln.uid (o : CompOln) : Str := if o.geom = [] ∧ o.part = [] then [] else uidOf o.geom o.part

/-- A part is put into the library, idf_parser.cpp:2487-2519: a part of the same name must match and stays. -/
def addComp (lib : SMap CompOln) (o : CompOln) : Option (SMap CompOln) :=
  match lib.find o.uid with
  | none => some (lib.add o.uid o)
  | some o' => if matchComp o o' then some lib else none

/-- `IDF3_BOARD::readLibSection`, idf_parser.cpp:2421-2543; `none` is an exception.  An empty comment ends the call, as the end of
the file does, and the comments before it are gone. -/
def readLibSection (ccw : List QSeg → Bool) (v : Version) (lib : SMap CompOln) (cs : List Str) : List Str → Option (SMap CompOln × List Str)
  | [] => some (lib, [])
  | raw :: rest =>
    match fetchLine raw with
    | none => readLibSection ccw v lib cs rest
    | some l =>
      if l.text = [] then some (lib, rest)
      else if l.comment then readLibSection ccw v lib (cs ++ [l.text]) rest
      else
        match getWord l.text with
        | .word t q _ =>
          if q then none
          else
            match compKey t with
            | none => none
            | some c =>
              match readComp ccw v c rest with
              | none => none
              | some (o, rest) => (addComp lib { o with comments := cs.filter (· ≠ []) }).map fun lib => (lib, rest)
        | _ => none

/-- The loop over the sections, idf_parser.cpp:2718.  Every round reads at least one line. -/
def readLibSections (ccw : List QSeg → Bool) (v : Version) : ℕ → SMap CompOln → List Str → Option (SMap CompOln)
  | 0, _, _ => none
  | n + 1, lib, input =>
    if input = [] then some lib
    else
      match readLibSection ccw v lib [] input with
      | none => none
      | some (lib, rest) => readLibSections ccw v n lib rest

/-- The library of a board: the parts, and the source, date and version of the file. -/
structure Library where
  parts : SMap CompOln
  source : Str
  date : Str
  fileVersion : ℤ

/-- `IDF3_BOARD::readLibHeader`, idf_parser.cpp:2547-2700: version of the format and the lines after the header. -/
def readLibHeader (L : Library) (input : List Str) : Option (Version × Library × List Str) :=
  match headLine input with
  | none => none
  | some (s, rest) =>
    if compareToken ".HEADER" s = false then none
    else
      match headLine rest with
      | none => none
      | some (s, rest) =>
        match parseRecord2 "LIBRARY_FILE" s with
        | none => none
        | some (v, source, date, n) =>
          (endHeader rest).map fun rest => (v, { L with source := source, date := date, fileVersion := n }, rest)

/-- `IDF3_BOARD::readLibFile`, idf_parser.cpp:2704-2737. -/
def readLibFile (ccw : List QSeg → Bool) (L : Library) (input : List Str) : Option Library :=
  match readLibHeader L input with
  | none => none
  | some (v, L, rest) => (readLibSections ccw v (rest.length + 1) L.parts rest).map fun m => { L with parts := m }

/-- `IDF3_COMP_OUTLINE::writeProperties`, idf_outlines.cpp:3092-3112. -/
def propsText (m : SMap Str) : Str :=
  m.flatMap fun e => "PROP ".toList ++ '"' :: e.1 ++ '"' :: ' ' :: '"' :: e.2 ++ ['"', '\n']

/-- `IDF3_COMP_OUTLINE::writeData`, idf_outlines.cpp:3380-3423: nothing is written for a part that no component uses. -/
def compText (ccw : List QSeg → Bool) (o : CompOln) : Written :=
  if o.refs = 0 then .text []
  else
    match o.cls with
    | none => .throws
    | some c =>
      match writeLoops true ccw o.unit 0 o.outlines with
      | .throws => .throws
      | .undefined => .undefined
      | .text t =>
        .text (commentText o.comments ++ ('.' :: c.name.toList ++ '\n' :: '"' :: o.geom ++ '"' :: ' ' :: '"' :: o.part ++ '"' :: ' ' ::
          (if o.unit = .thou then "THOU ".toList else "MM ".toList) ++ coordText o.unit o.thickness ++ '\n' ::
          (t ++ (if c = .elec then propsText o.props else []) ++ (".END_".toList ++ c.name.toList ++ ['\n', '\n']))))

/-- The header of the library file, idf_parser.cpp:2803-2810. -/
def libHeaderText (now ours : Str) (L : Library) : Str :=
  ".HEADER\nLIBRARY_FILE 3.0 \"Created by ".toList ++ (if ours = [] then "KiCad-IDF Framework".toList else ours) ++
  '"' :: ' ' :: now ++ ' ' :: intStr (L.fileVersion + 1) ++ "\n.END_HEADER\n\n".toList

/-- `IDF3_BOARD::writeLibFile`, idf_parser.cpp:2794-2836. -/
def writeLibFile (ccw : List QSeg → Bool) (now ours : Str) (L : Library) : Written :=
  writeList (.text (libHeaderText now ours L) :: L.parts.map fun e => compText ccw e.2)

/-- The names of the parts, which is what the placement section is about. -/
def partNames (m : SMap CompOln) : SMap (Str × Str) := m.map fun e => (e.1, (e.2.geom, e.2.part))

/-- How often the components use the part with the unique name `k`. -/
def uses (comps : SMap Comp) (k : Str) : ℕ :=
  ((comps.flatMap fun e => e.2.outs).filter fun o => o.outline.elim false fun n => decide (uidOf n.1 n.2 = k)).length

/-- The parts after components have been added to the board: each use counts, `incrementRef`, idf_parser.cpp:724. -/
def countUses (before after : SMap Comp) (m : SMap CompOln) : SMap CompOln :=
  m.map fun e => (e.1, { e.2 with refs := e.2.refs + (uses after e.1 - uses before e.1) })

/-- `IDF3_BOARD::ReadFile`, idf_parser.cpp:2740-2791, with the lines of the library file, if there is one, and of the board file.  `none` is the result false.
Outlines that are substituted for missing parts appear among the names `place.lib` of the board only. -/
def readFiles (ccw : List QSeg → Bool) (noSub : Bool) (L : Library) (b : Board) (libInput : Option (List Str)) (input : List Str) : Option (Library × Board) :=
  match (match libInput with | none => some L | some i => readLibFile ccw L i) with
  | none => none
  | some L =>
    (readBoardFile ccw noSub { b with place := { b.place with lib := partNames L.parts } } input).map fun b' =>
      ({ L with parts := countUses b.place.comps b'.place.comps L.parts }, b')

/-- `IDF3_COMP_OUTLINE::SetUnit` on all parts, which changes the unit only, idf_parser.cpp:1581-1593. -/
def Library.inUnit (u : Unit) (L : Library) : Library := { L with parts := L.parts.map fun e => (e.1, { e.2 with unit := u }) }

/-- `IDF3_BOARD::WriteFile`, idf_parser.cpp:3099-3131: the texts of the library file and the board file; `force` is `aForceUnitFlag`, which sets the unit of
the parts.  After an exception for the library file there is no board file. -/
def writeFiles (ccw : List QSeg → Bool) (now ours : Str) (unitMM force : Bool) (L : Library) (b : Board) : Written × Written :=
  (writeLibFile ccw now ours (if force then L.inUnit (writeUnit unitMM) else L), writeFile ccw now ours unitMM b)

end Iges.Idf
