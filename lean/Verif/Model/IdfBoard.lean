import Verif.Model.IdfSections
import Verif.Model.IdfPlace
/-
A whole IDF board file: header, sections in their order, comments (idf/idf_parser.cpp).

The library of component outlines is represented by the names of the outlines, as in Model/IdfPlace.lean.
-/
namespace Iges.Idf

/-- The members of `IDF3_BOARD` that are in the board file.  `sects` holds the other outlines (`olnOther`, in the order of their
names), the outlines and keepouts for routing, placement and vias (lists) and the placement groups (`olnGroup`, in the order of their
names), each with its comments. -/
structure Board where
  name : Str
  unit : Unit
  version : Version
  source : Str
  date : Str
  fileVersion : ℤ
  oln : List Str × BoardOln
  sects : OlnKind → List (List Str × OlnSect)
  holes : List Drill
  place : PBoard
  notes : List Note
  drillComments : List Str
  noteComments : List Str
  placeComments : List Str

/-- `FILE_STATE` after the header has been read, without the values that go with an exception. -/
inductive FState where
  | header | outline | placement
  deriving DecidableEq, Repr

/-- A line of the header: `none` is an exception.  All but the last must end with a line end, idf_parser.cpp:1695-1705, 1720-1730, 1813-1822. -/
def headLine (input : List Str) : Option (Str × List Str) :=
  let (l, rest) := nextLine input
  if rest = [] ∨ l.comment then none else some (l.text, rest)

/-- The version of the format, idf_parser.cpp:1759-1772. -/
def parseVersion (t : Str) : Option Version :=
  if t = "3.0".toList ∨ t = "3.".toList ∨ t = "3".toList then some .v3
  else if t = "2.0".toList ∨ t = "2.".toList ∨ t = "2".toList then some .v2
  else none

/-- The unit, idf_parser.cpp:1845-1865. -/
def parseUnit (v : Version) (t : Str) : Option Unit :=
  if compareToken "MM" t then some .mm
  else if compareToken "THOU" t then some .thou
  else if v = .v2 ∧ compareToken "TNM" t then some .tnm
  else none

/-- Record 2 of the header of a board or library file, idf_parser.cpp:1732-1811: version, source, date, version of the file. -/
def parseRecord2 (type : String) (s : Str) : Option (Version × Str × Str × ℤ) :=
  match getWord s with
  | .word t q s =>
    if q = true ∨ compareToken type t = false then none
    else
      match getWord s with
      | .word t q s =>
        if q then none
        else
          match parseVersion t with
          | none => none
          | some v =>
            match getWord s with
            | .word source _ s =>
              match getWord s with
              | .word date _ s =>
                match getWord s with
                | .word n q _ => if q then none else some (v, source, date, ((scanInt n).map Prod.fst).getD 1)
                | _ => none
              | _ => none
            | _ => none
      | _ => none
  | _ => none

/-- Record 3 of the header, idf_parser.cpp:1824-1865.  Whether the first word could be read is not looked at: if a quote mark is not
closed, the second word is missing as well. -/
def parseRecord3 (v : Version) (s : Str) : Option (Str × Unit) :=
  match getWord s with
  | .word name _ s =>
    match getWord s with
    | .word t q _ => if q then none else (parseUnit v t).map (name, ·)
    | _ => none
  | _ => none

/-- The last line of a header, idf_parser.cpp:1871-1892. -/
def endHeader (input : List Str) : Option (List Str) :=
  let (l, rest) := nextLine input
  if l.text = [] ∨ l.comment ∨ compareToken ".END_HEADER" l.text = false then none else some rest

/-- `IDF3_BOARD::readBrdHeader`, idf_parser.cpp:1684-1896. -/
def readHeader (b : Board) (input : List Str) : Option (Board × List Str) :=
  match headLine input with
  | none => none
  | some (s, rest) =>
    if compareToken ".HEADER" s = false then none
    else
      match headLine rest with
      | none => none
      | some (s, rest) =>
        match parseRecord2 "BOARD_FILE" s with
        | none => none
        | some (v, source, date, n) =>
          match headLine rest with
          | none => none
          | some (s, rest) =>
            match parseRecord3 v s with
            | none => none
            | some (name, u) =>
              (endHeader rest).map fun rest =>
                ({ b with version := v, source := source, date := date, fileVersion := n, name := name, unit := u }, rest)

/-- What a section is known by. -/
inductive Key where
  | board | panel
  | sect (k : OlnKind)
  | drills | notes | placement
  deriving DecidableEq, Repr

/-- The section that begins with the word, idf_parser.cpp:1963-2311. -/
def sectionKey (t : Str) : Option Key :=
  if compareToken ".BOARD_OUTLINE" t then some .board
  else if compareToken ".PANEL_OUTLINE" t then some .panel
  else if compareToken ".OTHER_OUTLINE" t then some (.sect .other)
  else if compareToken ".ROUTE_OUTLINE" t then some (.sect .route)
  else if compareToken ".PLACE_OUTLINE" t then some (.sect .place)
  else if compareToken ".ROUTE_KEEPOUT" t then some (.sect .routeKo)
  else if compareToken ".VIA_KEEPOUT" t then some (.sect .via)
  else if compareToken ".PLACE_KEEPOUT" t then some (.sect .placeKo)
  else if compareToken ".PLACE_REGION" t then some (.sect .region)
  else if compareToken ".DRILLED_HOLES" t then some .drills
  else if compareToken ".NOTES" t then some .notes
  else if compareToken ".PLACEMENT" t then some .placement
  else none

/-- The word looked at in a line that is not a comment, idf_parser.cpp:1949-1961.  `tok` and `idx` are the variables of the same names, which keep
their values from line to line: the word is the one at position `idx`.  `none` is an exception. -/
def keyWord (line tok : Str) (idx : ℕ) : Option (Str × ℕ) :=
  if line.length ≤ idx then some (tok, idx)
  else
    match getWord (line.drop idx) with
    | .missing => some (tok, line.length)
    | .unterminated => none
    | .word t q rest => if q then none else some (t, line.length - rest.length)

/-- `AddDrill`, idf_parser.cpp:3343-3358, 3594-3638: holes of the board (or panel) and holes of components, which are created when they are
not known yet.  The component found under a name has that name, so the test of `IDF3_COMPONENT::AddDrill`, idf_parser.cpp:1036-1049, never fails. -/
def addHole (b : Board) (d : Drill) : Board :=
  if compareToken "BOARD" d.refText ∨ compareToken "PANEL" d.refText then { b with holes := b.holes ++ [d] }
  else
    match b.place.comps.find d.refText with
    | none => { b with place := { b.place with comps := b.place.comps.add d.refText ⟨d.refText, none, none, [], [d]⟩ } }
    | some c => { b with place := { b.place with comps := b.place.comps.change d.refText { c with drills := c.drills ++ [d] } } }

/-- `std::multimap::insert`: behind the entries with the same or a smaller key. -/
def insertBy (key : α → Str) (x : α) : List α → List α
  | [] => [x]
  | y :: l => if strLt (key x) (key y) then x :: y :: l else y :: insertBy key x l

/-- A section is stored, idf_parser.cpp:1998-2240.  `none` is an exception: the names of other outlines must differ, 2023-2033.  Empty comments are
dropped, idf_outlines.cpp:1493-1500. -/
def addSect (b : Board) (k : OlnKind) (cs : List Str) (s : OlnSect) : Option Board :=
  let x := (cs.filter (· ≠ []), s)
  let set (l : List (List Str × OlnSect)) : Board := { b with sects := fun j => if j = k then l else b.sects j }
  match k with
  | .other => if (b.sects k).any (fun y => y.2.ident = s.ident) then none else some (set (insertBy (fun y => y.2.ident) x (b.sects k)))
  | .region => some (set (insertBy (fun y => y.2.ident) x (b.sects k)))
  | _ => some (set (b.sects k ++ [x]))

/-- The part of `readBrdSection` that reads a section whose first line is `line`, idf_parser.cpp:1963-2311; `none` is an exception.  The outline of
the board is a member of the board: its old outlines are dropped (idf_outlines.cpp:175), its comments are kept and the new ones added. -/
def readBody (ccw : List QSeg → Bool) (noSub : Bool) (key : Key) (st : FState) (b : Board) (cs : List Str) (line : Str) (rest : List Str) :
    Option (FState × Board × List Str) :=
  match key with
  | .board =>
    if st ≠ .header then none
    else
      (readBoardOutline ccw b.unit b.version line rest).map fun p =>
        (.outline, { b with oln := (b.oln.1 ++ cs.filter (· ≠ []), p.1) }, p.2)
  | .panel => none
  | .sect k =>
    if st ≠ .outline then none
    else
      match readSect k ccw b.unit b.version line rest with
      | none => none
      | some (s, rest) => (addSect b k cs s).map fun b => (.outline, b, rest)
  | .drills =>
    if st ≠ .outline then none
    else
      (readDrills b.unit b.version rest).map fun p =>
        let b := p.1.foldl addHole b
        (.outline, { b with drillComments := b.drillComments ++ cs }, p.2)
  | .notes =>
    if st ≠ .outline then none
    else if b.version = .v2 then none
    else (readNotes b.unit rest).map fun p => (.outline, { b with notes := b.notes ++ p.1, noteComments := b.noteComments ++ cs }, p.2)
  | .placement =>
    if st ≠ .outline then none
    else
      (readPlacement b.unit b.version noSub (rest.length + 1) b.place rest).map fun p =>
        (.placement, { b with place := p.1, placeComments := b.placeComments ++ cs }, p.2)

/-- `IDF3_BOARD::readBrdSection`, idf_parser.cpp:1900-2318: comments and, at the next known word, a section; `none` is an exception.  Lines with another
word are skipped.  At the end of the file nothing is read, and the last line is not looked at if no line end follows it (1929-1938). -/
def readSection (ccw : List QSeg → Bool) (noSub : Bool) (st : FState) (b : Board) (tok : Str) (idx : ℕ) (cs : List Str) :
    List Str → Option (FState × Board × List Str)
  | [] => some (st, b, [])
  | raw :: rest =>
    match fetchLine raw with
    | none => readSection ccw noSub st b tok idx cs rest
    | some l =>
      if rest = [] then some (st, b, [])
      else if l.comment then readSection ccw noSub st b tok idx (cs ++ [l.text]) rest
      else
        match keyWord l.text tok idx with
        | none => none
        | some (t, i) =>
          match sectionKey t with
          | none => readSection ccw noSub st b t i cs rest
          | some key => readBody ccw noSub key st b cs l.text rest

/-- The loop over the sections, idf_parser.cpp:2357-2358.  Every round reads at least one line, so the number of lines is enough fuel. -/
def readSections (ccw : List QSeg → Bool) (noSub : Bool) : ℕ → FState → Board → List Str → Option (FState × Board × List Str)
  | 0, _, _, _ => none
  | n + 1, st, b, input =>
    if st = .placement ∨ input = [] then some (st, b, input)
    else
      match readSection ccw noSub st b [] 0 [] input with
      | none => none
      | some (st, b, rest) => readSections ccw noSub n st b rest

/-- Whether what follows the placement section is accepted, idf_parser.cpp:2377-2403: blank lines and comments; nothing is looked at from an empty
comment on. -/
def trailing : List Str → Bool
  | [] => true
  | raw :: rest =>
    match fetchLine raw with
    | none => trailing rest
    | some l => if l.text = [] then true else if l.comment then trailing rest else false

/-- `IDF3_BOARD::readBoardFile`, idf_parser.cpp:2322-2418, on the lines of the file; `none` is an exception, after which `ReadFile` clears the board and
returns false.  `b` is the board before: the one the constructor makes, with the outlines of the library file. -/
def readBoardFile (ccw : List QSeg → Bool) (noSub : Bool) (b : Board) (input : List Str) : Option Board :=
  match readHeader b input with
  | none => none
  | some (b, rest) =>
    match readSections ccw noSub (rest.length + 1) .header b rest with
    | none => none
    | some (st, b, rest) =>
      if rest = [] then (if st = .header then none else some b)
      else if trailing rest then some b else none

/-- Texts written one after the other, or the first exception. -/
def Written.seq : Written → Written → Written
  | .text s, .text t => .text (s ++ t)
  | .text _, w => w
  | w, _ => w

/-- All texts of a list. -/
def writeList : List Written → Written
  | [] => .text []
  | w :: ws => w.seq (writeList ws)

/-- Comments, e.g. idf_outlines.cpp:657-672, idf_parser.cpp:2975-2982. -/
def commentText (cs : List Str) : Str := cs.flatMap fun c => '#' :: ' ' :: c ++ ['\n']

/-- The header, idf_parser.cpp:2848-2870; `now` is the date and `b.fileVersion` the version before it is incremented.  `ours` is `idfSource`. -/
def headerText (now ours : Str) (b : Board) : Str :=
  ".HEADER\nBOARD_FILE 3.0 \"Created by ".toList ++ (if ours = [] then "KiCad-IDF Framework".toList else ours) ++
  '"' :: ' ' :: now ++ ' ' :: intStr (b.fileVersion + 1) ++ '\n' :: '"' ::
  (if b.name = [] then "BOARD WITH NO NAME".toList else b.name) ++
  '"' :: ' ' :: (if b.unit = .mm then "MM".toList else "THOU".toList) ++ "\n.END_HEADER\n\n".toList

/-- The outline of the board with its comments, idf_outlines.cpp:1226-1245. -/
def olnText (ccw : List QSeg → Bool) (b : Board) : Written :=
  (Written.text (commentText b.oln.1)).seq (writeBoardOutline ccw b.unit b.oln.2)

/-- An outline section with its comments, e.g. idf_outlines.cpp:1872-1886: nothing is written if there are no outlines. -/
def sectText (ccw : List QSeg → Bool) (u : Unit) (k : OlnKind) (x : List Str × OlnSect) : Written :=
  if x.2.outlines = [] then .text [] else (Written.text (commentText x.1)).seq (writeSect k ccw u x.2)

/-- The kinds of sections in the order in which they are written, idf_parser.cpp:2875-2967. -/
def olnKinds : List OlnKind := [.other, .route, .place, .routeKo, .via, .placeKo, .region]

/-- The holes of the components after those of the board, idf_parser.cpp:2970-3004. -/
def holesText (b : Board) : Str :=
  commentText b.drillComments ++ ".DRILLED_HOLES\n".toList ++ writeDrills b.unit (b.holes ++ b.place.comps.flatMap fun e => e.2.drills)

/-- The notes, idf_parser.cpp:3007-3031. -/
def notesText (b : Board) : Str :=
  if b.notes = [] then [] else commentText b.noteComments ++ ".NOTES\n".toList ++ writeNotes b.unit b.notes

/-- The placement, idf_parser.cpp:3034-3077: the section is written if some component has an outline, its comments if there is some component. -/
def placeText (b : Board) : Written :=
  if b.place.comps = [] then .text []
  else
    (Written.text (commentText b.placeComments)).seq
      (if b.place.comps.any fun e => e.2.outs ≠ [] then
        match writePlacement b.unit b.place.comps with
        | none => .throws
        | some t => .text (".PLACEMENT\n".toList ++ t)
      else .text [])

/-- `IDF3_BOARD::writeBoardFile`, idf_parser.cpp:2839-3095. -/
def writeBoardFile (ccw : List QSeg → Bool) (now ours : Str) (b : Board) : Written :=
  writeList ([.text (headerText now ours b), olnText ccw b] ++
    (olnKinds.flatMap fun k => (b.sects k).map (sectText ccw b.unit k)) ++
    [.text (holesText b), .text (notesText b), placeText b])

/-- The unit chosen by `WriteFile( name, aUnitMM )`, idf_parser.cpp:3101-3104, where the flag is compared with the enumerator `UNIT_THOU`, which is 1
(idf_common.h:191-197). -/
def writeUnit (unitMM : Bool) : Unit := if unitMM.toNat ≠ 1 then .mm else .thou

/-- `IDF3_BOARD::WriteFile`, idf_parser.cpp:3099-3131, as far as the board file is concerned. -/
def writeFile (ccw : List QSeg → Bool) (now ours : Str) (unitMM : Bool) (b : Board) : Written :=
  writeBoardFile ccw now ours { b with unit := writeUnit unitMM }

end Iges.Idf
