import Verif.Model.RealFmt
/-
Text of IDF files: lines, words, numbers, notes and drilled holes (idf_helpers.cpp, idf_common.cpp).

An input stream is the list of the lines not yet read; the last one is the text after the last line end (possibly
empty).  Reading it sets `eof`, so a stream is `good()` exactly when the list is not empty.  Numbers are exact rationals:
the rounding of decimals to doubles and of the unit conversions is not modelled.
-/
namespace Iges.Idf

/-- The lines of a text, as `std::getline` cuts them. -/
def lines : Str → List Str
  | [] => [[]]
  | c :: s =>
    if c = '\n' then [] :: lines s
    else match lines s with
      | [] => [[c]]
      | l :: ls => (c :: l) :: ls

/-- A line as delivered by `FetchIDFLine`. -/
structure Line where
  text : Str
  comment : Bool
  deriving DecidableEq, Repr

/-- Strip white space at both ends, idf_helpers.cpp:56-60. -/
def trim (s : Str) : Str := ((s.dropWhile isSpaceC).reverse.dropWhile isSpaceC).reverse

/-- `FetchIDFLine` on one line of the file, idf_helpers.cpp:34-68; `none` is the result `false`. -/
def fetchLine (raw : Str) : Option Line :=
  match raw with
  | '#' :: r => some ⟨trim r, true⟩
  | _ => if trim raw = [] then none else some ⟨trim raw, false⟩

/-- The loop `while( !FetchIDFLine(...) && file.good() );` that precedes every record, e.g. idf_common.cpp:106.  At the end
of the file the line is empty and not a comment. -/
def nextLine : List Str → Line × List Str
  | [] => (⟨[], false⟩, [])
  | r :: rs =>
    match fetchLine r with
    | some l => (l, rs)
    | none => nextLine rs

/-- Outcome of `GetIDFString`: nothing left (`false`), an unterminated quote (`false`, with `hasQuotes` set), or a word
with the flag `hasQuotes` and the text after it. -/
inductive Word where
  | missing
  | unterminated
  | word (text : Str) (quoted : Bool) (rest : Str)
  deriving DecidableEq, Repr

/-- `GetIDFString`, idf_helpers.cpp:72-124; the argument is the text from `aIndex` on. -/
def getWord (s : Str) : Word :=
  match s.dropWhile isSpaceC with
  | [] => .missing                                                    -- 83-92
  | c :: r =>
    if c = '"' then                                                   -- 94-110
      match r.dropWhile (· != '"') with
      | [] => .unterminated
      | _ :: rest => .word (r.takeWhile (· != '"')) true rest
    else                                                              -- 111-118
      .word ((c :: r).takeWhile (!isSpaceC ·)) false ((c :: r).dropWhile (!isSpaceC ·))

/-- `CompareToken`, idf_helpers.cpp:131-144: the input in upper case is the token. -/
def compareToken (token : String) (s : Str) : Bool := s.map Char.toUpper == token.toList

/-- Extraction of a `double` from a stream (`operator>>`, libstdc++ `num_get`): skips white space, takes the longest text
of the form sign, digits, dot, digits, exponent, and converts it.  `none` is a set fail bit; otherwise the value and what
is left in the stream. -/
def scanNum (s : Str) : Option (ℚ × Str) :=
  let r := (takeSign (s.dropWhile isSpaceC)).2.2
  let neg := (takeSign (s.dropWhile isSpaceC)).1
  let ip := r.takeWhile isDigitC
  let r2 := r.dropWhile isDigitC
  let (fp, r3) := match r2 with
    | c :: t => if c = '.' then (t.takeWhile isDigitC, t.dropWhile isDigitC) else ([], r2)
    | [] => ([], [])
  if ip = [] ∧ fp = [] then none
  else
    let done (ex : ℤ) (rest : Str) : Option (ℚ × Str) :=
      let v : ℚ := digitsVal (ip ++ fp) * (10 : ℚ) ^ (ex - fp.length)
      if (dblOverflow : ℚ) ≤ v then none else some (if neg then -v else v, rest)
    match r3 with
    | c :: t =>
      if c = 'e' ∨ c = 'E' then
        let r4 := (takeSign t).2.2
        let ed := r4.takeWhile isDigitC
        if ed = [] then none
        else done (if (takeSign t).1 then -(digitsVal ed : ℤ) else digitsVal ed) (r4.dropWhile isDigitC)
      else done 0 r3
    | [] => done 0 []

/-- A token read as a number, as in `istr.str( token ); istr >> x`: what follows the number in the token is ignored. -/
def readNum (tok : Str) : Option ℚ := (scanNum tok).map Prod.fst

/-- Output of a number with `ios::fixed` and precision `p`. -/
def fmtF (p : ℕ) (x : ℚ) : Str :=
  let n := (roundHE (|x| * 10 ^ p)).toNat
  let fp := natStr (n % 10 ^ p)
  signText (x < 0) ++ natStr (n / 10 ^ p) ++ '.' :: (List.replicate (p - fp.length) '0' ++ fp)

/-- `IDF_UNIT`, idf_common.h:191-197. -/
inductive Unit where
  | mm | thou | tnm
  deriving DecidableEq, Repr

/-- `IDF_VERSION`. -/
inductive Version where
  | v2 | v3
  deriving DecidableEq, Repr

/-- `IDF_THOU_TO_MM`, idf_helpers.h:39. -/
def thouToMM : ℚ := 254 / 10000

/-- `IDF_TNM_TO_MM`, idf_helpers.h:41. -/
def tnmToMM : ℚ := 1 / 100000

/-- Result of reading one record of a section: an exception, the end of the section, or an item. -/
inductive Rec (α : Type) where
  | error
  | finish (rest : List Str)
  | item (a : α) (rest : List Str)
  deriving DecidableEq

/-- Read a word that must not be quoted as a number, e.g. idf_common.cpp:148-174. -/
def numWord (s : Str) : Option (ℚ × Str) :=
  match getWord s with
  | .word t q rest => if q then none else (readNum t).map (·, rest)
  | _ => none

/-- `IDF_NOTE`. -/
structure Note where
  x : ℚ
  y : ℚ
  height : ℚ
  length : ℚ
  text : Str
  deriving DecidableEq, Repr

/-- `IDF_NOTE::readNote`, idf_common.cpp:95-251. -/
def readNote (u : Unit) (input : List Str) : Rec Note :=
  let (l, rest) := nextLine input
  if l.text = [] ∨ l.comment then .error                              -- 108-120
  else
    match getWord l.text with
    | .word t q r =>
      if q then .error                                                -- 125-131
      else if compareToken ".END_NOTES" t then .finish rest           -- 133-134
      else
        match readNum t with
        | none => .error                                              -- 140-146
        | some x =>
          match numWord r with
          | none => .error
          | some (y, r) =>
            match numWord r with
            | none => .error
            | some (h, r) =>
              match numWord r with
              | none => .error
              | some (len, r) =>
                match getWord r with
                | .word text _ _ =>                                   -- 232-248
                  if u = .thou then .item ⟨x * thouToMM, y * thouToMM, h * thouToMM, len * thouToMM, text⟩ rest
                  else .item ⟨x, y, h, len, text⟩ rest
                | _ => .error
    | _ => .error

/-- `IDF_NOTE::writeNote`, idf_common.cpp:254-273. -/
def writeNote (u : Unit) (n : Note) : Str :=
  (if u = .thou then
    fmtF 1 (n.x / thouToMM) ++ ' ' :: fmtF 1 (n.y / thouToMM) ++ ' ' :: fmtF 1 (n.height / thouToMM) ++ ' ' ::
      fmtF 1 (n.length / thouToMM) ++ [' ']
  else fmtF 5 n.x ++ ' ' :: fmtF 5 n.y ++ ' ' :: fmtF 5 n.height ++ ' ' :: fmtF 5 n.length ++ [' ']) ++
  '"' :: n.text ++ ['"', '\n']

/-- A section read record by record until its end; `none` is an exception.  The fuel bounds the number of records; every
record uses at least one line, so the number of lines is enough. -/
def readAll {α : Type} (f : List Str → Rec α) : ℕ → List Str → Option (List α × List Str)
  | 0, _ => none
  | n + 1, s =>
    match f s with
    | .error => none
    | .finish rest => some ([], rest)
    | .item a rest => (readAll f n rest).map fun p => (a :: p.1, p.2)

/-- `IDF3_BOARD::readBrdNotes`, idf_parser.cpp:1657-1669. -/
def readNotes (u : Unit) (s : List Str) : Option (List Note × List Str) := readAll (readNote u) (s.length + 1) s

/-- The notes part of `IDF3_BOARD::writeBoardFile` after the section header, idf_parser.cpp:3020-3029. -/
def writeNotes (u : Unit) (ns : List Note) : Str := ns.flatMap (writeNote u) ++ ".END_NOTES\n\n".toList

/-- What a hole belongs to: `KEY_REFDES` and the name. -/
inductive Ref where
  | board | norefdes | panel
  | refdes (name : Str)
  deriving DecidableEq, Repr

/-- Kind of a hole: `KEY_HOLETYPE` and the name. -/
inductive Hole where
  | pin | via | mtg | tool
  | other (name : Str)
  deriving DecidableEq, Repr

/-- `KEY_OWNER`. -/
inductive Owner where
  | unowned | ecad | mcad
  deriving DecidableEq, Repr

/-- `IDF_DRILL_DATA`. -/
structure Drill where
  dia : ℚ
  x : ℚ
  y : ℚ
  plated : Bool
  ref : Ref
  hole : Hole
  owner : Owner
  deriving DecidableEq, Repr

/-- The constructor with arguments, idf_common.cpp:333-389. -/
def mkDrill (dia x y : ℚ) (plated : Bool) (refdes hole : Str) (owner : Owner) : Drill :=
  { dia := if dia < 3 / 10 then 3 / 10 else dia
    x, y, plated, owner
    ref := if refdes = "BOARD".toList then .board
      else if refdes = [] ∨ refdes = "NOREFDES".toList then .norefdes
      else if refdes = "PANEL".toList then .panel
      else .refdes refdes
    hole := if hole = "PIN".toList then .pin
      else if hole = "VIA".toList then .via
      else if hole = [] ∨ hole = "MTG".toList then .mtg
      else if hole = "TOOL".toList then .tool
      else .other hole }

/-- `GetDrillRefDes`, idf_common.cpp:763-784. -/
def Drill.refText (d : Drill) : Str :=
  match d.ref with
  | .board => "BOARD".toList
  | .panel => "PANEL".toList
  | .refdes n => n
  | .norefdes => "NOREFDES".toList

/-- `GetDrillHoleType`, idf_common.cpp:786-811. -/
def Drill.holeText (d : Drill) : Str :=
  match d.hole with
  | .pin => "PIN".toList
  | .via => "VIA".toList
  | .tool => "TOOL".toList
  | .other n => n
  | .mtg => "MTG".toList

/-- `ParseOwner`, idf_helpers.cpp:148-169. -/
def parseOwner (s : Str) : Option Owner :=
  if compareToken "UNOWNED" s then some .unowned
  else if compareToken "ECAD" s then some .ecad
  else if compareToken "MCAD" s then some .mcad
  else none

/-- The name of what a hole belongs to, as read, idf_common.cpp:566-582. -/
def parseRef (s : Str) : Ref :=
  if compareToken "BOARD" s then .board
  else if compareToken "NOREFDES" s then .norefdes
  else if compareToken "PANEL" s then .panel
  else .refdes s

/-- The kind of a hole, as read, idf_common.cpp:589-609. -/
def parseHole (s : Str) : Hole :=
  if compareToken "PIN" s then .pin
  else if compareToken "VIA" s then .via
  else if compareToken "MTG" s then .mtg
  else if compareToken "TOOL" s then .tool
  else .other s

/-- The least diameter accepted, idf_common.cpp:449-451 and idf_helpers.h:34-36. -/
def minDia : Unit → ℚ
  | .mm => 1 / 1000
  | .thou => 39 / 100000
  | .tnm => 100

/-- The factor to millimetres, idf_common.cpp:632-650; `none` is an exception: tens of nanometres exist in version 2
only. -/
def unitFactor (u : Unit) (v : Version) : Option ℚ :=
  match u with
  | .thou => some thouToMM
  | .tnm => if v = .v2 then some tnmToMM else none
  | .mm => some 1

/-- The words of a hole after its position, idf_common.cpp:498-630: plating, what it belongs to, kind and owner.  Version 2
has only the kind and what the hole belongs to, in this order. -/
def readHoleWords (v : Version) (s : Str) : Option (Bool × Ref × Hole × Owner) :=
  match v with
  | .v3 =>
    match getWord s with
    | .word p _ s =>
      match (if compareToken "PTH" p then some true else if compareToken "NPTH" p then some false else none) with
      | none => none
      | some plated =>
        match getWord s with
        | .word t1 _ s =>
          match getWord s with
          | .word t2 _ s =>
            match getWord s with
            | .word o _ _ => (parseOwner o).map fun w => (plated, parseRef t1, parseHole t2, w)
            | _ => none
          | _ => none
        | _ => none
    | _ => none
  | .v2 =>
    match getWord s with
    | .word t1 _ s =>
      match getWord s with
      | .word t2 _ _ => some (true, parseRef t2, parseHole t1, .unowned)
      | _ => none
    | _ => none

/-- `IDF_DRILL_DATA::read`, idf_common.cpp:407-653. -/
def readDrill (u : Unit) (v : Version) (input : List Str) : Rec Drill :=
  let (l, rest) := nextLine input
  if l.text = [] ∨ l.comment then .error                              -- 420-427
  else
    match getWord l.text with
    | .word t q r =>
      if q then .error                                                -- 432-435
      else if compareToken ".END_DRILLED_HOLES" t then .finish rest   -- 437-438
      else
        match readNum t with
        | none => .error                                              -- 443-447
        | some dia =>
          if dia < minDia u then .error                               -- 449-458
          else
            match numWord r with
            | none => .error
            | some (x, r) =>
              match numWord r with
              | none => .error
              | some (y, r) =>
                match readHoleWords v r with
                | none => .error
                | some (plated, ref, hole, owner) =>
                  match unitFactor u v with
                  | none => .error
                  | some f => .item ⟨dia * f, x * f, y * f, plated, ref, hole, owner⟩ rest
    | _ => .error

/-- `IDF_DRILL_DATA::write`, idf_common.cpp:655-741. -/
def writeDrill (u : Unit) (d : Drill) : Str :=
  let hole := match d.hole with
    | .pin => "PIN".toList
    | .via => "VIA".toList
    | .tool => "TOOL".toList
    | .other n => '"' :: n ++ ['"']
    | .mtg => "MTG".toList
  let ref := match d.ref with
    | .board => "BOARD".toList
    | .panel => "PANEL".toList
    | .refdes n => '"' :: n ++ ['"']
    | .norefdes => "NOREFDES".toList
  let plt := if d.plated then "PTH".toList else "NPTH".toList
  let own := match d.owner with
    | .mcad => "MCAD".toList
    | .ecad => "ECAD".toList
    | .unowned => "UNOWNED".toList
  (if u = .mm then fmtF 3 d.dia ++ ' ' :: fmtF 5 d.x ++ ' ' :: fmtF 5 d.y
  else fmtF 1 (d.dia / thouToMM) ++ ' ' :: fmtF 1 (d.x / thouToMM) ++ ' ' :: fmtF 1 (d.y / thouToMM)) ++
  ' ' :: plt ++ ' ' :: ref ++ ' ' :: hole ++ ' ' :: own ++ ['\n']

/-- The loop of `IDF3_BOARD::readBrdDrills`, idf_parser.cpp:1634-1653. -/
def readDrills (u : Unit) (v : Version) (s : List Str) : Option (List Drill × List Str) :=
  readAll (readDrill u v) (s.length + 1) s

/-- The holes of `IDF3_BOARD::writeBoardFile` after the section header, idf_parser.cpp:2985-3003. -/
def writeDrills (u : Unit) (ds : List Drill) : Str := ds.flatMap (writeDrill u) ++ ".END_DRILLED_HOLES\n\n".toList

end Iges.Idf
