import Verif.Model.IdfText
/-
The placement section of an IDF board file (idf/idf_parser.cpp).
-/
namespace Iges.Idf

/-- `CAD_TYPE`, idf_common.h, without the invalid value. -/
inductive Cad where
  | elec | mech
  deriving DecidableEq, Repr

/-- `IDF_LAYER` as far as components use it. -/
inductive Side where
  | top | bottom
  deriving DecidableEq, Repr

/-- `IDF_PLACEMENT`, idf_common.h, without `PS_INVALID`. -/
inductive Placement where
  | unplaced | placed | mcad | ecad
  deriving DecidableEq, Repr

/-- `IDF3_COMP_OUTLINE_DATA`: the names of the outline (`none` for a null pointer) and the offsets. -/
structure OutData where
  outline : Option (Str × Str)
  x : ℚ
  y : ℚ
  z : ℚ
  a : ℚ
  deriving DecidableEq, Repr

/-- Position of a component. -/
structure CompPos where
  x : ℚ
  y : ℚ
  a : ℚ
  side : Side
  deriving DecidableEq, Repr

/-- `IDF3_COMPONENT`; `pos = none` is `hasPosition == false`, `placement = none` is `PS_INVALID`. -/
structure Comp where
  refdes : Str
  pos : Option CompPos
  placement : Option Placement
  outs : List OutData
  drills : List Drill
  deriving DecidableEq, Repr

/-- The order of `std::string`. -/
def strLt : Str → Str → Bool
  | [], [] => false
  | [], _ :: _ => true
  | _ :: _, [] => false
  | a :: s, b :: t => if a = b then strLt s t else decide (a.toNat < b.toNat)

/-- `std::map<std::string, T>` as a list in the order of the keys. -/
abbrev SMap (α : Type) := List (Str × α)

/-- `find`. -/
def SMap.find {α : Type} (k : Str) : SMap α → Option α
  | [] => none
  | (k', c) :: r => if k' = k then some c else SMap.find k r

/-- `insert`, when the key is absent. -/
def SMap.add {α : Type} (k : Str) (c : α) : SMap α → SMap α
  | [] => [(k, c)]
  | (k', c') :: r => if strLt k k' then (k, c) :: (k', c') :: r else (k', c') :: SMap.add k c r

/-- Change through the pointer held by the map. -/
def SMap.change {α : Type} (k : Str) (c : α) : SMap α → SMap α
  | [] => []
  | (k', c') :: r => if k' = k then (k', c) :: r else (k', c') :: SMap.change k c r

/-- The part of `IDF3_BOARD` the placement section works on; `lib` is `compOutlines`, with the names of each outline. -/
structure PBoard where
  cad : Cad
  lib : SMap (Str × Str)
  comps : SMap Comp
  next : ℕ
  deriving DecidableEq, Repr

/-- A record of the placement section: names, reference (`none` for NOREFDES), position in millimetres. -/
structure PlaceRec where
  geom : Str
  part : Str
  ref : Option Str
  x : ℚ
  y : ℚ
  z : ℚ
  a : ℚ
  side : Side
  placement : Placement
  deriving DecidableEq, Repr

/-- A word, quoted or not, read as a number, idf_parser.cpp:449-474. -/
def numWordQ (s : Str) : Option (ℚ × Str) :=
  match getWord s with
  | .word t _ rest => (readNum t).map (·, rest)
  | _ => none

/-- The placement status, idf_parser.cpp:583-618. -/
def parsePlacement (cad : Cad) (v : Version) (t : Str) : Option Placement :=
  if compareToken "PLACED" t then some .placed
  else if compareToken "UNPLACED" t then some .unplaced
  else if v = .v3 ∧ compareToken "MCAD" t then some .mcad
  else if v = .v3 ∧ compareToken "ECAD" t then some .ecad
  else if v = .v2 ∧ compareToken "FIXED" t then some (if cad = .elec then .mcad else .ecad)
  else none

/-- The side, idf_parser.cpp:551-570. -/
def parseSide (t : Str) : Option Side :=
  if compareToken "TOP" t then some .top
  else if compareToken "BOTTOM" t then some .bottom
  else none

/-- The names of record 2, idf_parser.cpp:305-393, from the first word on; the reference `none` is NOREFDES. -/
def parseNames (geom : Str) (r : Str) : Option (Str × Str × Option Str) :=
  match getWord r with
  | .word part _ r =>
    match getWord r with
    | .word t _ _ =>
      if compareToken "NOREFDES" t then some (geom, part, none)
      else if compareToken "BOARD" t then none
      else if compareToken "PANEL" t then none
      else if t = [] then none
      else some (geom, part, some t)
    | _ => none
  | _ => none

/-- Numbers of record 3 after the first, idf_parser.cpp:449-538. -/
def parseRest (v : Version) (r : Str) : Option (ℚ × ℚ × ℚ × Str) :=
  match numWordQ r with
  | none => none
  | some (y, r) =>
    match v with
    | .v3 =>
      match numWordQ r with
      | none => none
      | some (z, r) => (numWordQ r).map fun p => (y, z, p.1, p.2)
    | .v2 => (numWordQ r).map fun p => (y, 0, p.1, p.2)

/-- Side and status of record 3, idf_parser.cpp:540-618. -/
def parseStatus (cad : Cad) (v : Version) (r : Str) : Option (Side × Placement) :=
  match getWord r with
  | .word t _ r =>
    match parseSide t with
    | none => none
    | some side =>
      match getWord r with
      | .word t _ _ => (parsePlacement cad v t).map (side, ·)
      | _ => none
  | _ => none

/-- Record 3, idf_parser.cpp:425-639, without the lookups: numbers in millimetres. -/
def parsePos (cad : Cad) (u : Unit) (v : Version) (s : Str) : Option (ℚ × ℚ × ℚ × ℚ × Side × Placement) :=
  match numWord s with
  | none => none
  | some (x, r) =>
    match parseRest v r with
    | none => none
    | some (y, z, a, r) =>
      match parseStatus cad v r with
      | none => none
      | some (side, p) =>
        if u = .thou then some (x * thouToMM, y * thouToMM, z * thouToMM, a, side, p) else some (x, y, z, a, side, p)

/-- The reading part of `IDF3_COMP_OUTLINE_DATA::readPlaceData`, idf_parser.cpp:255-639.  The second line must be
terminated by a line end (397-406). -/
def readPlaceRec (cad : Cad) (u : Unit) (v : Version) (input : List Str) : Rec PlaceRec :=
  let (l, rest) := nextLine input
  if l.text = [] ∨ l.comment then .error                                              -- 283-304
  else
    match getWord l.text with
    | .word t q r =>
      if q = false ∧ compareToken ".END_PLACEMENT" t then .finish rest                -- 309-313
      else
        match parseNames t r with
        | none => .error
        | some (geom, part, ref) =>
          let (l, rest) := nextLine rest
          if rest = [] ∨ l.text = [] ∨ l.comment then .error                          -- 397-419
          else
            match parsePos cad u v l.text with
            | none => .error
            | some (x, y, z, a, side, p) => .item ⟨geom, part, ref, x, y, z, a, side, p⟩ rest
    | _ => .error

/-- The unique name of an outline, idf_parser.cpp:330. -/
def uidOf (geom part : Str) : Str := geom ++ '_' :: part

/-- `GetInvalidOutline`, idf_parser.cpp:3970-4011, with the names given by `CreateDefaultOutline`, idf_outlines.cpp:3540-3551. -/
def invalidOutline (lib : SMap (Str × Str)) (geom part : Str) : (Str × Str) × SMap (Str × Str) :=
  let names := if geom = [] ∧ part = [] then ("NOGEOM".toList, "NOPART".toList) else (geom, part)
  match lib.find (uidOf names.1 names.2) with
  | some o => (o, lib)
  | none => (names, lib.add (uidOf names.1 names.2) names)

/-- The outline of a record, idf_parser.cpp:620-632. -/
def findOutline (noSub : Bool) (lib : SMap (Str × Str)) (geom part : Str) : Option (Str × Str) × SMap (Str × Str) :=
  match lib.find (uidOf geom part) with
  | some o => (some o, lib)
  | none => if noSub then (none, lib) else let r := invalidOutline lib geom part; (some r.1, r.2)

/-- The name of a component without one: `GetNewRefDes`, idf_parser.cpp:1384-1392. -/
def newRefDes (n : ℕ) : Str := "NOREFDESn".toList ++ natStr n

/-- The storing part of `readPlaceData`, idf_parser.cpp:620-735: a new component takes the position, a later record of the
component stores the difference to it. -/
def storePlace (noSub : Bool) (b : PBoard) (r : PlaceRec) : Option PBoard :=
  let refdes := match r.ref with | some n => n | none => newRefDes b.next
  let next := match r.ref with | some _ => b.next | none => b.next + 1
  let o := findOutline noSub b.lib r.geom r.part
  match b.comps.find refdes with
  | none =>
    let c : Comp := ⟨refdes, some ⟨r.x, r.y, r.a, r.side⟩, some r.placement, [⟨o.1, 0, 0, r.z, 0⟩], []⟩
    some ⟨b.cad, o.2, b.comps.add refdes c, next⟩
  | some c =>
    match c.pos with
    | some p =>
      if r.side ≠ p.side then none                                                    -- 680-693
      else if some r.placement ≠ c.placement then none                                -- 709-722
      else some ⟨b.cad, o.2, b.comps.change refdes { c with outs := c.outs ++ [⟨o.1, r.x - p.x, r.y - p.y, r.z, r.a - p.a⟩] }, next⟩
    | none =>
      -- SetPosition and SetPlacement, 699-706, refuse when the placement is the other side's (870-940)
      if (c.placement = some .mcad ∧ b.cad ≠ .mech) ∨ (c.placement = some .ecad ∧ b.cad ≠ .elec) then
        if some r.placement ≠ c.placement then none
        else some ⟨b.cad, o.2, b.comps.change refdes { c with outs := c.outs ++ [⟨o.1, 0, 0, r.z, 0⟩] }, next⟩
      else
        let c' : Comp := ⟨c.refdes, some ⟨r.x, r.y, r.a, r.side⟩, some r.placement, c.outs ++ [⟨o.1, 0, 0, r.z, 0⟩], c.drills⟩
        some ⟨b.cad, o.2, b.comps.change refdes c', next⟩

/-- `IDF3_BOARD::readBrdPlacement`, idf_parser.cpp:1673-1680: records are read and stored one by one. -/
def readPlacement (u : Unit) (v : Version) (noSub : Bool) : ℕ → PBoard → List Str → Option (PBoard × List Str)
  | 0, _, _ => none
  | n + 1, b, s =>
    match readPlaceRec b.cad u v s with
    | .error => none
    | .finish rest => some (b, rest)
    | .item r rest =>
      match storePlace noSub b r with
      | none => none
      | some b' => readPlacement u v noSub n b' rest

/-- `WriteLayersText` for the two sides, idf_helpers.cpp:207-243. -/
def sideText : Side → Str
  | .top => "TOP".toList
  | .bottom => "BOTTOM".toList

/-- The placement status as written, idf_parser.cpp:815-832; `PS_INVALID` becomes PLACED, 752-757. -/
def placementText : Option Placement → Str
  | some .placed | none => "PLACED".toList
  | some .unplaced => "UNPLACED".toList
  | some .mcad => "MCAD".toList
  | some .ecad => "ECAD".toList

/-- The name as written, idf_parser.cpp:786-790. -/
def refText (r : Str) : Str :=
  if r = [] ∨ r = ['~'] ∨ (8 ≤ r.length ∧ compareToken "NOREFDES" (r.take 8)) then "NOREFDES".toList else r

/-- `IDF3_COMP_OUTLINE_DATA::writePlaceData`, idf_parser.cpp:739-835.  `none` is an exception: no side (759-766) or no
names (748-750; `GetUID` is empty when both are). -/
def writePlaceRec (u : Unit) (c : Comp) (o : OutData) : Option Str :=
  match o.outline with
  | none => some []                                                                   -- 745-746
  | some (geom, part) =>
    if geom = [] ∧ part = [] then none
    else
      match c.pos with
      | none => none
      | some p =>
        let x := if p.side = .top then p.x + o.x else p.x - o.x                       -- 768-784
        let y := p.y + o.y
        let a := if p.side = .top then p.a + o.a else p.a - o.a
        some ('"' :: geom ++ '"' :: ' ' :: '"' :: part ++ '"' :: ' ' :: refText c.refdes ++ '\n' ::
          (if u = .mm then fmtF 5 x ++ ' ' :: fmtF 5 y ++ ' ' :: fmtF 3 o.z ++ ' ' :: fmtF 3 a
           else fmtF 1 (x / thouToMM) ++ ' ' :: fmtF 1 (y / thouToMM) ++ ' ' :: fmtF 1 (o.z / thouToMM) ++ ' ' :: fmtF 3 a) ++
          ' ' :: sideText p.side ++ ' ' :: placementText c.placement ++ ['\n'])

/-- Several texts, or the first exception. -/
def concatTexts : List (Option Str) → Option Str
  | [] => some []
  | none :: _ => none
  | some s :: r => (concatTexts r).map (s ++ ·)

/-- `IDF3_COMPONENT::writePlaceData`, idf_parser.cpp:1334-1349. -/
def writePlaceComp (u : Unit) (c : Comp) : Option Str := concatTexts (c.outs.map (writePlaceRec u c))

/-- The section without its first line, as `IDF3_BOARD::writeBoardFile` writes it, idf_parser.cpp:3064-3076. -/
def writePlacement (u : Unit) (m : SMap Comp) : Option Str :=
  (concatTexts (m.map fun p => writePlaceComp u p.2)).map (· ++ ".END_PLACEMENT\n".toList)

end Iges.Idf
