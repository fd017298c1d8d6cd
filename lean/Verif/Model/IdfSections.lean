import Verif.Model.IdfOutline
/-
The outline sections of a board file other than the outline of the board itself: other outlines, keepouts for vias,
outlines and keepouts for routing and placement, and placement regions (idf/idf_outlines.cpp).
-/
namespace Iges.Idf

/-- `IDF_LAYER`, idf_common.h; the value `LYR_INVALID` is `none` of an `Option Layer`. -/
inductive Layer where
  | top | bottom | both | inner | all
  deriving DecidableEq, Repr

/-- `ParseIDFLayer`, idf_helpers.cpp:172-204. -/
def parseLayer (s : Str) : Option Layer :=
  if compareToken "TOP" s then some .top
  else if compareToken "BOTTOM" s then some .bottom
  else if compareToken "BOTH" s then some .both
  else if compareToken "INNER" s then some .inner
  else if compareToken "ALL" s then some .all
  else none

/-- `WriteLayersText`, idf_helpers.cpp:207-243. -/
def layerText : Layer → Str
  | .top => "TOP".toList
  | .bottom => "BOTTOM".toList
  | .both => "BOTH".toList
  | .inner => "INNER".toList
  | .all => "ALL".toList

/-- The kinds of outline sections, `OUTLINE_TYPE`: `OTHER_OUTLINE`, `VIA_KO_OUTLINE`, `ROUTE_OUTLINE`, `ROUTE_KO_OUTLINE`, `PLACE_OUTLINE`,
`PLACE_KO_OUTLINE`, `GROUP_OUTLINE`. -/
inductive OlnKind where
  | other | via | route | routeKo | place | placeKo | region
  deriving DecidableEq, Repr

/-- The name of a section: `.NAME` and `.END_NAME` are its first and last lines. -/
def OlnKind.name : OlnKind → String
  | .other => "OTHER_OUTLINE"
  | .via => "VIA_KEEPOUT"
  | .route => "ROUTE_OUTLINE"
  | .routeKo => "ROUTE_KEEPOUT"
  | .place => "PLACE_OUTLINE"
  | .placeKo => "PLACE_KEEPOUT"
  | .region => "PLACE_REGION"

/-- The member `single`, idf_outlines.cpp:1554, 1952, 2244, 2669, 2683. -/
def OlnKind.single : OlnKind → Bool
  | .other => false
  | _ => true

/-- The members of the classes that are in the file, without the comments.  `side` is `side` or `layers`, `ident` is `uniqueID` or
`groupName`; what a class does not have keeps its initial value. -/
structure OlnSect where
  owner : Owner
  side : Option Layer
  thickness : ℚ
  ident : Str
  outlines : List (List QSeg)

/-- A record line: `none` is an exception, for a comment or at the end of the file, e.g. idf_outlines.cpp:1694-1715, 2041-2064. -/
def infoLine (input : List Str) : Option (Str × List Str) :=
  let (l, rest) := nextLine input
  if rest = [] ∨ l.text = [] ∨ l.comment then none else some (l.text, rest)

/-- Record 2 of an other outline, idf_outlines.cpp:1691-1806: name, thickness and, from version 3 on, side.  None of the words may be
missing; quotes are not looked at. -/
def otherInfo (u : Unit) (v : Version) (s : Str) : Option (Option Layer × ℚ × Str) :=
  match getWord s with
  | .word name _ s =>
    match getWord s with
    | .word t _ s =>
      match readNum t with
      | none => none
      | some th =>
        match unitFactor u v with
        | none => none
        | some f =>
          if v = .v2 then some (some .top, th * f, name)
          else
            match getWord s with
            | .word t _ _ =>
              match parseLayer t with
              | some .top => some (some .top, th * f, name)
              | some .bottom => some (some .bottom, th * f, name)
              | _ => none
            | _ => none
    | _ => none
  | _ => none

/-- Record 2 of a routing outline or keepout, idf_outlines.cpp:2066-2116. -/
def routeInfo (v : Version) (s : Str) : Option (Option Layer × ℚ × Str) :=
  match getWord s with
  | .word t q _ =>
    if q then none
    else
      match parseLayer t with
      | none => none
      | some l => if v = .v2 ∧ (l = .inner ∨ l = .all) then none else some (some l, 0, [])
  | _ => none

/-- The sides of placement outlines and regions, idf_outlines.cpp:2425-2436, 2832-2843. -/
def placeSide (s : Str) : Option Layer :=
  match parseLayer s with
  | some .top => some .top
  | some .bottom => some .bottom
  | some .both => some .both
  | _ => none

/-- Record 2 of a placement outline or keepout, idf_outlines.cpp:2413-2499. -/
def placeInfo (ko : Bool) (u : Unit) (v : Version) (s : Str) : Option (Option Layer × ℚ × Str) :=
  match getWord s with
  | .word t _ s =>
    match placeSide t with
    | none => none
    | some l =>
      match getWord s with
      | .word t _ _ =>
        match readNum t with
        | none => none
        | some th =>
          if th < 0 then none
          else
            match unitFactor u v with
            | none => none
            | some f => some (some l, if th * f < 0 then 0 else th * f, [])
      | _ => if ko then none else some (some l, -1, [])
  | _ => none

/-- Record 2 of a placement region, idf_outlines.cpp:2820-2857. -/
def regionInfo (s : Str) : Option (Option Layer × ℚ × Str) :=
  match getWord s with
  | .word t _ s =>
    match placeSide t with
    | none => none
    | some l =>
      match getWord s with
      | .word name _ _ => some (some l, 0, name)
      | _ => none
  | _ => none

/-- Record 2 of a section, if it has one.  Keepouts for vias have none; in version 2 the outlines for routing and placement have
none, idf_outlines.cpp:2038, 2118-2121, 2385, 2500-2504. -/
def readInfo (k : OlnKind) (u : Unit) (v : Version) (input : List Str) : Option ((Option Layer × ℚ × Str) × List Str) :=
  let rec2 (f : Str → Option (Option Layer × ℚ × Str)) : Option ((Option Layer × ℚ × Str) × List Str) :=
    match infoLine input with
    | none => none
    | some (s, rest) => (f s).map fun x => (x, rest)
  match k with
  | .via => some ((none, 0, []), input)
  | .other => rec2 (otherInfo u v)
  | .route => if v = .v2 then some ((some .all, 0, []), input) else rec2 (routeInfo v)
  | .routeKo => rec2 (routeInfo v)
  | .place => if v = .v2 then some ((some .top, 0, []), input) else rec2 (placeInfo false u v)
  | .placeKo => rec2 (placeInfo true u v)
  | .region => rec2 regionInfo

/-- Whether a line is the last of the section: the whole line for the first four kinds, idf_outlines.cpp:1843-1866, 2155-2178, its first word for
the others, 2539-2552, 2894-2897. -/
def isEnd (k : OlnKind) (s : Str) : Bool :=
  match k with
  | .other | .via | .route | .routeKo => compareToken (".END_" ++ k.name) s
  | _ =>
    match getWord s with
    | .word t _ _ => compareToken (".END_" ++ k.name) t
    | _ => false

/-- `readData` of the classes, idf_outlines.cpp:1613-1869, 1973-2183, 2321-2558, 2745-2901; `header` is the line `.NAME [owner]`, already read. -/
def readSect (k : OlnKind) (ccw : List QSeg → Bool) (u : Unit) (v : Version) (header : Str) (input : List Str) : Option (OlnSect × List Str) :=
  match getWord header with
  | .word t q r =>
    if q = true ∨ compareToken ("." ++ k.name) t = false then none
    else
      match readInfo k u v input with
      | none => none
      | some ((side, th, ident), rest) =>
        match readOutlines k.single false ccw u v .start rest with
        | none => none
        | some (ls, rest) =>
          match infoLine rest with
          | none => none
          | some (s, rest) => if isEnd k s then some (⟨headerOwner r, side, th, ident, ls⟩, rest) else none
  | _ => none

/-- Record 2 as written, idf_outlines.cpp:1888-1914, 2204-2206, 2571-2612, 2914-2936; `none` is an exception.  No line end is written after the side of an
other outline. -/
def infoText (k : OlnKind) (u : Unit) (s : OlnSect) : Option Str :=
  match k with
  | .via => some []
  | .other =>
    match s.side with
    | some .top | some .bottom =>
      s.side.map fun l => '"' :: s.ident ++ '"' :: ' ' :: coordText u s.thickness ++ ' ' :: layerText l
    | _ => none
  | .route | .routeKo => s.side.map fun l => layerText l ++ ['\n']
  | .place | .placeKo =>
    match s.side with
    | some .top | some .bottom | some .both =>
      s.side.map fun l => layerText l ++
        if s.thickness < 0 ∧ k = .placeKo then ['\n'] else ' ' :: coordText u s.thickness ++ ['\n']
    | _ => none
  | .region =>
    match s.side with
    | some .top | some .bottom | some .both => s.side.map fun l => layerText l ++ ' ' :: '"' :: s.ident ++ ['"', '\n']
    | _ => none

/-- `writeData` of the classes, idf_outlines.cpp:1872-1927, 2186-2216, 2561-2622, 2904-2944, without the comments; a section without outlines is not
written. -/
def writeSect (k : OlnKind) (ccw : List QSeg → Bool) (u : Unit) (s : OlnSect) : Written :=
  if s.outlines = [] then .text []
  else
    match infoText k u s with
    | none => .throws
    | some info =>
      match writeLoops k.single ccw u 0 s.outlines with
      | .throws => .throws
      | .undefined => .undefined
      | .text t => .text (('.' :: k.name.toList) ++ ' ' :: ownerText s.owner ++ '\n' :: (info ++ (t ++ (".END_".toList ++ k.name.toList ++ ['\n', '\n']))))

end Iges.Idf
