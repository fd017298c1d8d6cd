import Verif.Model.Reader
import Verif.Model.Dates
import Verif.Model.SecOps
/-
The global section: `IGES::init`, `IGES::readGlobals`, `IGES::writeGlobals`.
-/
namespace Iges

/-- `IGES_GLOBAL` (core/iges_base.h).  Doubles are exact rationals, enumerations are integers. -/
structure Globals where
  pdelim : Char
  rdelim : Char
  productIDSS : Str
  fileName : Str
  nativeSystemID : Str
  preprocessorVersion : Str
  nIntegerBits : Int
  floatMaxExp : Int
  floatMaxSig : Int
  doubleMaxExp : Int
  doubleMaxSig : Int
  productIDRS : Str
  modelScale : ℚ
  unitsFlag : Int
  unitsName : Str
  maxLinewidthGrad : Int
  maxLinewidth : ℚ
  creationDate : Str
  minResolution : ℚ
  maxCoordinateValue : ℚ
  author : Str
  organization : Str
  igesVersion : Int
  draftStandard : Int
  modificationDate : Str
  applicationNote : Str
  cf : ℚ
  convert : Bool
  deriving DecidableEq

/-- The global data after `IGES::init`, iges.cpp:355-400. -/
def initGlobals : Globals :=
  { pdelim := ',', rdelim := ';', productIDSS := [], fileName := [], nativeSystemID := [],
    preprocessorVersion := [], nIntegerBits := 0, floatMaxExp := 0, floatMaxSig := 0, doubleMaxExp := 0,
    doubleMaxSig := 0, productIDRS := [], modelScale := 1, unitsFlag := 2, unitsName := [],
    maxLinewidthGrad := 1, maxLinewidth := 0, creationDate := [], minResolution := 1 / 10 ^ 8,
    maxCoordinateValue := 0, author := [], organization := [], igesVersion := 3, draftStandard := 0,
    modificationDate := [], applicationNote := [], cf := 1, convert := false }

/-- `UNIT_NAMES`, iges.cpp:76-89; the array has twelve elements, the last is empty. -/
def unitNames : List Str :=
  ["IN".toList, "MM".toList, "CUST".toList, "FT".toList, "MI".toList, "M".toList, "KM".toList, "MIL".toList,
   "UM".toList, "CM".toList, "UIN".toList, []]

/-- `UNIT_TO_MM`, iges.cpp:92-105; the unspecified last element is zero. -/
def unitToMM : List ℚ :=
  [254 / 10, 1, 1, 3048 / 10, 1609344, 1000, 1000000, 254 / 10000, 1 / 1000, 10, 254 / 10000000, 0]

/-- `UNIT_NAMES[unit - UNIT_START]` -/
def unitNameAt (u : Int) : Str := unitNames.getD (u - 1).toNat []
/-- `UNIT_TO_MM[unit - UNIT_START]` -/
def unitMM (u : Int) : ℚ := unitToMM.getD (u - 1).toNat 0

/-- `globs[idx]`; one past the end is NUL. -/
def charAt (s : Str) (i : Nat) : Char := s.getD i '\x00'

/-- The characters refused as delimiters, iges.cpp:1069-1073 (also 1105-1108). -/
def badDelim (c : Char) : Bool :=
  c.toNat ≤ 0x20 || c.toNat ≥ 0x7f || c == ';' || c == '+' || c == '-' || c == '.' || c == 'D' || c == 'E' ||
  c == 'H' || (c.toNat ≥ 0x30 && c.toNat ≤ 0x39)

/-- The first two global parameters, iges.cpp:1052-1130: the delimiters and the cursor.  `pd0`, `rd0`
are the delimiters stored before the call.  For the record delimiter the code compares the start of
the whole section with "1H" (`compare(0, 2, "1H")`) and checks the parameter delimiter again. -/
def readDelims (globs : Str) (pd0 rd0 : Char) : Rd (Char × Char × Nat) := do
  let (delim, idx) ←
    if charAt globs 0 ≠ ',' then do
      Rd.need (globs.take 2 = "1H".toList)
      Rd.need (badDelim (charAt globs 2) = false)
      Rd.val (charAt globs 2, 3)
    else Rd.val (pd0, 0)
  Rd.need (charAt globs idx = delim)
  let idx := idx + 1
  let (rdelim, idx) ←
    if charAt globs idx ≠ delim then do
      Rd.need (globs.take 2 = "1H".toList)
      Rd.need (badDelim delim = false)
      Rd.val (charAt globs (idx + 2), idx + 3)
    else Rd.val (rd0, idx)
  Rd.need (charAt globs idx = delim)
  Rd.val (delim, rdelim, idx + 1)

/-- The decimal of a default value. -/
def tok (n : Int) : RealTok := .dec ⟨n, 0⟩

/-- A parameter that is not read any more once the end of the record has been seen, e.g.
iges.cpp:1415-1419. -/
def unlessEor {α : Type} (c : Cur) (dflt : α) (rd : Rd (α × Cur)) : Rd (α × Cur) :=
  if c.eor then Rd.val (dflt, c) else rd

/-- A date that must be valid. -/
def needDate (s : Str) : Rd Unit := Rd.lift (checkDate s) fun ok => if ok then Rd.val () else Rd.fail

/-- Scale and units are normalised to 1.0 and millimetres, iges.cpp:1526-1542. -/
def normalise (g : Globals) : Globals :=
  let g := if g.modelScale < 9999998 / 10000000 ∨ g.modelScale > 1000001 / 1000000 then
      { g with minResolution := g.minResolution / g.modelScale, cf := 1 / g.modelScale, modelScale := 1,
               convert := true }
    else g
  if g.unitsFlag ≠ 2 then
    { g with minResolution := g.minResolution * unitMM g.unitsFlag, cf := g.cf * unitMM g.unitsFlag,
             unitsFlag := 2, convert := true }
  else g

/-- Parameters 3 to 25 of the global section, iges.cpp:1132-1508.  `s` is the text with the
delimiters found before. -/
def readGlobalParams (s : Src) (c : Cur) (g : Globals) : Rd (Globals × Cur) := do
  let (productIDSS, c) ← s.hstr c
  Rd.need (productIDSS ≠ [])                                           -- 1142
  let (fileName, c) ← s.hstr c
  Rd.need (fileName ≠ [])
  let (nativeSystemID, c) ← s.hstr c
  Rd.need (nativeSystemID ≠ [])
  let (preprocessorVersion, c) ← s.hstr c                              -- 1182-1195: tests nativeSystemID again
  let (nIntegerBits, c) ← s.int c
  Rd.need (8 ≤ nIntegerBits ∧ nIntegerBits ≤ 32)
  let (floatMaxExp, c) ← s.int c
  Rd.need (4 ≤ floatMaxExp ∧ floatMaxExp ≤ 308)
  let (floatMaxSig, c) ← s.int c
  Rd.need (3 ≤ floatMaxSig ∧ floatMaxSig ≤ 16)
  let (doubleMaxExp, c) ← s.int c
  Rd.need (4 ≤ doubleMaxExp ∧ doubleMaxExp ≤ 308)
  let (doubleMaxSig, c) ← s.int c
  Rd.need (3 ≤ doubleMaxSig ∧ doubleMaxSig ≤ 16)
  let (productIDRS, c) ← s.hstr c                                      -- productIDSS is not empty here
  let (modelScale, c) ← s.real c (some (tok 1))
  let (unitsFlag, c) ← s.int c (some 1)
  Rd.need (1 ≤ unitsFlag ∧ unitsFlag ≤ 11)
  let (unitsName, c) ← s.hstr c
  Rd.need (¬ (unitsName = [] ∧ unitsFlag = 3))
  let unitsName := if unitsName ≠ [] ∧ unitsFlag ≠ 3 then unitNameAt unitsFlag else unitsName
  let (maxLinewidthGrad, c) ← s.int c (some 1)
  Rd.need (1 ≤ maxLinewidthGrad)
  let (maxLinewidth, c) ← s.real c
  Rd.need (0 ≤ maxLinewidth)
  let (creationDate, c) ← s.hstr c
  Rd.need (creationDate ≠ [])
  needDate creationDate
  let (minResolution, c) ← s.real c
  Rd.need (0 < minResolution)
  let (maxCoordinateValue, c) ← unlessEor c 0 (do
    let (v, c) ← s.real c (some (tok 0))
    Rd.need (0 ≤ v)
    Rd.val (v, c))
  let (author, c) ← unlessEor c [] (s.hstr c)
  let (organization, c) ← unlessEor c [] (s.hstr c)
  let (igesVersion, c) ← unlessEor c 3 (do
    let (v, c) ← s.int c (some 11)
    Rd.val ((if v < 3 then 3 else if v > 11 then 11 else v), c))
  let (draftStandard, c) ← unlessEor c 0 (s.int c (some 0))            -- out-of-range values only warn
  let (modificationDate, c) ← unlessEor c [] (do
    let (v, c) ← s.hstr c
    needDate v
    Rd.val (v, c))
  Rd.val ({ g with
    productIDSS, fileName, nativeSystemID, preprocessorVersion, nIntegerBits, floatMaxExp, floatMaxSig,
    doubleMaxExp, doubleMaxSig, productIDRS, modelScale, unitsFlag, unitsName, maxLinewidthGrad,
    maxLinewidth, creationDate, minResolution, maxCoordinateValue, author, organization, igesVersion,
    draftStandard, modificationDate }, c)

/-- `IGES::readGlobals` on the joined data columns of the section, iges.cpp:1052-1544.  If the record
ends before parameter 26 the function returns at 1514-1515, before the normalisation. -/
def readGlobals (num : RealTok → ℚ) (globs : Str) (g0 : Globals) : Rd Globals := do
  let (pd, rd, idx) ← readDelims globs g0.pdelim g0.rdelim
  let s : Src := ⟨globs, pd, rd, num⟩
  let (g, c) ← readGlobalParams s ⟨idx, false⟩ { g0 with pdelim := pd, rdelim := rd }
  if c.eor then Rd.val { g with applicationNote := [] }                -- 1511-1515
  else do
    let (note, c) ← s.hstr c
    Rd.need (c.eor = true)                                             -- 1523-1527
    Rd.val (normalise { g with applicationNote := note })

/-- The text in front of parameter 3, iges.cpp:2017-2031. -/
def delimPrefix (pd rd : Char) : Str :=
  (if pd = ',' then [','] else ['1', 'H', pd, pd]) ++ (if rd = ';' then [pd] else ['1', 'H', rd, pd])

/-- `none` if empty -/
def orNone (s : Str) : Str := if s = [] then "none".toList else s

/-- The effect of `writeGlobals` on the global data: iges.cpp:2014-2015, 2249-2250, 2265-2266. -/
def prepGlobals (g : Globals) : Globals :=
  let g := if g.minResolution < 1 / 10 ^ 12 then { g with minResolution := 1 / 1000 } else g
  let g := if g.maxLinewidthGrad < 1 then { g with maxLinewidthGrad := 1 } else g
  if g.maxLinewidth < 1 / 10 ^ 6 then { g with maxLinewidthGrad := 1 } else g

/-- The emitter calls of `writeGlobals` for the parameters 3 to 26, iges.cpp:2033-2366.  `est` gives
the number of digits for a value and resolution, `ver` is the version text, `now` the current time as
a date string.  Parameter 16 is written before line 2265 may reset it.  `none`: the function returns
`false` (no text has been written to the file by then). -/
def globalOps (est : ℚ → ℚ → Nat) (ver now : Str) (g : Globals) : Res (Option (List SecOp)) :=
  let pd := g.pdelim
  let rd := g.rdelim
  let p := prepGlobals g
  let m := p.minResolution
  let grad16 := if g.maxLinewidthGrad < 1 then 1 else g.maxLinewidthGrad
  (checkDate g.creationDate).bind fun dateOk =>                         -- 2283
  let date := if dateOk then g.creationDate else now
  .ok (do
    if g.fileName = [] then none else                                  -- 2054-2058
    let scale ← FormatPDREal (est g.modelScale m) g.modelScale pd m
    let width ← FormatPDREal (est p.maxLinewidthGrad m) p.maxLinewidthGrad pd m   -- 2268: the gradation count
    let res ← FormatPDREal (est m m) m pd m
    let last := if g.applicationNote = [] then [SecOp.hstr now rd]
      else [SecOp.hstr now pd, SecOp.hstr g.applicationNote rd]
    some ([SecOp.hstr (orNone g.productIDSS) pd, .hstr g.fileName pd, .hstr (orNone g.nativeSystemID) pd,
      .hstr ("libIGES Version ".toList ++ ver) pd, .item (intStr 32 ++ [pd]), .item (intStr 38 ++ [pd]),
      .item (intStr 6 ++ [pd]), .item (intStr 308 ++ [pd]), .item (intStr 15 ++ [pd]), .hstr g.productIDRS pd,
      .item scale, .item (intStr g.unitsFlag ++ [pd]), .hstr (unitNameAt g.unitsFlag) pd,
      .item (intStr grad16 ++ [pd]), .item width, .hstr date pd, .item res, .item ("0.0".toList ++ [pd]),
      .hstr g.author pd, .hstr g.organization pd, .item (intStr 11 ++ [pd]),
      .item (intStr g.draftStandard ++ [pd])] ++ last))

/-- `IGES::writeGlobals`, iges.cpp:2005-2378: the text written, the number of lines and the global
data afterwards.  Stream errors are not modelled. -/
def writeGlobals (est : ℚ → ℚ → Nat) (ver now : Str) (g : Globals) : Rd (Str × Int × Globals) :=
  Rd.lift (globalOps est ver now g) fun ops =>
    match ops with
    | none => Rd.fail
    | some ops =>
      Rd.lift (runSecOps g.pdelim g.rdelim ops ⟨delimPrefix g.pdelim g.rdelim, [], 1⟩) fun r =>
        if r.2 then Rd.val (r.1.fOut, r.1.index - 1, prepGlobals g) else Rd.fail

end Iges
