import Verif.Model.PdOps
/-
Directory entries: `IGES_ENTITY::writeDE`, `IGES_ENTITY::readDE` and the overrides of `readDE` in
the entity classes; sequence numbers and DE pointers; the terminate record.
-/
namespace Iges

/-- The attributes of an entity that a directory entry carries (core/iges_entity.h:60-120), with
the pointers as the numbers `readDE` stores before `associate` resolves them. -/
structure DE where
  seq : Int
  entityType : Int
  parameterData : Int
  structure_ : Int
  lineFontPattern : Int
  level : Int
  view : Int
  transform : Int
  labelAssoc : Int
  visible : Bool
  depends : Int
  use : Int
  hierarchy : Int
  lineWeightNum : Int
  colorNum : Int
  paramLineCount : Int
  form : Int
  label : Str
  entitySubscript : Int
  deriving Repr, DecidableEq

/-- The sequence numbers of the entities a directory entry points to (`none`: null pointer). -/
structure DEPtrs where
  pStructure : Option Int
  pLineFontPattern : Option Int
  pLevel : Option Int
  pView : Option Int
  pTransform : Option Int
  pLabelAssoc : Option Int
  pColor : Option Int
  deriving Repr, DecidableEq

/-- The status number, iges_entity.cpp:1706-1718. -/
def statusNum (visible : Bool) (depends use hierarchy : Int) : Int :=
  (((if visible then 0 else 100) + depends) * 100 + use) * 100 + hierarchy

/-- Decoding of the status number, iges_entity.cpp:1230-1281 (`%` and `/` of a non-negative
number). -/
def decodeStatus (n : Int) : Option (Bool × Int × Int × Int) :=
  if n < 0 then none                                                  -- 1230-1234
  else
    let hier := n % 100
    if hier > 2 then none                                             -- 1237-1243
    else
      let use := n / 100 % 100
      if use > 6 then none                                            -- 1248-1254
      else
        let depends := n / 10000 % 100
        if depends > 3 then none                                      -- 1259-1265
        else
          let blank := n / 1000000 % 100
          if blank > 1 then none                                      -- 1270-1276
          else some (blank == 0, depends, use, hier)                  -- 1278-1281

/-- Section columns, iges_entity.cpp:1729-1736: the number must leave column 73 blank, which then
receives the letter. -/
def seqColumn (letter : Char) (n : Int) : Option Str :=
  match FormatDEInt n with
  | none => none
  | some s => if s.head? = some ' ' then some (s.set 0 letter) else none

/-- The label column, iges_entity.cpp:1795-1802. -/
def labelColumn (label : Str) : Str := List.replicate (8 - label.length) ' ' ++ label.take 8

/-- Line Font Pattern, Level and Color: pointer, number or zero, iges_entity.cpp:1631-1653,
1757-1762. -/
def numOrPtr (p : Option Int) (n : Int) (inRange : Bool) : Int :=
  match p with
  | some s => -s
  | none => if inRange then n else 0

/-- `IGES_ENTITY::writeDE`, iges_entity.cpp:1581-1842: the text appended to the file.  Stream
errors are not modelled; `parameterData + paramLineCount` is taken over the integers. -/
def writeDE (d : DE) (p : DEPtrs) : Option Str := do
  let de1 ← FormatDEInt d.entityType
  if d.parameterData + d.paramLineCount > 10000000 then none else     -- 1599-1604
  let de2 ← FormatDEInt d.parameterData
  let de3 ← FormatDEInt (-(p.pStructure.getD 0))                        -- 1617-1620
  let de4 ← FormatDEInt (numOrPtr p.pLineFontPattern d.lineFontPattern
    (decide (0 ≤ d.lineFontPattern ∧ d.lineFontPattern < 6)))
  let de5 ← FormatDEInt (numOrPtr p.pLevel d.level (decide (0 ≤ d.level)))
  let de6 ← FormatDEInt (p.pView.getD 0)
  let de7 ← FormatDEInt (p.pTransform.getD 0)
  let de8 ← FormatDEInt (p.pLabelAssoc.getD 0)
  let de9 ← FormatDEInt (statusNum d.visible d.depends d.use d.hierarchy)
  let de10 ← seqColumn 'D' d.seq
  let oln1 := de1 ++ de2 ++ de3 ++ de4 ++ de5 ++ de6 ++ de7 ++ de8 ++ de9 ++ de10
  if oln1.length ≠ 80 then none else                                  -- 1738-1743
  let de12 ← FormatDEInt d.lineWeightNum
  let de13 ← FormatDEInt (numOrPtr p.pColor d.colorNum (decide (0 ≤ d.colorNum ∧ d.colorNum < 9)))
  let de14 ← FormatDEInt d.paramLineCount
  let de15 ← FormatDEInt d.form
  let de19 ← FormatDEInt d.entitySubscript
  let de20 ← seqColumn 'D' (d.seq + 1)
  let oln2 := de1 ++ de12 ++ de13 ++ de14 ++ de15 ++ List.replicate 16 ' ' ++ labelColumn d.label ++
    de19 ++ de20
  if oln2.length ≠ 80 then none else                                  -- 1823-1828
  some (oln1 ++ ['\n'] ++ (oln2 ++ ['\n']))

/-- A directory field as an integer. -/
def deInt (data : Str) (field : Nat) (dflt : Option Int) : Option Int :=
  match DEItemToInt data field 0 dflt with
  | (true, v) => some v
  | (false, _) => none

/-- `IGES_ENTITY::readDE`, iges_entity.cpp:1062-1428.  `etype` is the type of the object, `maxGrad`
the global maximum line weight of its parent (`none`: no parent), `line2` the next line of the
file. -/
def readDE (etype : Int) (maxGrad : Option Int) (rec : Record) (line2 : Option Str) : Option DE := do
  if rec.section_type ≠ 'D' then none else                            -- 1077-1083
  if rec.index ≤ 0 ∨ rec.index ≥ 9999997 then none else               -- 1085-1089
  if rec.index % 2 = 0 then none else                                 -- 1091-1095
  let t ← deInt rec.data 0 none
  if t ≠ etype then none else                                         -- 1108-1113
  let parameterData ← deInt rec.data 1 none
  if parameterData < 0 then none else                                 -- 1122-1126
  let structure_ ← deInt rec.data 2 (some 0)
  let structure_ := if structure_ > 0 then 0 else structure_          -- 1142-1143
  let lineFontPattern ← deInt rec.data 3 (some 0)
  if lineFontPattern ≥ 6 then none else                               -- 1154-1158
  let level ← deInt rec.data 4 (some 0)
  if level < 0 then none else                                         -- 1169-1173
  let view ← deInt rec.data 5 (some 0)
  if view < 0 then none else                                          -- 1184-1188
  let transform ← deInt rec.data 6 (some 0)
  if transform < 0 then none else                                     -- 1199-1203
  let labelAssoc ← deInt rec.data 7 (some 0)
  if labelAssoc < 0 then none else                                    -- 1214-1218
  let (visible, depends, use, hierarchy) ← decodeStatus ((deInt rec.data 8 none).getD 0)  -- 1223-1281
  let line2 ← line2
  let rec2 ← ReadIGESRecord line2                                     -- 1288-1292
  if rec2.section_type ≠ 'D' then none else                           -- 1294-1300
  if rec2.index ≠ rec.index + 1 then none else                        -- 1302-1307
  let t2 ← deInt rec2.data 0 none
  if t2 ≠ etype then none else                                        -- 1317-1323
  let lw := (deInt rec2.data 1 none).getD 0                           -- 1326-1331
  if lw < 0 then none else                                            -- 1333-1337
  let lineWeightNum := match maxGrad with
    | some g => if lw > g then g else lw                              -- 1339-1345
    | none => lw
  let colorNum ← deInt rec2.data 2 (some 0)
  if colorNum ≥ 9 then none else                                      -- 1356-1360
  let paramLineCount ← deInt rec2.data 3 none
  if paramLineCount < 0 ∨ (paramLineCount = 0 ∧ etype ≠ 0) then none else  -- 1374-1378
  let form ← deInt rec2.data 4 (some 0)
  if form < 0 then none else                                          -- 1389-1393
  let label ← DEItemToStr rec2.data 7                                 -- 1403-1407
  let entitySubscript ← deInt rec2.data 8 (some 0)
  if entitySubscript < 0 then none else                               -- 1418-1422
  some { seq := rec.index, entityType := etype, parameterData, structure_, lineFontPattern, level, view,
         transform, labelAssoc, visible, depends, use, hierarchy, lineWeightNum, colorNum,
         paramLineCount, form, label, entitySubscript }

/-- The checks and fixed values of the overriding `readDE` functions: entity100.cpp:234-253,
102:482-500, 104:257-276, 110:186-205, 120:288-307, 122:265-284, 124:276-300, 126:413-433,
128:419-438, 142:358-378, 144:486-506, 154:199-219, 164:275-295, 180:351-371, 186:348-366,
308:309-328, 314:281-308, 406:302-327, 408:273-291, 502:220-245, 504:410-435, 508:447-468,
510:309-333, 514:286-309. -/
def fixDE (t : Nat) (d : DE) : Option DE :=
  match t with
  | 100 | 120 | 122 =>
    if d.form ≠ 0 then none else some { d with structure_ := 0, hierarchy := 0 }
  | 102 | 186 | 408 => if d.form ≠ 0 then none else some { d with structure_ := 0 }
  | 104 =>
    if d.form < 1 ∨ d.form > 3 then none else some { d with structure_ := 0, hierarchy := 0 }
  | 110 =>
    if d.form ≠ 0 ∧ d.form ≠ 1 ∧ d.form ≠ 2 then none
    else some { d with structure_ := 0, hierarchy := 0 }
  | 124 =>
    if d.form ≠ 0 ∧ d.form ≠ 1 ∧ d.form < 10 ∧ d.form > 12 then none
    else some { d with structure_ := 0, lineFontPattern := 0, level := 0, view := 0, labelAssoc := 0,
                       visible := true, hierarchy := 0 }
  | 126 =>
    if d.form ≠ 0 ∧ d.form ≠ 1 ∧ d.form ≠ 2 ∧ d.form ≠ 3 ∧ d.form ≠ 4 ∧ d.form ≠ 5 then none
    else some { d with structure_ := 0, hierarchy := 0 }
  | 128 =>
    if d.form < 0 ∨ d.form > 9 then none else some { d with structure_ := 0, hierarchy := 0 }
  | 142 | 144 | 154 | 164 =>
    if d.form ≠ 0 then none else some { d with structure_ := 0, use := 0, hierarchy := 0 }
  | 180 => if d.form ≠ 0 ∧ d.form ≠ 1 then none else some { d with structure_ := 0, use := 0 }
  | 308 => if d.form ≠ 0 then none else some { d with structure_ := 0, use := 2 }
  | 314 =>
    if d.form ≠ 0 then none
    else some { d with depends := 0, use := 2, structure_ := 0, lineFontPattern := 0, level := 0,
                       view := 0, transform := 0, labelAssoc := 0, lineWeightNum := 0 }
  | 406 =>
    if d.form ≠ 15 then none
    else some { d with structure_ := 0, lineFontPattern := 0, view := 0, transform := 0,
                       labelAssoc := 0, visible := true, use := 0, hierarchy := 0 }
  | 502 =>
    if d.form ≠ 1 then none
    else some { d with structure_ := 0, hierarchy := 0, depends := 1, lineFontPattern := 0, view := 0,
                       transform := 0, lineWeightNum := 0, colorNum := 0 }
  | 504 =>
    if d.form ≠ 1 then none
    else some { d with structure_ := 0, hierarchy := 1, depends := 1, lineFontPattern := 0, view := 0,
                       transform := 0, lineWeightNum := 0, colorNum := 0 }
  | 508 =>
    if 1 ≠ d.form ∧ 0 ≠ d.form then none
    else some { d with structure_ := 0, depends := 1, view := 0, transform := 0 }
  | 510 =>
    if d.form ≠ 1 then none
    else some { d with structure_ := 0, depends := 1, lineFontPattern := 0, view := 0,
                       transform := 0, lineWeightNum := 0, colorNum := 0 }
  | 514 =>
    if d.form ≠ 1 then none
    else some { d with structure_ := 0, lineFontPattern := 0, view := 0, transform := 0,
                       lineWeightNum := 0, colorNum := 0 }
  | _ => some d                                                       -- entityNULL.cpp:214-227

/-- `readDE` of the entity class for type `t`. -/
def readEntityDE (t : Nat) (maxGrad : Option Int) (rec : Record) (line2 : Option Str) : Option DE :=
  (readDE t maxGrad rec line2).bind (fixDE t)

/-- The sequence number `IGES::Write` gives to the entity at position `i`, iges.cpp:651-652. -/
def writeSeq (i : Nat) : Int := 2 * i + 1

/-- The list position `associate` derives from a DE number, e.g. iges_entity.cpp:493-497
(`idx = val >> 1`, checked against the list size only from above). -/
def resolve {α} (entities : List α) (val : Int) : Option α :=
  let idx := val / 2
  if idx < entities.length then entities[idx.toNat]? else none

/-- The terminate record, iges.cpp:756-811. -/
def writeTerminate (nS nG nD nP : Int) : Option Str := do
  let s ← FormatDEInt nS
  let g ← FormatDEInt nG
  let d ← FormatDEInt nD
  let p ← FormatDEInt nP
  let t ← FormatDEInt 1
  some (s.set 0 'S' ++ g.set 0 'G' ++ d.set 0 'D' ++ p.set 0 'P' ++ List.replicate 40 ' ' ++ t.set 0 'T' ++
    ['\n'])

/-- `IGES::readTS`, iges.cpp:1635-1742.  A successful result carries the four counts; the code only
compares them with its own and prints a warning. -/
def readTS (line : Option Str) : Option (Int × Int × Int × Int) := do
  let line ← line
  let rec ← ReadIGESRecord line
  if rec.section_type ≠ 'T' then none else
  if rec.index ≠ 1 then none else
  if (rec.data.drop 0).head? ≠ some 'S' then none else
  if (rec.data.drop 8).head? ≠ some 'G' then none else
  if (rec.data.drop 16).head? ≠ some 'D' then none else
  if (rec.data.drop 24).head? ≠ some 'P' then none else
  let data := (((rec.data.set 0 ' ').set 8 ' ').set 16 ' ').set 24 ' '
  let s ← deInt data 0 none
  let g ← deInt data 1 none
  let d ← deInt data 2 none
  let p ← deInt data 3 none
  some (s, g, d, p)

end Iges
