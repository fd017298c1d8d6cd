import Verif.Model.Str
/-
Model of src/iges/iges_io.cpp: fixed-column and free-format reading and writing.
Diagnostics written to std::cerr are not modelled.
-/
namespace Iges

/-- `DEItemToInt`, iges_io.cpp:44-110.  Returns the result and the value of `var` afterwards.
`defaulted = none` models the null pointer. -/
def DEItemToInt (input : Str) (field : Int) (var : Int) (defaulted : Option Int) : Bool × Int :=
  if field < 0 ∨ field > 9 then (false, var)                       -- 46-50
  else
    let j := 8 * field.toNat
    if input.length < j + 8 then (false, var)                       -- 52-57
    else
      let col := substr input j 8                                   -- 66
      let tmp := col.dropWhile (· == ' ')                           -- 66, 83-89
      if tmp.isEmpty then                                           -- 68
        match defaulted with
        | none => (false, var)                                      -- 70-77
        | some d => (true, d)                                       -- 79-80
      else
        let r := strtol tmp                                         -- 93
        if r.err ∨ r.used = 0 then (false, var)                     -- 95-99
        else
          match tmp.drop r.used with                                -- 101: `0 != *cp`
          | [] => (true, toI32 r.val)
          | c :: _ => if c = '\x00' then (true, toI32 r.val) else (false, var)

/-- `DEItemToStr`, iges_io.cpp:113-144.  `none` is the `false` return; `var` is cleared first. -/
def DEItemToStr (input : Str) (field : Int) : Option Str :=
  if field < 0 ∨ field > 9 then none
  else
    let j := 8 * field.toNat
    if input.length < j + 8 then none
    else some ((substr input j 8).dropWhile (· == ' '))

/-- `IGES_RECORD` (core/iges_io.h): data, section letter and sequence number. -/
structure Record where
  data : Str
  section_type : Char
  index : Int
  deriving Repr, DecidableEq

/-- Removal of trailing line-end characters while more than one character remains,
iges_io.cpp:168-177.  Works on the reversed line: its head is the last character. -/
def stripEolRev : Str → Str
  | c :: d :: r => if c = '\n' ∨ c = '\r' ∨ c = '\x0c' then stripEolRev (d :: r) else c :: d :: r
  | s => s

/-- iges_io.cpp:168-177 -/
def stripEol (s : Str) : Str := (stripEolRev s.reverse).reverse

/-- Section letters accepted at iges_io.cpp:189-204. -/
def isSection (c : Char) : Bool :=
  c == 'F' || c == 'S' || c == 'G' || c == 'D' || c == 'P' || c == 'T'

/-- `ReadIGESRecord`, iges_io.cpp:147-228, applied to the text of one line (the result of
`getline`).  Stream errors are not modelled; a partly filled record after a failure is not
modelled (every caller abandons the file). -/
def ReadIGESRecord (line : Str) : Option Record :=
  let iline := stripEol line
  if iline.length ≠ 80 then none                                    -- 179-184
  else
    match iline.drop 72 with
    | [] => none
    | sec :: _ =>
      if ¬ isSection sec then none                                  -- 189-204
      else
        let iline' := iline.set 72 ' '                              -- 206
        match DEItemToInt iline' 9 0 none with                      -- 209
        | (false, _) => none
        | (true, n) => if n ≤ 0 then none                           -- 217-223
                       else some { data := iline.take 72, section_type := sec, index := n }

/-- State of a free-format parser after a call: result, parameter text, cursor, end of record. -/
structure PStr where
  ok : Bool
  param : Str
  idx : Nat
  eor : Bool
  deriving Repr, DecidableEq

/-- `ParseHString`, iges_io.cpp:231-311.  The cursor `idx` starts at 0 in every caller and never
decreases, so it is a natural number; `data.length()` is assumed to fit an `int`. -/
def ParseHString (data : Str) (idx : Nat) (eor : Bool) (pd rd : Char) : Res PStr :=
  match data.drop idx with
  | [] => .ok ⟨false, [], idx, eor⟩                                 -- 235-239
  | c :: _ =>
    if c = pd ∨ c = rd then                                          -- 241-248
      .ok ⟨true, [], idx + 1, if c = rd then true else eor⟩
    else
      let r := strtol (data.drop idx)                                -- 254
      if r.err ∨ r.used = 0 then .ok ⟨false, [], idx, eor⟩           -- 256-261
      else
        let i := toI32 r.val
        let idx := idx + r.used                                      -- 263
        match data.drop idx with                                     -- 265 (`data[size]` is NUL)
        | [] => .ok ⟨false, [], idx, eor⟩
        | h :: _ =>
          if h ≠ 'H' then .ok ⟨false, [], idx, eor⟩                  -- 265-270
          else
            let idx := idx + 1                                       -- 272
            if i ≤ 0 then .ok ⟨false, [], idx, eor⟩                  -- 274-279
            else if idx + i.toNat > intMax then .ub                  -- 281: `idx + i` overflows int
            else if idx + i.toNat ≥ data.length then .ok ⟨false, [], idx, eor⟩   -- 281-287
            else
              let param := substr data idx i.toNat                   -- 289
              let idx := idx + i.toNat                               -- 291
              match data.drop idx with
              | [] => .ub                                            -- unreachable: idx < length
              | d :: _ =>
                if d = rd then .ok ⟨true, param, idx + 1, true⟩       -- 293-298
                else if d = pd then .ok ⟨true, param, idx + 1, eor⟩   -- 300-304
                else .ok ⟨false, param, idx, eor⟩                    -- 306-310

/-- Which of the two delimiter positions ends the token, iges_io.cpp:337-347. -/
def nearest (strEnd strEnd2 : Option Nat) : Option Nat :=
  match strEnd, strEnd2 with
  | none, none => none
  | none, some e2 => some e2
  | some e1, none => some e1
  | some e1, some e2 => if e1 > e2 then some e2 else some e1

/-- `ParseLString`, iges_io.cpp:314-368. -/
def ParseLString (data : Str) (idx : Nat) (eor : Bool) (pd rd : Char) : Res PStr :=
  match data.drop idx with
  | [] => .ok ⟨false, [], idx, eor⟩                                 -- 319-323
  | c :: _ =>
    if c = pd ∨ c = rd then                                          -- 325-332
      .ok ⟨true, [], idx + 1, if c = rd then true else eor⟩
    else
      let strEnd := findFrom data pd idx                             -- 334
      let strEnd2 := findFrom data rd idx                            -- 335
      match nearest strEnd strEnd2 with                              -- 337-347
      | none => .ok ⟨false, [], idx, eor⟩
      | some e =>
        let param := substr data idx (e - idx)                       -- 349
        let idx := idx + param.length                                -- 350
        match data.drop idx with
        | [] => .ok ⟨false, param, idx, eor⟩                         -- data[size] is NUL: 365-367
        | d :: _ =>
          if d = rd then .ok ⟨true, param, idx + 1, true⟩            -- 352-357
          else if d = pd then .ok ⟨true, param, idx + 1, eor⟩        -- 359-363
          else .ok ⟨false, param, idx, eor⟩                          -- 365-367

/-- State after `ParseInt`/`ParseReal`: result, value (if assigned), cursor, end of record. -/
structure PVal (α : Type) where
  ok : Bool
  param : Option α
  idx : Nat
  eor : Bool
  deriving Repr, DecidableEq

/-- `ParseInt`, iges_io.cpp:371-417.  `param = none` means the variable was not assigned.
Trailing characters after the digits only cause a warning (408-413). -/
def ParseInt (data : Str) (idx : Nat) (eor : Bool) (pd rd : Char) (idefault : Option Int) :
    Res (PVal Int) :=
  (ParseLString data idx eor pd rd).bind fun p =>
    if ¬ p.ok then .ok ⟨false, none, p.idx, p.eor⟩                   -- 376-380
    else if p.param.isEmpty then                                      -- 382-393
      match idefault with
      | some d => .ok ⟨true, some d, p.idx, p.eor⟩
      | none => .ok ⟨false, none, p.idx, p.eor⟩
    else
      let r := strtol p.param                                         -- 399
      if r.err ∨ r.used = 0 then .ok ⟨false, none, p.idx, p.eor⟩      -- 401-406
      else .ok ⟨true, some (toI32 r.val), p.idx, p.eor⟩               -- 415

/-- `FormatDEInt`, iges_io.cpp:474-495. -/
def FormatDEInt (num : Int) : Option Str :=
  if num > 99999999 ∨ num < -9999999 then none
  else
    let s := intStr num
    some (List.replicate (8 - s.length) ' ' ++ s)

/-- The three strings an emitter call updates: current line, finished text and line index. -/
structure Emit where
  fStr : Str
  fOut : Str
  index : Int
  deriving Repr, DecidableEq

/-- End a parameter-data line: pad to 64 columns, add DE pointer and `P` + sequence number.
This block occurs twice in `AddPDItem` (iges_io.cpp:639-667 and 682-710).  The flag is `false`
if a number does not fit, with the state as the code leaves it. -/
def pdFlush (e : Emit) (deIndex : Int) : Emit × Bool :=
  let fStr := e.fStr ++ List.replicate (64 - e.fStr.length) ' '
  match FormatDEInt deIndex with
  | none => ({ e with fStr := fStr }, false)
  | some s1 =>
    match FormatDEInt e.index with
    | none => ({ e with fStr := fStr ++ s1 }, false)
    | some s2 =>
      ({ fStr := [], fOut := e.fOut ++ (fStr ++ s1 ++ s2.set 0 'P' ++ ['\n']), index := e.index + 1 },
        true)

/-- `AddPDItem`, iges_io.cpp:622-715.  An empty `tStr` makes line 679 read `tStr[-1]`. -/
def AddPDItem (tStr : Str) (e : Emit) (deIndex : Int) (rd : Char) : Res (Emit × Bool) :=
  if tStr.length > 64 then .ok (e, false)                             -- 625-629
  else if e.fStr.length > 64 then .ok (e, false)                      -- 631-635
  else
    let (e, ok) := if e.fStr.length + tStr.length > 64 then pdFlush e deIndex else (e, true)
    if ¬ ok then .ok (e, false)
    else if e.index > 9999999 then .ok (e, false)                     -- 670-674
    else
      let e := { e with fStr := e.fStr ++ tStr }                      -- 677
      match tStr.getLast? with
      | none => .ub                                                   -- 679
      | some c => if c = rd then .ok (pdFlush e deIndex) else .ok (e, true)

/-- End a global-section line: pad to 72 columns, add `G` + sequence number
(iges_io.cpp:751-770 and 779-798). -/
def secFlush (e : Emit) : Emit × Bool :=
  let fStr := e.fStr ++ List.replicate (72 - e.fStr.length) ' '
  match FormatDEInt e.index with
  | none => ({ e with fStr := fStr }, false)
  | some s =>
    ({ fStr := [], fOut := e.fOut ++ (fStr ++ s.set 0 'G' ++ ['\n']), index := e.index + 1 }, true)

/-- `AddSecItem`, iges_io.cpp:719-803. -/
def AddSecItem (tStr : Str) (e : Emit) (pd rd : Char) : Emit × Bool :=
  match tStr.getLast? with
  | none => (e, false)                                                -- 722-726
  | some tc =>
    if tc ≠ pd ∧ tc ≠ rd then (e, false)                              -- 730-735
    else if tStr.length > 72 then (e, false)                          -- 737-741
    else if e.fStr.length > 72 then (e, false)                        -- 743-747
    else
      let (e, ok) := if e.fStr.length + tStr.length > 72 then secFlush e else (e, true)
      if ¬ ok then (e, false)
      else
        let e := { e with fStr := e.fStr ++ tStr }                    -- 774
        if tc = rd then secFlush e else (e, true)                     -- 776-799

/-- `GetHConst`, iges_io.cpp:807-817. -/
def GetHConst (tStr : Str) : Option Str :=
  if tStr.isEmpty then none else some (natStr tStr.length ++ ['H'])

/-- Line end used inside `AddPDHStr` (iges_io.cpp:958-978, 996-1014, 1021-1042).  It differs from
`pdFlush`: the index is incremented even if formatting it fails, and `64 - fStr.length()` wraps
(exception `std::length_error`) when the line is already too long. -/
def pdHFlush (e : Emit) (deIndex : Int) : Res (Emit × Bool) :=
  if e.fStr.length > 64 then .exn
  else
    let fStr := e.fStr ++ List.replicate (64 - e.fStr.length) ' '
    match FormatDEInt deIndex with
    | none => .ok ({ e with fStr := fStr }, false)
    | some s1 =>
      match FormatDEInt e.index with
      | none => .ok ({ e with fStr := fStr ++ s1, index := e.index + 1 }, false)
      | some s2 =>
        .ok ({ fStr := [], fOut := e.fOut ++ (fStr ++ s1 ++ s2.set 0 'P' ++ ['\n']),
               index := e.index + 1 }, true)

/-- The chunking loop of `AddPDHStr`, iges_io.cpp:987-1016.  `fuel` bounds the iterations; the
code's loop makes no progress when the line is full on entry, so running out of fuel is reported
as `ub` (non-termination).  `64 - fStr.length()` is natural subtraction here; the wrap-around for
longer lines cannot be reached because the caller has just ended such a line. -/
def pdHLoop (fuel : Nat) (rest : Str) (e : Emit) (deIndex : Int) : Res (Emit × Bool) :=
  match rest with
  | [] => .ok (e, true)
  | _ :: _ =>
    match fuel with
    | 0 => .ub
    | fuel + 1 =>
      let n := 64 - e.fStr.length
      let e' := { e with fStr := e.fStr ++ rest.take n }             -- 989-992
      if e'.fStr.length = 64 then                                     -- 994
        (pdHFlush e' deIndex).bind fun (e'', ok) =>
          if ok then pdHLoop fuel (rest.drop n) e'' deIndex else .ok (e'', false)
      else pdHLoop fuel (rest.drop n) e' deIndex

/-- `AddPDHStr`, iges_io.cpp:921-1046. -/
def AddPDHStr (tStr : Str) (e : Emit) (deIndex : Int) (pd rd delim : Char) : Res (Emit × Bool) :=
  match GetHConst tStr with
  | none => AddPDItem [delim] e deIndex rd                            -- 927-938
  | some hc =>
    if delim ≠ pd ∧ delim ≠ rd then .ok (e, false)                    -- 940-945
    else
      (if e.fStr.length + hc.length > 64 then pdHFlush e deIndex      -- 956-979
       else .ok (e, true)).bind fun (e, ok) =>
        if ¬ ok then .ok (e, false)
        else
          let hc := hc ++ tStr ++ [delim]                             -- 982
          (pdHLoop hc.length hc e deIndex).bind fun (e, ok) =>
            if ¬ ok then .ok (e, false)
            else if e.fStr.length ≠ 0 ∧ delim = rd then pdHFlush e deIndex   -- 1019-1043
            else .ok (e, true)

/-- Line end used inside `AddSecHStr` (iges_io.cpp:857-868, 884-896, 902-914). -/
def secHFlush (e : Emit) : Res (Emit × Bool) :=
  if e.fStr.length > 72 then .exn
  else
    let fStr := e.fStr ++ List.replicate (72 - e.fStr.length) ' '
    match FormatDEInt e.index with
    | none => .ok ({ e with fStr := fStr, index := e.index + 1 }, false)
    | some s =>
      .ok ({ fStr := [], fOut := e.fOut ++ (fStr ++ s.set 0 'G' ++ ['\n']), index := e.index + 1 },
        true)

/-- The chunking loop of `AddSecHStr`, iges_io.cpp:877-897. -/
def secHLoop (fuel : Nat) (rest : Str) (e : Emit) : Res (Emit × Bool) :=
  match rest with
  | [] => .ok (e, true)
  | _ :: _ =>
    match fuel with
    | 0 => .ub
    | fuel + 1 =>
      let n := 72 - e.fStr.length
      let e' := { e with fStr := e.fStr ++ rest.take n }
      if e'.fStr.length = 72 then
        (secHFlush e').bind fun (e'', ok) =>
          if ok then secHLoop fuel (rest.drop n) e'' else .ok (e'', false)
      else secHLoop fuel (rest.drop n) e'

/-- `AddSecHStr`, iges_io.cpp:820-918. -/
def AddSecHStr (tStr : Str) (e : Emit) (pd rd delim : Char) : Res (Emit × Bool) :=
  match GetHConst tStr with
  | none => .ok (AddSecItem [delim] e pd rd)                          -- 826-837
  | some hc =>
    if delim ≠ pd ∧ delim ≠ rd then .ok (e, false)                    -- 839-844
    else
      (if e.fStr.length + hc.length > 72 then secHFlush e             -- 855-869
       else .ok (e, true)).bind fun (e, ok) =>
        if ¬ ok then .ok (e, false)
        else
          let hc := hc ++ tStr ++ [delim]                             -- 872
          (secHLoop hc.length hc e).bind fun (e, ok) =>
            if ¬ ok then .ok (e, false)
            else if e.fStr.length ≠ 0 ∧ delim = rd then secHFlush e   -- 900-915
            else .ok (e, true)

end Iges
