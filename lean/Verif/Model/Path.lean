import Verif.Model.Str
/-
File paths: `MCAD_FILEPATH` (iges/mcad_utils.cpp) as compiled outside Windows, where the separator is
`/` and the alternative separator is `\`.
-/
namespace Iges

/-- `MCAD_FILEPATH`: the path and the three cached strings. -/
structure FilePath where
  full : Str
  filename : Str
  base : Str
  ext : Str
  deriving Repr, DecidableEq

/-- `find_last_of( c )` -/
def findLast (s : Str) (c : Char) : Option Nat :=
  (s.reverse.idxOf? c).map fun i => s.length - 1 - i

/-- The replacement loop of `makePathNative`, mcad_utils.cpp:82-88; one separator per round. -/
def nativeLoop (sep alt : Char) : Nat → Str → Str
  | 0, s => s
  | n + 1, s =>
    match s.idxOf? alt with
    | none => s
    | some i => nativeLoop sep alt n (s.set i sep)

/-- `makePathNative`, mcad_utils.cpp:76-101 (the result is always `true` outside Windows). -/
def makePathNative (s : Str) : Str := if s = [] then [] else nativeLoop '/' '\\' s.length s

/-- `MCAD_FILEPATH::SetPath`, mcad_utils.cpp:153-166; `none` is a NULL argument. -/
def SetPath (aPath : Option Str) : FilePath :=
  match aPath with
  | none => ⟨[], [], [], []⟩
  | some s => ⟨makePathNative s, [], [], []⟩

/-- `lastSep` of `GetBaseName` and `GetExtension`, mcad_utils.cpp:294-299, 335-340: the position behind
the last separator. -/
def afterSep (s : Str) : Nat :=
  match findLast s '/' with
  | none => 0
  | some i => i + 1

/-- `std::string::substr( pos )` throws `std::out_of_range` if `pos` is beyond the end. -/
def substrFrom (s : Str) (pos : Nat) : Res Str := if pos ≤ s.length then .ok (s.drop pos) else .exn

/-- `MCAD_FILEPATH::GetBaseName`, mcad_utils.cpp:286-319. -/
def GetBaseName (p : FilePath) : Res (FilePath × Option Str) :=
  if p.full = [] then .ok (p, none)
  else if p.base ≠ [] then .ok (p, some p.base)
  else
    let lastSep := afterSep p.full
    let lastDot := (findLast p.full '.').getD p.full.length
    if lastDot > lastSep then
      let base := substr p.full lastSep (lastDot - lastSep)
      if p.ext = [] then
        (substrFrom p.full (lastDot + 1)).bind fun e => .ok ({ p with base := base, ext := e }, some base)
      else .ok ({ p with base := base }, some base)
    else
      (substrFrom p.full lastSep).bind fun b => .ok ({ p with base := b }, some b)

/-- `MCAD_FILEPATH::GetExtension`, mcad_utils.cpp:322-348. -/
def GetExtension (p : FilePath) : Res (FilePath × Option Str) :=
  if p.full = [] then .ok (p, none)
  else if p.ext ≠ [] then .ok (p, some p.ext)
  else
    match findLast p.full '.' with
    | none => .ok (p, none)
    | some lastDot =>
      if lastDot ≤ afterSep p.full then .ok (p, none)
      else (substrFrom p.full (lastDot + 1)).bind fun e => .ok ({ p with ext := e }, some e)

/-- `MCAD_FILEPATH::GetFileName`, mcad_utils.cpp:259-283. -/
def GetFileName (p : FilePath) : Res (FilePath × Option Str) :=
  if p.full = [] then .ok (p, none)
  else if p.filename ≠ [] then .ok (p, some p.filename)
  else
    (GetBaseName p).bind fun (p, b) =>
      match b with
      | none => .ok (p, none)
      | some b =>
        (GetExtension { p with filename := b }).bind fun (p, e) =>
          match e with
          | none => .ok (p, some b)
          | some e => .ok ({ p with filename := b ++ '.' :: e }, some (b ++ '.' :: e))

/-- `MCAD_FILEPATH::SetExtension`, mcad_utils.cpp:351-385; the Boolean is the result. -/
def SetExtension (p : FilePath) (anExt : Str) : Res (FilePath × Bool) :=
  if p.full = [] then .ok (p, false)
  else
    (if p.ext = [] then
      (GetExtension p).bind fun (q, e) =>
        match e with
        | none => .ok q
        | some _ => .ok { q with full := q.full.take (q.full.length - q.ext.length - 1) }
    else .ok p).bind fun p =>
    let p := { p with filename := [], ext := [] }
    match anExt with
    | [] => .ok (p, true)
    | c :: r =>
      if c ≠ '.' then .ok ({ p with full := p.full ++ '.' :: anExt, ext := anExt }, true)
      else if r = [] then .ok (p, false)
      else .ok ({ p with full := p.full ++ r, ext := r }, true)

/-- `MCAD_FILEPATH::Append`, mcad_utils.cpp:394-414; the Boolean is the result. -/
def Append (p : FilePath) (sub : Str) : FilePath × Bool :=
  if sub = [] then (p, true)
  else
    let s := makePathNative sub
    if s = ['/'] then (p, true)
    else (⟨p.full ++ '/' :: s, [], [], []⟩, false)

end Iges
