import Verif.Model.PdOps
/-
The start section: `IGES::AddToHeader`, `IGES::writeStart`, the reading loops over S and G records.
-/
namespace Iges

/-- `tStr.append( 72 - slen, ' ' )` -/
def pad72 (s : Str) : Str := s ++ List.replicate (72 - s.length) ' '

/-- The splitting loop, iges.cpp:1919-1927 and 1960-1968; `fuel` bounds the number of rounds. -/
def split72 : Nat → Str → List Str
  | 0, _ => []
  | n + 1, s => if s = [] then [] else pad72 (s.take 72) :: split72 n (s.drop 72)

/-- `IGES::AddToHeader`, iges.cpp:1898-1931: the new list of start lines (the result is always `true`).
`text` is the C string, without the terminating NUL. -/
def AddToHeader (hdr : List Str) (text : Str) : List Str :=
  if text = [] then hdr                                                -- 1900-1901
  else if text.length < 72 then hdr ++ [pad72 text]                    -- 1911-1915
  else if text.length > 72 then hdr ++ split72 text.length text        -- 1916-1928
  else hdr

/-- The line used if there is no start text, iges.cpp:1937. -/
def defaultStart : Str := "# Created via the free libIGES (https://github.com/cbernardo/libIGES)".toList

/-- The first loop of `writeStart`, iges.cpp:1948-1974: short lines are padded, long lines are split;
after a split the following line is skipped, and at the end of the list the iterator is advanced
beyond the end. -/
def normStart : List Str → Res (List Str)
  | [] => .ok []
  | [l] => if l.length > 72 then .ub else .ok [pad72 l]
  | l :: m :: ls =>
    if l.length > 72 then (normStart ls).bind fun r => .ok (split72 l.length l ++ m :: r)
    else (normStart (m :: ls)).bind fun r => .ok (pad72 l :: r)

/-- The second loop, iges.cpp:1976-1998: `none` is the `false` return. -/
def startLines : Int → List Str → Option Str
  | _, [] => some []
  | i, l :: ls => do
    let n ← FormatDEInt i
    let r ← startLines (i + 1) ls
    some (l ++ n.set 0 'S' ++ ['\n'] ++ r)

/-- `IGES::writeStart`, iges.cpp:1934-2001: the text written and the start lines afterwards.  Stream
errors are not modelled. -/
def writeStart (hdr : List Str) : Res (Option (Str × List Str)) :=
  (normStart (if hdr = [] then [defaultStart] else hdr)).bind fun ls =>
    .ok ((startLines 1 ls).map fun t => (t, ls))

/-- The next record of the file. -/
def nextRecord : List Str → Option (Record × List Str)
  | [] => none
  | l :: ls => (ReadIGESRecord l).map fun r => (r, ls)

/-- The loops over the records of the S and G sections, iges.cpp:480-505 and 1034-1053: while the
section letter is `c`, the index must be one more than the number `n` of lines so far; the data is kept and the
next record is read.  The result has the data of the records, the first record of the next section
and the lines behind it; `none` is the `false` return.  `ls` are the lines behind `r`. -/
def gatherSection (c : Char) : Nat → Record → List Str → Option (List Str × Record × List Str)
  | n, r, [] => if r.section_type ≠ c then some ([], r, []) else none
  | n, r, l :: ls =>
    if r.section_type ≠ c then some ([], r, l :: ls)
    else if r.index ≠ n + 1 then none
    else
      match ReadIGESRecord l with
      | none => none
      | some r' => (gatherSection c (n + 1) r' ls).map fun x => (r.data :: x.1, x.2)

end Iges
