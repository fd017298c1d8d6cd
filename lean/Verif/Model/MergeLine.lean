import Verif.Model.MergeTool
import Verif.Model.RealFmt
/-
How the merge program reads the numbers of a line: tests/test_merge.cpp, parsePos and parseOrient.  Its own `ParseReal`, `ParseInt` and `ParseLString`
(407-561) are copies of the functions of the library, so that the models of those are used.
-/
namespace Iges.MergeTool
open Iges

noncomputable section

/-- the value of a number; `sp` stands for the value of infinity, NaN and hexadecimal numbers -/
def tokVal (sp : ℝ) : RealTok → ℝ
  | .dec d => (d.toRat : ℝ)
  | .special => sp

/-- `ParseReal( iline, sp, tR, eor, ',', ';' )`, test_merge.cpp:407-452: the number and the new place.  What was found out about the end of the record is never used. -/
def readReal (sp : ℝ) (s : Str) (i : Nat) : Option (ℝ × Nat) :=
  match ParseReal s i false ',' ';' none with
  | .ok r => if r.ok then r.param.map fun v => (tokVal sp v, r.idx) else none
  | _ => none

/-- `ParseInt( iline, sp, tI, eor, ',', ';' )`, test_merge.cpp:454-499 -/
def readInt (s : Str) (i : Nat) : Option (Int × Nat) :=
  match ParseInt s i false ',' ';' none with
  | .ok r => if r.ok then r.param.map fun v => (v, r.idx) else none
  | _ => none

/-- a run of calls of `ParseReal`, as in test_merge.cpp:630-652 and 713-779 -/
def readReals (sp : ℝ) (s : Str) : Nat → Nat → Option (List ℝ)
  | 0, _ => some []
  | n + 1, i =>
    match readReal sp s i with
    | none => none
    | some (x, i) => (readReals sp s n i).map (x :: ·)

/-- the place after the first colon, test_merge.cpp:603, 706 -/
def startOf (s : Str) : Nat := if ':' ∈ s then s.idxOf ':' + 1 else 0

/-- the numbers of a `pos` line, test_merge.cpp:603-652 -/
def posNumbers (sp : ℝ) (s : Str) : Option Pos :=
  match readReal sp s (startOf s) with
  | none => none
  | some (a, i) =>
    match readInt s i with
    | none => none
    | some (f, i) =>
      match readReals sp s 3 i with
      | some [x, y, z] => some ⟨a, if f = 0 then false else true, x, y, z⟩
      | _ => none

/-- the numbers of an `orient` line, test_merge.cpp:706-779 -/
def turnNumbers (sp : ℝ) (s : Str) : Option Turn :=
  match readReals sp s 7 (startOf s) with
  | some [a, x, y, z, dx, dy, dz] => some ⟨a, ⟨x, y, z⟩, ⟨dx, dy, dz⟩⟩
  | _ => none

/-- what the program makes of the numbers of a line -/
def numbers (sp : ℝ) : Numbers := ⟨posNumbers sp, turnNumbers sp⟩

end
end Iges.MergeTool
