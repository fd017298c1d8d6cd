import Verif.Model.IdfText
/-
Specification for the texts of IDF files (C73 - C75).
-/
namespace Iges.Idf.Spec

/-- A blank text. -/
def Blank (s : Str) : Prop := ∀ c ∈ s, isSpaceC c = true

/-- `s` begins, after white space, with the word `t`; `rest` follows.  A word is either a text between two quote marks, or a
text without white space that does not begin with a quote mark and extends to white space or the end. -/
def FirstWord (s t : Str) (quoted : Bool) (rest : Str) : Prop :=
  ∃ ws, Blank ws ∧
    if quoted then s = ws ++ '"' :: (t ++ '"' :: rest) ∧ '"' ∉ t
    else s = ws ++ (t ++ rest) ∧ t ≠ [] ∧ t.head? ≠ some '"' ∧ (∀ c ∈ t, isSpaceC c = false) ∧
      ∀ c ∈ rest.head?, isSpaceC c = true

/-- `s` consists of the words `ws`. -/
inductive Words : Str → List (Str × Bool) → Prop
  | nil (s : Str) : Blank s → Words s []
  | cons (s t : Str) (q : Bool) (rest : Str) (ws : List (Str × Bool)) :
      FirstWord s t q rest → Words rest ws → Words s ((t, q) :: ws)

/-- A text that can be put between quote marks and stays on one line. -/
def Plain (s : Str) : Prop := '"' ∉ s ∧ '\n' ∉ s

/-- Half a unit of the last of `p` decimal places. -/
def half (p : ℕ) : ℚ := 1 / 2 / 10 ^ p

/-- How far a length may move when it is written with five places of a millimetre, or with one place of a thousandth of an
inch. -/
def lengthTol : Unit → ℚ
  | .thou => 1 / 20 * (254 / 10000)
  | _ => 5 / 1000000

/-- How far a diameter may move: written with three places of a millimetre, or one place of a thousandth of an inch. -/
def diaTol : Unit → ℚ
  | .mm => 5 / 10000
  | _ => 1 / 20 * (254 / 10000)

/-- The notes agree, positions and sizes up to the places written. -/
structure NoteNear (u : Unit) (a b : Note) : Prop where
  x : |b.x - a.x| ≤ lengthTol u
  y : |b.y - a.y| ≤ lengthTol u
  height : |b.height - a.height| ≤ lengthTol u
  length : |b.length - a.length| ≤ lengthTol u
  text : b.text = a.text

/-- The numbers of a note are of a size that can be printed and read: up to 10^300. -/
def NoteSize (n : Note) : Prop := |n.x| ≤ 10 ^ 300 ∧ |n.y| ≤ 10 ^ 300 ∧ |n.height| ≤ 10 ^ 300 ∧ |n.length| ≤ 10 ^ 300

/-- The holes agree, positions and diameters up to the places written. -/
structure DrillNear (u : Unit) (a b : Drill) : Prop where
  dia : |b.dia - a.dia| ≤ diaTol u
  x : |b.x - a.x| ≤ lengthTol u
  y : |b.y - a.y| ≤ lengthTol u
  plated : b.plated = a.plated
  ref : b.ref = a.ref
  hole : b.hole = a.hole
  owner : b.owner = a.owner

/-- The numbers of a hole are of a size that can be printed and read. -/
def DrillSize (d : Drill) : Prop := |d.dia| ≤ 10 ^ 300 ∧ |d.x| ≤ 10 ^ 300 ∧ |d.y| ≤ 10 ^ 300

/-- A text that is none of the given words in any mixture of upper and lower case. -/
def NotWord (s : Str) (words : List String) : Prop := ∀ w ∈ words, s.map Char.toUpper ≠ w.toList

/-- The names of a hole can be written and read: they fit between quote marks and are not keywords. -/
def DrillNames (d : Drill) : Prop :=
  (∀ n, d.ref = .refdes n → Plain n ∧ NotWord n ["BOARD", "NOREFDES", "PANEL"]) ∧
  (∀ n, d.hole = .other n → Plain n ∧ NotWord n ["PIN", "VIA", "MTG", "TOOL"])

end Iges.Idf.Spec
