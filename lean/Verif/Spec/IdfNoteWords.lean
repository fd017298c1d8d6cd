import Verif.Spec.IdfHole
/-
Independent specification of the section with the notes of a board file, word by word (C74).
-/
namespace Iges.Idf.Spec

/-- The line `raw` is a note: X, Y, height and length without quote marks, then the text; other words may follow.  `f` is the size of the unit in
millimetres. -/
def NoteLine (f : ℚ) (raw : Str) (n : Note) : Prop :=
  ∃ line wx wy wh wl text q more x y h l, fetchLine raw = some ⟨line, false⟩ ∧
    Words line ((wx, false) :: (wy, false) :: (wh, false) :: (wl, false) :: (text, q) :: more) ∧
    readNum wx = some x ∧ readNum wy = some y ∧ readNum wh = some h ∧ readNum wl = some l ∧
    wx.map Char.toUpper ≠ ".END_NOTES".toList ∧ n = ⟨x * f, y * f, h * f, l * f, text⟩

/-- The lines of the section: notes, and lines that are blank and skipped. -/
inductive NoteLines (f : ℚ) : List Str → List Note → Prop
  | nil : NoteLines f [] []
  | note (raw : Str) (n : Note) (raws : List Str) (ns : List Note) : NoteLine f raw n → NoteLines f raws ns →
      NoteLines f (raw :: raws) (n :: ns)
  | blank (raw : Str) (raws : List Str) (ns : List Note) : fetchLine raw = none → NoteLines f raws ns → NoteLines f (raw :: raws) ns

end Iges.Idf.Spec
