import Verif.Spec.IdfNoteWords
import Verif.Props.IdfNotes
/-
C74, reading: the notes are read as their words say.
-/
namespace Iges.Props.IdfNotes
open Iges.Idf Iges.Idf.Spec

namespace Rec

private theorem num_of {s a r : Str} {x : ℚ} (f : FirstWord s a false r) (h : readNum a = some x) : numWord s = some (x, r) := by
  unfold numWord
  rw [getWord_first f]
  simp [h]

private theorem read_note {u : Iges.Idf.Unit} {f : ℚ} (hf : InMM u .v3 f) {raw : Str} {n : Note} (h : NoteLine f raw n) (rest : List Str) :
    readNote u (raw :: rest) = .item n rest := by
  obtain ⟨line, wx, wy, wh, wl, text, q, more, x, y, h, l, e, hw, hx, hy, hh, hl, hend, rfl⟩ := h
  cases hw with
  | cons _ _ _ s1 _ f1 hw =>
  cases hw with
  | cons _ _ _ s2 _ f2 hw =>
  cases hw with
  | cons _ _ _ s3 _ f3 hw =>
  cases hw with
  | cons _ _ _ s4 _ f4 hw =>
  cases hw with
  | cons _ _ _ s5 _ f5 hw =>
  have hne : line ≠ [] := by
    rintro rfl
    have := getWord_first f1
    cases this
  have hnot : compareToken ".END_NOTES" wx = false := by unfold compareToken; simpa using hend
  unfold readNote
  rw [nextLine, e]
  simp only [hne, getWord_first f1, hnot, hx, num_of f2 hy, num_of f3 hh, num_of f4 hl, getWord_first f5, Bool.false_eq_true, or_self, if_false]
  cases hf with
  | mm => simp
  | thou => simp [thouToMM]

private theorem skip {u : Iges.Idf.Unit} {raw : Str} (h : fetchLine raw = none) (rest : List Str) : readNote u (raw :: rest) = readNote u rest := by
  unfold readNote
  rw [nextLine, h]

private theorem read_all {u : Iges.Idf.Unit} {f : ℚ} (hf : InMM u .v3 f) {raws : List Str} {ns : List Note} (h : NoteLines f raws ns)
    {s rest : List Str} (he : readNote u s = .finish rest) : ∀ n, raws.length < n → readAll (readNote u) n (raws ++ s) = some (ns, rest) := by
  induction h with
  | nil =>
    intro n hn
    obtain ⟨m, rfl⟩ := Nat.exists_eq_succ_of_ne_zero (by omega : n ≠ 0)
    rw [List.nil_append, readAll, he]
  | note raw n raws ns hl _ ih =>
    intro m hm
    obtain ⟨m, rfl⟩ := Nat.exists_eq_succ_of_ne_zero (by omega : m ≠ 0)
    rw [List.cons_append, readAll, read_note hf hl]
    simp only [ih m (by simp at hm; omega), Option.map_some]
  | blank raw raws ns hb _ ih =>
    intro m hm
    have h1 := ih m (by simp at hm; omega)
    obtain ⟨m, rfl⟩ := Nat.exists_eq_succ_of_ne_zero (by omega : m ≠ 0)
    rw [readAll] at h1
    rw [List.cons_append, readAll, skip hb]
    exact h1

end Rec
open Rec

/-- **C74_words**: lines that are notes, with blank lines between them, followed by a line that begins with `.END_NOTES`, are read as these notes, in millimetres
and in order.  Notes exist in version 3 only. -/
theorem C74_words (u : Iges.Idf.Unit) (f : ℚ) (hf : InMM u .v3 f) (raws : List Str) (ns : List Note) (h : NoteLines f raws ns)
    (e t w r : Str) (he : fetchLine e = some ⟨t, false⟩) (hw : FirstWord t w false r) (hend : w.map Char.toUpper = ".END_NOTES".toList)
    (rest : List Str) : readNotes u (raws ++ e :: rest) = some (ns, rest) := by
  have hne : t ≠ [] := by
    rintro rfl
    have := getWord_first hw
    cases this
  have hfin : readNote u (e :: rest) = .finish rest := by
    have hc : compareToken ".END_NOTES" w = true := by unfold compareToken; rw [hend]; simp
    unfold readNote
    rw [nextLine, he]
    simp only [hne, getWord_first hw, hc, Bool.false_eq_true, or_self, if_false, if_true]
  unfold readNotes
  exact read_all hf h hfin _ (by simp; omega)

/-- Two notes in thousandths of an inch, and a blank line. -/
example : readNotes .thou ["1000 -2000 50 500 \"do not solder\"".toList, [], " 0 0 .5 1e2 Text more".toList, ".end_notes".toList] =
    some ([⟨254 / 10, -508 / 10, 127 / 100, 127 / 10, "do not solder".toList⟩, ⟨0, 0, 127 / 10000, 254 / 100, "Text".toList⟩], []) := by
  decide +kernel

/-- The first of them meets the conditions. -/
example : NoteLine (254 / 10000) "1000 -2000 50 500 \"do not solder\"".toList ⟨254 / 10, -508 / 10, 127 / 100, 127 / 10, "do not solder".toList⟩ := by
  have hb : Blank [' '] := by intro c hc; simp at hc; subst hc; decide
  have hn : Blank [] := by intro c hc; cases hc
  refine ⟨"1000 -2000 50 500 \"do not solder\"".toList, "1000".toList, "-2000".toList, "50".toList, "500".toList, "do not solder".toList, true, [],
    1000, -2000, 50, 500, by decide +kernel, ?_, by decide +kernel, by decide +kernel, by decide +kernel, by decide +kernel, by decide, by norm_num⟩
  refine .cons _ _ _ " -2000 50 500 \"do not solder\"".toList _ ⟨[], hn, by decide⟩ ?_
  refine .cons _ _ _ " 50 500 \"do not solder\"".toList _ ⟨[' '], hb, by decide⟩ ?_
  refine .cons _ _ _ " 500 \"do not solder\"".toList _ ⟨[' '], hb, by decide⟩ ?_
  refine .cons _ _ _ " \"do not solder\"".toList _ ⟨[' '], hb, by decide⟩ ?_
  exact .cons _ _ _ [] _ ⟨[' '], hb, by decide⟩ (.nil _ hn)

end Iges.Props.IdfNotes
