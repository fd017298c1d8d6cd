import Verif.Model.Header
import Verif.Spec.Header
import Verif.Lemmas.Gather
import Mathlib.Data.List.Forall2
/-
C44: start-section text.
-/
namespace Iges.Props
open Iges

theorem pad72_length {s : Str} (h : s.length ≤ 72) : (pad72 s).length = 72 := by
  simp [pad72]; omega

theorem split72_spec (n : Nat) (s : Str) (h : s.length ≤ n) : Spec.HeaderLines s (split72 n s) := by
  induction n generalizing s with
  | zero =>
    have : s = [] := by simpa using h
    subst this
    exact ⟨by simp [split72], 0, by decide, by simp [split72]⟩
  | succ n ih =>
    unfold split72
    by_cases hs : s = []
    · rw [if_pos hs, hs]
      exact ⟨by simp, 0, by decide, by simp⟩
    · rw [if_neg hs]
      have hpos : 0 < s.length := List.length_pos_iff.mpr hs
      obtain ⟨h1, k, hk, h2⟩ := ih (s.drop 72) (by rw [List.length_drop]; omega)
      by_cases hl : s.length ≤ 72
      · have hd : s.drop 72 = [] := List.drop_eq_nil_of_le hl
        have ht : s.take 72 = s := List.take_of_length_le hl
        rw [hd, ht]
        have : split72 n [] = [] := by cases n <;> simp [split72]
        rw [this]
        refine ⟨by simp [pad72_length hl], 72 - s.length, by omega, by simp [pad72]⟩
      · have ht : (s.take 72).length = 72 := by rw [List.length_take]; omega
        refine ⟨?_, k, hk, ?_⟩
        · intro l hl'
          rw [List.mem_cons] at hl'
          rcases hl' with rfl | hl'
          · exact pad72_length (by omega)
          · exact h1 l hl'
        · rw [List.flatten_cons, h2]
          simp only [pad72, ht, Nat.sub_self, List.replicate_zero, List.append_nil]
          rw [← List.append_assoc, List.take_append_drop]

/-- **C44** — A text of any length other than 72 is appended to the header as lines of 72 columns which
joined are the text and trailing blanks; earlier lines are kept. -/
theorem C44_text_kept_partial (hdr : List Str) (text : Str) (h : text.length ≠ 72) :
    ∃ ls, AddToHeader hdr text = hdr ++ ls ∧ Spec.HeaderLines text ls := by
  unfold AddToHeader
  by_cases h0 : text = []
  · rw [if_pos h0]
    exact ⟨[], by simp, by simp, 0, by decide, by simp [h0]⟩
  · rw [if_neg h0]
    by_cases h1 : text.length < 72
    · rw [if_pos h1]
      exact ⟨_, rfl, by simp [pad72_length (Nat.le_of_lt h1)], 72 - text.length,
        by have := List.length_pos_iff.mpr h0; omega, by simp [pad72]⟩
    · rw [if_neg h1, if_pos (by omega)]
      exact ⟨_, rfl, split72_spec _ _ (Nat.le_refl _)⟩

/-- **C44** — Any sequence of texts, none of length 72. -/
theorem C44_texts_in_order_partial (texts : List Str) (h : ∀ t ∈ texts, t.length ≠ 72) (hdr : List Str) :
    ∃ lss, texts.foldl AddToHeader hdr = hdr ++ lss.flatten ∧ List.Forall₂ Spec.HeaderLines texts lss := by
  induction texts generalizing hdr with
  | nil => exact ⟨[], by simp, .nil⟩
  | cons t ts ih =>
    obtain ⟨ls, h1, h2⟩ := C44_text_kept_partial hdr t (h t (by simp))
    obtain ⟨lss, h3, h4⟩ := ih (fun t ht => h t (by simp [ht])) (hdr ++ ls)
    exact ⟨ls :: lss, by rw [List.foldl_cons, h1, h3]; simp, .cons h2 h4⟩

/-- The rest of C44 fails: a text that fills a line exactly is accepted and lost. -/
theorem C44_full_line_dropped (hdr : List Str) (text : Str) (h : text.length = 72) :
    AddToHeader hdr text = hdr := by
  unfold AddToHeader
  by_cases h0 : text = []
  · rw [if_pos h0]
  · rw [if_neg h0, if_neg (by omega), if_neg (by omega)]

/-- Columns 73-80 of a start line. -/
def startTail (seq : Int) : Str := 'S' :: Spec.rjust 7 seq

theorem startLines_eq (hdr : List Str) (i : Int) (h1 : 1 ≤ i) (h2 : i + hdr.length ≤ 10000000) :
    startLines i hdr = some (Spec.lines startTail i hdr) := by
  induction hdr generalizing i with
  | nil => rfl
  | cons l ls ih =>
    simp only [List.length_cons] at h2
    have hs := FormatDEInt_some i (by omega) (by omega)
    simp only [startLines, hs, Option.bind_eq_bind, Option.bind_some,
      ih (i + 1) (by omega) (by omega)]
    rw [FormatDEInt_set 'S' hs (by omega) (by omega)]
    simp [Spec.lines, startTail]

theorem startTail_no_nl (k : Int) : '\n' ∉ startTail k := by
  unfold startTail
  simp only [List.mem_cons, not_or]
  exact ⟨by decide, rjust_no_nl 7 k⟩

theorem normStart_72 (hdr : List Str) (h : ∀ l ∈ hdr, l.length = 72) : normStart hdr = .ok hdr := by
  have p : ∀ l : Str, l.length = 72 → pad72 l = l := by intro l hl; simp [pad72, hl]
  induction hdr with
  | nil => rfl
  | cons l ls ih =>
    have hl := h l (by simp)
    cases ls with
    | nil => simp [normStart, hl, p l hl]
    | cons m ls =>
      have := ih (fun l hl => h l (by simp [hl]))
      simp [normStart, hl, this, Res.bind, p l hl]

/-- The lines of a section gathered by the reader: the records have the letter `c` and consecutive
numbers from `n + 1`, and a record of another section follows. -/
theorem gatherSection_lines (c : Char) (tail : Int → Str) (n : Nat)
    (hread : ∀ (d : Str) (i : Int), d.length = 72 → 1 ≤ i → i ≤ 9999999 →
      ReadIGESRecord (d ++ tail i) = some ⟨d, c, i⟩)
    (r : Record) (hr : r.section_type ≠ c) (l : Str) (hl : ReadIGESRecord l = some r) (more : List Str)
    (d0 : Str) (datas : List Str) (hd : ∀ d ∈ datas, d.length = 72) (hn : n + 1 + datas.length ≤ 9999999) :
    gatherSection c n ⟨d0, c, n + 1⟩ (lineList tail (n + 2) datas ++ l :: more) =
      some (d0 :: datas, r, more) := by
  induction datas generalizing n d0 with
  | nil =>
    simp only [lineList, List.nil_append]
    rw [gatherSection]
    simp only [ne_eq, not_true_eq_false, if_false, hl]
    have : gatherSection c (n + 1) r more = some ([], r, more) := by
      cases more <;> simp [gatherSection, hr]
    rw [this]
    simp
  | cons d ds ih =>
    simp only [lineList, List.cons_append]
    rw [gatherSection]
    simp only [List.length_cons] at hn
    rw [hread d (n + 2) (hd d (by simp)) (by omega) (by omega)]
    simp only [ne_eq, not_true_eq_false, if_false]
    have := ih (n + 1) d (fun d h => hd d (by simp [h])) (by omega)
    have e1 : ((n + 1 : Nat) : Int) + 1 = (n : Int) + 2 := by omega
    have e2 : ((n + 1 : Nat) : Int) + 2 = (n : Int) + 2 + 1 := by omega
    rw [e1, e2] at this
    rw [this]
    simp

theorem readStartLine (d : Str) (i : Int) (hd : d.length = 72) (h1 : 1 ≤ i) (h2 : i ≤ 9999999) :
    ReadIGESRecord (d ++ startTail i) = some ⟨d, 'S', i⟩ := by
  have h7 := rjust_length 7 i (intStr_length_le7 i (by omega) h2)
  have := C03_emitted_line_accepted d 'S' (Spec.rjust 7 i) i []
    hd (by simp) h7 (rjust_intColumn 7 i) (by omega) (by simp) (rjust_getLast 7 i)
  simpa [startTail] using this

/-- **C44** — A header of 72-column lines without line ends is written as one S record per line,
numbered from 1, and the reader gets the same header back from these lines (`next` is the first line
of the following section). -/
theorem C44_header_roundtrip (hdr : List Str) (hne : hdr ≠ []) (h72 : ∀ l ∈ hdr, l.length = 72)
    (hnl : ∀ l ∈ hdr, '\n' ∉ l) (hlen : hdr.length ≤ 9999999) (next : Str) (more : Str) (hnext : '\n' ∉ next)
    (r : Record) (hr : ReadIGESRecord next = some r) (hs : r.section_type ≠ 'S') :
    ∃ text, writeStart hdr = .ok (some (text, hdr)) ∧ text = Spec.lines startTail 1 hdr ∧
      ((nextRecord (getlines [] (text ++ next ++ '\n' :: more))).bind fun x => gatherSection 'S' 0 x.1 x.2) =
        some (hdr, r, getlines [] more) := by
  refine ⟨Spec.lines startTail 1 hdr, ?_, rfl, ?_⟩
  · unfold writeStart
    rw [if_neg hne, normStart_72 hdr h72]
    simp only [Res.bind, startLines_eq hdr 1 (by omega) (by omega)]
    rfl
  · rw [List.append_assoc, getlines_lines startTail 1 hdr _ startTail_no_nl hnl,
      getlines_line [] next more hnext]
    obtain ⟨d, ds, rfl⟩ := List.exists_cons_of_ne_nil hne
    simp only [lineList, List.cons_append, nextRecord, List.length_cons] at hlen ⊢
    rw [readStartLine d 1 (h72 d (by simp)) (by omega) (by omega)]
    simp only [Option.map_some, Option.bind_some, List.reverse_nil, List.nil_append]
    exact gatherSection_lines 'S' startTail 0 readStartLine r hs next hr (getlines [] more) d ds
      (fun d h => h72 d (by simp [h])) (by omega)

/-- Without start text a default line is written. -/
theorem C44_default_line : ∃ text, writeStart [] = .ok (some (text, [pad72 defaultStart])) ∧
    text = Spec.lines startTail 1 [pad72 defaultStart] ∧ (pad72 defaultStart).length = 72 := by
  refine ⟨_, rfl, ?_, by decide⟩
  decide +kernel

/-- A concrete case: a short and a long text. -/
example : ([List.replicate 10 'a', List.replicate 100 'b'].foldl AddToHeader []).map List.length = [72, 72, 72] := by
  decide +kernel

end Iges.Props
