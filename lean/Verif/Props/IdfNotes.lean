import Verif.Lemmas.IdfText
/-
C74: notes of a board file.
-/
namespace Iges.Props.IdfNotes
open Iges.Idf Iges.Idf.Spec

/-- places written -/
def places (u : Iges.Idf.Unit) : ℕ := if u = .thou then 1 else 5

/-- millimetres per unit written -/
def factor (u : Iges.Idf.Unit) : ℚ := if u = .thou then thouToMM else 1

theorem small_size {x : ℚ} (h : |x| ≤ 1000) : |x| ≤ 10 ^ 300 := by
  refine le_trans h ?_
  rw [show (1000 : ℚ) = 10 ^ 3 by norm_num]
  exact pow_le_pow_right₀ (by norm_num) (by norm_num)

theorem factor_pos (u : Iges.Idf.Unit) : 0 < factor u := by unfold factor thouToMM; split <;> norm_num

theorem places_pos (u : Iges.Idf.Unit) : 1 ≤ places u := by unfold places; split <;> norm_num

/-- the length read back -/
def again (u : Iges.Idf.Unit) (x : ℚ) : ℚ := fval (places u) (x / factor u) * factor u

theorem again_near (u : Iges.Idf.Unit) (x : ℚ) : |again u x - x| ≤ lengthTol u := by
  have hp := factor_pos u
  have h := fval_err (places u) (x / factor u)
  have e : again u x - x = (fval (places u) (x / factor u) - x / factor u) * factor u := by
    unfold again; field_simp
  rw [e, abs_mul, abs_of_pos hp]
  have h2 : half (places u) * factor u = lengthTol u := by
    unfold half places factor lengthTol thouToMM
    cases u <;> simp <;> norm_num
  rw [← h2]
  exact mul_le_mul_of_nonneg_right h (le_of_lt hp)

theorem again_idem (u : Iges.Idf.Unit) (x : ℚ) : again u (again u x) = again u x := by
  have hp := factor_pos u
  unfold again
  rw [mul_div_assoc, div_self (ne_of_gt hp), mul_one, fval_idem]

theorem size_div (u : Iges.Idf.Unit) {x : ℚ} (h : |x| ≤ 10 ^ 300) : |x / factor u| ≤ 10 ^ 305 := by
  have hp := factor_pos u
  rw [abs_div, abs_of_pos hp, div_le_iff₀ hp]
  have : (1 : ℚ) / 100 ≤ factor u := by unfold factor thouToMM; split <;> norm_num
  have e : (10 : ℚ) ^ 305 = 10 ^ 300 * 10 ^ 5 := by rw [← pow_add]
  rw [e]
  clear e
  have hB : (0 : ℚ) ≤ 10 ^ 300 := pow_nonneg (by norm_num) _
  generalize (10 : ℚ) ^ 300 = B at *
  have h1 : 1 ≤ 10 ^ 5 * factor u := by linarith
  calc |x| ≤ B * 1 := by rw [mul_one]; exact h
    _ ≤ B * (10 ^ 5 * factor u) := mul_le_mul_of_nonneg_left h1 hB
    _ = B * 10 ^ 5 * factor u := by ring

/-- the line of a note without the line end -/
def body (u : Iges.Idf.Unit) (n : Note) : Str :=
  fmtF (places u) (n.x / factor u) ++ (' ' :: (fmtF (places u) (n.y / factor u) ++ (' ' :: (fmtF (places u) (n.height / factor u) ++
    (' ' :: (fmtF (places u) (n.length / factor u) ++ (' ' :: '"' :: (n.text ++ ['"']))))))))

theorem writeNote_body (u : Iges.Idf.Unit) (n : Note) : writeNote u n = body u n ++ ['\n'] := by
  unfold writeNote body places factor
  split <;> simp

theorem body_noeol (u : Iges.Idf.Unit) (n : Note) (h : Plain n.text) : '\n' ∉ body u n := by
  have hf : ∀ p x, '\n' ∉ fmtF p x := fun p x hh => (fmtF_nospace hh).2.2.2 rfl
  unfold body
  simp only [List.mem_append, List.mem_cons, not_or]
  refine ⟨hf _ _, by decide, hf _ _, by decide, hf _ _, by decide, hf _ _, by decide, by decide, h.2, by decide, by simp⟩

theorem space_head (s : Str) : ∀ c ∈ (' ' :: s).head?, isSpaceC c = true := by intro c hc; cases hc; rfl

theorem body_last (u : Iges.Idf.Unit) (n : Note) : (body u n).getLast? = some '"' := by
  have : body u n = (fmtF (places u) (n.x / factor u) ++ (' ' :: (fmtF (places u) (n.y / factor u) ++ (' ' ::
      (fmtF (places u) (n.height / factor u) ++ (' ' :: (fmtF (places u) (n.length / factor u) ++ (' ' :: '"' :: n.text)))))))) ++ ['"'] := by
    unfold body; simp
  rw [this, List.getLast?_concat]

theorem readNote_body (u : Iges.Idf.Unit) (n : Note) (ht : '"' ∉ n.text) (hs : NoteSize n) (rest : List Str) :
    readNote u (body u n :: rest) = .item ⟨again u n.x, again u n.y, again u n.height, again u n.length, n.text⟩ rest := by
  obtain ⟨c, r, e⟩ := fmtF_head (places u) (n.x / factor u)
  have hne : body u n ≠ [] := by unfold body; rw [e]; simp
  have hl : nextLine (body u n :: rest) = (⟨body u n, false⟩, rest) := by
    apply nextLine_plain hne
    · intro c' hc
      have : c' = c := by unfold body at hc; rw [e] at hc; simpa using hc.symm
      subst this
      have := fmtF_nospace (p := places u) (x := n.x / factor u) (c := c') (by rw [e]; simp)
      exact ⟨this.1, this.2.2.1⟩
    · intro c' hc
      have : c' = '"' := by
        rw [body_last] at hc
        simpa using hc.symm
      subst this; rfl
  have hnot : compareToken ".END_NOTES" (fmtF (places u) (n.x / factor u)) = false :=
    not_token _ _ _ (by decide) (by decide)
  have hq := getWord_quoted (ws := [' ']) (t := n.text) (rest := []) (by intro c hc; simp at hc; rw [hc]; rfl) ht
  rw [List.singleton_append] at hq
  unfold readNote
  rw [hl]
  simp only [hne, Bool.false_eq_true, or_self, if_false]
  have hw := getWord_fmtF [] (by intro c hc; cases hc) (places u) (n.x / factor u)
    (' ' :: (fmtF (places u) (n.y / factor u) ++ (' ' :: (fmtF (places u) (n.height / factor u) ++
    (' ' :: (fmtF (places u) (n.length / factor u) ++ (' ' :: '"' :: (n.text ++ ['"'])))))))) (space_head _)
  rw [List.nil_append] at hw
  rw [show body u n = _ from rfl]
  unfold body
  rw [hw]
  simp only [Bool.false_eq_true, if_false, hnot]
  rw [readNum_fmtF (places_pos u) _ (fval_size (size_div u hs.1))]
  simp only
  rw [numWord_fmtF (places_pos u) _ (size_div u hs.2.1) _ (space_head _)]
  simp only
  rw [numWord_fmtF (places_pos u) _ (size_div u hs.2.2.1) _ (space_head _)]
  simp only
  rw [numWord_fmtF (places_pos u) _ (size_div u hs.2.2.2) _ (space_head _)]
  simp only
  rw [hq]
  simp only
  unfold again factor
  split <;> simp

theorem end_notes (u : Iges.Idf.Unit) (rest : List Str) : readNote u (".END_NOTES".toList :: rest) = .finish rest := by
  have hl : nextLine (".END_NOTES".toList :: rest) = (⟨".END_NOTES".toList, false⟩, rest) :=
    nextLine_plain (by decide) (by intro c hc; have : c = '.' := by simpa using hc.symm
                                   subst this; decide)
      (by intro c hc; have : c = 'S' := by simpa using hc.symm
          subst this; decide) rest
  have e : getWord ".END_NOTES".toList = .word ".END_NOTES".toList false [] := by decide
  have e2 : compareToken ".END_NOTES" ".END_NOTES".toList = true := by decide
  have e3 : ".END_NOTES".toList ≠ [] := by decide
  generalize ".END_NOTES".toList = t at *
  unfold readNote
  rw [hl]
  simp only [e3, e, e2, Bool.false_eq_true, or_self, if_false, if_true]

theorem lines_length_pos (s : Str) : 0 < (lines s).length := List.length_pos_iff.2 (lines_ne_nil s)

/-- **C74_roundtrip** (the notes of a board survive writing and reading): any number of notes whose texts contain no quote mark
and no line end, written in millimetres or in thousandths of an inch and read in the same unit, come back in the same order
with the same texts, positions and sizes moved by at most half a unit of the last place.  Reading stops after the end of the
section, whatever follows it.  Lengths up to 10^300. -/
theorem C74_roundtrip (u : Iges.Idf.Unit) (ns : List Note) (ht : ∀ n ∈ ns, Plain n.text) (hs : ∀ n ∈ ns, NoteSize n) (after : Str) :
    ∃ ns', readNotes u (lines (writeNotes u ns ++ after)) = some (ns', lines ('\n' :: after)) ∧
      List.Forall₂ (NoteNear u) ns ns' := by
  have key : ∀ (ns : List Note), (∀ n ∈ ns, Plain n.text) → (∀ n ∈ ns, NoteSize n) → ∀ k, ns.length < k →
      readAll (readNote u) k (lines (writeNotes u ns ++ after)) =
        some (ns.map fun n => ⟨again u n.x, again u n.y, again u n.height, again u n.length, n.text⟩, lines ('\n' :: after)) := by
    intro ns
    induction ns with
    | nil =>
      intro _ _ k hk
      obtain ⟨k, rfl⟩ : ∃ j, k = j + 1 := ⟨k - 1, by simp at hk; omega⟩
      have : lines (writeNotes u [] ++ after) = ".END_NOTES".toList :: lines ('\n' :: after) := by
        rw [← lines_line (by decide)]; rfl
      rw [this, readAll, end_notes]; rfl
    | cons n ns ih =>
      intro ht hs k hk
      obtain ⟨k, rfl⟩ : ∃ j, k = j + 1 := ⟨k - 1, by simp at hk; omega⟩
      have hb := body_noeol u n (ht n (by simp))
      have : lines (writeNotes u (n :: ns) ++ after) = body u n :: lines (writeNotes u ns ++ after) := by
        rw [← lines_line hb]
        unfold writeNotes
        rw [List.flatMap_cons, writeNote_body]
        simp
      rw [this, readAll, readNote_body u n (ht n (by simp)).1 (hs n (by simp))]
      simp only
      rw [ih (fun n hn => ht n (by simp [hn])) (fun n hn => hs n (by simp [hn])) k (by simp at hk; omega)]
      rfl
  refine ⟨ns.map fun n => ⟨again u n.x, again u n.y, again u n.height, again u n.length, n.text⟩, ?_, ?_⟩
  · unfold readNotes
    apply key ns ht hs
    have : ∀ ns : List Note, (∀ n ∈ ns, Plain n.text) → ns.length ≤ (lines (writeNotes u ns ++ after)).length := by
      intro ns
      induction ns with
      | nil => simp
      | cons n ns ih =>
        intro ht
        have hb := body_noeol u n (ht n (by simp))
        have : lines (writeNotes u (n :: ns) ++ after) = body u n :: lines (writeNotes u ns ++ after) := by
          rw [← lines_line hb]
          unfold writeNotes
          rw [List.flatMap_cons, writeNote_body]
          simp
        rw [this]
        have := ih (fun n hn => ht n (by simp [hn]))
        simp; omega
    have := this ns ht
    omega
  · rw [List.forall₂_map_right_iff]
    rw [List.forall₂_same]
    intro n hn
    exact ⟨again_near u _, again_near u _, again_near u _, again_near u _, rfl⟩

/-- **C74_stable**: what was read once does not change any more when it is written and read again in the same unit. -/
theorem C74_stable (u : Iges.Idf.Unit) (n : Note) (ht : Plain n.text) (hs : NoteSize n)
    (rest rest' : List Str) (m : Note) (hsm : NoteSize m) (h : readNote u (lines (writeNote u n) ++ rest) = .item m rest') :
    ∃ rest'', readNote u (lines (writeNote u m) ++ rest) = .item m rest'' := by
  have e : ∀ n : Note, Plain n.text → lines (writeNote u n) = [body u n, []] := by
    intro n hn
    rw [writeNote_body, show body u n ++ ['\n'] = body u n ++ '\n' :: [] from rfl, lines_line (body_noeol u n hn)]; rfl
  rw [e n ht, List.cons_append, readNote_body u n ht.1 hs] at h
  have hm := (Rec.item.inj h).1
  have hn : NoteNear u n m := by
    rw [← hm]
    exact ⟨again_near u _, again_near u _, again_near u _, again_near u _, rfl⟩
  have htm : Plain m.text := by rw [hn.text]; exact ht
  refine ⟨[] :: rest, ?_⟩
  rw [e m htm, List.cons_append, readNote_body u m htm.1 hsm]
  rw [← hm]
  simp only [again_idem, List.nil_append, List.cons_append]

/-- **C74_quote_lost** (against "the text of a note survives"): a quote mark in the text, as in `5" pad`, ends it. -/
theorem C74_quote_lost : ∃ (n m : Note) (rest : List Str), NoteSize n ∧ n.text = "5\" pad".toList ∧ m.text = "5".toList ∧
    readNote .mm (lines (writeNote .mm n)) = .item m rest := by
  refine ⟨⟨0, 0, 1, 1, "5\" pad".toList⟩, ⟨0, 0, 1, 1, "5".toList⟩, [[]], ⟨small_size (by norm_num), small_size (by norm_num), small_size (by norm_num), small_size (by norm_num)⟩, rfl, rfl, ?_⟩
  decide +kernel

/-- **C74_newline_refused**: a line end in the text makes the file unreadable. -/
theorem C74_newline_refused : ∃ n : Note, NoteSize n ∧
    readNotes .mm (lines (writeNotes .mm [n])) = none := by
  refine ⟨⟨0, 0, 1, 1, "a\nb".toList⟩, ⟨small_size (by norm_num), small_size (by norm_num), small_size (by norm_num), small_size (by norm_num)⟩, ?_⟩
  decide +kernel

/-- two notes, in thousandths of an inch, one of them with an empty text and lengths that are not whole thousandths -/
example : (∀ n ∈ [(⟨254 / 10, -127 / 10, 1, 2, "a b".toList⟩ : Note), ⟨1 / 3, 0, 0, 0, []⟩], Plain n.text ∧ NoteSize n) ∧
    readNotes .thou (lines (writeNotes .thou [⟨254 / 10, -127 / 10, 127 / 50, 127 / 100, "a b".toList⟩, ⟨1 / 3, 0, 0, 0, []⟩])) =
    some ([⟨254 / 10, -127 / 10, 127 / 50, 127 / 100, "a b".toList⟩, ⟨131 / 10 * thouToMM, 0, 0, 0, []⟩], [[], []]) := by
  refine ⟨?_, by decide +kernel⟩
  intro n hn
  simp only [List.mem_cons, List.not_mem_nil, or_false] at hn
  rcases hn with rfl | rfl
  · exact ⟨⟨by decide, by decide⟩, small_size (by norm_num [abs_of_pos]), small_size (by norm_num), small_size (by norm_num), small_size (by norm_num)⟩
  · exact ⟨⟨by decide, by decide⟩, small_size (by norm_num [abs_of_pos]), small_size (by norm_num), small_size (by norm_num), small_size (by norm_num)⟩

end Iges.Props.IdfNotes
