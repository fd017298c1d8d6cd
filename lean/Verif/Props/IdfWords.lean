import Verif.Lemmas.IdfText
/-
C73: lines, words and numbers of IDF texts.
-/
namespace Iges.Props.IdfWords
open Iges.Idf Iges.Idf.Spec

/-- **C73_word** (`GetIDFString`): what the function answers for any text.  A word is delivered exactly when the text begins
with it; the answer is "nothing left" exactly for a blank text, and "unterminated quote mark" exactly when the text begins with
a quote mark that has no partner. -/
theorem C73_word (s : Str) :
    (∀ t q rest, getWord s = .word t q rest ↔ FirstWord s t q rest) ∧
    (getWord s = .missing ↔ Blank s) ∧
    (getWord s = .unterminated ↔ ∃ ws r, Blank ws ∧ s = ws ++ '"' :: r ∧ '"' ∉ r) := by
  refine ⟨fun t q rest => ⟨fun h => ?_, getWord_first⟩, ⟨fun h => ?_, getWord_blank⟩, ⟨fun h => ?_, ?_⟩⟩
  · rcases word_cases s with hb | ⟨ws, r, h1, h2, h3⟩ | ⟨t', q', rest', hw⟩
    · rw [getWord_blank hb] at h; cases h
    · rw [h2, getWord_open h1 h3] at h; cases h
    · have := getWord_first hw
      rw [this] at h
      cases h
      exact hw
  · rcases word_cases s with hb | ⟨ws, r, h1, h2, h3⟩ | ⟨t', q', rest', hw⟩
    · exact hb
    · rw [h2, getWord_open h1 h3] at h; cases h
    · rw [getWord_first hw] at h; cases h
  · rcases word_cases s with hb | ⟨ws, r, h1, h2, h3⟩ | ⟨t', q', rest', hw⟩
    · rw [getWord_blank hb] at h; cases h
    · exact ⟨ws, r, h1, h2, h3⟩
    · rw [getWord_first hw] at h; cases h
  · rintro ⟨ws, r, h1, rfl, h3⟩
    exact getWord_open h1 h3

/-- **C73_unique**: a line has only one reading as words. -/
theorem C73_unique (s : Str) (a b : List (Str × Bool)) (ha : Words s a) (hb : Words s b) : a = b := by
  induction ha generalizing b with
  | nil s h =>
    cases hb with
    | nil _ _ => rfl
    | cons _ t q rest ws hf _ =>
      have h1 := getWord_blank h
      rw [getWord_first hf] at h1; cases h1
  | cons s t q rest ws hf _ ih =>
    cases hb with
    | nil _ h =>
      have h1 := getWord_blank h
      rw [getWord_first hf] at h1; cases h1
    | cons _ t' q' rest' ws' hf' hw' =>
      have h1 := getWord_first hf
      rw [getWord_first hf'] at h1
      cases h1
      rw [ih _ hw']

/-- a list of texts, each in quote marks and followed by a space -/
def quoteAll (ts : List Str) : Str := ts.flatMap fun t => '"' :: t ++ ['"', ' ']

/-- **C73_written**: texts without quote marks, each written in quote marks and followed by a space, are read back as they
are, with any white space in them. -/
theorem C73_written (ts : List Str) (h : ∀ t ∈ ts, '"' ∉ t) : Words (quoteAll ts) (ts.map (·, true)) := by
  have key : ∀ ts : List Str, (∀ t ∈ ts, '"' ∉ t) → ∀ ws, Blank ws → Words (ws ++ quoteAll ts) (ts.map (·, true)) := by
    intro ts
    induction ts with
    | nil => intro _ ws hw; exact .nil _ (by simpa [quoteAll] using hw)
    | cons t ts ih =>
      intro h ws hw
      refine .cons _ t true (' ' :: quoteAll ts) _ ⟨ws, hw, ?_⟩ ?_
      · rw [if_pos rfl]
        exact ⟨by simp [quoteAll], h t (by simp)⟩
      · have := ih (fun t ht => h t (by simp [ht])) [' '] (by intro c hc; simp at hc; rw [hc]; rfl)
        simpa using this
  simpa using key ts h [] (by intro c hc; cases hc)

/-- The line delivered for the raw line `raw`: the comment mark and white space at both ends are gone. -/
def Stripped (raw : Str) (l : Line) : Prop :=
  ∃ a b, Blank a ∧ Blank b ∧ (∀ c ∈ l.text.head?, isSpaceC c = false) ∧ (∀ c ∈ l.text.getLast?, isSpaceC c = false) ∧
    if l.comment then raw = '#' :: (a ++ l.text ++ b)
    else raw = a ++ l.text ++ b ∧ raw.head? ≠ some '#' ∧ l.text ≠ []

theorem trim_split (s : Str) : ∃ a b, s = a ++ trim s ++ b ∧ Blank a ∧ Blank b ∧ (∀ c ∈ (trim s).head?, isSpaceC c = false) ∧
    ∀ c ∈ (trim s).getLast?, isSpaceC c = false := by
  obtain ⟨a, m, hs, ha, hm⟩ := split_while isSpaceC s
  obtain ⟨b', t', hr, hb, ht⟩ := split_while isSpaceC m.reverse
  have e : trim s = t'.reverse := by
    unfold trim
    rw [hs, dropWhile_append_of_all _ _ _ ha, dropWhile_of_head _ _ hm, hr, dropWhile_append_of_all _ _ _ hb,
      dropWhile_of_head _ _ ht]
  have em : m = t'.reverse ++ b'.reverse := by
    rw [← List.reverse_append, ← hr, List.reverse_reverse]
  refine ⟨a, b'.reverse, ?_, ha, ?_, ?_, ?_⟩
  · rw [e, List.append_assoc, ← em]; exact hs
  · intro c hc; exact hb c (by simpa using hc)
  · intro c hc
    rw [e] at hc
    apply hm c
    rw [em]
    cases h : t'.reverse with
    | nil => rw [h] at hc; cases hc
    | cons x y => rw [h] at hc; simpa using hc
  · intro c hc
    rw [e, List.getLast?_reverse] at hc
    exact ht c hc

theorem stripped_blank {raw : Str} (h : fetchLine raw = none) : Blank raw := by
  unfold fetchLine at h
  split at h
  · cases h
  · split at h
    · rename_i ht
      obtain ⟨a, b, hs, ha, hb, -, -⟩ := trim_split raw
      rw [ht, List.append_nil] at hs
      intro c hc
      rw [hs, List.mem_append] at hc
      rcases hc with hc | hc
      · exact ha c hc
      · exact hb c hc
    · cases h

/-- **C73_line** (the records of a section): the next line is the first one that is not blank, without white space at its
ends; a line that begins with `#` is a comment, also an empty one; after the last line the answer is an empty line. -/
theorem C73_line (input : List Str) :
    (∃ blanks raw rest l, input = blanks ++ raw :: rest ∧ (∀ b ∈ blanks, Blank b) ∧ Stripped raw l ∧
      nextLine input = (l, rest)) ∨
    (∀ b ∈ input, Blank b) ∧ nextLine input = (⟨[], false⟩, []) := by
  induction input with
  | nil => right; exact ⟨by simp, rfl⟩
  | cons r rs ih =>
    cases hf : fetchLine r with
    | none =>
      have hb := stripped_blank hf
      have e : nextLine (r :: rs) = nextLine rs := by rw [nextLine, hf]
      rw [e]
      rcases ih with ⟨bl, raw, rest, l, h1, h2, h3, h4⟩ | ⟨h1, h2⟩
      · refine Or.inl ⟨r :: bl, raw, rest, l, by rw [h1]; rfl, ?_, h3, h4⟩
        intro b hb'
        rcases List.mem_cons.1 hb' with rfl | hb'
        · exact hb
        · exact h2 b hb'
      · refine Or.inr ⟨?_, h2⟩
        intro b hb'
        rcases List.mem_cons.1 hb' with rfl | hb'
        · exact hb
        · exact h1 b hb'
    | some l =>
      refine Or.inl ⟨[], r, rs, l, rfl, by simp, ?_, by rw [nextLine, hf]⟩
      unfold fetchLine at hf
      split at hf
      · rename_i r'
        cases hf
        obtain ⟨a, b, hs, ha, hb, h1, h2⟩ := trim_split r'
        exact ⟨a, b, ha, hb, h1, h2, by rw [if_pos rfl, ← hs]⟩
      · rename_i hne
        split at hf
        · cases hf
        · rename_i ht
          cases hf
          obtain ⟨a, b, hs, ha, hb, h1, h2⟩ := trim_split r
          refine ⟨a, b, ha, hb, h1, h2, ?_⟩
          rw [if_neg (by simp)]
          refine ⟨hs, ?_, ht⟩
          intro hh
          cases r with
          | nil => cases hh
          | cons c r' => simp at hh; exact hne r' (by rw [hh])

/-- The fraction of a number: nothing, or a dot and digits. -/
def fracText : Option Str → Str
  | none => []
  | some fp => '.' :: fp

/-- The text of a number: sign, digits, perhaps a dot and digits. -/
def decText (neg : Bool) (ip : Str) (frac : Option Str) : Str := (if neg then ['-'] else []) ++ ip ++ fracText frac

/-- **C73_number**: a word that is a decimal number is read as its value, if it is below the largest double. -/
theorem C73_number (neg : Bool) (ip : Str) (frac : Option Str) (hi : ∀ c ∈ ip, isDigitC c = true)
    (hf : ∀ fp, frac = some fp → ∀ c ∈ fp, isDigitC c = true) (h0 : ip ≠ [] ∨ ∃ fp, frac = some fp ∧ fp ≠ [])
    (hv : (digitsVal (ip ++ frac.getD []) : ℚ) / 10 ^ (frac.getD []).length < dblOverflow) :
    readNum (decText neg ip frac) =
      some ((if neg then -1 else 1) * (digitsVal (ip ++ frac.getD []) : ℚ) / 10 ^ (frac.getD []).length) := by
  set fp := frac.getD [] with hfp
  have hfd : ∀ c ∈ fp, isDigitC c = true := by
    cases frac with
    | none => intro c hc; rw [hfp] at hc; cases hc
    | some f => exact hf f rfl
  set tail : Str := fracText frac with htl
  have hth : ∀ c ∈ tail.head?, isDigitC c = false := by
    cases frac with
    | none => simp [htl, fracText]
    | some f => intro c hc; simp [htl, fracText] at hc; rw [← hc]; rfl
  have hhead : ∀ c ∈ (ip ++ tail).head?, c ≠ '-' ∧ c ≠ '+' ∧ isSpaceC c = false := by
    intro c hc
    cases ip with
    | cons d ds =>
      simp at hc
      subst hc
      have := hi d (by simp)
      exact ⟨isDigitC_ne this rfl, isDigitC_ne this rfl, isDigitC_not_space this⟩
    | nil =>
      cases frac with
      | none => rcases h0 with h0 | ⟨f, hf', -⟩ <;> simp_all
      | some f => simp [htl, fracText] at hc; subst hc; decide
  have hts : takeSign (decText neg ip frac) = (neg, (if neg then 1 else 0), ip ++ tail) := by
    unfold decText
    cases neg with
    | true => simp [takeSign, htl]
    | false =>
      simp only [Bool.false_eq_true, if_false, List.nil_append]
      rw [← htl]
      cases h : ip ++ tail with
      | nil => rfl
      | cons c r =>
        have := hhead c (by rw [h]; simp)
        unfold takeSign
        split
        · rename_i e; simp at e; exact absurd e.1 this.1
        · rename_i e; simp at e; exact absurd e.1 this.2.1
        · rfl
  have hsp : ∀ c ∈ (decText neg ip frac).head?, isSpaceC c = false := by
    unfold decText
    cases neg with
    | true => intro c hc; simp at hc; subst hc; rfl
    | false =>
      simp only [Bool.false_eq_true, if_false, List.nil_append]
      rw [← htl]
      intro c hc; exact (hhead c hc).2.2
  have hz : (digitsVal (ip ++ fp) : ℚ) * (10 : ℚ) ^ ((0 : ℤ) - fp.length) = (digitsVal (ip ++ fp) : ℚ) / 10 ^ fp.length := by
    rw [zero_sub, zpow_neg, zpow_natCast]; rfl
  have hne : ¬ (ip = [] ∧ fp = []) := by
    rintro ⟨e1, e2⟩
    rcases h0 with h0 | ⟨f, hf', h0⟩
    · exact h0 e1
    · rw [hfp, hf'] at e2; exact h0 e2
  have hres : ∀ v : ℚ, (if neg = true then -v else v) = (if neg = true then -1 else 1) * v := by
    intro v; split <;> ring
  unfold readNum scanNum
  rw [dropWhile_of_head _ _ hsp, hts]
  simp only
  rw [takeWhile_append_of_all _ _ _ hi, takeWhile_of_head _ _ hth, dropWhile_append_of_all _ _ _ hi,
    dropWhile_of_head _ _ hth, List.append_nil]
  cases frac with
  | none =>
    have e : fp = [] := rfl
    simp only [htl, fracText]
    rw [if_neg (by rw [e] at hne; simpa using hne)]
    rw [e] at hz hv ⊢
    rw [hz, if_neg (not_le.2 hv), Option.map_some, hres, mul_div_assoc]
  | some f =>
    have e : fp = f := rfl
    simp only [htl, fracText, if_true]
    have h1 : f.takeWhile isDigitC = f := by
      have := takeWhile_append_of_all isDigitC f [] hfd; simpa using this
    have h2 : f.dropWhile isDigitC = [] := by
      have := dropWhile_append_of_all isDigitC f [] hfd; simpa using this
    rw [h1, h2, ← e, if_neg hne]
    simp only
    rw [hz, if_neg (not_le.2 hv), Option.map_some, hres, mul_div_assoc]

/-- **C73_junk** (against "a word that is not a number is refused"): only the beginning of the word is looked at. -/
theorem C73_junk : readNum "1.5mm".toList = some (3 / 2) ∧ readNum "1,5".toList = some 1 ∧ readNum "0x10".toList = some 0 ∧
    readNum "1.2.3".toList = some (6 / 5) ∧ readNum "mm".toList = none := by
  refine ⟨?_, ?_, ?_, ?_, ?_⟩ <;> decide +kernel

/-- the words of a line with and without quote marks -/
example : getWord " \"a b\"c d".toList = .word "a b".toList true "c d".toList ∧
    getWord "c d".toList = .word "c".toList false " d".toList := by decide

example : Words (quoteAll ["a b".toList, "".toList]) [("a b".toList, true), ("".toList, true)] :=
  C73_written _ (by decide)

example : nextLine ["  ".toList, "# remark ".toList, "x".toList] = (⟨"remark".toList, true⟩, ["x".toList]) := by decide

example : readNum (decText true "12".toList (some "50".toList)) = some (-25 / 2) := by
  rw [C73_number true _ _ (by decide) (by intro fp h; cases h; decide) (by left; decide)
    (by have e : digitsVal ("12".toList ++ "50".toList) = 1250 := by decide
        simp only [Option.getD_some]
        rw [e]
        have : (1250 : ℕ) < dblOverflow := by unfold dblOverflow; decide +kernel
        have h : ((1250 : ℕ) : ℚ) < dblOverflow := by exact_mod_cast this
        refine lt_of_le_of_lt ?_ h
        rw [show "50".toList.length = 2 by decide]
        norm_num)]
  have e : digitsVal ("12".toList ++ "50".toList) = 1250 := by decide
  simp only [Option.getD_some]
  rw [e, show "50".toList.length = 2 by decide]; norm_num

end Iges.Props.IdfWords
