import Verif.Lemmas.RealNum
import Verif.Lemmas.RealText
import Verif.Spec.IdfText
/-
Words, lines and numbers of IDF texts.
-/
namespace Iges.Idf
open Iges.Idf.Spec

/-! Words -/

theorem drop_blank {ws s : Str} (h : Blank ws) (hs : ∀ c ∈ s.head?, isSpaceC c = false) :
    (ws ++ s).dropWhile isSpaceC = s := by
  rw [dropWhile_append_of_all _ _ _ h, dropWhile_of_head _ _ hs]

theorem getWord_quoted {ws t rest : Str} (h : Blank ws) (ht : '"' ∉ t) :
    getWord (ws ++ '"' :: (t ++ '"' :: rest)) = .word t true rest := by
  unfold getWord
  rw [drop_blank h (by intro c hc; cases hc; rfl)]
  have h1 : ∀ x ∈ t, (x != '"') = true := by
    intro x hx
    simp only [bne_iff_ne]
    rintro rfl
    exact ht hx
  have h2 : ∀ x ∈ ('"' :: rest).head?, (x != '"') = false := by intro x hx; cases hx; rfl
  simp only [if_true]
  rw [dropWhile_append_of_all _ _ _ h1, dropWhile_of_head _ _ h2, takeWhile_append_of_all _ _ _ h1,
    takeWhile_of_head _ _ h2, List.append_nil]

theorem getWord_bare {ws t rest : Str} (h : Blank ws) (h0 : t ≠ []) (h1 : t.head? ≠ some '"')
    (h2 : ∀ c ∈ t, isSpaceC c = false) (h3 : ∀ c ∈ rest.head?, isSpaceC c = true) :
    getWord (ws ++ (t ++ rest)) = .word t false rest := by
  obtain ⟨a, t', rfl⟩ := List.exists_cons_of_ne_nil h0
  unfold getWord
  rw [drop_blank h (by intro c hc; cases hc; exact h2 a (by simp))]
  have ha : a ≠ '"' := by rintro rfl; exact h1 rfl
  have g1 : ∀ x ∈ a :: t', (!isSpaceC x) = true := by intro x hx; rw [h2 x hx]; rfl
  have g2 : ∀ x ∈ rest.head?, (!isSpaceC x) = false := by intro x hx; rw [h3 x hx]; rfl
  simp only [List.cons_append, if_neg ha]
  rw [← List.cons_append, takeWhile_append_of_all _ _ _ g1, takeWhile_of_head _ _ g2, dropWhile_append_of_all _ _ _ g1,
    dropWhile_of_head _ _ g2, List.append_nil]

theorem getWord_blank {s : Str} (h : Blank s) : getWord s = .missing := by
  unfold getWord
  have : s.dropWhile isSpaceC = [] := by
    have := drop_blank (s := []) h (by simp)
    simpa using this
  rw [this]

theorem getWord_open {ws r : Str} (h : Blank ws) (hr : '"' ∉ r) : getWord (ws ++ '"' :: r) = .unterminated := by
  unfold getWord
  rw [drop_blank h (by intro c hc; cases hc; rfl)]
  have h1 : ∀ x ∈ r, (x != '"') = true := by
    intro x hx
    simp only [bne_iff_ne]
    rintro rfl
    exact hr hx
  have : r.dropWhile (· != '"') = [] := by
    have := dropWhile_append_of_all (· != '"') r [] h1
    simpa using this
  simp only [if_true, this]

theorem split_while (p : Char → Bool) (s : Str) : ∃ a b, s = a ++ b ∧ (∀ x ∈ a, p x = true) ∧ ∀ x ∈ b.head?, p x = false := by
  refine ⟨s.takeWhile p, s.dropWhile p, (List.takeWhile_append_dropWhile).symm, mem_takeWhile_true p s, ?_⟩
  intro x hx
  have hne : s.dropWhile p ≠ [] := by rintro h; rw [h] at hx; cases hx
  have := List.head_dropWhile_not p (l := s) hne
  rw [List.head?_eq_some_head hne] at hx
  cases hx
  exact this

/-- every text is of one of the three kinds -/
theorem word_cases (s : Str) : Blank s ∨ (∃ ws r, Blank ws ∧ s = ws ++ '"' :: r ∧ '"' ∉ r) ∨
    ∃ t q rest, FirstWord s t q rest := by
  obtain ⟨ws, b, hs, hb, hh⟩ := split_while isSpaceC s
  cases b with
  | nil => left; rw [List.append_nil] at hs; rw [hs]; exact hb
  | cons c r =>
    right
    have hc : isSpaceC c = false := hh c (by simp)
    by_cases hq : c = '"'
    · subst hq
      obtain ⟨t, r', hr, ht, hh'⟩ := split_while (· != '"') r
      have ht' : '"' ∉ t := by intro h; simpa using ht _ h
      cases r' with
      | nil => left; rw [List.append_nil] at hr; exact ⟨ws, r, hb, hs, by rw [hr]; exact ht'⟩
      | cons d rest =>
        right
        have hd : d = '"' := by have := hh' d (by simp); simpa using this
        exact ⟨t, true, rest, ws, hb, by rw [if_pos rfl, hs, hr, hd]; exact ⟨rfl, ht'⟩⟩
    · right
      obtain ⟨t, rest, hr, ht, hh'⟩ := split_while (!isSpaceC ·) (c :: r)
      have h0 : t ≠ [] := by
        rintro rfl
        rw [List.nil_append] at hr
        have := hh' c (by rw [← hr]; simp)
        simp [hc] at this
      have h1 : t.head? = some c := by
        obtain ⟨a, t', rfl⟩ := List.exists_cons_of_ne_nil h0
        simp at hr; simp [hr.1]
      refine ⟨t, false, rest, ws, hb, ?_⟩
      rw [if_neg (by simp)]
      refine ⟨by rw [hs, hr], h0, by rw [h1]; simpa using hq, ?_, ?_⟩
      · intro x hx; simpa using ht x hx
      · intro x hx; simpa using hh' x hx

theorem getWord_first {s t rest : Str} {q : Bool} (h : FirstWord s t q rest) : getWord s = .word t q rest := by
  obtain ⟨ws, hb, h⟩ := h
  cases q with
  | true => rw [if_pos rfl] at h; rw [h.1]; exact getWord_quoted hb h.2
  | false => rw [if_neg (by simp)] at h; rw [h.1]; exact getWord_bare hb h.2.1 h.2.2.1 h.2.2.2.1 h.2.2.2.2

/-! Lines -/

theorem lines_line {a : Str} (h : '\n' ∉ a) (b : Str) : lines (a ++ '\n' :: b) = a :: lines b := by
  induction a with
  | nil => rw [List.nil_append, lines, if_pos rfl]
  | cons c a ih =>
    have hc : c ≠ '\n' := by rintro rfl; exact h (by simp)
    rw [List.cons_append, lines, if_neg hc, ih (fun hh => h (by simp [hh]))]

theorem lines_ne_nil (s : Str) : lines s ≠ [] := by
  cases s with
  | nil => simp [lines]
  | cons c s =>
    rw [lines]
    split
    · simp
    · split <;> simp

theorem trim_plain {s : Str} (h1 : ∀ c ∈ s.head?, isSpaceC c = false) (h2 : ∀ c ∈ s.getLast?, isSpaceC c = false) :
    trim s = s := by
  unfold trim
  rw [dropWhile_of_head _ _ h1, dropWhile_of_head _ _ (by rw [List.head?_reverse]; exact h2), List.reverse_reverse]

/-- a line that begins and ends with something else than white space, and is not a comment, is delivered as it is -/
theorem nextLine_plain {s : Str} (h0 : s ≠ []) (h1 : ∀ c ∈ s.head?, isSpaceC c = false ∧ c ≠ '#')
    (h2 : ∀ c ∈ s.getLast?, isSpaceC c = false) (rest : List Str) : nextLine (s :: rest) = (⟨s, false⟩, rest) := by
  have ht := trim_plain (fun c hc => (h1 c hc).1) h2
  obtain ⟨c, r, rfl⟩ := List.exists_cons_of_ne_nil h0
  have hc : c ≠ '#' := (h1 c (by simp)).2
  rw [nextLine]
  have : fetchLine (c :: r) = some ⟨c :: r, false⟩ := by
    unfold fetchLine
    split
    · rename_i e; simp at e; exact absurd e.1 hc
    · rw [ht, if_neg h0]
  rw [this]

/-! Numbers -/

/-- the value printed -/
def fval (p : ℕ) (x : ℚ) : ℚ := (if x < 0 then -1 else 1) * ((roundHE (|x| * 10 ^ p)).toNat : ℚ) / 10 ^ p

theorem roundHE_nonneg {q : ℚ} (h : 0 ≤ q) : 0 ≤ roundHE q := roundHE_ge q 0 (by exact_mod_cast h)

theorem fval_err (p : ℕ) (x : ℚ) : |fval p x - x| ≤ half p := by
  have hp : (0 : ℚ) < 10 ^ p := by positivity
  have h := roundHE_err (|x| * 10 ^ p)
  have hn : (((roundHE (|x| * 10 ^ p)).toNat : ℕ) : ℚ) = (roundHE (|x| * 10 ^ p) : ℚ) := by
    have := Int.toNat_of_nonneg (roundHE_nonneg (q := |x| * 10 ^ p) (by positivity))
    exact_mod_cast congrArg (Int.cast (R := ℚ)) this
  have key : |((roundHE (|x| * 10 ^ p) : ℚ) / 10 ^ p) - (|x|)| ≤ half p := by
    have : ((roundHE (|x| * 10 ^ p) : ℚ) / 10 ^ p) - (|x|) = ((roundHE (|x| * 10 ^ p) : ℚ) - |x| * 10 ^ p) / 10 ^ p := by
      field_simp
    rw [this, abs_div, abs_of_pos hp]
    unfold half
    exact (div_le_div_iff_of_pos_right hp).2 h
  unfold fval
  rw [hn]
  split
  · rename_i hx
    have : |x| = -x := abs_of_neg hx
    have e : -1 * (roundHE (|x| * 10 ^ p) : ℚ) / 10 ^ p - x = -((roundHE (|x| * 10 ^ p) : ℚ) / 10 ^ p - |x|) := by
      rw [this]; ring
    rw [e, abs_neg]; exact key
  · rename_i hx
    have : |x| = x := abs_of_nonneg (not_lt.1 hx)
    rw [one_mul]
    calc _ = |((roundHE (|x| * 10 ^ p) : ℚ) / 10 ^ p) - (|x|)| := by rw [this]
      _ ≤ _ := key

theorem roundHE_int (n : ℤ) : roundHE (n : ℚ) = n := by
  unfold roundHE
  simp

/-- a number with at most `p` places is printed exactly -/
theorem fval_exact (p : ℕ) (k : ℤ) : fval p ((k : ℚ) / 10 ^ p) = k / 10 ^ p := by
  have hp : (0 : ℚ) < 10 ^ p := by positivity
  unfold fval
  have e : |(k : ℚ) / 10 ^ p| * 10 ^ p = ((|k| : ℤ) : ℚ) := by
    rw [abs_div, abs_of_pos hp, div_mul_cancel₀ _ (ne_of_gt hp)]; push_cast; rfl
  rw [e, roundHE_int]
  have e2 : ((|k|.toNat : ℕ) : ℚ) = ((|k| : ℤ) : ℚ) := by
    have := Int.toNat_of_nonneg (abs_nonneg k)
    exact_mod_cast congrArg (Int.cast (R := ℚ)) this
  rw [e2]
  split
  · rename_i h
    have hk : k < 0 := by
      by_contra hk
      have : (0 : ℚ) ≤ k := by exact_mod_cast not_lt.1 hk
      have := div_nonneg this (le_of_lt hp)
      linarith
    rw [abs_of_neg hk]; push_cast; ring
  · rename_i h
    have hk : 0 ≤ k := by
      by_contra hk
      have : (k : ℚ) < 0 := by exact_mod_cast not_le.1 hk
      exact h (div_neg_of_neg_of_pos this hp)
    rw [abs_of_nonneg hk, one_mul]

/-- what is printed has at most `p` places -/
theorem fval_places (p : ℕ) (x : ℚ) : ∃ k : ℤ, fval p x = k / 10 ^ p := by
  unfold fval
  split
  · exact ⟨-((roundHE (|x| * 10 ^ p)).toNat : ℤ), by push_cast; ring⟩
  · exact ⟨((roundHE (|x| * 10 ^ p)).toNat : ℤ), by push_cast; ring⟩

theorem fval_idem (p : ℕ) (x : ℚ) : fval p (fval p x) = fval p x := by
  obtain ⟨k, hk⟩ := fval_places p x
  rw [hk, fval_exact]

theorem pad_length {p n : ℕ} (hp : 1 ≤ p) (h : n < 10 ^ p) :
    (List.replicate (p - (natStr n).length) '0' ++ natStr n).length = p := by
  have := natStr_length_le hp h
  simp; omega

theorem fmtF_chars (p : ℕ) (x : ℚ) : ∀ c ∈ fmtF p x, isDigitC c = true ∨ c = '.' ∨ c = '-' := by
  intro c hc
  unfold fmtF signText at hc
  simp only [List.mem_append, List.mem_cons, List.mem_replicate] at hc
  rcases hc with (hc | hc) | hc | ⟨-, hc⟩ | hc
  · split at hc
    · simp at hc; exact Or.inr (Or.inr hc)
    · cases hc
  · exact Or.inl (natStr_digit hc)
  · exact Or.inr (Or.inl hc)
  · left; rw [hc]; rfl
  · exact Or.inl (natStr_digit hc)

theorem fmtF_head (p : ℕ) (x : ℚ) : ∃ c r, fmtF p x = c :: r := by
  cases h : fmtF p x with
  | nil => unfold fmtF at h; simp at h
  | cons c r => exact ⟨c, r, rfl⟩

theorem fmtF_nospace {p : ℕ} {x : ℚ} {c : Char} (h : c ∈ fmtF p x) : isSpaceC c = false ∧ c ≠ '"' ∧ c ≠ '#' ∧ c ≠ '\n' := by
  rcases fmtF_chars p x c h with h | rfl | rfl
  · exact ⟨isDigitC_not_space h, isDigitC_ne h rfl, isDigitC_ne h rfl, isDigitC_ne h rfl⟩
  · decide
  · decide

theorem digitsVal_append (a b : Str) : digitsVal (a ++ b) = digitsVal a * 10 ^ b.length + digitsVal b := by
  unfold digitsVal
  rw [List.foldl_append]
  generalize List.foldl (fun a c => 10 * a + (c.toNat - 48)) 0 a = z
  induction b using List.reverseRecOn with
  | nil => simp
  | append_singleton b c ih =>
    rw [List.foldl_append, List.foldl_append, ih, List.length_append]
    simp only [List.foldl_cons, List.foldl_nil, List.length_singleton]
    ring

/-- a printed number is read back -/
theorem scanNum_fmtF {p : ℕ} (hp : 1 ≤ p) (x : ℚ) (hx : |fval p x| < (dblOverflow : ℚ)) (rest : Str)
    (hr : ∀ c ∈ rest.head?, isDigitC c = false ∧ c ≠ 'e' ∧ c ≠ 'E') : scanNum (fmtF p x ++ rest) = some (fval p x, rest) := by
  set n := (roundHE (|x| * 10 ^ p)).toNat with hn
  set ip := natStr (n / 10 ^ p) with hip
  set fp := List.replicate (p - (natStr (n % 10 ^ p)).length) '0' ++ natStr (n % 10 ^ p) with hfp
  have hipd : ∀ c ∈ ip, isDigitC c = true := fun c hc => natStr_digit hc
  have hfpd : ∀ c ∈ fp, isDigitC c = true := by
    intro c hc
    rw [hfp, List.mem_append] at hc
    rcases hc with hc | hc
    · exact zeros_digit _ c hc
    · exact natStr_digit hc
  have hfl : fp.length = p := pad_length hp (Nat.mod_lt _ (by positivity))
  have htext : fmtF p x = signText (x < 0) ++ ip ++ '.' :: fp := rfl
  have hval : digitsVal (ip ++ fp) = n := by
    rw [digitsVal_append, hfl, hip, hfp, digitsVal_zeros, digitsVal_natStr, digitsVal_natStr]
    exact Nat.div_add_mod' n (10 ^ p)
  obtain ⟨d, ds, hd⟩ := List.exists_cons_of_ne_nil (natStr_ne_nil (n / 10 ^ p))
  have hd : ip = d :: ds := hd
  have hdd : isDigitC d = true := hipd d (by rw [hd]; simp)
  have hsp : ∀ c ∈ (fmtF p x ++ rest).head?, isSpaceC c = false := by
    obtain ⟨c, r, e⟩ := fmtF_head p x
    intro c' hc'
    rw [e] at hc'
    simp at hc'
    subst hc'
    exact (fmtF_nospace (p := p) (x := x) (by rw [e]; simp)).1
  have hts : takeSign (fmtF p x ++ rest) = (decide (x < 0), (signText (x < 0)).length, ip ++ ('.' :: fp ++ rest)) := by
    rw [htext]
    by_cases h : x < 0
    · simp [signText, h, takeSign, List.append_assoc]
    · simp only [signText, h, decide_false, Bool.false_eq_true, if_false, List.nil_append]
      rw [List.append_assoc, hd, List.cons_append, takeSign_digit hdd]; rfl
  have hdot : ∀ c ∈ ('.' :: fp ++ rest).head?, isDigitC c = false := by intro c hc; cases hc; rfl
  unfold scanNum
  rw [dropWhile_of_head _ _ hsp, hts]
  simp only
  rw [takeWhile_append_of_all _ _ _ hipd, takeWhile_of_head _ _ hdot, dropWhile_append_of_all _ _ _ hipd,
    dropWhile_of_head _ _ hdot, List.append_nil]
  simp only [List.cons_append, if_true]
  rw [takeWhile_append_of_all _ _ _ hfpd, takeWhile_of_head _ _ (fun c hc => (hr c hc).1), dropWhile_append_of_all _ _ _ hfpd,
    dropWhile_of_head _ _ (fun c hc => (hr c hc).1), List.append_nil]
  rw [if_neg (by rw [hd]; simp)]
  have hv : (digitsVal (ip ++ fp) : ℚ) * (10 : ℚ) ^ ((0 : ℤ) - fp.length) = n / 10 ^ p := by
    rw [hval, hfl, zero_sub, zpow_neg, zpow_natCast]; rfl
  have hfv : fval p x = (if x < 0 then -1 else 1) * (n : ℚ) / 10 ^ p := rfl
  have habs : |fval p x| = n / 10 ^ p := by
    rw [hfv, mul_div_assoc, abs_mul, abs_of_nonneg (show (0 : ℚ) ≤ n / 10 ^ p from
      div_nonneg (Nat.cast_nonneg _) (pow_nonneg (by norm_num) _))]
    split <;> simp
  have hlt : ¬ (dblOverflow : ℚ) ≤ n / 10 ^ p := by rw [← habs]; exact not_le.2 hx
  have hres : (if decide (x < 0) = true then -((n : ℚ) / 10 ^ p) else (n : ℚ) / 10 ^ p) = fval p x := by
    rw [hfv]
    by_cases h : x < 0
    · simp [h]; ring
    · simp [h]
  cases rest with
  | nil =>
    simp only
    rw [hv, if_neg hlt, hres]
  | cons c r =>
    have := hr c (by simp)
    simp only [this.2.1, this.2.2, or_self, if_false]
    rw [hv, if_neg hlt, hres]

theorem readNum_fmtF {p : ℕ} (hp : 1 ≤ p) (x : ℚ) (hx : |fval p x| < (dblOverflow : ℚ)) : readNum (fmtF p x) = some (fval p x) := by
  have := scanNum_fmtF hp x hx [] (by simp)
  rw [List.append_nil] at this
  unfold readNum
  rw [this]; rfl

set_option exponentiation.threshold 2000 in
theorem big_bound : (10 : ℚ) ^ 305 + 1 < (dblOverflow : ℚ) := by
  have : 10 ^ 305 + 1 < dblOverflow := by unfold dblOverflow; norm_num
  exact_mod_cast this

theorem fval_size {p : ℕ} {x : ℚ} (h : |x| ≤ 10 ^ 305) : |fval p x| < (dblOverflow : ℚ) := by
  have h1 := fval_err p x
  have h2 : half p ≤ 1 := by
    unfold half
    rw [div_div, div_le_one (by positivity)]
    have : (1 : ℚ) ≤ 10 ^ p := one_le_pow₀ (by norm_num)
    linarith
  have h3 : |fval p x| ≤ |x| + 1 := by
    have := abs_sub_abs_le_abs_sub (fval p x) x
    linarith
  have h4 := big_bound
  generalize (10 : ℚ) ^ 305 = B at *
  linarith

/-- the word of a printed number, after at most one space -/
theorem getWord_fmtF (ws : Str) (hw : Blank ws) (p : ℕ) (x : ℚ) (rest : Str) (hr : ∀ c ∈ rest.head?, isSpaceC c = true) :
    getWord (ws ++ (fmtF p x ++ rest)) = .word (fmtF p x) false rest := by
  obtain ⟨c, r, e⟩ := fmtF_head p x
  apply getWord_bare hw (by rw [e]; simp)
  · rw [e]; simp; exact (fmtF_nospace (p := p) (x := x) (by rw [e]; simp)).2.1
  · intro c hc; exact (fmtF_nospace hc).1
  · exact hr

theorem numWord_fmtF {p : ℕ} (hp : 1 ≤ p) (x : ℚ) (hx : |x| ≤ 10 ^ 305) (rest : Str) (hr : ∀ c ∈ rest.head?, isSpaceC c = true) :
    numWord (' ' :: (fmtF p x ++ rest)) = some (fval p x, rest) := by
  have h := getWord_fmtF [' '] (by intro c hc; simp at hc; rw [hc]; rfl) p x rest hr
  rw [List.singleton_append] at h
  unfold numWord
  rw [h]
  simp only [Bool.false_eq_true, if_false]
  rw [readNum_fmtF hp x (fval_size hx)]; rfl

theorem not_token (tok : String) (p : ℕ) (x : ℚ) (h2 : ∀ c ∈ (tok.toList[1]?), isDigitC c = false ∧ c ≠ '-' ∧ c ≠ '.')
    (h3 : 1 < tok.toList.length) : compareToken tok (fmtF p x) = false := by
  unfold compareToken
  rw [beq_eq_false_iff_ne]
  intro e
  have e1 : ((fmtF p x).map Char.toUpper)[1]? = tok.toList[1]? := by rw [e]
  rw [List.getElem?_map, List.getElem?_eq_getElem h3] at e1
  cases hc : (fmtF p x)[1]? with
  | none => rw [hc] at e1; cases e1
  | some c =>
    rw [hc] at e1
    simp only [Option.map_some, Option.some.injEq] at e1
    have hm := fmtF_chars p x c (List.mem_of_getElem? hc)
    have h4 := h2 _ (List.getElem?_eq_getElem h3)
    rw [← e1] at h4
    rcases hm with hm | rfl | rfl
    · have : c.toUpper = c := by
        unfold Char.toUpper
        have : ¬ (c.val ≥ 'a'.val ∧ c.val ≤ 'z'.val) := by
          rintro ⟨h5, -⟩
          unfold isDigitC at hm
          simp only [Bool.and_eq_true, decide_eq_true_eq] at hm
          have h6 : c.val ≤ '9'.val := hm.2
          have h5' := UInt32.le_iff_toNat_le.1 h5
          have h6' := UInt32.le_iff_toNat_le.1 h6
          have e5 : 'a'.val.toNat = 97 := rfl
          have e6 : '9'.val.toNat = 57 := rfl
          omega
        split
        · rename_i hh
          exact absurd hh (by simpa using this)
        · rfl
      rw [this, hm] at h4
      exact absurd h4.1 (by simp)
    · exact h4.2.2 rfl
    · exact h4.2.1 rfl

end Iges.Idf
