import Verif.Lemmas.RealText
import Mathlib.Algebra.Order.Floor.Ring
namespace Iges

theorem roundHE_err (q : ℚ) : |(roundHE q : ℚ) - q| ≤ 1 / 2 := by
  unfold roundHE
  have h1 : (⌊q⌋ : ℚ) ≤ q := Int.floor_le q
  have h2 : q < ⌊q⌋ + 1 := Int.lt_floor_add_one q
  simp only []
  split
  · rw [abs_le]; constructor <;> linarith
  · split
    · push_cast; rw [abs_le]; constructor <;> linarith
    · split
      · rw [abs_le]; constructor <;> linarith
      · push_cast; rw [abs_le]; constructor <;> linarith

theorem roundHE_ge (q : ℚ) (n : ℤ) (h : (n : ℚ) ≤ q) : n ≤ roundHE q := by
  have hf : n ≤ ⌊q⌋ := Int.le_floor.mpr h
  unfold roundHE
  simp only []
  split
  · exact hf
  · split
    · omega
    · split <;> omega

theorem roundHE_le (q : ℚ) (n : ℤ) (h : q < n) : roundHE q ≤ n := by
  have hf : ⌊q⌋ < n := Int.floor_lt.mpr h
  unfold roundHE
  simp only []
  split
  · omega
  · split
    · omega
    · split <;> omega

/-- The digits are `p` many, the exponent is that of the number (or one more after rounding up) and
the error is at most half a unit of the last digit. -/
theorem sigDigits_spec {p : ℕ} {x : ℚ} (hp : 1 ≤ p) (hx : 0 < x) :
    ∃ n k, sigDigits p x = (n, k) ∧ 10 ^ (p - 1) ≤ n ∧ n < 10 ^ p ∧
      (k = Int.log 10 x ∨ k = Int.log 10 x + 1) ∧
      |(n : ℚ) * 10 ^ (k - p + 1) - x| ≤ 10 ^ (Int.log 10 x - p + 1) / 2 ∧
      (n : ℚ) * 10 ^ (k - p + 1) ≤ 10 ^ (Int.log 10 x + 1) ∧
      (10 : ℚ) ^ (Int.log 10 x) ≤ (n : ℚ) * 10 ^ (k - p + 1) := by
  have h10 : (10 : ℚ) ≠ 0 := by norm_num
  set L := Int.log 10 x with hL
  have hlo : (10 : ℚ) ^ L ≤ x := by
    have := Int.zpow_log_le_self (R := ℚ) (b := 10) (by norm_num) hx
    simpa [hL] using this
  have hhi : x < (10 : ℚ) ^ (L + 1) := by
    have := Int.lt_zpow_succ_log_self (R := ℚ) (b := 10) (by norm_num) x
    simpa [hL] using this
  set q := x * 10 ^ ((p : Int) - 1 - L) with hq
  have hpow : (0 : ℚ) < 10 ^ ((p : Int) - 1 - L) := zpow_pos (by norm_num) _
  have hqlo : ((10 ^ (p - 1) : ℕ) : ℚ) ≤ q := by
    have := mul_le_mul_of_nonneg_right hlo hpow.le
    rw [← zpow_add₀ h10] at this
    have e : L + ((p : Int) - 1 - L) = ((p - 1 : ℕ) : Int) := by omega
    rw [e, zpow_natCast] at this
    push_cast; exact this
  have hqhi : q < ((10 ^ p : ℕ) : ℚ) := by
    have := mul_lt_mul_of_pos_right hhi hpow
    rw [← zpow_add₀ h10] at this
    have e : L + 1 + ((p : Int) - 1 - L) = (p : Int) := by omega
    rw [e, zpow_natCast] at this
    push_cast; exact this
  have hr1 : ((10 ^ (p - 1) : ℕ) : ℤ) ≤ roundHE q := roundHE_ge q _ (by exact_mod_cast hqlo)
  have hr2 : roundHE q ≤ ((10 ^ p : ℕ) : ℤ) := roundHE_le q _ (by exact_mod_cast hqhi)
  have hpos : 0 ≤ roundHE q := le_trans (by positivity) hr1
  have hcast : (((roundHE q).toNat : ℕ) : ℚ) = ((roundHE q : ℤ) : ℚ) := by
    have : ((roundHE q).toNat : ℤ) = roundHE q := Int.toNat_of_nonneg hpos
    exact_mod_cast this
  have herr := roundHE_err q
  have hunit : (0 : ℚ) < 10 ^ (L - p + 1) := zpow_pos (by norm_num) _
  have hxq : q * 10 ^ (L - p + 1) = x := by
    rw [hq, mul_assoc, ← zpow_add₀ h10]
    have : (p : Int) - 1 - L + (L - p + 1) = 0 := by ring
    rw [this]; simp
  have herr' : |((roundHE q : ℤ) : ℚ) * 10 ^ (L - p + 1) - x| ≤ 10 ^ (L - p + 1) / 2 := by
    have e : ((roundHE q : ℤ) : ℚ) * 10 ^ (L - p + 1) - x = (((roundHE q : ℤ) : ℚ) - q) * 10 ^ (L - p + 1) := by
      rw [sub_mul, hxq]
    rw [e, abs_mul, abs_of_pos hunit]
    have := mul_le_mul_of_nonneg_right herr hunit.le
    linarith
  unfold sigDigits
  simp only [← hL, ← hq]
  by_cases hn : (roundHE q).toNat = 10 ^ p
  · rw [if_pos hn]
    refine ⟨_, _, rfl, le_refl _, ?_, Or.inr rfl, ?_, ?_, ?_⟩
    · exact Nat.pow_lt_pow_right (by norm_num) (by omega)
    all_goals
      have e : ((10 ^ (p - 1) : ℕ) : ℚ) * 10 ^ (L + 1 - (p : Int) + 1) = ((roundHE q : ℤ) : ℚ) * 10 ^ (L - p + 1) := by
        rw [← hcast, hn]
        push_cast
        have : (10 : ℚ) ^ (L + 1 - (p : Int) + 1) = 10 ^ (L - p + 1) * 10 := by
          rw [← zpow_add_one₀ h10]; congr 1; ring
        rw [this]
        obtain ⟨r, rfl⟩ : ∃ r, p = r + 1 := ⟨p - 1, by omega⟩
        simp only [Nat.add_sub_cancel, pow_succ]; ring
    · rw [e]; exact herr'
    · have : ((10 ^ (p - 1) : ℕ) : ℚ) * 10 ^ (L + 1 - (p : Int) + 1) = 10 ^ (L + 1) := by
        push_cast
        rw [← zpow_natCast, ← zpow_add₀ h10]
        congr 1; omega
      rw [this]
    · have : ((10 ^ (p - 1) : ℕ) : ℚ) * 10 ^ (L + 1 - (p : Int) + 1) = 10 ^ (L + 1) := by
        push_cast
        rw [← zpow_natCast, ← zpow_add₀ h10]
        congr 1; omega
      rw [this]
      exact (zpow_le_zpow_right₀ (by norm_num) (by omega))
  · rw [if_neg hn]
    have hle : 10 ^ (p - 1) ≤ (roundHE q).toNat := by omega
    have hge : (roundHE q).toNat < 10 ^ p := by omega
    refine ⟨_, _, rfl, hle, hge, Or.inl rfl, ?_, ?_, ?_⟩
    · rw [hcast]; exact herr'
    · have h1 : (((roundHE q).toNat : ℕ) : ℚ) ≤ ((10 ^ p : ℕ) : ℚ) := by exact_mod_cast hge.le
      have := mul_le_mul_of_nonneg_right h1 hunit.le
      refine le_trans this ?_
      push_cast
      rw [← zpow_natCast, ← zpow_add₀ h10]
      apply le_of_eq; congr 1; ring
    · have h1 : ((10 ^ (p - 1) : ℕ) : ℚ) ≤ (((roundHE q).toNat : ℕ) : ℚ) := by exact_mod_cast hle
      have := mul_le_mul_of_nonneg_right h1 hunit.le
      refine le_trans ?_ this
      push_cast
      rw [← zpow_natCast, ← zpow_add₀ h10]
      apply le_of_eq; congr 1; omega

theorem digitsVal_cons0 (s : Str) : digitsVal ('0' :: s) = digitsVal s := by
  unfold digitsVal; simp

theorem digitsVal_zeros (m : ℕ) (s : Str) : digitsVal (List.replicate m '0' ++ s) = digitsVal s := by
  induction m with
  | zero => simp
  | succ m ih => rw [List.replicate_succ, List.cons_append, digitsVal_cons0, ih]

theorem zeros_digit (m : ℕ) : ∀ c ∈ List.replicate m '0', isDigitC c = true := by
  intro c hc; rw [List.eq_of_mem_replicate hc]; decide

theorem natStr_length_eq {n p : ℕ} (hp : 1 ≤ p) (h1 : 10 ^ (p - 1) ≤ n) (h2 : n < 10 ^ p) :
    (natStr n).length = p := by
  apply le_antisymm (natStr_length_le (by omega) h2)
  by_contra hlt
  have hlt : (natStr n).length ≤ p - 1 := by omega
  have := digitsVal_lt (natStr n) (fun c hc => natStr_digit hc)
  rw [digitsVal_natStr] at this
  have := Nat.pow_le_pow_right (n := 10) (by norm_num) hlt
  omega

/-- The exponent part of the printed forms. -/
def exOf (k : Int) : Char × Str :=
  (if k < 0 then '-' else '+', List.replicate (2 - (natStr k.natAbs).length) '0' ++ natStr k.natAbs)

theorem expDigits_eq (k : Int) : expDigits k = (exOf k).1 :: (exOf k).2 := rfl

theorem exOf_val (k : Int) :
    (if (exOf k).1 = '-' then -(digitsVal (exOf k).2 : Int) else digitsVal (exOf k).2) = k := by
  unfold exOf
  simp only [digitsVal_zeros, digitsVal_natStr]
  by_cases h : k < 0
  · simp only [h, if_true]; omega
  · simp only [h, if_false]
    rw [if_neg (by decide)]; omega

theorem exOf_ok (k : Int) : ((exOf k).1 = '+' ∨ (exOf k).1 = '-') ∧ (exOf k).2 ≠ [] ∧
    ∀ c ∈ (exOf k).2, isDigitC c = true := by
  unfold exOf
  refine ⟨by simp only; split <;> simp, ?_, ?_⟩
  · simp [natStr_ne_nil]
  · intro c hc
    rcases List.mem_append.mp hc with hc | hc
    · exact zeros_digit _ c hc
    · exact natStr_digit hc

theorem exOf_length (k : Int) (h : k.natAbs < 1000) : (exOf k).2.length ≤ 3 := by
  unfold exOf
  have h1 : (natStr k.natAbs).length ≤ 3 := natStr_length_le (by norm_num) (by norm_num; exact h)
  simp; omega

theorem stripped_dotFrac (fp : Str) : dotFrac fp = if decide (fp ≠ []) then '.' :: fp else [] := by
  unfold dotFrac; by_cases h : fp = [] <;> simp [h]

/-- Printing gives a well-formed text whose value is the rounded number. -/
theorem fmtE_raw {p : ℕ} {x : ℚ} (hp : 1 ≤ p) (hx : x ≠ 0) :
    ∃ (r : Raw) (n : ℕ) (k : ℤ), sigDigits (p + 1) |x| = (n, k) ∧ fmtE p x = r.text 'e' ∧ r.WF ∧
      r.dec.toRat = (if x < 0 then -1 else 1) * ((n : ℚ) * 10 ^ (k - (p + 1 : ℕ) + 1)) ∧
      (k.natAbs < 1000 → (r.text 'e').length ≤ p + 8) := by
  obtain ⟨n, k, h1, h2, h3, h4, _⟩ := sigDigits_spec (p := p + 1) (x := |x|) (by omega) (abs_pos.mpr hx)
  have hlen := natStr_length_eq (by omega) h2 h3
  let r : Raw := ⟨decide (x < 0), (natStr n).take 1, true, (natStr n).drop 1, some (exOf k)⟩
  have hdl : ((natStr n).drop 1).length = p := by simp [hlen]
  refine ⟨r, n, k, h1, ?_, ?_, ?_, ?_⟩
  · unfold fmtE
    rw [if_neg hx, h1]
    simp only [Raw.text, Raw.man, Raw.exText, r, if_true, expDigits_eq]
  · refine ⟨?_, ?_, ?_, ?_, ?_⟩
    · simp only [r]
      intro h
      have := congrArg List.length h
      simp [hlen] at this
    · intro c hc; exact natStr_digit (List.mem_of_mem_take hc)
    · intro c hc; exact natStr_digit (List.mem_of_mem_drop hc)
    · simp only [r, true_iff]
      intro h
      have := congrArg List.length h
      rw [hdl] at this
      simp at this; omega
    · intro s ds h
      simp only [r, Option.some.injEq] at h
      have := exOf_ok k
      rw [h] at this
      exact this
  · have hv : r.exVal = k := by
      have := exOf_val k
      simp only [Raw.exVal, r]
      exact this
    have hdv : digitsVal (r.ip ++ r.fp) = n := by
      simp only [r, List.take_append_drop, digitsVal_natStr]
    simp only [Raw.dec, Dec.toRat, hv, hdv]
    have hfl : r.fp.length = p := hdl
    rw [hfl]
    have : k - ((p + 1 : ℕ) : ℤ) + 1 = k - (p : ℤ) := by push_cast; ring
    rw [this]
    by_cases hn : x < 0 <;> simp [r, hn]
  · intro hk
    have := exOf_length k hk
    simp only [Raw.text, Raw.man, Raw.exText, r, if_true]
    have hs : (signText (decide (x < 0))).length ≤ 1 := by unfold signText; split <;> simp
    simp only [List.length_append, List.length_cons, hdl, List.length_take, hlen] at this ⊢
    omega

theorem fmtG_raw {p : ℕ} {x : ℚ} (hp : 1 ≤ p) (hx : x ≠ 0) :
    ∃ (r : Raw) (n : ℕ) (k : ℤ), sigDigits p |x| = (n, k) ∧ fmtG p x = r.text 'e' ∧ r.WF ∧
      r.dec.toRat = (if x < 0 then -1 else 1) * ((n : ℚ) * 10 ^ (k - p + 1)) ∧
      (k.natAbs < 1000 → (r.text 'e').length ≤ p + 8) := by
  obtain ⟨n, k, h1, h2, h3, h4, _⟩ := sigDigits_spec (p := p) (x := |x|) hp (abs_pos.mpr hx)
  have hlen := natStr_length_eq hp h2 h3
  have hs : (signText (decide (x < 0))).length ≤ 1 := by unfold signText; split <;> simp
  -- the general shape: integer digits, fraction digits, optional exponent
  have build : ∀ (ip fp : Str) (ex : Option (Char × Str)) (ev : ℤ),
      ip ≠ [] → (∀ c ∈ ip, isDigitC c = true) → (∀ c ∈ fp, isDigitC c = true) →
      (∀ s ds, ex = some (s, ds) → (s = '+' ∨ s = '-') ∧ ds ≠ [] ∧ ∀ c ∈ ds, isDigitC c = true) →
      (match ex with | none => (0 : ℤ) | some (s, ds) => if s = '-' then -(digitsVal ds : Int) else digitsVal ds) = ev →
      digitsVal (ip ++ fp) = n → ev - fp.length = k - p + 1 →
      ∃ r : Raw, r.text 'e' = signText (decide (x < 0)) ++ (ip ++ dotFrac (stripZeros fp)) ++
          (match ex with | none => [] | some (s, ds) => 'e' :: s :: ds) ∧ r.WF ∧
        r.dec.toRat = (if x < 0 then -1 else 1) * ((n : ℚ) * 10 ^ (k - p + 1)) := by
    intro ip fp ex ev hip hipd hfpd hex hev hdv hexp
    obtain ⟨t, m, z1, z2, z3⟩ := zeros_split fp
    have hsub := stripZeros_sub fp
    let r : Raw := ⟨decide (x < 0), ip, decide (stripZeros fp ≠ []), stripZeros fp, ex⟩
    refine ⟨r, ?_, ⟨hip, hipd, fun c hc => hfpd c (hsub.1 c hc), by simp [r], hex⟩, ?_⟩
    · simp only [Raw.text, Raw.man, Raw.exText, r, stripped_dotFrac]
      cases ex <;> rfl
    · have hv : r.exVal = ev := by simp only [Raw.exVal, r]; exact hev
      have a := toRat_trim (decide (x < 0)) ip fp ev t m z1
      unfold Raw.dec
      rw [hv]
      simp only [r]
      rw [z3, ← a, hdv, hexp]
      unfold Dec.toRat
      by_cases hn : x < 0 <;> simp [hn]
  have natd : ∀ c ∈ natStr n, isDigitC c = true := fun c hc => natStr_digit hc
  by_cases hk1 : k < -4 ∨ k ≥ p
  · have hv : (match some (exOf k) with | none => (0 : ℤ) | some (s, ds) => if s = '-' then -(digitsVal ds : Int) else digitsVal ds) = k := by
      exact exOf_val k
    obtain ⟨r, r1, r2, r3⟩ := build ((natStr n).take 1) ((natStr n).drop 1) (some (exOf k)) k
      (by intro h; have := congrArg List.length h; simp [hlen] at this; omega)
      (fun c hc => natd c (List.mem_of_mem_take hc)) (fun c hc => natd c (List.mem_of_mem_drop hc))
      (by
        intro s ds h
        simp only [Option.some.injEq] at h
        have := exOf_ok k
        rw [h] at this
        exact this) hv
      (by simp only [List.take_append_drop, digitsVal_natStr]) (by simp [hlen]; omega)
    have hf : fmtG p x = r.text 'e' := by
      unfold fmtG
      rw [if_neg hx, h1, r1]
      simp only [if_pos hk1, expDigits_eq]
      try rfl
    refine ⟨r, n, k, h1, hf, r2, r3, ?_⟩
    intro hkn
    have := exOf_length k hkn
    rw [r1]
    have hz := (stripZeros_sub ((natStr n).drop 1)).2
    have hd : (dotFrac (stripZeros ((natStr n).drop 1))).length ≤ p := by
      unfold dotFrac; split
      · simp
      · simp [hlen] at hz ⊢; omega
    simp only [List.length_append, List.length_cons, List.length_take, hlen] at this ⊢
    omega
  · by_cases hk2 : k ≥ 0
    · obtain ⟨r, r1, r2, r3⟩ := build ((natStr n).take (k.toNat + 1)) ((natStr n).drop (k.toNat + 1)) none 0
        (by intro h; have := congrArg List.length h; simp [hlen] at this; omega)
        (fun c hc => natd c (List.mem_of_mem_take hc)) (fun c hc => natd c (List.mem_of_mem_drop hc))
        (by intro s ds h; simp at h) rfl
        (by simp only [List.take_append_drop, digitsVal_natStr]) (by simp [hlen]; omega)
      have hf : fmtG p x = r.text 'e' := by
        unfold fmtG
        rw [if_neg hx, h1, r1]
        simp only [if_neg hk1, if_pos hk2, List.append_nil]
      refine ⟨r, n, k, h1, hf, r2, r3, ?_⟩
      intro _
      rw [r1]
      have hz := (stripZeros_sub ((natStr n).drop (k.toNat + 1))).2
      have hd : (dotFrac (stripZeros ((natStr n).drop (k.toNat + 1)))).length ≤ p - k.toNat := by
        unfold dotFrac; split
        · simp
        · simp [hlen] at hz ⊢; omega
      simp only [List.length_append, List.length_take, hlen, List.length_nil] at hd ⊢
      omega
    · obtain ⟨r, r1, r2, r3⟩ := build ['0'] (List.replicate ((-k).toNat - 1) '0' ++ natStr n) none 0
        (by simp) (by simp; decide)
        (by
          intro c hc
          rcases List.mem_append.mp hc with hc | hc
          · exact zeros_digit _ c hc
          · exact natd c hc)
        (by intro s ds h; simp at h) rfl
        (by
          show digitsVal ('0' :: _) = n
          rw [digitsVal_cons0]; show digitsVal (List.replicate _ '0' ++ _) = n; rw [digitsVal_zeros, digitsVal_natStr])
        (by simp [hlen]; omega)
      have hf : fmtG p x = r.text 'e' := by
        unfold fmtG
        rw [if_neg hx, h1, r1]
        simp only [if_neg hk1, if_neg hk2, List.append_nil, List.cons_append, List.nil_append]
      refine ⟨r, n, k, h1, hf, r2, r3, ?_⟩
      intro _
      rw [r1]
      have hz := (stripZeros_sub (List.replicate ((-k).toNat - 1) '0' ++ natStr n)).2
      have hd : (dotFrac (stripZeros (List.replicate ((-k).toNat - 1) '0' ++ natStr n))).length ≤ p + 4 := by
        unfold dotFrac; split
        · simp
        · simp [hlen] at hz ⊢; omega
      simp only [List.length_append, List.length_cons, List.length_nil] at hd ⊢
      omega

end Iges
