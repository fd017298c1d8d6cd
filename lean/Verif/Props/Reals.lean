import Verif.Lemmas.RealNum
import Verif.Props.Params
/-
C09, C10: the text of real parameters.

Values are exact rationals: every finite double is one.  The digit estimate `nc` is any value that
the library's logarithm can produce (`DigitEstimate`).  `ParseReal` returns the decimal it read;
the conversion of that decimal to the nearest double is not part of the model.
-/
namespace Iges.Props
open Iges

theorem estimate_bounds {x minRes : ℚ} {nc : ℕ} (h : DigitEstimate x minRes nc) : 5 ≤ nc ∧ nc ≤ 16 := by
  unfold DigitEstimate at h
  simp only at h
  omega

/-- Enough digits: the estimate is the full 16 digits, or resolves `minRes` with three to spare. -/
theorem estimate_resolves {x minRes : ℚ} {nc : ℕ} (hm : 0 < minRes) (hx : x ≠ 0)
    (h : DigitEstimate x minRes nc) :
    (10 : ℚ) ^ (Int.log 10 |x| - nc + 1) / 2 ≤ max (minRes / 2000) (|x| / (2 * 10 ^ 15)) := by
  have hpos : 0 < |x| := abs_pos.mpr hx
  have hlo : (10 : ℚ) ^ (Int.log 10 |x|) ≤ |x| := by
    simpa using Int.zpow_log_le_self (R := ℚ) (b := 10) (by norm_num) hpos
  have hsplit : (10 : ℚ) ^ (Int.log 10 |x| - nc + 1) = 10 ^ (Int.log 10 |x|) * 10 ^ (1 - (nc : ℤ)) := by
    rw [← zpow_add₀ (by norm_num)]; congr 1; ring
  have hnonneg : (0 : ℚ) ≤ 10 ^ (1 - (nc : ℤ)) := le_of_lt (zpow_pos (by norm_num) _)
  have h1 : (10 : ℚ) ^ (Int.log 10 |x| - nc + 1) ≤ |x| * 10 ^ (1 - (nc : ℤ)) := by
    rw [hsplit]; exact mul_le_mul_of_nonneg_right hlo hnonneg
  set l := (Int.log 10 (max (|x| / minRes) 10)).toNat with hl
  have hnc : nc = 16 ∨ l + 5 ≤ nc := by
    unfold DigitEstimate at h
    simp only [← hl] at h
    omega
  rcases hnc with h16 | hge
  · apply le_max_of_le_right
    have : (10 : ℚ) ^ (1 - (nc : ℤ)) = 1 / 10 ^ 15 := by
      rw [h16]; norm_num [zpow_neg]
    rw [this] at h1
    have : |x| * (1 / 10 ^ 15) / 2 = |x| / (2 * 10 ^ 15) := by ring
    linarith
  · apply le_max_of_le_left
    have hmax : 0 < max (|x| / minRes) 10 := lt_max_of_lt_right (by norm_num)
    have hlogn : 0 ≤ Int.log 10 (max (|x| / minRes) 10) := by
      have : (1 : ℚ) ≤ max (|x| / minRes) 10 := le_max_of_le_right (by norm_num)
      rw [Int.log_of_one_le_right _ this]; positivity
    have hlt : max (|x| / minRes) 10 < (10 : ℚ) ^ (Int.log 10 (max (|x| / minRes) 10) + 1) := by
      simpa using Int.lt_zpow_succ_log_self (R := ℚ) (b := 10) (by norm_num) (max (|x| / minRes) 10)
    have hll : Int.log 10 (max (|x| / minRes) 10) = (l : ℤ) := by omega
    rw [hll] at hlt
    have h2 : |x| / minRes < (10 : ℚ) ^ ((l : ℤ) + 1) := lt_of_le_of_lt (le_max_left _ _) hlt
    rw [div_lt_iff₀ hm] at h2
    have h3 : (10 : ℚ) ^ (1 - (nc : ℤ)) ≤ 10 ^ (-(l : ℤ) - 4) :=
      zpow_le_zpow_right₀ (by norm_num) (by omega)
    have h4 : |x| * 10 ^ (1 - (nc : ℤ)) ≤ 10 ^ ((l : ℤ) + 1) * minRes * 10 ^ (-(l : ℤ) - 4) :=
      mul_le_mul h2.le h3 hnonneg (mul_nonneg (le_of_lt (zpow_pos (by norm_num) _)) hm.le)
    have h5 : (10 : ℚ) ^ ((l : ℤ) + 1) * minRes * 10 ^ (-(l : ℤ) - 4) = minRes * 10 ^ (-3 : ℤ) := by
      have : (10 : ℚ) ^ ((l : ℤ) + 1) * 10 ^ (-(l : ℤ) - 4) = 10 ^ (-3 : ℤ) := by
        rw [← zpow_add₀ (by norm_num)]; congr 1; ring
      rw [← this]; ring
    have h6 : (10 : ℚ) ^ (-3 : ℤ) = 1 / 1000 := by norm_num
    rw [h5, h6] at h4
    linarith

theorem log_le_of_le {x : ℚ} {n : ℤ} (hx : 0 < x) (h : x ≤ (10 : ℚ) ^ n) : Int.log 10 x ≤ n := by
  by_contra hlt
  have hlo : (10 : ℚ) ^ (Int.log 10 x) ≤ x := by
    simpa using Int.zpow_log_le_self (R := ℚ) (b := 10) (by norm_num) hx
  have : (10 : ℚ) ^ n < 10 ^ (Int.log 10 x) := zpow_lt_zpow_right₀ (by norm_num) (by omega)
  linarith

theorem le_log_of_le {x : ℚ} {n : ℤ} (h : (10 : ℚ) ^ n ≤ x) : n ≤ Int.log 10 x := by
  by_contra hlt
  have hhi : x < (10 : ℚ) ^ (Int.log 10 x + 1) := by
    simpa using Int.lt_zpow_succ_log_self (R := ℚ) (b := 10) (by norm_num) x
  have : (10 : ℚ) ^ (Int.log 10 x + 1) ≤ 10 ^ n := zpow_le_zpow_right₀ (by norm_num) (by omega)
  linarith

/-- Everything about the text of one value that is not written as zero. -/
theorem format_nonzero {x minRes : ℚ} {nc : ℕ} (hm : 0 < minRes) (h : DigitEstimate x minRes nc)
    (hx : 1 / 10 ^ 8 ≤ |x|) (delim : Char) :
    ∃ body d n k, FormatPDREal nc x delim minRes = some (body ++ [delim]) ∧ body ≠ [] ∧
      (|k| < 1000 → body.length ≤ 26) ∧ (∀ c ∈ body, realChar c = true) ∧
      ('.' ∈ body ∨ 'E' ∈ body ∨ 'D' ∈ body) ∧
      strtod (dToE body) = ⟨.dec d, body.length, decErange d.m.natAbs d.e⟩ ∧
      d.toRat = (if x < 0 then -1 else 1) * n ∧ (0 : ℚ) ≤ n ∧
      (k = Int.log 10 |x| ∨ k = Int.log 10 |x| + 1) ∧
      abs (n - |x|) ≤ 10 ^ (Int.log 10 |x| - nc + 1) / 2 ∧
      n ≤ 10 ^ (Int.log 10 |x| + 1) ∧ (10 : ℚ) ^ (Int.log 10 |x|) ≤ n := by
  obtain ⟨b1, b2⟩ := estimate_bounds h
  have hpos : 0 < |x| := lt_of_lt_of_le (by norm_num) hx
  have hx0 : x ≠ 0 := abs_pos.mp hpos
  have raw : ∃ (r : Raw) (n : ℚ) (k : ℤ), (if |x| > 9999 / 10 then fmtE nc x else fmtG nc x) = r.text 'e' ∧
      r.WF ∧ r.dec.toRat = (if x < 0 then -1 else 1) * n ∧ (k.natAbs < 1000 → (r.text 'e').length ≤ nc + 8) ∧
      (0 : ℚ) ≤ n ∧ (k = Int.log 10 |x| ∨ k = Int.log 10 |x| + 1) ∧
      abs (n - |x|) ≤ 10 ^ (Int.log 10 |x| - nc + 1) / 2 ∧
      n ≤ 10 ^ (Int.log 10 |x| + 1) ∧ (10 : ℚ) ^ (Int.log 10 |x|) ≤ n := by
    split
    · obtain ⟨r, n, k, r1, r2, r3, r4, r5⟩ := fmtE_raw (p := nc) (x := x) (by omega) hx0
      obtain ⟨n', k', s1, s2, s3, s4, s5, s6, s7⟩ := sigDigits_spec (p := nc + 1) (x := |x|) (by omega) hpos
      rw [r1] at s1
      obtain ⟨rfl, rfl⟩ := Prod.mk.inj s1
      refine ⟨r, _, k, r2, r3, r4, r5, ?_, s4, le_trans s5 ?_, s6, s7⟩
      · exact mul_nonneg (by positivity) (le_of_lt (zpow_pos (by norm_num) _))
      · have : (10 : ℚ) ^ (Int.log 10 |x| - (nc + 1 : ℕ) + 1) ≤ 10 ^ (Int.log 10 |x| - nc + 1) :=
          zpow_le_zpow_right₀ (by norm_num) (by push_cast; omega)
        linarith
    · obtain ⟨r, n, k, r1, r2, r3, r4, r5⟩ := fmtG_raw (p := nc) (x := x) (by omega) hx0
      obtain ⟨n', k', s1, s2, s3, s4, s5, s6, s7⟩ := sigDigits_spec (p := nc) (x := |x|) (by omega) hpos
      rw [r1] at s1
      obtain ⟨rfl, rfl⟩ := Prod.mk.inj s1
      refine ⟨r, _, k, r2, r3, r4, r5, ?_, s4, s5, s6, s7⟩
      exact mul_nonneg (by positivity) (le_of_lt (zpow_pos (by norm_num) _))
  obtain ⟨r, n, k, r1, r2, r3, r4, r5, r6, r7, r8, r9⟩ := raw
  obtain ⟨body, d, p1, p2, p3, p4, p5, p6, p7⟩ := realPost_raw r2 nc delim
  refine ⟨body, d, n, k, ?_, p2, ?_, p4, p5, p6, by rw [p7, r3], r5, r6, r7, r8, r9⟩
  · unfold FormatPDREal
    rw [if_neg (not_le.mpr hm)]
    simp only [if_neg (not_lt.mpr hx)]
    rw [r1, p1]
  · intro hk
    have := r4 (by have := abs_lt.mp hk; omega)
    omega

/-- Values below `1e-8` are written as zero. -/
theorem format_zero {x minRes : ℚ} {nc : ℕ} (hm : 0 < minRes) (hx : |x| < 1 / 10 ^ 8) (delim : Char) :
    FormatPDREal nc x delim minRes = some ("0.0".toList ++ [delim]) := by
  unfold FormatPDREal
  rw [if_neg (not_le.mpr hm)]
  simp only [if_pos hx, abs_zero]
  rw [if_neg (by norm_num)]
  rfl

theorem legal_not_realChar {c : Char} (h : Spec.LegalDelim c) : realChar c = false := by
  have := legal_not_digit h
  obtain ⟨_, _, h3, h4, h5, h6, h7, h8, _⟩ := h
  simp [realChar, *]

/-- **C09** — The text of every finite double is not empty, fits a parameter line together with its
delimiter, ends with the delimiter asked for, has a decimal point or an exponent, and holds no legal
delimiter nor line end before its end.  (`10^309` exceeds every finite double.) -/
theorem C09_real_text (x minRes : ℚ) (nc : ℕ) (delim : Char) (hm : 0 < minRes)
    (h : DigitEstimate x minRes nc) (hx : |x| ≤ 10 ^ (309 : ℤ)) :
    ∃ body, FormatPDREal nc x delim minRes = some (body ++ [delim]) ∧ body ≠ [] ∧
      (body ++ [delim]).length ≤ 64 ∧ ('.' ∈ body ∨ 'E' ∈ body ∨ 'D' ∈ body) ∧
      (∀ c, Spec.LegalDelim c → c ∉ body) ∧ '\n' ∉ body := by
  by_cases hs : |x| < 1 / 10 ^ 8
  · refine ⟨"0.0".toList, format_zero hm hs delim, by decide, by simp, by decide, ?_, by decide⟩
    intro c hc hmem
    have := legal_not_realChar hc
    have hall : ∀ c ∈ "0.0".toList, realChar c = true := by decide
    rw [hall c hmem] at this; cases this
  · have hs := not_lt.mp hs
    obtain ⟨body, d, n, k, f1, f2, f3, f4, f5, f6, f7, f8, f9, f10, f11, f12⟩ := format_nonzero hm h hs delim
    have hpos : 0 < |x| := lt_of_lt_of_le (by norm_num) hs
    have a1 := log_le_of_le hpos hx
    have a2 : (-8 : ℤ) ≤ Int.log 10 |x| := le_log_of_le (le_trans (by norm_num) hs)
    have hlen := f3 (by rw [abs_lt]; omega)
    refine ⟨body, f1, f2, by simp; omega, f5, ?_, ?_⟩
    · intro c hc hmem
      have := legal_not_realChar hc
      rw [f4 c hmem] at this; cases this
    · intro hmem
      have := f4 _ hmem
      revert this; decide

/-- A resolution that is not positive is refused. -/
theorem C09_bad_resolution (x minRes : ℚ) (nc : ℕ) (delim : Char) (hm : minRes ≤ 0) :
    FormatPDREal nc x delim minRes = none := by
  unfold FormatPDREal; rw [if_pos hm]

/-- **C10** — For values from `1e-8` to `1e300` in size the text can be read back by the library's
parameter reader, and the number read differs from the value in memory by at most half a thousandth
of the resolution, or half a unit of the 16th significant digit. -/
theorem C10_real_precision_partial (x minRes : ℚ) (nc : ℕ) (pd rd : Char) (hm : 0 < minRes)
    (h : DigitEstimate x minRes nc) (hlo : 1 / 10 ^ 8 ≤ |x|) (hhi : |x| ≤ 10 ^ (300 : ℤ))
    (hp : Spec.LegalDelim pd) (hr : Spec.LegalDelim rd) (d : Char) (hd : d = pd ∨ d = rd) :
    ∃ t, FormatPDREal nc x d minRes = some (t ++ [d]) ∧ Writable pd rd (.real t) ∧
      ∃ q : Dec, (∀ rest eor dflt, ParseReal (t ++ d :: rest) 0 eor pd rd dflt =
          .ok ⟨true, some (.dec q), t.length + 1, if d = rd then true else eor⟩) ∧
        |q.toRat - x| ≤ max (minRes / 2000) (|x| / (2 * 10 ^ 15)) := by
  obtain ⟨t, q, n, k, f1, f2, f3, f4, f5, f6, f7, f8, f9, f10, f11, f12⟩ := format_nonzero hm h hlo d
  have hpos : 0 < |x| := lt_of_lt_of_le (by norm_num) hlo
  have hx0 : x ≠ 0 := abs_pos.mp hpos
  have a1 := log_le_of_le hpos hhi
  have a2 : (-8 : ℤ) ≤ Int.log 10 |x| := le_log_of_le (le_trans (by norm_num) hlo)
  have hlen := f3 (by rw [abs_lt]; omega)
  have nop : ∀ c, Spec.LegalDelim c → c ∉ t := by
    intro c hc hmem
    have := legal_not_realChar hc
    rw [f4 c hmem] at this; cases this
  have hnl : '\n' ∉ t := by
    intro hmem
    have := f4 _ hmem
    revert this; decide
  have habs : (q.m.natAbs : ℚ) * (10 : ℚ) ^ q.e = n := by
    have : |q.toRat| = n := by
      rw [f7, abs_mul, abs_of_nonneg f8]
      split <;> simp
    rw [← this]
    unfold Dec.toRat
    rw [abs_mul, abs_of_pos (zpow_pos (by norm_num) _ : (0 : ℚ) < 10 ^ q.e)]
    congr 1
    rw [Nat.cast_natAbs]; simp
  have herr : decErange q.m.natAbs q.e = false := by
    apply decErange_rat
    · right
      rw [habs]
      refine le_trans ?_ f12
      have : (10 : ℚ) ^ (-8 : ℤ) ≤ 10 ^ (Int.log 10 |x|) := zpow_le_zpow_right₀ (by norm_num) a2
      refine le_trans ?_ this
      have hb : (10 : ℕ) ^ 8 ≤ tinyBound := by decide +kernel
      have hb' : ((10 : ℚ)) ^ 8 ≤ (tinyBound : ℚ) := by exact_mod_cast hb
      rw [zpow_neg, ← one_div]
      exact one_div_le_one_div_of_le (by norm_num) (by exact_mod_cast hb')
    · rw [habs]
      refine le_trans f11 ?_
      have : (10 : ℚ) ^ (Int.log 10 |x| + 1) ≤ 10 ^ ((305 : ℕ) : ℤ) := zpow_le_zpow_right₀ (by norm_num) (by push_cast; omega)
      refine le_trans this ?_
      rw [zpow_natCast]; unfold hugeBound; push_cast; exact le_refl _
  have hw : Writable pd rd (.real t) :=
    ⟨f2, by omega, nop pd hp, nop rd hr, hnl, by rw [f6]; simpa using f2, by rw [f6]; exact herr⟩
  refine ⟨t, f1, hw, q, ?_, ?_⟩
  · intro rest eor dflt
    have ht : Spec.TokenAt (t ++ d :: rest) 0 pd rd t d := ⟨rest, by simp, hd, nop pd hp, nop rd hr⟩
    have := ParseLString_token (eor := eor) ht
    unfold ParseReal
    rw [this]
    have hne : t.isEmpty = false := by simpa using f2
    simp only [Res.bind, hne]
    rw [f6, herr]
    simp [f2]
  · refine le_trans ?_ (estimate_resolves hm hx0 h)
    rw [f7]
    by_cases hn : x < 0
    · rw [if_pos hn]
      rw [abs_of_neg hn] at f10 ⊢
      have : -1 * n - x = -(n - -x) := by ring
      rw [this, abs_neg]; exact f10
    · rw [if_neg hn, one_mul]
      rw [abs_of_nonneg (not_lt.mp hn)] at f10 ⊢
      exact f10

/-- Values smaller than `1e-8` are written as `0.0`: the error is below `1e-8`. -/
theorem C10_small_values (x minRes : ℚ) (nc : ℕ) (d : Char) (hm : 0 < minRes) (hx : |x| < 1 / 10 ^ 8) :
    FormatPDREal nc x d minRes = some ("0.0".toList ++ [d]) ∧
      strtod (dToE "0.0".toList) = ⟨.dec ⟨0, -1⟩, 3, false⟩ :=
  ⟨format_zero hm hx d, by decide +kernel⟩

/-- The full claim fails for resolutions below `1e-8`: a value ninety times the resolution is
written as zero. -/
theorem C10_tiny_lost : ∃ (x minRes : ℚ), 0 < minRes ∧ minRes < |x| ∧
    ∀ nc d, FormatPDREal nc x d minRes = some ("0.0".toList ++ [d]) := by
  refine ⟨9 / 10 ^ 9, 1 / 10 ^ 10, by norm_num, ?_, ?_⟩
  · rw [abs_of_pos (by norm_num)]; norm_num
  · intro nc d
    exact format_zero (by norm_num) (by rw [abs_of_pos (by norm_num)]; norm_num) d

/-- Concrete cases meeting the hypotheses. -/
example : DigitEstimate 25 (1 / 1000) 9 := by
  left
  have h : max (|(25 : ℚ)| / (1 / 1000)) 10 = ((25000 : ℕ) : ℚ) := by
    rw [abs_of_pos (by norm_num)]; norm_num
  have : Int.log 10 ((25000 : ℕ) : ℚ) = 4 := by rw [Int.log_natCast]; decide +kernel
  simp only [h, this]
  rfl

end Iges.Props
