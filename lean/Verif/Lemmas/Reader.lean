import Verif.Model.Reader
import Verif.Props.Reals
import Verif.Spec.Reals
namespace Iges
open Iges.Props

/-- The digit estimate may be any value the rounded logarithm can give. -/
def EstOk (est : ℚ → ℚ → Nat) : Prop := ∀ x m, 0 < m → DigitEstimate x m (est x m)

/-- `num` converts decimals that `strtod` does not report as out of range with the relative error of a
double (`2^-53`). -/
def DoubleConv (num : RealTok → ℚ) : Prop :=
  ∀ a : Dec, decErange a.m.natAbs a.e = false → |num (.dec a) - a.toRat| ≤ |a.toRat| / 2 ^ 53

/-- The text of a real parameter can be written and is read as nearly the same number. -/
theorem realText_ok {est : ℚ → ℚ → Nat} {num : RealTok → ℚ} (he : EstOk est) (hn : DoubleConv num)
    {m x : ℚ} (hm : 0 < m) (hx : |x| ≤ 10 ^ (300 : ℤ)) {pd rd : Char} (hp : Spec.LegalDelim pd)
    (hr : Spec.LegalDelim rd) :
    Writable pd rd (.real (realText est m x)) ∧
      Spec.Near m x (num (strtod (dToE (realText est m x))).val) := by
  by_cases hs : |x| < 1 / 10 ^ 8
  · have h0 : realText est m x = "0.0".toList := by
      have := format_zero (nc := est x m) hm hs ','
      rw [FormatPDREal_eq hm] at this
      exact List.append_cancel_right (Option.some.inj this)
    have hst : strtod (dToE "0.0".toList) = ⟨.dec ⟨0, -1⟩, 3, false⟩ := by decide +kernel
    have nop : ∀ c, Spec.LegalDelim c → c ∉ "0.0".toList := by
      intro c hc hmem
      have := legal_not_realChar hc
      have hall : ∀ c ∈ "0.0".toList, realChar c = true := by decide
      rw [hall c hmem] at this; cases this
    rw [h0, hst]
    refine ⟨⟨by decide, by decide, nop pd hp, nop rd hr, by decide, by rw [hst]; decide, by rw [hst]⟩, ?_, ?_, ?_⟩
    · intro _
      have := hn ⟨0, -1⟩ (by decide +kernel)
      have h0 : Dec.toRat ⟨0, -1⟩ = 0 := by simp [Dec.toRat]
      rw [h0] at this
      simpa using this
    · intro h; exact absurd hs (not_lt.mpr h)
    · intro h; exact absurd hs (not_lt.mpr h)
  · have hs := not_lt.mp hs
    obtain ⟨t, f1, hw, q, hpar, hq⟩ := C10_real_precision_partial x m (est x m) pd rd hm (he x m hm) hs hx hp hr
      pd (Or.inl rfl)
    rw [FormatPDREal_eq hm] at f1
    have ht : realText est m x = t := by simpa using f1
    rw [ht]
    have hval : (strtod (dToE t)).val = .dec q := by
      have := hpar [] false none
      have htok : Spec.TokenAt (t ++ [pd]) 0 pd rd t pd := ⟨[], by simp, Or.inl rfl, hw.2.2.1, hw.2.2.2.1⟩
      unfold ParseReal at this
      rw [ParseLString_token (eor := false) htok] at this
      have hne : t.isEmpty = false := by simpa using hw.1
      simp only [Res.bind, hne] at this
      have h1 := hw.2.2.2.2.2.1
      have h2 := hw.2.2.2.2.2.2
      simpa [h1, h2] using this
    rw [hval]
    have herr : decErange q.m.natAbs q.e = false ∧ |q.toRat - x| ≤ |x| / 20000 := by
      obtain ⟨t', q', n, k, g1, _, _, _, _, g6, g7, _, _, g10, _⟩ := format_nonzero hm (he x m hm) hs pd
      rw [FormatPDREal_eq hm, ht] at g1
      have : t = t' := by simpa using g1
      rw [← this] at g6
      have hq' : q = q' := by
        have := hval; rw [g6] at this; simpa using this.symm
      have := hw.2.2.2.2.2.2
      rw [g6] at this
      rw [hq']
      refine ⟨this, ?_⟩
      have hpos : 0 < |x| := lt_of_lt_of_le (by norm_num) hs
      have hsgn : |q'.toRat - x| = abs (n - |x|) := by
        rw [g7]
        by_cases hneg : x < 0
        · rw [if_pos hneg, abs_of_neg hneg, ← abs_neg]; congr 1; ring
        · rw [if_neg hneg, abs_of_nonneg (not_lt.mp hneg), one_mul]
      rw [hsgn]
      refine g10.trans ?_
      have hlo : (10 : ℚ) ^ (Int.log 10 |x|) ≤ |x| := by
        simpa using Int.zpow_log_le_self (R := ℚ) (b := 10) (by norm_num) hpos
      have hb := (estimate_bounds (he x m hm)).1
      have hz : (10 : ℚ) ^ (Int.log 10 |x| - (est x m : ℤ) + 1) ≤ 10 ^ (Int.log 10 |x| + (-4)) :=
        zpow_le_zpow_right₀ (by norm_num) (by omega)
      rw [zpow_add₀ (by norm_num) (Int.log 10 |x|) (-4)] at hz
      have h4 : (10 : ℚ) ^ (-4 : ℤ) = 1 / 10000 := by norm_num
      rw [h4] at hz
      linarith
    obtain ⟨herr, hrel⟩ := herr
    have hc := hn q herr
    refine ⟨hw, fun h => absurd h (not_lt.mpr hs), fun _ => ?_, fun _ => ?_⟩
    rotate_left
    · have habs : |q.toRat| ≤ 2 * |x| := by
        have : q.toRat = x + (q.toRat - x) := by ring
        rw [this]
        have := abs_nonneg x
        exact le_trans (abs_add_le _ _) (by linarith)
      have : num (.dec q) - x = (num (.dec q) - q.toRat) + (q.toRat - x) := by ring
      rw [this]
      refine le_trans (abs_add_le _ _) ?_
      have h1 : |q.toRat| / 2 ^ 53 ≤ (2 * |x|) / 2 ^ 53 := div_le_div_of_nonneg_right habs (by norm_num)
      have := abs_nonneg x
      have h2 : (2 * |x|) / 2 ^ 53 ≤ |x| / 10000 := by
        rw [div_le_div_iff₀ (by norm_num) (by norm_num)]
        linarith
      linarith
    set M := max (m / 2000) (|x| / (2 * 10 ^ 15)) with hM
    have hMx : |x| / (2 * 10 ^ 15) ≤ M := le_max_right _ _
    have hMm : m / 2000 ≤ M := le_max_left _ _
    have hpos : 0 < |x| := lt_of_lt_of_le (by norm_num) hs
    have habs : |q.toRat| ≤ |x| + M := by
      have : q.toRat = x + (q.toRat - x) := by ring
      rw [this]
      exact le_trans (abs_add_le _ _) (by linarith)
    have hgoal : |num (.dec q) - x| ≤ 2 * M := by
      have : num (.dec q) - x = (num (.dec q) - q.toRat) + (q.toRat - x) := by ring
      rw [this]
      refine le_trans (abs_add_le _ _) ?_
      have h1 : |q.toRat| / 2 ^ 53 ≤ (|x| + M) / 2 ^ 53 := by
        apply div_le_div_of_nonneg_right habs (by norm_num)
      have h2 : |x| ≤ 2 * 10 ^ 15 * M := by
        rw [div_le_iff₀ (by norm_num)] at hMx; linarith
      have h3 : (|x| + M) / 2 ^ 53 ≤ M := by
        rw [div_le_iff₀ (by norm_num)]
        nlinarith [le_trans (by positivity : (0:ℚ) ≤ |x| / (2 * 10 ^ 15)) hMx]
      linarith
    refine le_trans hgoal (le_of_eq ?_)
    rw [hM, mul_max_of_nonneg _ _ (by norm_num)]
    congr 1 <;> ring

/-- Conditions on the text being parsed: legal, different delimiters and a length that fits an `int`. -/
structure Src.Ok (s : Src) : Prop where
  pd : Spec.LegalDelim s.pd
  rd : Spec.LegalDelim s.rd
  ne : s.pd ≠ s.rd
  size : s.data.length ≤ intMax

theorem At.sInt {s : Src} {T i n d ps e dflt} (h : At T s.data i ((.int n, d) :: ps)) (ok : s.Ok)
    (hd : d = s.pd ∨ d = s.rd) (hn : -2147483648 ≤ n ∧ n ≤ 2147483647) :
    ∃ i', s.int ⟨i, e⟩ dflt = Rd.val (n, ⟨i', if d = s.rd then true else e⟩) ∧ At T s.data i' ps := by
  obtain ⟨i', h1, h2, _⟩ := h.int (eor := e) (dflt := dflt) hd ok.pd ok.rd hn
  exact ⟨i', by simp only [Src.int, h1, Rd.lift_ok], h2⟩

theorem At.sReal {s : Src} {T i t d ps e dflt} (h : At T s.data i ((.real t, d) :: ps)) (ok : s.Ok)
    (hd : d = s.pd ∨ d = s.rd) (hw : Writable s.pd s.rd (.real t)) :
    ∃ i', s.real ⟨i, e⟩ dflt = Rd.val (s.num (strtod (dToE t)).val, ⟨i', if d = s.rd then true else e⟩) ∧
      At T s.data i' ps := by
  obtain ⟨i', h1, h2, _⟩ := h.real (eor := e) (dflt := dflt) hd ok.pd ok.rd (Writable.ok hw)
    hw.2.2.2.2.2.1 hw.2.2.2.2.2.2
  exact ⟨i', by simp only [Src.real, h1, Rd.lift_ok], h2⟩

theorem At.sStr {s : Src} {T i t d ps e} (h : At T s.data i ((.str t, d) :: ps)) (ok : s.Ok)
    (hd : d = s.pd ∨ d = s.rd) :
    ∃ i', s.hstr ⟨i, e⟩ = Rd.val (t, ⟨i', if d = s.rd then true else e⟩) ∧ At T s.data i' ps := by
  obtain ⟨i', h1, h2, _⟩ := h.str (eor := e) hd ok.pd ok.rd ok.size
  exact ⟨i', by simp only [Src.hstr, h1, Rd.lift_ok]; simp, h2⟩

/-- The three steps with the parameter delimiter. -/
theorem At.nInt {s : Src} {T i n ps e dflt} (h : At T s.data i ((.int n, s.pd) :: ps)) (ok : s.Ok)
    (hn : -2147483648 ≤ n ∧ n ≤ 2147483647) :
    ∃ i', s.int ⟨i, e⟩ dflt = Rd.val (n, ⟨i', e⟩) ∧ At T s.data i' ps := by
  have := h.sInt (e := e) (dflt := dflt) ok (Or.inl rfl) hn
  rwa [if_neg ok.ne] at this

theorem At.nReal {s : Src} {T i t ps e dflt} (h : At T s.data i ((.real t, s.pd) :: ps)) (ok : s.Ok)
    (hw : Writable s.pd s.rd (.real t)) :
    ∃ i', s.real ⟨i, e⟩ dflt = Rd.val (s.num (strtod (dToE t)).val, ⟨i', e⟩) ∧ At T s.data i' ps := by
  have := h.sReal (e := e) (dflt := dflt) ok (Or.inl rfl) hw
  rwa [if_neg ok.ne] at this

theorem At.nStr {s : Src} {T i t ps e} (h : At T s.data i ((.str t, s.pd) :: ps)) (ok : s.Ok) :
    ∃ i', s.hstr ⟨i, e⟩ = Rd.val (t, ⟨i', e⟩) ∧ At T s.data i' ps := by
  have := h.sStr (e := e) ok (Or.inl rfl)
  rwa [if_neg ok.ne] at this

/-- The three steps with the record delimiter. -/
theorem At.lInt {s : Src} {T i n ps e dflt} (h : At T s.data i ((.int n, s.rd) :: ps)) (ok : s.Ok)
    (hn : -2147483648 ≤ n ∧ n ≤ 2147483647) :
    ∃ i', s.int ⟨i, e⟩ dflt = Rd.val (n, ⟨i', true⟩) ∧ At T s.data i' ps := by
  have := h.sInt (e := e) (dflt := dflt) ok (Or.inr rfl) hn
  rwa [if_pos rfl] at this

theorem At.lReal {s : Src} {T i t ps e dflt} (h : At T s.data i ((.real t, s.rd) :: ps)) (ok : s.Ok)
    (hw : Writable s.pd s.rd (.real t)) :
    ∃ i', s.real ⟨i, e⟩ dflt = Rd.val (s.num (strtod (dToE t)).val, ⟨i', true⟩) ∧ At T s.data i' ps := by
  have := h.sReal (e := e) (dflt := dflt) ok (Or.inr rfl) hw
  rwa [if_pos rfl] at this

theorem At.lStr {s : Src} {T i t ps e} (h : At T s.data i ((.str t, s.rd) :: ps)) (ok : s.Ok) :
    ∃ i', s.hstr ⟨i, e⟩ = Rd.val (t, ⟨i', true⟩) ∧ At T s.data i' ps := by
  have := h.sStr (e := e) ok (Or.inr rfl)
  rwa [if_pos rfl] at this

end Iges
