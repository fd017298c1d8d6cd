import Verif.Lemmas.Columns
import Verif.Model.RealFmt
import Mathlib.Tactic.Linarith
import Mathlib.Tactic.Positivity
import Mathlib.Tactic.Ring
import Mathlib.Tactic.FieldSimp
import Mathlib.Tactic.NormNum
namespace Iges

/-- The pieces of a printed real number. -/
structure Raw where
  neg : Bool
  ip : Str
  dot : Bool
  fp : Str
  ex : Option (Char × Str)      -- sign and digits of the exponent
  deriving Repr

def Raw.man (r : Raw) : Str := signText r.neg ++ (r.ip ++ if r.dot then '.' :: r.fp else [])
def Raw.exText (c : Char) (r : Raw) : Str := match r.ex with | none => [] | some (s, ds) => c :: s :: ds
def Raw.text (c : Char) (r : Raw) : Str := r.man ++ r.exText c
def Raw.exVal (r : Raw) : Int :=
  match r.ex with | none => 0 | some (s, ds) => if s = '-' then -(digitsVal ds : Int) else digitsVal ds

structure Raw.WF (r : Raw) : Prop where
  ip_ne : r.ip ≠ []
  ip_d : ∀ c ∈ r.ip, isDigitC c = true
  fp_d : ∀ c ∈ r.fp, isDigitC c = true
  dot_fp : r.dot = true ↔ r.fp ≠ []
  ex_ok : ∀ s ds, r.ex = some (s, ds) → (s = '+' ∨ s = '-') ∧ ds ≠ [] ∧ ∀ c ∈ ds, isDigitC c = true

def Raw.dec (r : Raw) : Dec :=
  ⟨if r.neg then -(digitsVal (r.ip ++ r.fp) : Int) else digitsVal (r.ip ++ r.fp), r.exVal - r.fp.length⟩

theorem takeWhile_all {α} (p : α → Bool) (a : List α) (h : ∀ x ∈ a, p x = true) : a.takeWhile p = a := by
  have := takeWhile_append_of_all p a [] h
  simpa using this

theorem takeExp_text {r : Raw} (h : r.WF) :
    takeExp (r.exText 'E') = (r.exVal, (r.exText 'E').length) := by
  unfold Raw.exText Raw.exVal
  cases hx : r.ex with
  | none => simp [takeExp]
  | some p =>
    obtain ⟨s, ds⟩ := p
    obtain ⟨hs, hne, hd⟩ := h.ex_ok s ds hx
    have hemp : ds.isEmpty = false := by simpa using hne
    rcases hs with rfl | rfl
    · simp [takeExp, takeSign, takeWhile_all _ _ hd, hemp]; omega
    · simp [takeExp, takeSign, takeWhile_all _ _ hd, hemp]; omega

theorem exText_head {r : Raw} (h : r.WF) : ∀ c ∈ (r.exText 'E').head?, isDigitC c = false ∧ c = 'E' := by
  unfold Raw.exText
  cases hx : r.ex with
  | none => simp
  | some p => simp; decide

theorem strtod_raw {r : Raw} (h : r.WF) :
    strtod (r.text 'E') = ⟨.dec r.dec, (r.text 'E').length, decErange (digitsVal (r.ip ++ r.fp)) (r.exVal - r.fp.length)⟩ := by
  obtain ⟨c0, ip', hip⟩ := List.exists_cons_of_ne_nil h.ip_ne
  have hc0 : isDigitC c0 = true := h.ip_d c0 (by simp [hip])
  set rest := (if r.dot then '.' :: r.fp else []) ++ r.exText 'E' with hrest
  have htext : r.text 'E' = signText r.neg ++ (r.ip ++ rest) := by
    simp [Raw.text, Raw.man, hrest]
  have hresthead : ∀ c ∈ rest.head?, isDigitC c = false ∧ (c = '.' ∨ c = 'E') := by
    rw [hrest]
    cases hd : r.dot with
    | true => simp; decide
    | false =>
      intro c hc
      simp at hc
      have := exText_head h c (by simpa using hc)
      exact ⟨this.1, Or.inr this.2⟩
  -- white space
  have hhead : ∀ x ∈ (r.text 'E').head?, isSpaceC x = false := by
    rw [htext, hip]
    cases r.neg with
    | true => simp [signText]; decide
    | false => simp [signText]; exact isDigitC_not_space hc0
  -- sign
  have hsign : takeSign (r.text 'E') = (r.neg, (signText r.neg).length, r.ip ++ rest) := by
    rw [htext]
    cases r.neg with
    | true => simp [signText, takeSign]
    | false =>
      simp only [signText, Bool.false_eq_true, if_false, List.nil_append, hip, List.cons_append]
      rw [takeSign_digit hc0]; rfl
  -- special
  have hsp : startsSpecial (r.ip ++ rest) = false := by
    unfold startsSpecial
    rw [hip]
    have h1 : c0.toLower = c0 := by
      have := hc0
      simp only [isDigitC, Bool.and_eq_true, decide_eq_true_eq] at this
      unfold Char.toLower
      split
      · rename_i hh
        exfalso
        have a := this.2
        rw [Char.le_def] at a
        have b := hh.1
        have : (57 : UInt32) < 65 := by decide
        exact absurd (UInt32.lt_of_lt_of_le this (UInt32.le_trans b a)) (UInt32.lt_irrefl _)
      · rfl
    have hi : c0 ≠ 'i' := isDigitC_ne hc0 (by decide)
    have hn : c0 ≠ 'n' := isDigitC_ne hc0 (by decide)
    have hx : ∀ y ∈ (ip' ++ rest).head?, y.toLower ≠ 'x' := by
      intro y hy
      cases ip' with
      | nil =>
        simp only [List.nil_append] at hy
        rcases (hresthead y hy).2 with rfl | rfl <;> decide
      | cons a t =>
        simp at hy; subst hy
        have : isDigitC a = true := h.ip_d a (by simp [hip])
        intro hh
        have h2 : a.toLower = a := by
          simp only [isDigitC, Bool.and_eq_true, decide_eq_true_eq] at this
          unfold Char.toLower
          split
          · rename_i hh
            exfalso
            have a1 := this.2
            rw [Char.le_def] at a1
            have b := hh.1
            have : (57 : UInt32) < 65 := by decide
            exact absurd (UInt32.lt_of_lt_of_le this (UInt32.le_trans b a1)) (UInt32.lt_irrefl _)
          · rfl
        rw [h2] at hh
        exact isDigitC_ne this (by decide) hh
    cases hq : ip' ++ rest with
    | nil => simp [hq, h1, hi]
    | cons y t =>
      have hy := hx y (by simp [hq])
      cases t with
      | nil => simp [hq, h1, hi, hn, hy]
      | cons z t => simp [hq, h1, hi, hn, hy]
  have hip1 : (r.ip ++ rest).takeWhile isDigitC = r.ip := by
    rw [takeWhile_append_of_all _ _ _ h.ip_d, takeWhile_of_head _ _ (fun x hx => (hresthead x hx).1)]
    simp
  have hip2 : (r.ip ++ rest).dropWhile isDigitC = rest := by
    rw [dropWhile_append_of_all _ _ _ h.ip_d, dropWhile_of_head _ _ (fun x hx => (hresthead x hx).1)]
  have hemp : r.ip.isEmpty = false := by simp [hip]
  have hfrac : takeFrac true rest = (r.fp, (if r.dot then '.' :: r.fp else []).length) ∧
      rest.drop ((if r.dot then '.' :: r.fp else []).length) = r.exText 'E' := by
    rw [hrest]
    cases hd : r.dot with
    | true =>
      have : (r.fp ++ r.exText 'E').takeWhile isDigitC = r.fp := by
        rw [takeWhile_append_of_all _ _ _ h.fp_d, takeWhile_of_head _ _ (fun x hx => (exText_head h x hx).1)]
        simp
      simp [takeFrac, this]; omega
    | false =>
      have hfp : r.fp = [] := by
        have := h.dot_fp
        rw [hd] at this
        by_contra hne
        exact absurd (this.2 hne) (by simp)
      simp only [hfp, Bool.false_eq_true, if_false, List.nil_append, List.length_nil, List.drop_zero, and_true]
      unfold takeFrac
      cases hx : r.exText 'E' with
      | nil => simp
      | cons a b =>
        have := (exText_head h a (by simp [hx])).2
        simp [this]
  unfold strtod
  rw [takeWhile_of_head _ _ hhead, dropWhile_of_head _ _ hhead]
  simp only [hsign, hsp, Bool.false_eq_true, if_false, hip1, hip2, hemp, Bool.not_false, hfrac.1, hfrac.2,
    takeExp_text h, false_and]
  simp only [Strtod.mk.injEq, RealTok.dec.injEq, and_true]
  refine ⟨?_, ?_⟩
  · simp only [Raw.dec]
  · rw [htext, hrest]; simp; omega

/-- Characters of a printed mantissa are no exponent letters. -/
theorem man_noE {r : Raw} (h : r.WF) : ∀ c ∈ r.man, c ≠ 'e' ∧ c ≠ 'E' ∧ c ≠ 'D' := by
  intro c hc
  unfold Raw.man at hc
  have dig : ∀ c, isDigitC c = true → c ≠ 'e' ∧ c ≠ 'E' ∧ c ≠ 'D' := fun c hc =>
    ⟨isDigitC_ne hc (by decide), isDigitC_ne hc (by decide), isDigitC_ne hc (by decide)⟩
  rcases List.mem_append.mp hc with hc | hc
  · cases hn : r.neg with
    | true => rw [hn] at hc; simp [signText] at hc; subst hc; decide
    | false => rw [hn] at hc; simp [signText] at hc
  · rcases List.mem_append.mp hc with hc | hc
    · exact dig c (h.ip_d c hc)
    · split at hc
      · rcases List.mem_cons.mp hc with rfl | hc
        · decide
        · exact dig c (h.fp_d c hc)
      · simp at hc

theorem splitExp_raw {r : Raw} (h : r.WF) (e : Char) (he : e = 'e' ∨ e = 'E') :
    splitExp (r.text e) = (r.man, r.exText e) := by
  unfold splitExp
  have hm : ∀ x ∈ r.man, (fun c : Char => !(c == 'e' || c == 'E')) x = true := by
    intro x hx
    have := man_noE h x hx
    simp [this.1, this.2.1]
  have hh : ∀ x ∈ (r.exText e).head?, (fun c : Char => !(c == 'e' || c == 'E')) x = false := by
    intro x hx
    unfold Raw.exText at hx
    cases hx' : r.ex with
    | none => simp [hx'] at hx
    | some p => simp [hx'] at hx; subst hx; rcases he with rfl | rfl <;> decide
  unfold Raw.text
  rw [takeWhile_append_of_all _ _ _ hm, dropWhile_append_of_all _ _ _ hm, takeWhile_of_head _ _ hh,
    dropWhile_of_head _ _ hh]
  simp

theorem mem_takeWhile_true {α} (p : α → Bool) (l : List α) : ∀ x ∈ l.takeWhile p, p x = true := by
  induction l with
  | nil => simp
  | cons a l ih =>
    intro x hx
    rw [List.takeWhile_cons] at hx
    split at hx
    · rename_i ha
      rcases List.mem_cons.mp hx with rfl | hx
      · exact ha
      · exact ih x hx
    · simp at hx

theorem trimZerosRev_zeros (k : Option Char) (m : Nat) (t : Str) (hk : k = none ∨ k = some '0') :
    trimZerosRev k (List.replicate m '0' ++ t) = trimZerosRev (if m = 0 then k else some '0') t := by
  induction m generalizing k with
  | zero => simp
  | succ m ih =>
    simp only [List.replicate_succ, List.cons_append, trimZerosRev, if_true]
    rw [ih _ (Or.inr rfl)]
    simp

/-- A digit string is a part not ending in zero and zeros. -/
theorem zeros_split (s : Str) : ∃ t m, s = t ++ List.replicate m '0' ∧ (∀ c, t.getLast? = some c → c ≠ '0') ∧
    stripZeros s = t := by
  refine ⟨stripZeros s, (s.reverse.takeWhile (· == '0')).length, ?_, ?_, rfl⟩
  · unfold stripZeros
    have h1 := List.takeWhile_append_dropWhile (p := (· == '0')) (l := s.reverse)
    have h2 : s.reverse.takeWhile (· == '0') = List.replicate (s.reverse.takeWhile (· == '0')).length '0' := by
      apply List.eq_replicate_iff.mpr
      refine ⟨rfl, fun c hc => ?_⟩
      have := mem_takeWhile_true _ _ c hc
      simpa using this
    have h3 := congrArg List.reverse h1
    rw [List.reverse_append, List.reverse_reverse] at h3
    have h4 : (s.reverse.takeWhile (· == '0')).reverse =
        List.replicate (s.reverse.takeWhile (· == '0')).length '0' := by
      rw [h2]; simp
    rw [h4] at h3
    exact h3.symm
  · intro c hc
    unfold stripZeros at hc
    rw [List.getLast?_reverse] at hc
    have := List.head?_dropWhile_not (· == '0') s.reverse
    rw [hc] at this
    simpa using this

/-- The fraction digits after trimming: zeros removed, at least one digit kept. -/
def keepOne (fp : Str) : Str := if stripZeros fp = [] then ['0'] else stripZeros fp

theorem trimZeros_frac (pre fp : Str) (hfp : fp ≠ []) (hd : ∀ c ∈ fp, isDigitC c = true) :
    trimZeros (pre ++ '.' :: fp) = pre ++ '.' :: keepOne fp := by
  obtain ⟨t, m, h1, h2, h3⟩ := zeros_split fp
  unfold trimZeros keepOne
  rw [h3]
  have hrev : (pre ++ '.' :: fp).reverse = List.replicate m '0' ++ (t.reverse ++ '.' :: pre.reverse) := by
    rw [h1]; simp
  rw [hrev, trimZerosRev_zeros _ _ _ (Or.inl rfl)]
  by_cases ht : t = []
  · subst ht
    have hm : m ≠ 0 := by
      rintro rfl; simp at h1; exact hfp h1
    simp [hm, trimZerosRev]
  · rw [if_neg ht]
    obtain ⟨c, r, hcr⟩ := List.exists_cons_of_ne_nil (show t.reverse ≠ [] by simpa using ht)
    have hlast : t.getLast? = some c := by
      rw [← List.head?_reverse, hcr]; rfl
    have hc0 : c ≠ '0' := h2 c hlast
    have hcd : c ≠ '.' := by
      have : c ∈ fp := by rw [h1]; exact List.mem_append_left _ (List.mem_of_getLast? hlast)
      exact isDigitC_ne (hd c this) (by decide)
    rw [hcr]
    simp only [List.cons_append, trimZerosRev, if_neg hc0, if_neg hcd]
    rw [← List.cons_append, ← hcr]
    simp

theorem digitsVal_append_zeros (a : Str) (m : Nat) :
    digitsVal (a ++ List.replicate m '0') = digitsVal a * 10 ^ m := by
  unfold digitsVal
  rw [List.foldl_append]
  generalize List.foldl (fun a c => 10 * a + (c.toNat - 48)) 0 a = x
  induction m generalizing x with
  | zero => simp
  | succ m ih =>
    simp only [List.replicate_succ, List.foldl_cons]
    rw [ih]
    have : ('0' : Char).toNat - 48 = 0 := by decide
    rw [this, Nat.pow_succ]; ring

/-- Trailing zeros of the fraction do not change the value. -/
theorem toRat_trim (s : Bool) (ip fp : Str) (e : Int) (t : Str) (m : Nat) (h : fp = t ++ List.replicate m '0') :
    (Dec.mk (if s then -(digitsVal (ip ++ fp) : Int) else digitsVal (ip ++ fp)) (e - fp.length)).toRat =
    (Dec.mk (if s then -(digitsVal (ip ++ t) : Int) else digitsVal (ip ++ t)) (e - t.length)).toRat := by
  subst h
  unfold Dec.toRat
  rw [← List.append_assoc, digitsVal_append_zeros]
  have h10 : (10 : ℚ) ≠ 0 := by norm_num
  have he : (10 : ℚ) ^ (e - (t.length : Int)) = 10 ^ (e - ((t ++ List.replicate m '0').length : Int)) * 10 ^ (m : Int) := by
    rw [← zpow_add₀ h10]
    congr 1
    simp; ring
  simp only [] at he ⊢
  rw [he, zpow_natCast]
  cases s <;> simp <;> ring

theorem erange_aux (B C P Q m : ℕ) (e : ℤ) (hPB : P < B) (hQC : Q < C) (hQ : 0 < Q)
    (hlo : (1 : ℚ) / Q ≤ m * (10 : ℚ) ^ e) (hhi : (m : ℚ) * (10 : ℚ) ^ e ≤ P) :
    (if e ≥ 0 then decide (m * 10 ^ e.toNat ≥ B)
     else (decide (m ≥ B * 10 ^ (-e).toNat) || decide (m * C < 10 ^ (-e).toNat))) = false := by
  split
  · rename_i he
    obtain ⟨k, rfl⟩ := Int.eq_ofNat_of_zero_le he
    have : (m * 10 ^ k : ℕ) ≤ P := by
      have : ((m * 10 ^ k : ℕ) : ℚ) ≤ (P : ℚ) := by
        push_cast; simpa using hhi
      exact_mod_cast this
    simp only [ge_iff_le, decide_eq_false_iff_not, not_le, Int.toNat_natCast]
    exact lt_of_le_of_lt this hPB
  · rename_i he
    obtain ⟨k, hk⟩ : ∃ k : ℕ, e = -(k : Int) := ⟨(-e).toNat, by omega⟩
    subst hk
    have hk' : (-(-(k : Int))).toNat = k := by omega
    rw [hk']
    have hp : (0 : ℚ) < 10 ^ k := by positivity
    rw [zpow_neg, zpow_natCast] at hlo hhi
    have hQ' : (0 : ℚ) < Q := by exact_mod_cast hQ
    have h1 : (m : ℚ) ≤ P * 10 ^ k := by
      have := mul_le_mul_of_nonneg_right hhi hp.le
      rwa [mul_assoc, inv_mul_cancel₀ hp.ne', mul_one] at this
    have h2 : (10 : ℚ) ^ k ≤ m * Q := by
      have := mul_le_mul_of_nonneg_right hlo hp.le
      rw [mul_assoc, inv_mul_cancel₀ hp.ne', mul_one] at this
      have := mul_le_mul_of_nonneg_right this hQ'.le
      calc (10 : ℚ) ^ k = 1 / Q * 10 ^ k * Q := by field_simp
        _ ≤ _ := this
    have h1' : m ≤ P * 10 ^ k := by exact_mod_cast h1
    have h2' : 10 ^ k ≤ m * Q := by exact_mod_cast h2
    have hkp : 0 < 10 ^ k := Nat.pow_pos (by norm_num)
    have hA : m < B * 10 ^ k := lt_of_le_of_lt h1' (Nat.mul_lt_mul_of_pos_right hPB hkp)
    have hB : 10 ^ k ≤ m * C := le_trans h2' (Nat.mul_le_mul_left _ hQC.le)
    simp only [ge_iff_le, Bool.or_eq_false_iff, decide_eq_false_iff_not, not_le, not_lt]
    exact ⟨hA, hB⟩

/-- Bounds well inside the range of doubles. -/
def hugeBound : ℕ := 10 ^ 305
def tinyBound : ℕ := 10 ^ 300

theorem decErange_rat {m : Nat} {e : Int} (hlo : m = 0 ∨ (1 : ℚ) / tinyBound ≤ m * (10 : ℚ) ^ e)
    (hhi : (m : ℚ) * (10 : ℚ) ^ e ≤ hugeBound) : decErange m e = false := by
  unfold decErange
  by_cases hm : m = 0
  · simp [hm]
  have hlo := hlo.resolve_left hm
  have hbig : hugeBound < dblOverflow := by decide +kernel
  have hsmall : tinyBound < dblTinyInv := by decide +kernel
  have hpos : 0 < tinyBound := by decide +kernel
  have := erange_aux _ _ _ _ m e hbig hsmall hpos hlo hhi
  rw [if_neg hm]
  exact this

theorem dToE_noD (s t : Str) (h : 'D' ∉ s) : dToE (s ++ t) = s ++ dToE t := by
  induction s with
  | nil => rfl
  | cons c s ih =>
    simp only [List.mem_cons, not_or] at h
    have : c ≠ 'D' := fun e => h.1 e.symm
    simp only [List.cons_append, dToE, if_neg this, ih h.2]

/-- Characters that can occur in a real parameter. -/
def realChar (c : Char) : Bool := isDigitC c || c == '+' || c == '-' || c == '.' || c == 'E' || c == 'D'

theorem raw_chars {r : Raw} (h : r.WF) (e : Char) (he : e = 'E' ∨ e = 'D') : ∀ c ∈ r.text e, realChar c = true := by
  intro c hc
  unfold Raw.text Raw.man at hc
  have dig : ∀ c, isDigitC c = true → realChar c = true := fun c hc => by simp [realChar, hc]
  rcases List.mem_append.mp hc with hc | hc
  · rcases List.mem_append.mp hc with hc | hc
    · cases hn : r.neg with
      | true => rw [hn] at hc; simp [signText] at hc; subst hc; decide
      | false => rw [hn] at hc; simp [signText] at hc
    · rcases List.mem_append.mp hc with hc | hc
      · exact dig c (h.ip_d c hc)
      · split at hc
        · rcases List.mem_cons.mp hc with rfl | hc
          · decide
          · exact dig c (h.fp_d c hc)
        · simp at hc
  · unfold Raw.exText at hc
    cases hx : r.ex with
    | none => simp [hx] at hc
    | some p =>
      obtain ⟨s, ds⟩ := p
      obtain ⟨hs, _, hd⟩ := h.ex_ok s ds hx
      simp only [hx, List.mem_cons] at hc
      rcases hc with rfl | rfl | hc
      · rcases he with rfl | rfl <;> decide
      · rcases hs with rfl | rfl <;> decide
      · exact dig c (hd c hc)

theorem exText_noD {r : Raw} (h : r.WF) : dToE (r.exText 'D') = r.exText 'E' ∧ dToE (r.exText 'E') = r.exText 'E' := by
  unfold Raw.exText
  cases hx : r.ex with
  | none => simp [dToE]
  | some p =>
    obtain ⟨s, ds⟩ := p
    obtain ⟨hs, _, hd⟩ := h.ex_ok s ds hx
    have hds : dToE ds = ds := by
      have : 'D' ∉ ds := by
        intro hh; have := hd _ hh; revert this; decide
      have := dToE_noD ds [] this
      simpa [dToE] using this
    have hsD : s ≠ 'D' := by rcases hs with rfl | rfl <;> decide
    simp [dToE, hsD, hds]

theorem dToE_text {r : Raw} (h : r.WF) (e : Char) (he : e = 'E' ∨ e = 'D') : dToE (r.text e) = r.text 'E' := by
  unfold Raw.text
  rw [dToE_noD _ _ (fun hh => (man_noE h _ hh).2.2 rfl)]
  rcases he with rfl | rfl
  · rw [(exText_noD h).2]
  · rw [(exText_noD h).1]

theorem length_exText (r : Raw) (a b : Char) : (r.exText a).length = (r.exText b).length := by
  unfold Raw.exText; cases r.ex <;> simp

theorem stripZeros_sub (fp : Str) : (∀ c ∈ stripZeros fp, c ∈ fp) ∧ (stripZeros fp).length ≤ fp.length := by
  obtain ⟨t, m, h1, h2, h3⟩ := zeros_split fp
  rw [h3, h1]
  refine ⟨fun c hc => List.mem_append_left _ hc, by simp⟩

theorem keepOne_spec {fp : Str} (hfp : fp ≠ []) (hd : ∀ c ∈ fp, isDigitC c = true) :
    (∀ c ∈ keepOne fp, isDigitC c = true) ∧ keepOne fp ≠ [] ∧ (keepOne fp).length ≤ fp.length ∧
    ∃ t m j, fp = t ++ List.replicate m '0' ∧ keepOne fp = t ++ List.replicate j '0' := by
  obtain ⟨t, m, h1, h2, h3⟩ := zeros_split fp
  have hs := stripZeros_sub fp
  unfold keepOne
  split
  · rename_i he
    refine ⟨by simp; decide, by simp, ?_, t, m, 1, h1, ?_⟩
    · have := List.length_pos_iff.mpr hfp
      simp only [List.length_cons, List.length_nil]; omega
    · rw [h3] at he; simp [he]
  · rename_i he
    exact ⟨fun c hc => hd c (hs.1 c hc), he, hs.2, t, m, 0, h1, by simp [h3]⟩

/-- What `FormatPDREal` makes of printed text: the requested delimiter at the end, a dot or an
exponent, only characters of numbers, and the same value when read. -/
theorem realPost_raw {r : Raw} (h : r.WF) (nc : Nat) (delim : Char) :
    ∃ body d, realPost (r.text 'e') nc delim = body ++ [delim] ∧
      body ≠ [] ∧ body.length ≤ (r.text 'e').length + 2 ∧ (∀ c ∈ body, realChar c = true) ∧
      ('.' ∈ body ∨ 'E' ∈ body ∨ 'D' ∈ body) ∧
      strtod (dToE body) = ⟨.dec d, body.length, decErange d.m.natAbs d.e⟩ ∧
      d.toRat = r.dec.toRat := by
  have natAbs_ite : ∀ (b : Bool) (n : Nat), (if b then -(n : Int) else n).natAbs = n := by
    intro b n; cases b <;> simp
  have key : ∀ (q : Raw) (e : Char), q.WF → (e = 'E' ∨ e = 'D') →
      strtod (dToE (q.text e)) = ⟨.dec q.dec, (q.text e).length, decErange q.dec.m.natAbs q.dec.e⟩ := by
    intro q e hq he
    rw [dToE_text hq e he, strtod_raw hq]
    have : (q.text 'E').length = (q.text e).length := by
      simp [Raw.text, length_exText q 'E' e]
    simp only [this, Raw.dec, natAbs_ite]
  have hne : ∀ (q : Raw) (e : Char), q.WF → q.text e ≠ [] := by
    intro q e hq hh
    apply hq.ip_ne
    simp only [Raw.text, Raw.man, List.append_eq_nil_iff] at hh
    exact hh.1.2.1
  unfold realPost realBody
  rw [splitExp_raw h 'e' (Or.inl rfl)]
  simp only []
  have hdotmem : '.' ∈ r.text 'e' ↔ r.dot = true := by
    constructor
    · intro hm
      by_contra hd
      have hd : r.dot = false := by simpa using hd
      unfold Raw.text Raw.man at hm
      rw [hd] at hm
      have dig : ∀ s : Str, (∀ c ∈ s, isDigitC c = true) → '.' ∉ s := by
        intro s hs hh; have := hs _ hh; revert this; decide
      rcases List.mem_append.mp hm with hm | hm
      · rcases List.mem_append.mp hm with hm | hm
        · cases hn : r.neg <;> rw [hn] at hm <;> simp [signText] at hm
        · simp at hm; exact dig _ h.ip_d hm
      · unfold Raw.exText at hm
        cases hx : r.ex with
        | none => simp [hx] at hm
        | some p =>
          obtain ⟨s, ds⟩ := p
          obtain ⟨hs, _, hdd⟩ := h.ex_ok s ds hx
          simp only [hx, List.mem_cons] at hm
          rcases hm with hm | hm | hm
          · revert hm; decide
          · rcases hs with rfl | rfl <;> revert hm <;> decide
          · exact dig _ hdd hm
    · intro hd
      simp [Raw.text, Raw.man, hd]
  by_cases hdot : r.dot = true
  · rw [if_pos (hdotmem.mpr hdot)]
    have hfp := h.dot_fp.mp hdot
    obtain ⟨k1, k2, k3, t, m, j, k4, k5⟩ := keepOne_spec hfp h.fp_d
    let q : Raw := { r with fp := keepOne r.fp }
    have hq : q.WF := ⟨h.ip_ne, h.ip_d, k1, by simp [q, hdot, k2], h.ex_ok⟩
    have hman : trimZeros r.man = q.man := by
      have : r.man = (signText r.neg ++ r.ip) ++ '.' :: r.fp := by simp [Raw.man, hdot]
      rw [this, trimZeros_frac _ _ hfp h.fp_d]
      simp [Raw.man, q, hdot]
    have hval : q.dec.toRat = r.dec.toRat := by
      have a := toRat_trim r.neg r.ip r.fp r.exVal t m k4
      have b := toRat_trim r.neg r.ip (keepOne r.fp) r.exVal t j k5
      have hex : q.exVal = r.exVal := rfl
      unfold Raw.dec
      rw [hex]
      exact b.trans a.symm
    have hbody : (match r.exText 'e' with
        | [] => trimZeros r.man
        | _ :: x => trimZeros r.man ++ 'E' :: x) = q.text 'E' := by
      unfold Raw.text
      rw [hman]
      unfold Raw.exText
      cases hx : r.ex with
      | none => simp [q, hx]
      | some p => simp [q, hx]
    refine ⟨q.text 'E', q.dec, ?_, hne q 'E' hq, ?_, raw_chars hq 'E' (Or.inl rfl), ?_, key q 'E' hq (Or.inl rfl), hval⟩
    · rw [← hbody]
      cases r.exText 'e' <;> rfl
    · have : (q.text 'E').length ≤ (r.text 'e').length := by
        have e1 : (q.exText 'E').length = (r.exText 'e').length := by
          unfold Raw.exText; simp only [q]; cases r.ex <;> simp
        simp only [Raw.text, List.length_append, e1]
        simp [Raw.man, q, hdot]; omega
      omega
    · left; simp [Raw.text, Raw.man, q, hdot]
  · have hdf : r.dot = false := by simpa using hdot
    rw [if_neg (fun hh => hdot (hdotmem.mp hh))]
    have hfp : r.fp = [] := by
      by_contra hne; exact hdot (h.dot_fp.mpr hne)
    cases hx : r.ex with
    | none =>
      have hxe : r.exText 'e' = [] := by simp [Raw.exText, hx]
      let q : Raw := { r with dot := true, fp := ['0'] }
      have hq : q.WF := ⟨h.ip_ne, h.ip_d, by simp [q]; decide, by simp [q], h.ex_ok⟩
      have hqt : q.text 'E' = r.text 'e' ++ ".0".toList := by
        simp [Raw.text, Raw.man, Raw.exText, q, hx, hdf]
      have hval : q.dec.toRat = r.dec.toRat := by
        have a := toRat_trim r.neg r.ip (['0'] : Str) r.exVal [] 1 rfl
        have hex : q.exVal = r.exVal := rfl
        unfold Raw.dec
        rw [hex, hfp]
        exact a
      refine ⟨q.text 'E', q.dec, ?_, hne q 'E' hq, ?_, raw_chars hq 'E' (Or.inl rfl), ?_, key q 'E' hq (Or.inl rfl), hval⟩
      · rw [hxe, hqt]
      · rw [hqt]; simp
      · left; simp [Raw.text, Raw.man, q]
    | some p =>
      obtain ⟨s, ds⟩ := p
      have hxe : r.exText 'e' = 'e' :: s :: ds := by simp [Raw.exText, hx]
      refine ⟨r.text (if nc > 7 then 'D' else 'E'), r.dec, ?_, hne _ _ h, ?_,
        raw_chars h _ (by split <;> simp), ?_, key r _ h (by split <;> simp), rfl⟩
      · rw [hxe]; simp [Raw.text, Raw.exText, hx]
      · simp [Raw.text, length_exText r _ 'e']
      · right
        split
        · right; simp [Raw.text, Raw.exText, hx]
        · left; simp [Raw.text, Raw.exText, hx]

end Iges
