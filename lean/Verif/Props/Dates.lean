import Verif.Model.Dates
import Verif.Spec.Dates
import Verif.Lemmas.Columns
/-
C15: date strings of the global section.
-/
namespace Iges.Props
open Iges

theorem dateField_iff (s : Str) (w : Nat) (hs : s.length = w) (hw : w ≤ 4) (v : Int) :
    dateField s w = (true, v) ↔ Spec.Number w s v := by
  constructor
  · intro h
    simp only [dateField, Prod.mk.injEq, Bool.not_eq_true', Bool.or_eq_false_iff, beq_eq_false_iff_ne, ne_eq,
      bne_eq_false_iff_eq] at h
    obtain ⟨⟨⟨he, hu⟩, hl⟩, hv⟩ := h
    obtain ⟨ws, sgn, ds, rest, h1, h2, h3, h4, h5, h6, h7, h8⟩ := strtol_inv s he hu
    have hr : rest = [] := by
      have := congrArg List.length h1
      simp only [List.length_append] at this
      have : rest.length = 0 := by omega
      simpa using this
    subst hr
    refine ⟨hs, ws, sgn, ds, by simpa using h1, fun c hc => (blank_iff c).mpr (h2 c hc), h3, h4,
      fun c hc => by rw [← isDigitC_eq]; exact h5 c hc, ?_⟩
    have hlt := digitsVal_lt ds h5
    have hlen : ds.length ≤ 4 := by
      have := congrArg List.length h1
      simp only [List.length_append] at this
      omega
    have h10 : 10 ^ ds.length ≤ 10 ^ 4 := Nat.pow_le_pow_right (by decide) hlen
    rw [← hv, h8, digitsVal_eq]
    rw [digitsVal_eq] at hlt
    apply toI32_id <;> split <;> omega
  · rintro ⟨_, ws, sgn, ds, h1, h2, h3, h4, h5, h6⟩
    have hd : ∀ c ∈ ds, isDigitC c = true := fun c hc => by rw [isDigitC_eq]; exact h5 c hc
    have hlt := digitsVal_lt ds hd
    have hlen : ds.length ≤ 4 := by
      have := congrArg List.length h1
      simp only [List.length_append] at this
      omega
    have h10 : 10 ^ ds.length ≤ 10 ^ 4 := Nat.pow_le_pow_right (by decide) hlen
    have hM : longMax = 9223372036854775807 := rfl
    have hm : longMin = -9223372036854775808 := rfl
    have := strtol_run ws sgn ds [] (fun c hc => (blank_iff c).mp (h2 c hc)) h3 hd h4 (by simp)
      (by split <;> omega) (by split <;> omega)
    rw [List.append_nil, ← h1] at this
    simp only [dateField, this]
    have hw2 : w = ws.length + sgn.length + ds.length := by
      rw [← hs, h1]; simp [Nat.add_assoc]
    have hpos : 0 < ds.length := List.length_pos_iff.mpr h4
    refine Prod.ext ?_ ?_
    · simp only [Bool.false_or, Bool.not_eq_true', Bool.or_eq_false_iff, beq_eq_false_iff_ne, ne_eq,
        bne_eq_false_iff_eq]
      omega
    · simp only
      rw [h6, digitsVal_eq]
      rw [digitsVal_eq] at hlt
      apply toI32_id <;> split <;> omega

theorem digitChar_digit (n : Nat) (h : n < 10) : (Nat.digitChar n).isDigit = true := by
  have : n = 0 ∨ n = 1 ∨ n = 2 ∨ n = 3 ∨ n = 4 ∨ n = 5 ∨ n = 6 ∨ n = 7 ∨ n = 8 ∨ n = 9 := by omega
  rcases this with h | h | h | h | h | h | h | h | h | h <;> subst h <;> decide

theorem two_number (n : Nat) (h : n < 100) : Spec.Number 2 (Spec.two n) n := by
  refine ⟨rfl, [], [], Spec.two n, by simp, by simp, Or.inl rfl, by simp [Spec.two], ?_, ?_⟩
  · intro c hc
    simp only [Spec.two, List.mem_cons, List.not_mem_nil, or_false] at hc
    rcases hc with rfl | rfl
    · exact digitChar_digit _ (by omega)
    · exact digitChar_digit _ (by omega)
  · have : ∀ m : Fin 100, (m.val : Int) = Nat.ofDigitChars 10 (Spec.two m.val) 0 := by decide
    simpa using this ⟨n, h⟩

theorem mdays_eq (mon : Int) (h1 : 1 ≤ mon) (h2 : mon ≤ 12) :
    mdays[(mon - 1).toNat]? = some ((Spec.daysIn mon.toNat : Nat) : Int) := by
  have : mon = 1 ∨ mon = 2 ∨ mon = 3 ∨ mon = 4 ∨ mon = 5 ∨ mon = 6 ∨ mon = 7 ∨ mon = 8 ∨ mon = 9 ∨
    mon = 10 ∨ mon = 11 ∨ mon = 12 := by omega
  rcases this with h | h | h | h | h | h | h | h | h | h | h | h <;> subst h <;> rfl

theorem len11 {α} (r : List α) (h : r.length = 11) :
    ∃ a b c d e f g i j k l, r = [a, b, c, d, e, f, g, i, j, k, l] := by
  match r, h with
  | [a, b, c, d, e, f, g, i, j, k, l], _ => exact ⟨a, b, c, d, e, f, g, i, j, k, l, rfl⟩

theorem len2 {α} (r : List α) (h : r.length = 2) : ∃ a b, r = [a, b] := by
  match r, h with
  | [a, b], _ => exact ⟨a, b, rfl⟩

theorem year_iff (s : Str) (h : s.length = 2) :
    (dateField ("19".toList ++ s) 4).1 = true ↔ ∀ c ∈ s, c.isDigit = true := by
  have hl : ("19".toList ++ s).length = 4 := by simp [h]
  constructor
  · intro ht
    obtain ⟨_, ws, sg, ds, e, h1, h2, h3, h4, _⟩ :=
      (dateField_iff _ 4 hl (by decide) (dateField ("19".toList ++ s) 4).2).mp (Prod.ext ht rfl)
    have hws : ws = [] := by
      cases ws with
      | nil => rfl
      | cons c r =>
        simp only [List.cons_append] at e
        have hc := (List.cons.inj e).1
        have := h1 c (by simp)
        rw [← hc] at this
        exact absurd this (by decide)
    subst hws
    have hsg : sg = [] := by
      rcases h2 with rfl | rfl | rfl
      · rfl
      · have hc := (List.cons.inj e).1; revert hc; decide
      · have hc := (List.cons.inj e).1; revert hc; decide
    subst hsg
    simp only [List.nil_append] at e
    intro c hc
    apply h4
    rw [← e]; simp [hc]
  · intro hd
    have : Spec.Number 4 ("19".toList ++ s) (Nat.ofDigitChars 10 ("19".toList ++ s) 0 : Nat) := by
      refine ⟨hl, [], [], "19".toList ++ s, by simp, by simp, Or.inl rfl, by simp, ?_, by simp⟩
      intro c hc
      rcases List.mem_append.mp hc with hc | hc
      · have hall : ∀ c ∈ "19".toList, c.isDigit = true := by decide
        exact hall c hc
      · exact hd c hc
    rw [(dateField_iff _ 4 hl (by decide) _).mpr this]

/-- The year of a date text and the eleven characters behind it. -/
theorem date_core (year r : Str) (hy : year.length = 2 ∨ year.length = 4) (a b c d e f g i j k l : Char)
    (hr : r = [a, b, c, d, e, f, g, i, j, k, l]) :
    checkDate (year ++ r) =
      (dayInMonth (dateField [a, b] 2).2 (dateField [c, d] 2).2).bind fun dayOk =>
      .ok (decide (e = '.') && (dateField (if year.length = 2 then "19".toList ++ year else year) 4).1 &&
        (dateField [a, b] 2).1 && decide (1 ≤ (dateField [a, b] 2).2 ∧ (dateField [a, b] 2).2 ≤ 12) &&
        (dateField [c, d] 2).1 && dayOk &&
        (dateField [f, g] 2).1 && decide (0 ≤ (dateField [f, g] 2).2 ∧ (dateField [f, g] 2).2 ≤ 23) &&
        (dateField [i, j] 2).1 && decide (0 ≤ (dateField [i, j] 2).2 ∧ (dateField [i, j] 2).2 ≤ 59) &&
        (dateField [k, l] 2).1 &&
        decide (¬ ((dateField [k, l] 2).2 < 0 ∨ (dateField [i, j] 2).2 > 60))) := by
  subst hr
  unfold checkDate
  rcases hy with hy | hy
  · match year, hy with
    | [y1, y2], _ => simp [substr]
  · match year, hy with
    | [y1, y2, y3, y4], _ => simp [substr]

/-- C15: exactly which strings are accepted as dates. -/
theorem C15_accepted_iff (s : Str) : checkDate s = .ok true ↔ Spec.LaxDateText s := by
  constructor
  · intro h
    have hlen : s.length = 13 ∨ s.length = 15 := by
      apply Classical.byContradiction
      intro hn
      unfold checkDate at h
      rw [if_pos (by omega)] at h
      simp at h
    have hsp : ∃ year r, s = year ++ r ∧ (year.length = 2 ∨ year.length = 4) ∧ r.length = 11 := by
      rcases hlen with hl | hl
      · exact ⟨s.take 2, s.drop 2, (List.take_append_drop 2 s).symm, Or.inl (by simp; omega), by simp; omega⟩
      · exact ⟨s.take 4, s.drop 4, (List.take_append_drop 4 s).symm, Or.inr (by simp; omega), by simp; omega⟩
    obtain ⟨year, r, rfl, hy, hr⟩ := hsp
    obtain ⟨a, b, c, d, e, f, g, i, j, k, l, rfl⟩ := len11 r hr
    rw [date_core year _ hy a b c d e f g i j k l rfl] at h
    cases hdm : dayInMonth (dateField [a, b] 2).2 (dateField [c, d] 2).2 with
    | ub => rw [hdm] at h; simp [Res.bind] at h
    | exn => rw [hdm] at h; simp [Res.bind] at h
    | ok v =>
    rw [hdm] at h
    simp only [Res.bind, Res.ok.injEq, Bool.and_eq_true, decide_eq_true_eq] at h
    obtain ⟨⟨⟨⟨⟨⟨⟨⟨⟨⟨⟨he, hY⟩, hM⟩, hMr⟩, hD⟩, rfl⟩, hH⟩, hHr⟩, hN⟩, hNr⟩, hS⟩, hSr⟩ := h
    have num : ∀ (x y : Char), (dateField [x, y] 2).1 = true → Spec.Number 2 [x, y] (dateField [x, y] 2).2 :=
      fun x y hx => (dateField_iff [x, y] 2 rfl (by decide) _).mp (Prod.ext hx rfl)
    unfold dayInMonth at hdm
    rw [mdays_eq _ hMr.1 hMr.2] at hdm
    have hd : 1 ≤ (dateField [c, d] 2).2 ∧ (dateField [c, d] 2).2 ≤ Spec.daysIn (dateField [a, b] 2).2.toNat := by
      by_cases h1 : (dateField [c, d] 2).2 < 1
      · rw [if_pos h1] at hdm; simp at hdm
      · rw [if_neg h1, if_neg (by omega)] at hdm
        simp only [Res.ok.injEq, decide_eq_true_eq] at hdm
        exact ⟨by omega, hdm⟩
    refine ⟨year, [a, b], [c, d], [f, g], [i, j], [k, l], _, _, _, _, _, by simp [he], ?_, num _ _ hM, num _ _ hD,
      num _ _ hH, num _ _ hN, num _ _ hS, hMr.1, hMr.2, hd.1, hd.2, hHr.1, hHr.2, hNr.1, hNr.2, by omega⟩
    · rcases hy with hy | hy
      · right
        rw [if_pos hy] at hY
        exact ⟨hy, (year_iff year hy).mp hY⟩
      · left
        rw [if_neg (by omega)] at hY
        exact ⟨_, (dateField_iff year 4 hy (by decide) _).mp (Prod.ext hY rfl)⟩
  · rintro ⟨year, M, D, H, N, S, mon, day, hour, min, sec, rfl, hy, hM, hD, hH, hN, hS, r1, r2, r3, r4, r5, r6,
      r7, r8, r9⟩
    have hyl : year.length = 2 ∨ year.length = 4 := by
      rcases hy with ⟨v, h⟩ | h
      · exact Or.inr h.1
      · exact Or.inl h.1
    obtain ⟨a, b, rfl⟩ := len2 _ hM.1
    obtain ⟨c, d, rfl⟩ := len2 _ hD.1
    obtain ⟨f, g, rfl⟩ := len2 _ hH.1
    obtain ⟨i, j, rfl⟩ := len2 _ hN.1
    obtain ⟨k, l, rfl⟩ := len2 _ hS.1
    have core := date_core year _ hyl a b c d '.' f g i j k l rfl
    have e : year ++ [a, b] ++ [c, d] ++ '.' :: ([f, g] ++ [i, j] ++ [k, l]) =
      year ++ [a, b, c, d, '.', f, g, i, j, k, l] := by simp
    have num : ∀ (x y : Char) v, Spec.Number 2 [x, y] v → dateField [x, y] 2 = (true, v) :=
      fun x y v hx => (dateField_iff [x, y] 2 rfl (by decide) _).mpr hx
    have hY : (dateField (if year.length = 2 then "19".toList ++ year else year) 4).1 = true := by
      rcases hy with ⟨v, h⟩ | h
      · rw [if_neg (by have := h.1; omega), (dateField_iff year 4 h.1 (by decide) v).mpr h]
      · rw [if_pos h.1]; exact (year_iff year h.1).mpr h.2
    rw [e, core, hY, num _ _ _ hM, num _ _ _ hD, num _ _ _ hH, num _ _ _ hN, num _ _ _ hS]
    simp only [dayInMonth]
    rw [if_neg (by omega), if_neg (by omega), mdays_eq mon r1 r2]
    simp only [Res.bind, Res.ok.injEq, Bool.and_eq_true, decide_eq_true_eq, and_true, true_and]
    omega

/-- C15 (part): every properly formed date is accepted.  The converse fails, see
`C15_second_unchecked` and `C15_blank_accepted`; what is accepted instead is `C15_accepted_iff`. -/
theorem C15_valid_accepted_partial (s : Str) (h : Spec.DateText s) : checkDate s = .ok true := by
  rw [C15_accepted_iff]
  obtain ⟨year, mon, day, hour, min, sec, rfl, hy, hd, r1, r2, r3, r4, r5, r6, r7⟩ := h
  have hday : Spec.daysIn mon ≤ 31 := by unfold Spec.daysIn; split <;> (try split) <;> omega
  refine ⟨year, _, _, _, _, _, mon, day, hour, min, sec, rfl, ?_, two_number mon (by omega),
    two_number day (by omega), two_number hour (by omega), two_number min (by omega), two_number sec (by omega),
    by omega, by omega, by omega, by simpa using r4, by omega, by omega, by omega, by omega, by omega⟩
  rcases hy with hy | hy
  · exact Or.inr ⟨hy, hd⟩
  · refine Or.inl ⟨_, hy, [], [], year, by simp, by simp, Or.inl rfl, ?_, hd, rfl⟩
    intro h0; simp [h0] at hy

/-- The range of the seconds is not checked: the minute is tested in its place. -/
theorem C15_second_unchecked : checkDate "20260115.101099".toList = .ok true ∧
    ¬ Spec.DateText "20260115.101099".toList := by
  refine ⟨by decide +kernel, ?_⟩
  rintro ⟨year, mon, day, hour, min, sec, e, hy, _, r1, r2, r3, r4, r5, r6, r7⟩
  have h9 : ("20260115.101099".toList).drop 13 = ['9', '9'] := by decide
  have hyl : year.length = 4 := by
    have := congrArg List.length e
    simp [Spec.two] at this
    omega
  rw [e] at h9
  have : (year ++ Spec.two mon ++ Spec.two day ++ '.' :: (Spec.two hour ++ Spec.two min ++ Spec.two sec)).drop 13
      = Spec.two sec := by
    match year, hyl with
    | [a, b, c, d], _ => simp [Spec.two]
  rw [this] at h9
  have hall : ∀ m : Fin 61, Spec.two m.val ≠ ['9', '9'] := by decide
  exact hall ⟨sec, by omega⟩ h9

/-- Blanks and signs are accepted where digits belong. -/
theorem C15_blank_accepted : checkDate "2026 1+5. 1 2 3".toList = .ok true := by decide +kernel

/-- A month outside 1..12 makes the library read outside its table of month lengths. -/
theorem C15_bad_month_undefined : checkDate "20261301.000000".toList = .ub := by decide +kernel

/-- A concrete date meets the specification. -/
example : Spec.DateText "20240229.235960".toList :=
  ⟨"2024".toList, 2, 29, 23, 59, 60, by decide, by decide, by decide, by decide, by decide, by decide, by decide,
    by decide, by decide, by decide⟩

end Iges.Props
