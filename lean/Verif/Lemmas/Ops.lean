import Verif.Lemmas.Emit
import Verif.Model.PdOps
namespace Iges

theorem pdFlush_ok {e : Emit} {de : Int} (hde : -9999999 ≤ de ∧ de ≤ 99999999)
    (hi : -9999999 ≤ e.index ∧ e.index ≤ 99999999) : ∃ e', pdFlush e de = (e', true) ∧ e'.index = e.index + 1 := by
  unfold pdFlush
  simp only [FormatDEInt_some de hde.1 hde.2, FormatDEInt_some e.index hi.1 hi.2]
  exact ⟨_, rfl, rfl⟩

theorem pdHFlush_ok {e : Emit} {de : Int} (hl : e.fStr.length ≤ 64) (hde : -9999999 ≤ de ∧ de ≤ 99999999)
    (hi : -9999999 ≤ e.index ∧ e.index ≤ 99999999) :
    ∃ e', pdHFlush e de = .ok (e', true) ∧ e'.index = e.index + 1 ∧ e'.fStr = [] := by
  unfold pdHFlush
  rw [if_neg (by omega)]
  simp only [FormatDEInt_some de hde.1 hde.2, FormatDEInt_some e.index hi.1 hi.2]
  exact ⟨_, rfl, rfl, rfl⟩

/-- `AddPDItem` with a non-empty item never has undefined behaviour; with usable numbers it either
succeeds, leaves everything as it was, or has run out of sequence numbers. -/
theorem AddPDItem_total {t : Str} {e : Emit} {de : Int} {rd : Char} (ht : t ≠ [])
    (hde : -9999999 ≤ de ∧ de ≤ 99999999) (hi : 1 ≤ e.index ∧ e.index ≤ 9999999) :
    ∃ e' b, AddPDItem t e de rd = .ok (e', b) ∧ e.index ≤ e'.index ∧ e'.index ≤ e.index + 2 ∧
      (b = false → e' = e ∨ e'.index > 9999999) := by
  unfold AddPDItem
  by_cases h1 : t.length > 64
  · exact ⟨e, false, by simp [h1], by omega, by omega, fun _ => Or.inl rfl⟩
  by_cases h2 : e.fStr.length > 64
  · exact ⟨e, false, by simp [h1, h2], by omega, by omega, fun _ => Or.inl rfl⟩
  rw [if_neg h1, if_neg h2]
  obtain ⟨e1, hf, he1⟩ := pdFlush_ok (e := e) hde ⟨by omega, by omega⟩
  have : ∃ e2, (if e.fStr.length + t.length > 64 then pdFlush e de else (e, true)) = (e2, true) ∧
      e.index ≤ e2.index ∧ e2.index ≤ e.index + 1 := by
    split
    · exact ⟨e1, hf, by omega, by omega⟩
    · exact ⟨e, rfl, by omega, by omega⟩
  obtain ⟨e2, h3, h4, h5⟩ := this
  rw [h3]
  simp only [not_true_eq_false, if_false]
  by_cases hx : e2.index > 9999999
  · exact ⟨e2, false, by simp [hx], h4, by omega, fun _ => Or.inr hx⟩
  rw [if_neg hx]
  cases hlast : t.getLast? with
  | none => simp at hlast; exact absurd hlast ht
  | some c =>
    simp only []
    by_cases hc : c = rd
    · rw [if_pos hc]
      obtain ⟨e3, h6, h7⟩ := pdFlush_ok (e := { e2 with fStr := e2.fStr ++ t }) hde
        ⟨by simp only; omega, by simp only; omega⟩
      exact ⟨e3, true, by rw [h6], by simp only at h7; omega, by simp only at h7; omega, by simp⟩
    · rw [if_neg hc]
      exact ⟨_, true, rfl, h4, by simp only; omega, by simp⟩

theorem AddPDItem_succeeds {t : Str} {e : Emit} {de : Int} {rd : Char} (ht : t ≠ [])
    (hl : t.length ≤ 64) (hf : e.fStr.length ≤ 64)
    (hde : -9999999 ≤ de ∧ de ≤ 99999999) (hi : 1 ≤ e.index ∧ e.index ≤ 9999998) :
    ∃ e', AddPDItem t e de rd = .ok (e', true) := by
  unfold AddPDItem
  rw [if_neg (by omega), if_neg (by omega)]
  obtain ⟨e1, hfl, he1⟩ := pdFlush_ok (e := e) hde ⟨by omega, by omega⟩
  have : ∃ e2, (if e.fStr.length + t.length > 64 then pdFlush e de else (e, true)) = (e2, true) ∧
      e.index ≤ e2.index ∧ e2.index ≤ e.index + 1 := by
    split
    · exact ⟨e1, hfl, by omega, by omega⟩
    · exact ⟨e, rfl, by omega, by omega⟩
  obtain ⟨e2, h3, h4, h5⟩ := this
  rw [h3]
  simp only [not_true_eq_false, if_false]
  rw [if_neg (by omega)]
  cases hlast : t.getLast? with
  | none => simp at hlast; exact absurd hlast ht
  | some c =>
    simp only []
    by_cases hc : c = rd
    · rw [if_pos hc]
      obtain ⟨e3, h6, h7⟩ := pdFlush_ok (e := { e2 with fStr := e2.fStr ++ t }) hde
        ⟨by simp only; omega, by simp only; omega⟩
      exact ⟨e3, by rw [h6]⟩
    · rw [if_neg hc]
      exact ⟨_, rfl⟩

theorem pdHLoop_total {fuel : Nat} {rest : Str} {e : Emit} {de : Int} (hfuel : rest.length ≤ fuel)
    (hl : e.fStr.length < 64) (hde : -9999999 ≤ de ∧ de ≤ 99999999)
    (hi : 1 ≤ e.index ∧ e.index + rest.length ≤ 99999999) :
    ∃ e', pdHLoop fuel rest e de = .ok (e', true) ∧ e.index ≤ e'.index ∧
      e'.index ≤ e.index + rest.length ∧ e'.fStr.length < 64 := by
  induction fuel generalizing rest e with
  | zero =>
    have : rest = [] := by simpa using hfuel
    subst this
    exact ⟨e, by simp [pdHLoop], by omega, by omega, hl⟩
  | succ fuel ih =>
    cases rest with
    | nil => exact ⟨e, by simp [pdHLoop], by omega, by omega, hl⟩
    | cons x r =>
      simp only [pdHLoop]
      have hdl : ((x :: r).drop (64 - e.fStr.length)).length + 1 ≤ (x :: r).length := by
        simp; omega
      split
      · rename_i hfull
        obtain ⟨e2, h1, h2, h3⟩ := pdHFlush_ok (e := { e with fStr := e.fStr ++ (x :: r).take (64 - e.fStr.length) })
          (de := de) (by rw [hfull]; exact Nat.le_refl _) hde ⟨by simp only; omega, by
            have : 1 ≤ (x :: r).length := by simp
            simp only; omega⟩
        rw [h1]
        simp only [Res.bind, if_true]
        simp only at h2
        obtain ⟨e3, a, b, c, d⟩ := ih (rest := (x :: r).drop (64 - e.fStr.length)) (e := e2) (by omega) (by rw [h3]; simp)
          ⟨by omega, by omega⟩
        exact ⟨e3, a, by omega, by omega, d⟩
      · rename_i hnf
        obtain ⟨e3, a, b, c, d⟩ := ih (rest := (x :: r).drop (64 - e.fStr.length))
          (e := { e with fStr := e.fStr ++ (x :: r).take (64 - e.fStr.length) }) (by omega)
          (by simp only [List.length_append, List.length_take] at hnf ⊢; omega)
          ⟨by simp only; omega, by simp only; omega⟩
        simp only at b c
        exact ⟨e3, a, by omega, by omega, d⟩

/-- How many sequence numbers a Hollerith parameter can use up at most (a coarse bound). -/
def hCost (s : Str) : Nat := (natStr s.length).length + s.length + 4

theorem AddPDHStr_total {s : Str} {e : Emit} {de : Int} {pd rd delim : Char}
    (hl : e.fStr.length ≤ 64) (hde : -9999999 ≤ de ∧ de ≤ 99999999)
    (hi : 1 ≤ e.index ∧ e.index + hCost s ≤ 9999999) (hd : delim = pd ∨ delim = rd) :
    ∃ e', AddPDHStr s e de pd rd delim = .ok (e', true) ∧ e.index ≤ e'.index ∧
      e'.index ≤ e.index + hCost s := by
  unfold AddPDHStr
  unfold hCost at hi ⊢
  cases hhc : GetHConst s with
  | none =>
    obtain ⟨e', h⟩ := AddPDItem_succeeds (t := [delim]) (e := e) (de := de) (rd := rd) (by simp)
      (by simp) hl hde ⟨hi.1, by omega⟩
    obtain ⟨e'', b, h', h1, h2, _⟩ := AddPDItem_total (t := [delim]) (e := e) (de := de) (rd := rd)
      (by simp) hde ⟨hi.1, by omega⟩
    rw [h] at h'
    simp only [Res.ok.injEq, Prod.mk.injEq] at h'
    obtain ⟨rfl, _⟩ := h'
    exact ⟨e', by simp only [h], h1, by omega⟩
  | some hc =>
    obtain ⟨hne, rfl⟩ := GetHConst_some hhc
    simp only []
    have hnd : ¬ (delim ≠ pd ∧ delim ≠ rd) := by
      rintro ⟨a, b⟩; rcases hd with hd | hd
      · exact a hd
      · exact b hd
    rw [if_neg hnd]
    obtain ⟨e1, h1, h2, h3⟩ := pdHFlush_ok (e := e) hl hde ⟨by omega, by omega⟩
    have : ∃ e2, (if e.fStr.length + (natStr s.length ++ ['H']).length > 64 then pdHFlush e de
        else Res.ok (e, true)) = .ok (e2, true) ∧ e.index ≤ e2.index ∧ e2.index ≤ e.index + 1 ∧
        e2.fStr.length < 64 := by
      split
      · exact ⟨e1, h1, by omega, by omega, by rw [h3]; simp⟩
      · rename_i hx
        have := natStr_length_pos s.length
        simp at hx
        exact ⟨e, rfl, by omega, by omega, by omega⟩
    obtain ⟨e2, h4, h5, h6, h7⟩ := this
    rw [h4]
    simp only [Res.bind, not_true_eq_false, if_false]
    have hlen : (natStr s.length ++ ['H'] ++ s ++ [delim]).length = (natStr s.length).length + s.length + 2 := by
      simp; omega
    obtain ⟨e3, g1, g2, g3, g4⟩ := pdHLoop_total
      (fuel := (natStr s.length ++ ['H'] ++ s ++ [delim]).length)
      (rest := natStr s.length ++ ['H'] ++ s ++ [delim]) (e := e2) (de := de) (Nat.le_refl _) h7 hde
      ⟨by omega, by rw [hlen]; omega⟩
    rw [hlen] at g3
    rw [g1]
    simp only [not_true_eq_false, if_false]
    split
    · obtain ⟨e4, k1, k2, k3⟩ := pdHFlush_ok (e := e3) (Nat.le_of_lt g4) hde ⟨by omega, by omega⟩
      exact ⟨e4, by rw [k1], by omega, by omega⟩
    · exact ⟨e3, rfl, by omega, by omega⟩

theorem pdTail_length (de i : Int) (h : -9999999 ≤ de ∧ de ≤ 99999999) (hi : 0 ≤ i ∧ i ≤ 9999999) :
    (Spec.pdTail de i).length = 16 := by
  unfold Spec.pdTail
  have h1 := intStr_length_le de h.1 h.2
  have h2 := intStr_length_le7 i hi.1 hi.2
  simp [rjust_length 8 de h1, rjust_length 7 i h2]

theorem rjust_intColumn (w : Nat) (n : Int) : Spec.IntColumn (Spec.rjust w n) n := by
  rw [Spec.rjust, decimal_eq]; exact intColumn_pad _ n

theorem intStr_getLast_digit (n : Int) : ∀ c, (intStr n).getLast? = some c → isDigitC c = true := by
  intro c hc
  cases n with
  | ofNat m => exact natStr_digit (List.mem_of_getLast? hc)
  | negSucc m =>
    obtain ⟨x, t, h⟩ := List.exists_cons_of_ne_nil (natStr_ne_nil (m + 1))
    have : intStr (Int.negSucc m) = '-' :: natStr (m + 1) := rfl
    rw [this, h, List.getLast?_cons_cons, ← h] at hc
    exact natStr_digit (List.mem_of_getLast? hc)

theorem getLast?_append_ne {α} (a b : List α) (h : b ≠ []) : (a ++ b).getLast? = b.getLast? := by
  rw [List.getLast?_append]
  cases hb : b.getLast? with
  | none => simp at hb; exact absurd hb h
  | some x => rfl

theorem rjust_getLast (w : Nat) (n : Int) :
    ∀ c, (Spec.rjust w n).getLast? = some c → ¬ Spec.Eol c := by
  intro c hc
  rw [Spec.rjust, decimal_eq, getLast?_append_ne _ _ (intStr_ne_nil n)] at hc
  have := intStr_getLast_digit n c hc
  rintro (rfl | rfl | rfl) <;> revert this <;> decide

end Iges
