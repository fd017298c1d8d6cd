import Verif.Lemmas.Record
import Verif.Spec.Lines
namespace Iges
open Spec

theorem decimal_eq (n : Int) : Spec.decimal n = intStr n := by
  cases n with
  | ofNat m =>
    have : ¬ (Int.ofNat m < 0) := by have : (0:Int) ≤ Int.ofNat m := Int.natCast_nonneg m; omega
    simp [Spec.decimal, intStr, natStr]
  | negSucc m =>
    have : Int.negSucc m < 0 := by omega
    simp only [Spec.decimal, this, if_true, intStr, natStr, Int.natAbs_negSucc]

theorem FormatDEInt_rjust {n : Int} {s : Str} (h : FormatDEInt n = some s) : s = Spec.rjust 8 n := by
  have := FormatDEInt_range h
  rw [FormatDEInt_some n this.1 this.2] at h
  simp only [Option.some.injEq] at h
  rw [← h, Spec.rjust, decimal_eq]

theorem intStr_length_le7 (n : Int) (h1 : 0 ≤ n) (h2 : n ≤ 9999999) : (intStr n).length ≤ 7 := by
  cases n with
  | ofNat m =>
    have : m < 10 ^ 7 := by
      have : (Int.ofNat m) = (m : Int) := rfl
      omega
    exact natStr_length_le (by decide) this
  | negSucc m => omega

theorem FormatDEInt_set {n : Int} {s : Str} (c : Char) (h : FormatDEInt n = some s)
    (h0 : 0 ≤ n) (h1 : n ≤ 9999999) : s.set 0 c = c :: Spec.rjust 7 n := by
  rw [FormatDEInt_rjust h, Spec.rjust, Spec.rjust, decimal_eq]
  have := intStr_length_le7 n h0 h1
  have e : 8 - (intStr n).length = (7 - (intStr n).length) + 1 := by omega
  rw [e, List.replicate_succ]
  rfl

theorem rjust_length (w : Nat) (n : Int) (h : (intStr n).length ≤ w) : (Spec.rjust w n).length = w := by
  simp [Spec.rjust, decimal_eq]; omega

theorem lines_append (tail : Int → Str) (i : Int) (a b : List Str) :
    Spec.lines tail i (a ++ b) = Spec.lines tail i a ++ Spec.lines tail (i + a.length) b := by
  induction a generalizing i with
  | nil => simp [Spec.lines]
  | cons d a ih =>
    simp only [List.cons_append, Spec.lines, ih, List.append_assoc, List.length_cons]
    have : i + 1 + (a.length : Int) = i + ((a.length + 1 : Nat) : Int) := by omega
    rw [this]

/-- The emitter went from `e` to `e'`, having appended the characters `S` to the data columns. -/
structure Adv (cap : Nat) (tail : Int → Str) (e e' : Emit) (S : Str) : Prop where
  ex : ∃ datas : List Str, e'.fOut = e.fOut ++ Spec.lines tail e.index datas ∧
    e'.index = e.index + datas.length ∧ (∀ d ∈ datas, d.length = cap) ∧
    datas.flatten ++ e'.fStr = e.fStr ++ S
  le : e'.fStr.length ≤ cap

theorem Adv.mono {cap tail e e' S} (h : Adv cap tail e e' S) : e.index ≤ e'.index := by
  obtain ⟨datas, _, h2, _⟩ := h.ex
  omega

theorem Adv.trans {cap tail e e' e'' S S'} (h : Adv cap tail e e' S) (h' : Adv cap tail e' e'' S') :
    Adv cap tail e e'' (S ++ S') := by
  obtain ⟨d, h1, h2, h3, h4⟩ := h.ex
  obtain ⟨d', h1', h2', h3', h4'⟩ := h'.ex
  refine ⟨⟨d ++ d', ?_, ?_, ?_, ?_⟩, h'.le⟩
  · rw [h1', h1, lines_append, h2, List.append_assoc]
  · rw [h2', h2]; simp; omega
  · intro x hx
    rcases List.mem_append.mp hx with hx | hx
    · exact h3 x hx
    · exact h3' x hx
  · rw [List.flatten_append, List.append_assoc, h4', ← List.append_assoc, h4, List.append_assoc]

theorem Adv.append {cap tail e} (t : Str) (h : e.fStr.length + t.length ≤ cap) :
    Adv cap tail e { e with fStr := e.fStr ++ t } t := by
  refine ⟨⟨[], ?_, ?_, ?_, ?_⟩, ?_⟩ <;> simp [Spec.lines]
  omega

theorem Adv.refl {cap tail e} (h : e.fStr.length ≤ cap) : Adv cap tail e e [] := by
  refine ⟨⟨[], ?_, ?_, ?_, ?_⟩, h⟩ <;> simp [Spec.lines]

/-- Ending a line appends blanks up to the line capacity. -/
theorem Adv.flush {cap tail e e'} (h : e.fStr.length ≤ cap) (hs : e'.fStr = [])
    (ho : e'.fOut = e.fOut ++ (e.fStr ++ List.replicate (cap - e.fStr.length) ' ' ++ tail e.index ++ ['\n']))
    (hi : e'.index = e.index + 1) :
    Adv cap tail e e' (List.replicate (cap - e.fStr.length) ' ') := by
  refine ⟨⟨[e.fStr ++ List.replicate (cap - e.fStr.length) ' '], ?_, ?_, ?_, ?_⟩, ?_⟩
  · rw [ho]; simp [Spec.lines]
  · rw [hi]; simp
  · simp; omega
  · simp [hs]
  · simp [hs]

theorem pdFlush_adv {e e' : Emit} {de : Int} (h : pdFlush e de = (e', true))
    (hl : e.fStr.length ≤ 64) (h1 : 1 ≤ e.index) (h2 : e.index ≤ 9999999) :
    Adv 64 (Spec.pdTail de) e e' (List.replicate (64 - e.fStr.length) ' ') ∧ e'.fStr = [] ∧
      e'.index = e.index + 1 := by
  unfold pdFlush at h
  simp only [] at h
  split at h
  · simp at h
  · rename_i s1 hs1
    split at h
    · simp at h
    · rename_i s2 hs2
      simp only [Prod.mk.injEq, and_true] at h
      subst h
      refine ⟨Adv.flush hl rfl ?_ rfl, rfl, rfl⟩
      simp only [Spec.pdTail]
      rw [FormatDEInt_rjust hs1, FormatDEInt_set 'P' hs2 (by omega) h2]
      simp

theorem pdHFlush_adv {e e' : Emit} {de : Int} (h : pdHFlush e de = .ok (e', true))
    (hl : e.fStr.length ≤ 64) (h1 : 1 ≤ e.index) (h2 : e.index ≤ 9999999) :
    Adv 64 (Spec.pdTail de) e e' (List.replicate (64 - e.fStr.length) ' ') ∧ e'.fStr = [] ∧
      e'.index = e.index + 1 := by
  unfold pdHFlush at h
  rw [if_neg (by omega)] at h
  simp only [] at h
  split at h
  · simp at h
  · rename_i s1 hs1
    split at h
    · simp at h
    · rename_i s2 hs2
      simp only [Res.ok.injEq, Prod.mk.injEq, and_true] at h
      subst h
      refine ⟨Adv.flush hl rfl ?_ rfl, rfl, rfl⟩
      simp only [Spec.pdTail]
      rw [FormatDEInt_rjust hs1, FormatDEInt_set 'P' hs2 (by omega) h2]
      simp

theorem pdHFlush_index {e e' : Emit} {de : Int} (h : pdHFlush e de = .ok (e', true)) :
    e'.index = e.index + 1 := by
  unfold pdHFlush at h
  split at h
  · simp at h
  · simp only [] at h
    split at h
    · simp at h
    · split at h
      · simp at h
      · simp only [Res.ok.injEq, Prod.mk.injEq, and_true] at h
        subst h; rfl

/-- What `AddPDItem` does to the stream of data columns. -/
theorem AddPDItem_adv {t : Str} {e e' : Emit} {de : Int} {rd : Char}
    (h : AddPDItem t e de rd = .ok (e', true)) (hl : e.fStr.length ≤ 64)
    (h1 : 1 ≤ e.index) (h2 : e'.index ≤ 10000000) :
    ∃ k j, Adv 64 (Spec.pdTail de) e e' (List.replicate k ' ' ++ t ++ List.replicate j ' ') ∧
      (t.length = 1 → k = 0) ∧ (t.getLast? = some rd → e'.fStr = []) ∧
      (t.getLast? ≠ some rd → j = 0) ∧ t ≠ [] ∧ j < 64 := by
  unfold AddPDItem at h
  by_cases ht : t.length > 64
  · simp [ht] at h
  · rw [if_neg ht, if_neg (by omega)] at h
    -- first part
    have first : ∀ e1 ok, (if e.fStr.length + t.length > 64 then pdFlush e de else (e, true)) = (e1, ok) →
        ok = true → e1.index ≤ 9999999 → ∃ k, Adv 64 (Spec.pdTail de) e e1 (List.replicate k ' ') ∧
        (t.length = 1 → k = 0) ∧ e1.fStr.length + t.length ≤ 64 := by
      intro e1 ok hif hok hidx
      subst hok
      split at hif
      · have hi : e.index ≤ 9999999 := by
          unfold pdFlush at hif
          simp only [] at hif
          split at hif
          · simp at hif
          · split at hif
            · simp at hif
            · simp only [Prod.mk.injEq, and_true] at hif
              subst hif; simp only at hidx; omega
        obtain ⟨a, b, c⟩ := pdFlush_adv hif hl h1 hi
        refine ⟨_, a, ?_, ?_⟩
        · intro; omega
        · rw [b]; simp; omega
      · simp only [Prod.mk.injEq, and_true] at hif
        subst hif
        exact ⟨0, by simpa using Adv.refl hl, fun _ => rfl, by omega⟩
    generalize hif : (if e.fStr.length + t.length > 64 then pdFlush e de else (e, true)) = p at h
    obtain ⟨e1, ok⟩ := p
    simp only [] at h
    by_cases hok : ok = true
    · simp only [hok, not_true_eq_false, if_false] at h
      by_cases hx : e1.index > 9999999
      · simp [hx] at h
      · rw [if_neg hx] at h
        obtain ⟨k, ha, hk, hlen⟩ := first e1 ok hif hok (by omega)
        have hb := Adv.append (tail := Spec.pdTail de) t hlen
        have hab := ha.trans hb
        cases hlast : t.getLast? with
        | none => simp [hlast] at h
        | some c =>
          have htne : t ≠ [] := by rintro rfl; simp at hlast
          simp only [hlast] at h
          by_cases hc : c = rd
          · rw [if_pos hc] at h
            simp only [Res.ok.injEq] at h
            have hm := ha.mono
            obtain ⟨f, g, i⟩ := pdFlush_adv h (by simp; omega) (by simp only; omega) (by simp only; omega)
            refine ⟨k, _, hab.trans f, hk, fun _ => g, ?_, htne, ?_⟩
            · subst hc; simp
            · have := List.length_pos_iff.mpr htne
              simp only [List.length_append]; omega
          · rw [if_neg hc] at h
            simp only [Res.ok.injEq, Prod.mk.injEq, and_true] at h
            subst h
            refine ⟨k, 0, by simpa using hab, hk, ?_, fun _ => rfl, htne, by omega⟩
            intro hh; simp only [Option.some.injEq] at hh; exact absurd hh hc
    · simp [hok] at h

theorem pdHLoop_index {fuel : Nat} {rest : Str} {e e' : Emit} {de : Int}
    (h : pdHLoop fuel rest e de = .ok (e', true)) : e.index ≤ e'.index := by
  induction fuel generalizing rest e with
  | zero =>
    cases rest with
    | nil => simp [pdHLoop] at h; subst h; omega
    | cons => simp [pdHLoop] at h
  | succ fuel ih =>
    cases rest with
    | nil => simp [pdHLoop] at h; subst h; omega
    | cons x r =>
      simp only [pdHLoop] at h
      split at h
      · generalize hf : pdHFlush _ de = p at h
        cases p with
        | ub => simp [Res.bind] at h
        | exn => simp [Res.bind] at h
        | ok p =>
          obtain ⟨e2, ok⟩ := p
          simp only [Res.bind] at h
          cases ok with
          | false => simp at h
          | true =>
            simp only [if_true] at h
            have := pdHFlush_index hf
            have := ih h
            simp only at *; omega
      · have := ih h; simpa using this

theorem pdHLoop_adv {fuel : Nat} {rest : Str} {e e' : Emit} {de : Int}
    (h : pdHLoop fuel rest e de = .ok (e', true)) (hl : e.fStr.length < 64)
    (h1 : 1 ≤ e.index) (h2 : e'.index ≤ 10000000) :
    Adv 64 (Spec.pdTail de) e e' rest ∧ e'.fStr.length < 64 := by
  induction fuel generalizing rest e with
  | zero =>
    cases rest with
    | nil => simp [pdHLoop] at h; subst h; exact ⟨Adv.refl (by omega), hl⟩
    | cons => simp [pdHLoop] at h
  | succ fuel ih =>
    cases rest with
    | nil => simp [pdHLoop] at h; subst h; exact ⟨Adv.refl (by omega), hl⟩
    | cons x r =>
      simp only [pdHLoop] at h
      have hap := Adv.append (cap := 64) (tail := Spec.pdTail de) (e := e)
        ((x :: r).take (64 - e.fStr.length)) (by rw [List.length_take]; omega)
      have hsplit : (x :: r) = (x :: r).take (64 - e.fStr.length) ++ (x :: r).drop (64 - e.fStr.length) := by
        simp
      split at h
      · rename_i hfull
        generalize hf : pdHFlush _ de = p at h
        cases p with
        | ub => simp [Res.bind] at h
        | exn => simp [Res.bind] at h
        | ok p =>
          obtain ⟨e2, ok⟩ := p
          simp only [Res.bind] at h
          cases ok with
          | false => simp at h
          | true =>
            simp only [if_true] at h
            have hi := pdHLoop_index h
            have hj := pdHFlush_index hf
            obtain ⟨f, g, i⟩ := pdHFlush_adv hf (by rw [hfull]; exact Nat.le_refl _)
              (by simp only; omega) (by simp only at *; omega)
            obtain ⟨a, b⟩ := ih h (by rw [g]; simp) (by simp only at *; omega)
            refine ⟨?_, b⟩
            have := (hap.trans f).trans a
            rw [hfull] at this
            rw [hsplit]
            simpa using this
      · rename_i hnf
        obtain ⟨a, b⟩ := ih h (by simp only [List.length_append, List.length_take] at hnf ⊢; omega) h1
        refine ⟨?_, b⟩
        rw [hsplit]
        exact hap.trans a

theorem GetHConst_some {s hc : Str} (h : GetHConst s = some hc) :
    s ≠ [] ∧ hc = natStr s.length ++ ['H'] := by
  unfold GetHConst at h
  split at h
  · simp at h
  · rename_i hne
    simp at h hne
    exact ⟨hne, h.symm⟩

/-- What `AddPDHStr` does to the stream of data columns. -/
theorem AddPDHStr_adv {s : Str} {e e' : Emit} {de : Int} {pd rd delim : Char}
    (h : AddPDHStr s e de pd rd delim = .ok (e', true)) (hl : e.fStr.length ≤ 64)
    (h1 : 1 ≤ e.index) (h2 : e'.index ≤ 10000000) :
    ∃ k j, Adv 64 (Spec.pdTail de) e e'
        (List.replicate k ' ' ++ ((if s = [] then [] else natStr s.length ++ 'H' :: s) ++ [delim])
          ++ List.replicate j ' ') ∧
      (s = [] → k = 0) ∧ (delim = rd → e'.fStr = []) ∧ (delim ≠ rd → j = 0) ∧ j < 64 := by
  unfold AddPDHStr at h
  cases hhc : GetHConst s with
  | none =>
    have hs : s = [] := by
      unfold GetHConst at hhc
      split at hhc
      · rename_i h; simpa using h
      · simp at hhc
    simp only [hhc] at h
    obtain ⟨k, j, a, b, c, d, _, hj⟩ := AddPDItem_adv h hl h1 h2
    refine ⟨k, j, by simpa [hs] using a, fun _ => b (by simp), ?_, ?_, hj⟩
    · intro hd; exact c (by simp [hd])
    · intro hd; exact d (by simp [hd])
  | some hc =>
    obtain ⟨hne, rfl⟩ := GetHConst_some hhc
    simp only [hhc] at h
    split at h
    · simp at h
    · rename_i hdel
      generalize hif : (if e.fStr.length + (natStr s.length ++ ['H']).length > 64 then pdHFlush e de
        else Res.ok (e, true)) = p at h
      cases p with
      | ub => simp [Res.bind] at h
      | exn => simp [Res.bind] at h
      | ok p =>
        obtain ⟨e1, ok⟩ := p
        simp only [Res.bind] at h
        cases ok with
        | false => simp at h
        | true =>
          simp only [not_true_eq_false, if_false] at h
          generalize hlp : pdHLoop _ _ e1 de = q at h
          cases q with
          | ub => simp at h
          | exn => simp at h
          | ok q =>
            obtain ⟨e2, ok⟩ := q
            cases ok with
            | false => simp at h
            | true =>
              simp only [not_true_eq_false, if_false] at h
              have hm2 := pdHLoop_index hlp
              have hm3 : e2.index ≤ e'.index := by
                split at h
                · have := pdHFlush_index h; omega
                · simp only [Res.ok.injEq, Prod.mk.injEq, and_true] at h; subst h; omega
              have first : ∃ k, Adv 64 (Spec.pdTail de) e e1 (List.replicate k ' ') ∧
                  e1.fStr.length < 64 := by
                split at hif
                · have hj := pdHFlush_index hif
                  obtain ⟨a, b, c⟩ := pdHFlush_adv hif hl h1 (by omega)
                  exact ⟨_, a, by rw [b]; simp⟩
                · simp only [Res.ok.injEq, Prod.mk.injEq, and_true] at hif
                  subst hif
                  have := natStr_length_pos s.length
                  refine ⟨0, by simpa using Adv.refl hl, ?_⟩
                  rename_i hx
                  simp at hx; omega
              obtain ⟨k, ha, hlt⟩ := first
              have := ha.mono
              obtain ⟨hb, hlt2⟩ := pdHLoop_adv hlp hlt (by omega) (by omega)
              have hab := ha.trans hb
              simp only [List.append_assoc, List.cons_append, List.nil_append] at hab
              split at h
              · rename_i hfin
                have hj := pdHFlush_index h
                obtain ⟨f, g, i⟩ := pdHFlush_adv h (by omega) (by omega) (by omega)
                refine ⟨k, 64 - e2.fStr.length, ?_, ?_, fun _ => g, ?_, by have := hfin.1; omega⟩
                · have := hab.trans f
                  simpa [hne] using this
                · intro h; exact absurd h hne
                · intro h; exact absurd hfin.2 h
              · rename_i hfin
                simp only [Res.ok.injEq, Prod.mk.injEq, and_true] at h
                subst h
                refine ⟨k, 0, ?_, ?_, ?_, fun _ => rfl, by omega⟩
                · simpa [hne] using hab
                · intro h; exact absurd h hne
                · intro hd
                  have : e2.fStr.length = 0 := by
                    apply Classical.byContradiction
                    intro hh; exact hfin ⟨hh, hd⟩
                  simpa using this

end Iges
