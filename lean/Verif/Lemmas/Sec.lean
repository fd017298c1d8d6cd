import Verif.Lemmas.Params
import Verif.Model.SecOps
namespace Iges

theorem secFlush_run {e : Emit} (hl : e.fStr.length ≤ 72) (hi : 1 ≤ e.index ∧ e.index ≤ 9999999) :
    ∃ e', secFlush e = (e', true) ∧
      Adv 72 Spec.globalTail e e' (List.replicate (72 - e.fStr.length) ' ') ∧ e'.fStr = [] ∧
      e'.index = e.index + 1 := by
  unfold secFlush
  simp only [FormatDEInt_some e.index (by omega) (by omega)]
  refine ⟨_, rfl, Adv.flush hl rfl ?_ rfl, rfl, rfl⟩
  have hs := FormatDEInt_some e.index (by omega) (by omega)
  simp only [Spec.globalTail]
  rw [FormatDEInt_set 'G' hs (by omega) hi.2]

theorem secHFlush_run {e : Emit} (hl : e.fStr.length ≤ 72) (hi : 1 ≤ e.index ∧ e.index ≤ 9999999) :
    ∃ e', secHFlush e = .ok (e', true) ∧
      Adv 72 Spec.globalTail e e' (List.replicate (72 - e.fStr.length) ' ') ∧ e'.fStr = [] ∧
      e'.index = e.index + 1 := by
  unfold secHFlush
  rw [if_neg (by omega)]
  simp only [FormatDEInt_some e.index (by omega) (by omega)]
  refine ⟨_, rfl, Adv.flush hl rfl ?_ rfl, rfl, rfl⟩
  have hs := FormatDEInt_some e.index (by omega) (by omega)
  simp only [Spec.globalTail]
  rw [FormatDEInt_set 'G' hs (by omega) hi.2]

theorem AddSecItem_run {t : Str} {c : Char} {e : Emit} {pd rd : Char} (ht : t.getLast? = some c)
    (hc : c = pd ∨ c = rd) (hlen : t.length ≤ 72) (hl : e.fStr.length ≤ 72)
    (hi : 1 ≤ e.index ∧ e.index + 2 ≤ 9999999) :
    ∃ e' k j, AddSecItem t e pd rd = (e', true) ∧
      Adv 72 Spec.globalTail e e' (List.replicate k ' ' ++ t ++ List.replicate j ' ') ∧
      (t.length = 1 → k = 0) ∧ (c = rd → e'.fStr = []) ∧ (c ≠ rd → j = 0) ∧
      e.index ≤ e'.index ∧ e'.index ≤ e.index + 2 := by
  unfold AddSecItem
  rw [ht]
  simp only []
  have hnd : ¬ (c ≠ pd ∧ c ≠ rd) := by
    rintro ⟨a, b⟩
    rcases hc with h | h
    · exact a h
    · exact b h
  rw [if_neg hnd, if_neg (by omega), if_neg (by omega)]
  have first : ∃ e1 k, (if e.fStr.length + t.length > 72 then secFlush e else (e, true)) = (e1, true) ∧
      Adv 72 Spec.globalTail e e1 (List.replicate k ' ') ∧ (t.length = 1 → k = 0) ∧
      e1.fStr.length + t.length ≤ 72 ∧ e.index ≤ e1.index ∧ e1.index ≤ e.index + 1 := by
    split
    · obtain ⟨e1, a, b, c, d⟩ := secFlush_run hl ⟨hi.1, by omega⟩
      exact ⟨e1, _, a, b, by intro; omega, by rw [c]; simpa using hlen, by omega, by omega⟩
    · exact ⟨e, 0, rfl, by simpa using Adv.refl hl, fun _ => rfl, by omega, by omega, by omega⟩
  obtain ⟨e1, k, h1, h2, h3, h4, h5, h6⟩ := first
  rw [h1]
  simp only [not_true_eq_false, if_false]
  have hap := Adv.append (tail := Spec.globalTail) t h4
  by_cases hcr : c = rd
  · rw [if_pos hcr]
    obtain ⟨e2, a, b, f, g⟩ := secFlush_run (e := { e1 with fStr := e1.fStr ++ t })
      (by simp; omega) ⟨by simp only; omega, by simp only; omega⟩
    refine ⟨e2, k, _, a, (h2.trans hap).trans b, h3, fun _ => f, fun h => absurd hcr h, ?_, ?_⟩
    · simp only at g; omega
    · simp only at g; omega
  · rw [if_neg hcr]
    exact ⟨_, k, 0, rfl, by simpa using h2.trans hap, h3, fun h => absurd h hcr, fun _ => rfl, h5,
      by simp only; omega⟩

theorem secHLoop_run {fuel : Nat} {rest : Str} {e : Emit} (hfuel : rest.length ≤ fuel)
    (hl : e.fStr.length < 72) (hi : 1 ≤ e.index ∧ e.index + rest.length ≤ 9999999) :
    ∃ e', secHLoop fuel rest e = .ok (e', true) ∧ Adv 72 Spec.globalTail e e' rest ∧
      e'.fStr.length < 72 ∧ e'.index ≤ e.index + rest.length := by
  induction fuel generalizing rest e with
  | zero =>
    have : rest = [] := by simpa using hfuel
    subst this
    exact ⟨e, by simp [secHLoop], Adv.refl (by omega), hl, by omega⟩
  | succ fuel ih =>
    cases rest with
    | nil => exact ⟨e, by simp [secHLoop], Adv.refl (by omega), hl, by omega⟩
    | cons x r =>
      simp only [secHLoop]
      have hdl : ((x :: r).drop (72 - e.fStr.length)).length + 1 ≤ (x :: r).length := by
        simp; omega
      have hap := Adv.append (cap := 72) (tail := Spec.globalTail) (e := e)
        ((x :: r).take (72 - e.fStr.length)) (by rw [List.length_take]; omega)
      have hsplit : (x :: r) = (x :: r).take (72 - e.fStr.length) ++ (x :: r).drop (72 - e.fStr.length) := by
        simp
      have hpos : 1 ≤ (x :: r).length := by simp
      split
      · rename_i hfull
        obtain ⟨e2, a, b, c, d⟩ := secHFlush_run
          (e := { e with fStr := e.fStr ++ (x :: r).take (72 - e.fStr.length) })
          (by rw [hfull]; exact Nat.le_refl _) ⟨by simp only; omega, by simp only; omega⟩
        rw [a]
        simp only [Res.bind, if_true]
        simp only at d
        obtain ⟨e3, f, g, h, i⟩ := ih (rest := (x :: r).drop (72 - e.fStr.length)) (e := e2) (by omega)
          (by rw [c]; simp) ⟨by omega, by omega⟩
        refine ⟨e3, f, ?_, h, by omega⟩
        have := (hap.trans b).trans g
        rw [hfull] at this
        rw [hsplit]
        simpa using this
      · rename_i hnf
        obtain ⟨e3, f, g, h, i⟩ := ih (rest := (x :: r).drop (72 - e.fStr.length))
          (e := { e with fStr := e.fStr ++ (x :: r).take (72 - e.fStr.length) }) (by omega)
          (by simp only [List.length_append, List.length_take] at hnf ⊢; omega)
          ⟨by simp only; omega, by simp only; omega⟩
        simp only at i
        refine ⟨e3, f, ?_, h, by omega⟩
        rw [hsplit]
        exact hap.trans g

theorem AddSecHStr_run {s : Str} {e : Emit} {pd rd delim : Char} (hl : e.fStr.length ≤ 72)
    (hi : 1 ≤ e.index ∧ e.index + hCost s ≤ 9999999) (hd : delim = pd ∨ delim = rd) :
    ∃ e' k j, AddSecHStr s e pd rd delim = .ok (e', true) ∧
      Adv 72 Spec.globalTail e e'
        (List.replicate k ' ' ++ ((if s = [] then [] else natStr s.length ++ 'H' :: s) ++ [delim])
          ++ List.replicate j ' ') ∧
      (s = [] → k = 0) ∧ (delim = rd → e'.fStr = []) ∧ (delim ≠ rd → j = 0) ∧
      e.index ≤ e'.index ∧ e'.index ≤ e.index + hCost s := by
  unfold AddSecHStr
  unfold hCost at hi ⊢
  cases hhc : GetHConst s with
  | none =>
    have hs : s = [] := by
      unfold GetHConst at hhc
      split at hhc
      · rename_i h; simpa using h
      · simp at hhc
    obtain ⟨e', k, j, h1, h2, h3, h4, h5, h6, h7⟩ := AddSecItem_run (t := [delim]) (c := delim) (e := e)
      (pd := pd) (rd := rd) (by simp) hd (by simp) hl ⟨hi.1, by omega⟩
    exact ⟨e', k, j, by simp only [h1], by simpa [hs] using h2, fun _ => h3 (by simp), h4, h5, h6, by omega⟩
  | some hc =>
    obtain ⟨hne, rfl⟩ := GetHConst_some hhc
    simp only []
    have hnd : ¬ (delim ≠ pd ∧ delim ≠ rd) := by
      rintro ⟨a, b⟩; rcases hd with hd | hd
      · exact a hd
      · exact b hd
    rw [if_neg hnd]
    have first : ∃ e1 k, (if e.fStr.length + (natStr s.length ++ ['H']).length > 72 then secHFlush e
        else Res.ok (e, true)) = .ok (e1, true) ∧ Adv 72 Spec.globalTail e e1 (List.replicate k ' ') ∧
        e.index ≤ e1.index ∧ e1.index ≤ e.index + 1 ∧ e1.fStr.length < 72 := by
      split
      · obtain ⟨e1, a, b, c, d⟩ := secHFlush_run hl ⟨hi.1, by omega⟩
        exact ⟨e1, _, a, b, by omega, by omega, by rw [c]; simp⟩
      · rename_i hx
        have := natStr_length_pos s.length
        simp at hx
        exact ⟨e, 0, rfl, by simpa using Adv.refl hl, by omega, by omega, by omega⟩
    obtain ⟨e1, k, h1, h2, h3, h4, h5⟩ := first
    rw [h1]
    simp only [Res.bind, not_true_eq_false, if_false]
    have hlen : (natStr s.length ++ ['H'] ++ s ++ [delim]).length = (natStr s.length).length + s.length + 2 := by
      simp; omega
    obtain ⟨e2, g1, g2, g3, g4⟩ := secHLoop_run
      (fuel := (natStr s.length ++ ['H'] ++ s ++ [delim]).length)
      (rest := natStr s.length ++ ['H'] ++ s ++ [delim]) (e := e1) (Nat.le_refl _) h5
      ⟨by omega, by rw [hlen]; omega⟩
    rw [hlen] at g4
    rw [g1]
    simp only [not_true_eq_false, if_false]
    have hab := h2.trans g2
    have hm := g2.mono
    simp only [List.append_assoc, List.cons_append, List.nil_append] at hab
    split
    · rename_i hfin
      obtain ⟨e3, a, b, c, d⟩ := secHFlush_run (e := e2) (Nat.le_of_lt g3) ⟨by omega, by omega⟩
      refine ⟨e3, k, 72 - e2.fStr.length, a, ?_, fun h => absurd h hne, fun _ => c,
        fun h => absurd hfin.2 h, by omega, by omega⟩
      have := hab.trans b
      simpa [hne] using this
    · rename_i hfin
      refine ⟨e2, k, 0, rfl, by simpa [hne] using hab, fun h => absurd h hne, ?_, fun _ => rfl,
        by omega, by omega⟩
      intro hdr
      have : e2.fStr.length = 0 := by
        apply Classical.byContradiction
        intro hh; exact hfin ⟨hh, hdr⟩
      simpa using this

/-- One parameter: what its global-section call does. -/
theorem secParam_run {pd rd : Char} (p : Param) (d : Char)
    (hd : d = pd ∨ d = rd) (hp : p.Ok pd rd) (e : Emit) (hl : e.fStr.length ≤ 72)
    (hi : 1 ≤ e.index ∧ e.index + p.cost ≤ 9999999) :
    ∃ e' k j, (p.secOp d).run pd rd e = .ok (e', true) ∧
      Adv 72 Spec.globalTail e e' (List.replicate k ' ' ++ p.body ++ d :: List.replicate j ' ') ∧
      (p.body = [] → k = 0) ∧ (d = rd → e'.fStr = []) ∧ (d ≠ rd → j = 0) ∧
      e.index ≤ e'.index ∧ e'.index ≤ e.index + p.cost := by
  have item : ∀ t : Str, t.length ≤ 63 → e.index + 2 ≤ 9999999 →
      ∃ e' k j, AddSecItem (t ++ [d]) e pd rd = (e', true) ∧
      Adv 72 Spec.globalTail e e' (List.replicate k ' ' ++ t ++ d :: List.replicate j ' ') ∧
      (t = [] → k = 0) ∧ (d = rd → e'.fStr = []) ∧ (d ≠ rd → j = 0) ∧
      e.index ≤ e'.index ∧ e'.index ≤ e.index + 2 := by
    intro t ht hc
    obtain ⟨e', k, j, h1, h2, h3, h4, h5, h6, h7⟩ := AddSecItem_run (t := t ++ [d]) (c := d) (e := e)
      (pd := pd) (rd := rd) (by simp) hd (by simp; omega) hl ⟨hi.1, hc⟩
    refine ⟨e', k, j, h1, by simpa using h2, ?_, h4, h5, h6, h7⟩
    rintro rfl; exact h3 (by simp)
  cases p with
  | int n =>
    simp only [Param.secOp, Param.body, SecOp.run, Param.cost, Res.ok.injEq] at hi ⊢
    exact item _ (by have := intStr_length_le32 n hp; omega) (by omega)
  | real t =>
    simp only [Param.secOp, Param.body, SecOp.run, Param.cost, Res.ok.injEq] at hi ⊢
    exact item t hp.2.1 (by omega)
  | dflt =>
    simp only [Param.secOp, Param.body, SecOp.run, Param.cost, Res.ok.injEq] at hi ⊢
    have := item [] (by simp) (by omega)
    simpa using this
  | str s =>
    simp only [Param.secOp, Param.body, SecOp.run, Param.cost] at hi ⊢
    obtain ⟨e', k, j, h, a, b, c, f, h1, h2⟩ := AddSecHStr_run (s := s) (e := e) hl hi hd
    refine ⟨e', k, j, h, by simpa using a, ?_, c, f, h1, h2⟩
    intro hb
    apply b
    split at hb
    · assumption
    · simp at hb

/-- A delimited parameter list is written to the global section as an encoding of it. -/
theorem secParams_run {pd rd : Char}
    (ps : List (Param × Char)) (hp : ∀ x ∈ ps, x.1.Ok pd rd) (hd : ∀ x ∈ ps, x.2 = pd ∨ x.2 = rd)
    (hne : NoEarlyEnd rd ps) (e : Emit) (hl : e.fStr.length ≤ 72)
    (hi : 1 ≤ e.index ∧ e.index + ((ps.map fun x => x.1.cost).sum : Nat) ≤ 9999999) :
    ∃ e' S T, runSecOps pd rd (secParamOps ps) e = .ok (e', true) ∧ Adv 72 Spec.globalTail e e' S ∧
      Enc T ps S ∧ (∀ x, ps.getLast? = some x → x.2 = rd → e'.fStr = []) ∧
      e'.index ≤ e.index + ((ps.map fun x => x.1.cost).sum : Nat) ∧
      ('\n' ≠ pd → '\n' ≠ rd → (∀ x ∈ ps, '\n' ∉ x.1.body) → '\n' ∉ S) := by
  induction ps generalizing e with
  | nil => exact ⟨e, [], [], rfl, Adv.refl hl, .nil, by simp, by simp, by simp⟩
  | cons x ps ih =>
    obtain ⟨p, d⟩ := x
    simp only [List.map_cons, List.sum_cons] at hi ⊢
    obtain ⟨e1, k, j, h1, h2, h3, h4, h5, h6, h7⟩ := secParam_run p d (hd (p, d) (by simp))
      (hp (p, d) (by simp)) e hl ⟨hi.1, by omega⟩
    have hrep : ∀ n, '\n' ∉ List.replicate n ' ' := by
      intro n h; have := List.eq_of_mem_replicate h; revert this; decide
    have hdn : '\n' ≠ pd → '\n' ≠ rd → '\n' ≠ d := by
      intro a b; rcases hd (p, d) (by simp) with h | h
      · simp only at h; rw [h]; exact a
      · simp only at h; rw [h]; exact b
    cases ps with
    | nil =>
      refine ⟨e1, _, _, by simp [secParamOps, runSecOps, h1, Res.bind], h2, .cons k h3 .nil, ?_, by simp; omega, ?_⟩
      · intro x hx hr
        simp at hx; subst hx; exact h4 hr
      · intro a b c
        have := c (p, d) (by simp)
        simp only [List.mem_append, List.mem_cons, not_or]
        exact ⟨⟨hrep k, this⟩, hdn a b, hrep j⟩
    | cons q qs =>
      have hjd : d ≠ rd ∧ NoEarlyEnd rd (q :: qs) := hne
      have hj := h5 hjd.1
      subst hj
      obtain ⟨e2, S, T2, g1, g2, g3, g4, g5, g6⟩ := ih (fun x hx => hp x (List.mem_cons_of_mem _ hx)) (fun x hx => hd x (List.mem_cons_of_mem _ hx))
        hjd.2 e1 h2.le ⟨by omega, by omega⟩
      refine ⟨e2, _, T2, by simp only [secParamOps, List.map_cons, runSecOps, h1, Res.bind, if_true]; exact g1,
        h2.trans g2, ?_, ?_, by omega, ?_⟩
      · have := Enc.cons (p := p) (d := d) k h3 g3
        simpa using this
      · intro x hx hr
        rw [List.getLast?_cons_cons] at hx
        exact g4 x hx hr
      · intro a b c
        have h0 := c (p, d) (by simp)
        have hS := g6 a b (fun x hx => c x (List.mem_cons_of_mem _ hx))
        simp only [List.mem_append, List.mem_cons, not_or]
        exact ⟨⟨⟨hrep k, h0⟩, hdn a b, by simp⟩, hS⟩

end Iges
