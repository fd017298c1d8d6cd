import Verif.Lemmas.Sec
import Verif.Props.Params
/-
C08: shape and content of global-section lines.
-/
namespace Iges.Props
open Iges

/-- Coarse bound on the number of lines a call can produce. -/
def secCost : SecOp → Nat
  | .item _ => 2
  | .hstr s _ => hCost s

theorem secItem_any (pd rd : Char) (t : Str) (e : Emit) (hl : e.fStr.length ≤ 72)
    (hi : 1 ≤ e.index ∧ e.index + 2 ≤ 9999999) :
    ∃ e' b S, AddSecItem t e pd rd = (e', b) ∧ Adv 72 Spec.globalTail e e' S ∧
      e'.index ≤ e.index + 2 := by
  cases ht : t.getLast? with
  | none => exact ⟨e, false, [], by simp [AddSecItem, ht], Adv.refl hl, by omega⟩
  | some c =>
    by_cases hc : c = pd ∨ c = rd
    · by_cases hlen : t.length ≤ 72
      · obtain ⟨e', k, j, h1, h2, _, _, _, _, h7⟩ := AddSecItem_run ht hc hlen hl hi
        exact ⟨e', true, _, h1, h2, h7⟩
      · refine ⟨e, false, [], ?_, Adv.refl hl, by omega⟩
        have : ¬ (c ≠ pd ∧ c ≠ rd) := by
          rintro ⟨a, b⟩; rcases hc with h | h
          · exact a h
          · exact b h
        simp only [AddSecItem, ht, if_neg this, if_pos (by omega : t.length > 72)]
    · refine ⟨e, false, [], ?_, Adv.refl hl, by omega⟩
      have : c ≠ pd ∧ c ≠ rd := ⟨fun h => hc (Or.inl h), fun h => hc (Or.inr h)⟩
      simp only [AddSecItem, ht, if_pos this]

/-- C08: any sequence of global-section emitter calls (stopping at the first that fails, as the
writer does) appends to the output exactly the text of consecutive lines with 72 data columns, the
letter G and consecutive sequence numbers starting at the starting index; the final index is the
starting index plus the number of lines.  The bound says that the numbers stay within seven digits. -/
theorem C08_global_lines (pd rd : Char) (ops : List SecOp) (e : Emit)
    (hl : e.fStr.length ≤ 72) (hi : 1 ≤ e.index)
    (hb : e.index + ((ops.map secCost).sum : Nat) ≤ 9999999) :
    ∃ e' b datas, runSecOps pd rd ops e = .ok (e', b) ∧
      e'.fOut = e.fOut ++ Spec.lines Spec.globalTail e.index datas ∧
      (∀ d ∈ datas, d.length = 72) ∧
      e'.index = e.index + datas.length ∧ e'.fStr.length ≤ 72 := by
  suffices h : ∃ e' b S, runSecOps pd rd ops e = .ok (e', b) ∧ Adv 72 Spec.globalTail e e' S by
    obtain ⟨e', b, S, h1, h2⟩ := h
    obtain ⟨datas, a, b', c, _⟩ := h2.ex
    exact ⟨e', b, datas, h1, a, c, b', h2.le⟩
  induction ops generalizing e with
  | nil => exact ⟨e, true, [], rfl, Adv.refl hl⟩
  | cons o os ih =>
    simp only [List.map_cons, List.sum_cons] at hb
    have one : ∃ e1 b S, o.run pd rd e = .ok (e1, b) ∧ Adv 72 Spec.globalTail e e1 S ∧
        e1.index ≤ e.index + secCost o := by
      cases o with
      | item t =>
        simp only [secCost] at hb ⊢
        obtain ⟨e', b, S, h1, h2, h3⟩ := secItem_any pd rd t e hl ⟨hi, by omega⟩
        exact ⟨e', b, S, by simp only [SecOp.run, h1], h2, by omega⟩
      | hstr s d =>
        simp only [secCost] at hb ⊢
        by_cases hd : d = pd ∨ d = rd
        · obtain ⟨e', k, j, h, a, _, _, _, _, h2⟩ := AddSecHStr_run (s := s) (e := e) hl
            ⟨hi, by omega⟩ hd
          exact ⟨e', true, _, h, a, h2⟩
        · cases hs : GetHConst s with
          | none =>
            have hc : 2 ≤ hCost s := by unfold hCost; omega
            obtain ⟨e', b, S, h1, h2, h3⟩ := secItem_any pd rd [d] e hl ⟨hi, by omega⟩
            exact ⟨e', b, S, by simp only [SecOp.run, AddSecHStr, hs, h1], h2, by omega⟩
          | some hc =>
            refine ⟨e, false, [], ?_, Adv.refl hl, by omega⟩
            have : d ≠ pd ∧ d ≠ rd := ⟨fun h => hd (Or.inl h), fun h => hd (Or.inr h)⟩
            simp only [SecOp.run, AddSecHStr, hs, if_pos this]
    obtain ⟨e1, b, S, h1, h2, h3⟩ := one
    have hm := h2.mono
    cases b with
    | false => exact ⟨e1, false, S, by simp [runSecOps, h1, Res.bind], h2⟩
    | true =>
      obtain ⟨e2, b2, S', h4, h5⟩ := ih e1 h2.le (by omega) (by omega)
      exact ⟨e2, b2, _, by simp only [runSecOps, h1, Res.bind, if_true, h4], h2.trans h5⟩

/-- C08: what such a line is to a reader. -/
theorem C08_global_line_readable (i : Int) (d : Str) (hd : d.length = 72) (hi : 1 ≤ i)
    (hi' : i ≤ 9999999) :
    (d ++ Spec.globalTail i).length = 80 ∧
    ReadIGESRecord (d ++ Spec.globalTail i) = some ⟨d, 'G', i⟩ := by
  have h7 := rjust_length 7 i (intStr_length_le7 i (by omega) hi')
  refine ⟨by simp [Spec.globalTail, hd, h7], ?_⟩
  have := C03_emitted_line_accepted d 'G' (Spec.rjust 7 i) i []
    hd (by simp) h7 (rjust_intColumn 7 i) (by omega) (by simp) (rjust_getLast 7 i)
  simpa [Spec.globalTail] using this

/-- C08: parameters written to the global section, closed by the record delimiter, succeed, leave
no unfinished line, and joining the data columns of the lines and parsing gives the same values in
order, ending with the end-of-record mark. -/
theorem C08_global_params_roundtrip (i0 : Int) (ps : List Param) (pd rd : Char)
    (hp : Spec.LegalDelim pd) (hr : Spec.LegalDelim rd) (hne : pd ≠ rd)
    (hps : ps ≠ []) (hw : ∀ p ∈ ps, Writable pd rd p) (hi : 1 ≤ i0)
    (hroom : i0 + (roomFor ps : Nat) ≤ 9999999) :
    ∃ e' datas, runSecOps pd rd (secParamOps (delimit pd rd ps)) ⟨[], [], i0⟩ = .ok (e', true) ∧
      e'.fStr = [] ∧ e'.fOut = Spec.lines Spec.globalTail i0 datas ∧
      (∀ d ∈ datas, d.length = 72) ∧ e'.index = i0 + datas.length ∧
      ∃ j, readParams pd rd ps datas.flatten 0 false = .ok (some (ps.map valueOf, j, true)) := by
  have hfst := delimit_params (pd := pd) (rd := rd) ps
  have hwd : ∀ x ∈ delimit pd rd ps, Writable pd rd x.1 := by
    intro x hx
    apply hw
    rw [← hfst]
    exact List.mem_map_of_mem hx
  have hcost : ((delimit pd rd ps).map fun x => x.1.cost).sum = roomFor ps := by
    unfold roomFor
    rw [← hfst, List.map_map]
    congr 1
    rw [hfst]
    rfl
  obtain ⟨e', S, T, h1, h2, h3, h4, h5, _⟩ := secParams_run (pd := pd) (rd := rd)
    (delimit pd rd ps) (fun x hx => Writable.ok (hwd x hx)) (delimit_delims _) (delimit_noEarly hne _)
    ⟨[], [], i0⟩ (by simp) ⟨hi, by simp only; rw [hcost]; exact hroom⟩
  obtain ⟨x, hx1, hx2⟩ := delimit_last (pd := pd) (rd := rd) ps hps
  have hfs := h4 x hx1 hx2
  obtain ⟨datas, a, b, c, d⟩ := h2.ex
  simp only [List.nil_append] at a d
  rw [hfs, List.append_nil] at d
  refine ⟨e', datas, h1, hfs, a, c, b, ?_⟩
  have hlenS : datas.flatten.length = 72 * datas.length := by
    clear a b d
    induction datas with
    | nil => simp
    | cons p u ih =>
      rw [List.flatten_cons, List.length_append, c p (by simp), ih (fun d h => c d (by simp [h]))]
      simp; omega
  have hsz : datas.flatten.length ≤ intMax := by
    have : intMax = 2147483647 := rfl
    rw [hcost] at h5; simp only at b h5; omega
  obtain ⟨i', eor', r1, r2, _⟩ := readParams_at (eor := false) (At.start (d ▸ h3 : Enc T _ datas.flatten))
    (delimit_delims _) hp hr hwd hsz
  rw [hfst] at r1
  have hval : (delimit pd rd ps).map (fun x => valueOf x.1) = ps.map valueOf := by
    rw [← hfst, List.map_map]
    rw [hfst]; rfl
  rw [hval, r2 ⟨x, List.mem_of_getLast? hx1, hx2⟩] at r1
  exact ⟨i', r1⟩

/-- A concrete case: a long name forces a second line. -/
example : (runSecOps ',' ';' (secParamOps (delimit ',' ';'
      [.str (List.replicate 70 'n'), .int 32, .real "0.001".toList, .dflt])) ⟨[], [], 1⟩).bind
    (fun r => .ok (r.2, r.1.index, r.1.fStr, r.1.fOut.length)) = .ok (true, 3, [], 162) := by decide +kernel

end Iges.Props
