import Verif.Lemmas.Ops
import Verif.Props.Record
/-
C04: shape and numbering of parameter-data lines.
-/
namespace Iges.Props
open Iges

/-- An emitter call an entity can make: an item is never empty. -/
def Sensible : PdOp → Prop
  | .item t => t ≠ []
  | .hstr _ _ => True

/-- Coarse bound on the number of lines an emitter call can produce. -/
def lineCost : PdOp → Nat
  | .item _ => 2
  | .hstr s _ => hCost s

theorem run_adv (de : Int) (pd rd : Char) (hde : -9999999 ≤ de ∧ de ≤ 99999999) (o : PdOp) (e : Emit)
    (ho : Sensible o) (hl : e.fStr.length ≤ 64) (hi : 1 ≤ e.index)
    (hb : e.index + lineCost o ≤ 9999999) :
    ∃ e' b S, o.run de pd rd e = .ok (e', b) ∧ Adv 64 (Spec.pdTail de) e e' S ∧
      e'.index ≤ e.index + lineCost o := by
  cases o with
  | item t =>
    simp only [lineCost] at hb ⊢
    obtain ⟨e', b, h, h1, h2, h3⟩ := AddPDItem_total (t := t) (e := e) (de := de) (rd := rd) ho hde
      ⟨hi, by omega⟩
    cases b with
    | true =>
      obtain ⟨k, j, ha, _⟩ := AddPDItem_adv h hl hi (by omega)
      exact ⟨e', true, _, h, ha, by omega⟩
    | false =>
      rcases h3 rfl with rfl | h3
      · exact ⟨e', false, [], h, Adv.refl hl, by omega⟩
      · omega
  | hstr s d =>
    simp only [lineCost] at hb ⊢
    by_cases hd : d = pd ∨ d = rd
    · obtain ⟨e', h, h1, h2⟩ := AddPDHStr_total (s := s) (e := e) hl hde ⟨hi, hb⟩ hd
      obtain ⟨k, j, ha, _⟩ := AddPDHStr_adv h hl hi (by omega)
      exact ⟨e', true, _, h, ha, h2⟩
    · cases hs : GetHConst s with
      | none =>
        obtain ⟨e', b, h, h1, h2, h3⟩ := AddPDItem_total (t := [d]) (e := e) (de := de) (rd := rd)
          (by simp) hde ⟨hi, by omega⟩
        have hrun : (PdOp.hstr s d).run de pd rd e = .ok (e', b) := by
          simp only [PdOp.run, AddPDHStr, hs, h]
        have hc : e.index + 2 ≤ e.index + (hCost s : Nat) := by unfold hCost; omega
        cases b with
        | true =>
          obtain ⟨k, j, ha, _⟩ := AddPDItem_adv h hl hi (by omega)
          exact ⟨e', true, _, hrun, ha, by omega⟩
        | false =>
          rcases h3 rfl with rfl | h3
          · exact ⟨e', false, [], hrun, Adv.refl hl, by omega⟩
          · omega
      | some hc =>
        refine ⟨e, false, [], ?_, Adv.refl hl, by omega⟩
        have : d ≠ pd ∧ d ≠ rd := ⟨fun h => hd (Or.inl h), fun h => hd (Or.inr h)⟩
        simp only [PdOp.run, AddPDHStr, hs, if_pos this]

/-- C04: any sequence of emitter calls (their results ignored, as the callers do) appends to the
output exactly the text of consecutive lines, each with 64 data columns, the entity's DE pointer,
the letter P and consecutive sequence numbers starting at the starting index; the final index is
the starting index plus the number of lines, and the unfinished line never exceeds 64 columns.
The bound says that the sequence numbers stay within seven digits. -/
theorem C04_pd_lines (de : Int) (pd rd : Char) (ops : List PdOp) (e : Emit)
    (hde : -9999999 ≤ de ∧ de ≤ 99999999) (ho : ∀ o ∈ ops, Sensible o)
    (hl : e.fStr.length ≤ 64) (hi : 1 ≤ e.index)
    (hb : e.index + ((ops.map lineCost).sum : Nat) ≤ 9999999) :
    ∃ e' datas, runOps de pd rd ops e = .ok e' ∧
      e'.fOut = e.fOut ++ Spec.lines (Spec.pdTail de) e.index datas ∧
      (∀ d ∈ datas, d.length = 64) ∧
      e'.index = e.index + datas.length ∧ e'.fStr.length ≤ 64 := by
  suffices h : ∃ e' S, runOps de pd rd ops e = .ok e' ∧ Adv 64 (Spec.pdTail de) e e' S by
    obtain ⟨e', S, h1, h2⟩ := h
    obtain ⟨datas, a, b, c, _⟩ := h2.ex
    exact ⟨e', datas, h1, a, c, b, h2.le⟩
  induction ops generalizing e with
  | nil => exact ⟨e, [], rfl, Adv.refl hl⟩
  | cons o os ih =>
    simp only [List.map_cons, List.sum_cons] at hb
    obtain ⟨e1, b, S, h1, h2, h3⟩ := run_adv de pd rd hde o e (ho o (by simp)) hl hi (by omega)
    have := h2.mono
    obtain ⟨e2, S', h4, h5⟩ := ih e1 (fun o h => ho o (by simp [h])) h2.le (by omega) (by omega)
    exact ⟨e2, _, by simp only [runOps, h1, Res.bind, h4], h2.trans h5⟩

/-- C04: what such a line is to a reader: 80 columns, section P, the expected sequence number, and
columns 65-72 hold the DE pointer. -/
theorem C04_pd_line_readable (de i : Int) (d : Str) (hd : d.length = 64)
    (hde : -9999999 ≤ de ∧ de ≤ 99999999) (hi : 1 ≤ i) (hi' : i ≤ 9999999) :
    (d ++ Spec.pdTail de i).length = 80 ∧
    ∃ r, ReadIGESRecord (d ++ Spec.pdTail de i) = some r ∧ r.section_type = 'P' ∧ r.index = i ∧
      r.data.take 64 = d ∧ (∀ v, DEItemToInt r.data 8 v none = (true, de)) := by
  have h8 := rjust_length 8 de (intStr_length_le de hde.1 hde.2)
  have h7 := rjust_length 7 i (intStr_length_le7 i (by omega) hi')
  refine ⟨by simp [hd, pdTail_length de i hde ⟨by omega, hi'⟩], ⟨d ++ Spec.rjust 8 de, 'P', i⟩, ?_, rfl, rfl, ?_, ?_⟩
  · have := C03_emitted_line_accepted (d ++ Spec.rjust 8 de) 'P' (Spec.rjust 7 i) i []
      (by simp [hd, h8]) (by simp) h7 (rjust_intColumn 7 i) (by omega) (by simp) (rjust_getLast 7 i)
    simpa [Spec.pdTail] using this
  · simp only []
    rw [List.take_append_of_le_length (by omega), List.take_of_length_le (by omega)]
  · intro v
    simp only []
    have hx : d ++ Spec.rjust 8 de = d ++ Spec.rjust 8 de ++ [] := by simp
    apply DEItemToInt_of_column _ 8 _ _ _ (by omega) (by simp [hd, h8])
    have : substr (d ++ Spec.rjust 8 de) (8 * 8) 8 = Spec.rjust 8 de := by
      rw [hx, show 8 * 8 = d.length from by omega]
      exact substr_mid d (Spec.rjust 8 de) [] 8 h8
    rw [this]
    exact rjust_intColumn 8 de

/-- The hypotheses of C04 are met by a real sequence of calls whose text needs three lines. -/
example : (runOps 7 ',' ';' [.item "314,".toList, .hstr (List.replicate 100 'x') ',', .item "0;".toList]
    ⟨[], [], 1⟩).bind (fun e => .ok (e.index, e.fStr, e.fOut.length)) = .ok (3, [], 162) := by decide +kernel

/-- C04, limit of the claim: `AddPDHStr` does not check the seven-digit limit.  With index 10000000
the line it writes has lost the leading digit and is not accepted by the reader. -/
theorem C04_hstr_overflow :
    ∃ e', AddPDHStr (List.replicate 60 'x') ⟨[], [], 10000000⟩ 1 ',' ';' ';' = .ok (e', true) ∧
      e'.fStr = [] ∧ ∃ l ∈ getlines [] e'.fOut, ReadIGESRecord l = none := by
  refine ⟨⟨[], List.replicate 0 ' ' ++ ("60H".toList ++ List.replicate 60 'x' ++ [';'] ++
     "       1P0000000\n".toList), 10000001⟩, ?_, rfl, ?_⟩
  · decide
  · refine ⟨_, List.mem_cons_self, ?_⟩
    decide

end Iges.Props
