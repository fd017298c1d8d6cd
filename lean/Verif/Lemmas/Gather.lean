import Verif.Lemmas.Params
import Verif.Props.PdLines
namespace Iges

theorem getlines_line (acc l r : Str) (h : '\n' ∉ l) :
    getlines acc (l ++ '\n' :: r) = (acc.reverse ++ l) :: getlines [] r := by
  induction l generalizing acc with
  | nil => simp [getlines]
  | cons c l ih =>
    simp only [List.mem_cons, not_or] at h
    have hc : c ≠ '\n' := fun e => h.1 e.symm
    simp only [List.cons_append, getlines, if_neg hc]
    rw [ih _ h.2]
    simp

/-- The lines of a text of consecutive lines. -/
def lineList (tail : Int → Str) (i : Int) : List Str → List Str
  | [] => []
  | d :: ds => (d ++ tail i) :: lineList tail (i + 1) ds

theorem getlines_lines (tail : Int → Str) (i : Int) (datas : List Str) (r : Str)
    (ht : ∀ k, '\n' ∉ tail k) (hd : ∀ d ∈ datas, '\n' ∉ d) :
    getlines [] (Spec.lines tail i datas ++ r) = lineList tail i datas ++ getlines [] r := by
  induction datas generalizing i with
  | nil => simp [Spec.lines, lineList]
  | cons d ds ih =>
    have : Spec.lines tail i (d :: ds) ++ r = (d ++ tail i) ++ '\n' :: (Spec.lines tail (i + 1) ds ++ r) := by
      simp [Spec.lines]
    rw [this, getlines_line]
    · simp only [List.reverse_nil, List.nil_append, lineList, List.cons_append]
      rw [ih (i + 1) (fun d h => hd d (by simp [h]))]
    · rw [List.mem_append]; rintro (h | h)
      · exact hd d (by simp) h
      · exact ht i h

theorem intStr_no_nl (n : Int) : '\n' ∉ intStr n := by
  intro h
  rcases intStr_chars h with h | h
  · revert h; decide
  · revert h; decide

theorem rjust_no_nl (w : Nat) (n : Int) : '\n' ∉ Spec.rjust w n := by
  rw [Spec.rjust, decimal_eq, List.mem_append]
  rintro (h | h)
  · have := List.eq_of_mem_replicate h; revert this; decide
  · exact intStr_no_nl n h

theorem pdTail_no_nl (de i : Int) : '\n' ∉ Spec.pdTail de i := by
  unfold Spec.pdTail
  simp only [List.mem_append, List.mem_cons, not_or]
  exact ⟨rjust_no_nl 8 de, by decide, rjust_no_nl 7 i⟩

theorem rjust8_head (n : Int) (h0 : 0 ≤ n) (h1 : n ≤ 9999999) : (Spec.rjust 8 n).head? = some ' ' := by
  rw [Spec.rjust, decimal_eq]
  have := intStr_length_le7 n h0 h1
  have e : 8 - (intStr n).length = (7 - (intStr n).length) + 1 := by omega
  rw [e, List.replicate_succ]; rfl

/-- Reading back consecutive parameter-data lines joins their data columns. -/
theorem gather_lines {etype de pdata : Int} {pd rd : Char} (hde : 1 ≤ de ∧ de ≤ 9999999)
    (datas : List Str) (hl : ∀ d ∈ datas, d.length = 64) (i : Nat) (acc : Str) (more : List Str)
    (h1 : 1 ≤ pdata) (h2 : pdata + i + datas.length ≤ 10000000)
    (hfirst : i = 0 → ∀ d ds, datas = d :: ds → ∃ j,
      ParseInt (d ++ Spec.rjust 8 de) 0 false pd rd none = .ok ⟨true, some etype, j, false⟩) :
    gatherPD etype de pdata pd rd datas.length i (lineList (Spec.pdTail de) (pdata + i) datas ++ more) acc =
      .ok (some (acc ++ datas.flatten)) := by
  induction datas generalizing i acc with
  | nil => simp [gatherPD]
  | cons d ds ih =>
    have hd : d.length = 64 := hl d (by simp)
    simp only [List.length_cons] at h2
    obtain ⟨_, r, hr, hs, hx, htake, hde'⟩ := Props.C04_pd_line_readable de (pdata + i) d hd
      ⟨by omega, by omega⟩ (by omega) (by omega)
    have hdata : r.data = d ++ Spec.rjust 8 de := by
      have h8 := rjust_length 8 de (intStr_length_le de (by omega) (by omega))
      have h7 := rjust_length 7 (pdata + i) (intStr_length_le7 _ (by omega) (by omega))
      have := Props.C03_emitted_line_accepted (d ++ Spec.rjust 8 de) 'P' (Spec.rjust 7 (pdata + i)) (pdata + i) []
        (by simp [hd, h8]) (by simp) h7 (rjust_intColumn 7 _) (by omega) (by simp) (rjust_getLast 7 _)
      have e : (d ++ Spec.rjust 8 de) ++ 'P' :: Spec.rjust 7 (pdata + i) ++ [] = d ++ Spec.pdTail de (pdata + i) := by
        simp [Spec.pdTail]
      rw [e, hr] at this
      simp only [Option.some.injEq] at this
      rw [this]
    have h64 : (r.data.drop 64).head? = some ' ' := by
      rw [hdata, List.drop_append_of_le_length (by omega), List.drop_eq_nil_of_le (by omega)]
      simp only [List.nil_append]
      exact rjust8_head de (by omega) (by omega)
    have hrest := ih (fun d h => hl d (by simp [h])) (i + 1) (acc ++ d) (by omega) (by intro h; omega)
    have hcast : pdata + ((i + 1 : Nat) : Int) = pdata + (i : Int) + 1 := by omega
    rw [hcast] at hrest
    simp only [lineList, List.length_cons, List.cons_append, gatherPD, hr, hs, hx, h64, hde', htake]
    simp only [ne_eq, not_true_eq_false, if_false]
    by_cases hi : i = 0
    · subst hi
      obtain ⟨j, hp⟩ := hfirst rfl d ds rfl
      rw [hdata, hp]
      simp only [Res.bind, if_true, not_true_eq_false, if_false, Bool.false_eq_true]
      rw [hrest]
      simp
    · rw [if_neg hi, hrest]
      simp

end Iges
