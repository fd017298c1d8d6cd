import Verif.Model.OutlineMerge
import Verif.Lemmas.RegionOp
/-
Lemmas on cutting an outline out of an outline: what a successful call has done, and what the pieces are.
-/
namespace Iges.Geo
open Spec Turn

/-- the segment does not start at the point -/
noncomputable def notAt (q : Point ℝ) (s : Seg) : Bool := !PointMatches s.start q 1e-8

theorem dropWhile_append_ne {α : Type} {p : α → Bool} {l m : List α} (h : l.dropWhile p ≠ []) :
    (l ++ m).dropWhile p = l.dropWhile p ++ m := by
  induction l with
  | nil => simp at h
  | cons a l ih =>
    cases hp : p a
    · simp [hp]
    · rw [List.dropWhile_cons_of_pos hp] at h
      rw [List.cons_append, List.dropWhile_cons_of_pos hp, List.dropWhile_cons_of_pos hp, ih h]

theorem dropWhile_append_nil {α : Type} {p : α → Bool} {l m : List α} (h : l.dropWhile p = []) :
    (l ++ m).dropWhile p = m.dropWhile p := by
  induction l with
  | nil => rfl
  | cons a l ih =>
    cases hp : p a
    · simp [hp] at h
    · rw [List.dropWhile_cons_of_pos hp] at h
      rw [List.cons_append, List.dropWhile_cons_of_pos hp, ih h]

theorem takeWhile_all {α : Type} {p : α → Bool} {l : List α} {a : α} (h : a ∈ l.takeWhile p) : p a = true := by
  induction l with
  | nil => simp at h
  | cons b l ih =>
    cases hp : p b
    · simp [hp] at h
    · rw [List.takeWhile_cons_of_pos hp, List.mem_cons] at h
      rcases h with rfl | h
      · exact hp
      · exact ih h

theorem dropWhile_first {α : Type} {p : α → Bool} {l m : List α} {a : α} (h : l.dropWhile p = a :: m) : p a = false := by
  induction l with
  | nil => simp at h
  | cons b l ih =>
    cases hp : p b
    · rw [List.dropWhile_cons_of_neg (by simp [hp])] at h
      obtain ⟨rfl, -⟩ := List.cons.inj h
      exact hp
    · rw [List.dropWhile_cons_of_pos hp] at h
      exact ih h

theorem roundFrom_zero (l : List Seg) : roundFrom l 0 = l := by simp [roundFrom]

theorem eraseFrom_spec {l L : List Seg} {i f : ℕ} {q : Point ℝ} (h : eraseFrom l i q = some (L, f)) :
    roundFrom L f = (roundFrom l i).dropWhile (notAt q) ∧ (roundFrom l i).dropWhile (notAt q) ≠ [] ∧ f < L.length := by
  unfold eraseFrom at h
  simp only at h
  change (if (l.drop i).dropWhile (notAt q) ≠ [] then some (l.take i ++ (l.drop i).dropWhile (notAt q), i)
    else if (l.take i).dropWhile (notAt q) = [] then none else some ((l.take i).dropWhile (notAt q), 0)) = some (L, f) at h
  unfold roundFrom
  split at h
  · rename_i h1
    simp only [Option.some.injEq, Prod.mk.injEq] at h
    obtain ⟨rfl, rfl⟩ := h
    have hi : i ≤ l.length := by
      by_contra hi
      rw [List.drop_eq_nil_of_le (by omega)] at h1
      simp at h1
    rw [dropWhile_append_ne h1]
    refine ⟨?_, by simp [h1], ?_⟩
    · rw [List.drop_left' (by simp; omega), List.take_left' (by simp; omega)]
    · have := List.length_pos_of_ne_nil h1
      simp
      omega
  · rename_i h1
    split at h
    · cases h
    · rename_i h2
      simp only [Option.some.injEq, Prod.mk.injEq] at h
      obtain ⟨rfl, rfl⟩ := h
      rw [dropWhile_append_nil (by simpa using h1)]
      exact ⟨by simp, h2, List.length_pos_of_ne_nil h2⟩

theorem keepTo_spec {l L : List Seg} {i : ℕ} {q : Point ℝ} (h : keepTo l i q = some L) :
    L = (roundFrom l i).takeWhile (notAt q) ∧ (roundFrom l i).dropWhile (notAt q) ≠ [] := by
  unfold keepTo at h
  simp only at h
  change (if (roundFrom l i).dropWhile (notAt q) = [] then none else some ((roundFrom l i).takeWhile (notAt q))) = some L at h
  split at h
  · cases h
  · rename_i h1
    exact ⟨(Option.some.inj h).symm, h1⟩

theorem trimThis_spec {l L : List Seg} {i f : ℕ} {q : Point ℝ} {b : Bool} (h : trimThis l i q b = some (L, f)) :
    roundFrom L f = (if b then (roundFrom l i).dropWhile (notAt q) else (roundFrom l i).takeWhile (notAt q)) ∧
    (roundFrom l i).dropWhile (notAt q) ≠ [] ∧ (f = 0 ∨ f < L.length) := by
  unfold trimThis at h
  cases b with
  | true =>
    obtain ⟨h1, h2, h3⟩ := eraseFrom_spec (by simpa using h)
    exact ⟨by simpa using h1, h2, Or.inr h3⟩
  | false =>
    simp only [Bool.false_eq_true, if_false, Option.map_eq_some_iff, Prod.mk.injEq] at h
    obtain ⟨L', h, rfl, rfl⟩ := h
    obtain ⟨h1, h2⟩ := keepTo_spec h
    exact ⟨by rw [roundFrom_zero, h1]; simp, h2, Or.inl rfl⟩

theorem trimOther_spec {l M : List Seg} {i g : ℕ} {q : Point ℝ} {b : Bool} (h : trimOther l i q b = some (M, g)) :
    (roundFrom l i).dropWhile (notAt q) ≠ [] ∧
    ((b = true ∧ roundFrom M g = (roundFrom l i).dropWhile (notAt q)) ∨
     (b = false ∧ M = (roundFrom l i).takeWhile (notAt q) ∧ g = M.length - 1)) := by
  unfold trimOther at h
  cases b with
  | true =>
    obtain ⟨h1, h2, h3⟩ := eraseFrom_spec (by simpa using h)
    exact ⟨h2, Or.inl ⟨rfl, h1⟩⟩
  | false =>
    simp only [Bool.false_eq_true, if_false, Option.map_eq_some_iff, Prod.mk.injEq] at h
    obtain ⟨L', h, rfl, rfl⟩ := h
    obtain ⟨h1, h2⟩ := keepTo_spec h
    exact ⟨h2, Or.inr ⟨rfl, h1, rfl⟩⟩

theorem roundFrom_perm (l : List Seg) (i : ℕ) : (roundFrom l i).Perm l := by
  unfold roundFrom
  exact List.perm_append_comm.trans (by rw [List.take_append_drop])

theorem startFrom_spec {m r : List Seg} {g : ℕ} {e : Point ℝ} (h : startFrom m g e = some r) :
    r.Perm m ∧ ∃ X Y, roundFrom m g = X ++ Y ∧ r = Y ++ X ∧ (∀ s ∈ X, PointMatches s.getStart e 1e-8 = false) ∧
      ∃ s, Y.head? = some s ∧ PointMatches s.getStart e 1e-8 = true := by
  unfold startFrom at h
  simp only at h
  generalize hp : (fun s : Seg => !PointMatches s.getStart e 1e-8) = p at h
  split at h
  · cases h
  · rename_i h1
    obtain rfl := Option.some.inj h
    have e1 := List.takeWhile_append_dropWhile (p := p) (l := roundFrom m g)
    refine ⟨?_, _, _, e1.symm, rfl, ?_, ?_⟩
    · refine List.perm_append_comm.trans ?_
      rw [e1]
      exact roundFrom_perm m g
    · intro s hs
      have := takeWhile_all hs
      rw [← hp] at this
      simpa using this
    · cases hd : (roundFrom m g).dropWhile p with
      | nil => exact absurd hd h1
      | cons s Y =>
        refine ⟨s, rfl, ?_⟩
        have := dropWhile_first hd
        rw [← hp] at this
        simpa using this

/-- what a successful call has done -/
theorem opShape_true {o a : Outline} {opsub : Bool} {r : MergeRes} (h : opShape o (some a) opsub = .returns r)
    (hr : r.ret = true) :
    ∃ hits p q l1 k1 l2 k2 i j in0 in1 L M ins, ∃ f g : ℕ,
      o.closed = true ∧ a.closed = true ∧ shapeHits a.segs opsub 0 o.segs = .points hits ∧ distinct [] hits = [p, q] ∧
      splitBoth o.segs p.2.1 q.2.1 p.1 q.1 = (l1, k1, true) ∧ splitBoth a.segs p.2.2 q.2.2 p.1 q.1 = (l2, k2, true) ∧
      startingAt l1 k1 p.1 = some i ∧ startingAt l2 k2 p.1 = some j ∧
      isInside { a with segs := l2 } ((l1[i]?.bind Seg.midpoint).getD origin) = some in0 ∧
      isInside { o with boxOk := false, segs := l1 }
        ((l2[j]?.bind Seg.midpoint).getD ((l1[i]?.bind Seg.midpoint).getD origin)) = some in1 ∧ in0 = !in1 ∧
      trimThis l1 i q.1 in0 = some (L, f) ∧ trimOther l2 j q.1 (if opsub then !in1 else in1) = some (M, g) ∧ M ≠ [] ∧
      r.out.segs = L.take f ++ ins ++ L.drop f ∧ r.out.closed = true ∧ r.error = false ∧ 
      ((opsub = true ∧ ins = backwards M g) ∨
       (opsub = false ∧ ∃ e, L[before L.length f]? = some e ∧ startFrom M g e.getEnd = some ins)) := by
  unfold opShape at h
  simp only at h
  split at h
  · cases h; cases hr
  rename_i hcl
  split at h
  · cases h; cases hr
  rename_i hcl2
  split at h
  · cases h; cases hr
  · cases h; cases hr
  rename_i hits hh
  split at h
  · cases h; cases hr
  · rename_i p q hd
    generalize hs : splitBoth o.segs p.2.1 q.2.1 p.1 q.1 = s at h
    generalize ht : splitBoth a.segs p.2.2 q.2.2 p.1 q.1 = t at h
    obtain ⟨l1, k1, b1⟩ := s
    obtain ⟨l2, k2, b2⟩ := t
    simp only at h
    split at h
    · cases h; cases hr
    rename_i hb1
    split at h
    · cases h; cases hr
    rename_i hb2
    have hb1 : b1 = true := by simpa using hb1
    have hb2 : b2 = true := by simpa using hb2
    subst hb1 hb2
    unfold overlap at h
    simp only at h
    split at h
    · cases h; cases hr
    rename_i i hi
    split at h
    · cases h; cases hr
    rename_i in0 h0
    split at h
    · cases h; cases hr
    rename_i j hj
    split at h
    · cases h; cases hr
    rename_i in1 h1
    split at h
    · cases h; cases hr
    rename_i hne
    unfold trim at h
    simp only at h
    split at h
    · cases h; cases hr
    rename_i Lf hL
    split at h
    · cases h; cases hr
    rename_i Mg hM
    obtain ⟨L, f⟩ := Lf
    obtain ⟨M, g⟩ := Mg
    have hin : in0 = !in1 := by cases in0 <;> cases in1 <;> simp_all
    have hcl : o.closed = true := by simpa using hcl
    have hcl2 : a.closed = true := by simpa using hcl2
    unfold stitch at h
    simp only at h
    split at h
    · cases h
    rename_i hMne
    split at h
    · rename_i hsub
      cases h
      exact ⟨hits, p, q, l1, k1, l2, k2, i, j, in0, in1, L, M, _, f, g, hcl, hcl2, hh, hd, hs, ht, hi, hj, h0, h1, hin, hL, hM, hMne,
        rfl, hcl, rfl, Or.inl ⟨hsub, rfl⟩⟩
    · rename_i hsub
      split at h
      · cases h
      rename_i e he
      split at h
      · cases h
      rename_i ins hins
      cases h
      exact ⟨hits, p, q, l1, k1, l2, k2, i, j, in0, in1, L, M, ins, f, g, hcl, hcl2, hh, hd, hs, ht, hi, hj, h0, h1, hin, hL, hM, hMne,
        rfl, hcl, rfl, Or.inr ⟨by simpa using hsub, e, he, hins⟩⟩
  · cases h; cases hr

end Iges.Geo
