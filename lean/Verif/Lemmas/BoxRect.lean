import Verif.Lemmas.Boxes
/-
Rectangles that can be drawn, for the cases beside C84 and C85.
-/
namespace Iges.Props.Boxes
open Iges.Geo Iges.Spec Iges.Turn Real Iges.Props.Outlines Iges.Props.Inside

/-- a rectangle of at least one by one, drawn counterclockwise -/
theorem ex_rect {x0 y0 x1 y1 : ℝ} (hx0 : -5 ≤ x0 ∧ x0 + 1 ≤ x1) (hx1 : x1 ≤ 5) (hy0 : -5 ≤ y0 ∧ y0 + 1 ≤ y1) (hy1 : y1 ≤ 5) :
    ∃ b r t l o, Drawn [b, r, t, l] o ∧ Box b r t l x0 y0 x1 y1 ∧ o.closed = true ∧ o.segs = [b, r, t, l] := by
  obtain ⟨hx0, hx⟩ := hx0
  obtain ⟨hy0, hy⟩ := hy0
  have sx0 : x0 ^ 2 ≤ 25 := by nlinarith
  have sx1 : x1 ^ 2 ≤ 25 := by nlinarith
  have sy0 : y0 ^ 2 ≤ 25 := by nlinarith
  have sy1 : y1 ^ 2 ≤ 25 := by nlinarith
  have dx : 1 ≤ (x1 - x0) ^ 2 := by nlinarith
  have dy : 1 ≤ (y1 - y0) ^ 2 := by nlinarith
  obtain ⟨b, hb, kb, b1, b2⟩ := ex_seg (a := x0) (b := y0) (c := x1) (d := y0) (by norm_num; nlinarith) (by linarith) (by linarith)
  obtain ⟨r, hr, kr, r1, r2⟩ := ex_seg (a := x1) (b := y0) (c := x1) (d := y1) (by norm_num; nlinarith) (by linarith) (by linarith)
  obtain ⟨t, ht, kt, t1, t2⟩ := ex_seg (a := x1) (b := y1) (c := x0) (d := y1) (by norm_num; nlinarith) (by linarith) (by linarith)
  obtain ⟨l, hl, kl, l1, l2⟩ := ex_seg (a := x0) (b := y1) (c := x0) (d := y0) (by norm_num; nlinarith) (by linarith) (by linarith)
  have far1 : PointMatches (pt x1 y1) (pt x0 y0) 1e-8 = false := by
    apply no_match <;> norm_num [norm2, dist2, pt] <;> nlinarith
  have far2 : PointMatches (pt x0 y1) (pt x0 y0) 1e-8 = false := by
    apply no_match <;> norm_num [norm2, dist2, pt] <;> nlinarith
  have hml : ∀ x ∈ [b, r, t, l], Made x ∧ x.kind = .line := by
    intro x hx
    simp at hx
    rcases hx with rfl | rfl | rfl | rfl
    · exact ⟨.line hb, kb⟩
    · exact ⟨.line hr, kr⟩
    · exact ⟨.line ht, kt⟩
    · exact ⟨.line hl, kl⟩
  obtain ⟨o, hd, hc⟩ := C67_drawable (l := [b, r, t, l]) (fun x hx => Or.inl (hml x hx).2)
    ⟨same_match (by rw [b2, r1]), same_match (by rw [r2, t1]), same_match (by rw [t2, l1]), trivial⟩ (by
      intro k hk hlt
      have : k = 2 ∨ k = 3 := by simp at hlt; omega
      rcases this with rfl | rfl
      · rintro ⟨f, e, hf, he, hm⟩
        simp at hf he
        subst hf he
        rw [r2, b1, far1] at hm
        cases hm
      · rintro ⟨f, e, hf, he, hm⟩
        simp at hf he
        subst hf he
        rw [t2, b1, far2] at hm
        cases hm)
  have hcl : o.closed = true := hc.2 ⟨by simp, b, l, by simp, by simp, same_match (by rw [l2, b1])⟩
  refine ⟨b, r, t, l, o, hd, ⟨hml, b1, b2, r1, r2, t1, t2, l1, l2, by linarith, by linarith⟩, hcl, ?_⟩
  cases drawn_state hd with
  | empty e => cases e
  | circle _ _ e => cases e
  | drawing _ _ _ _ e => rw [hcl] at e; cases e
  | done lo hi h1 _ _ _ h5 _ hh he =>
    rw [h5]
    unfold orient
    rw [if_neg]
    simp only [List.map_cons, List.map_nil, List.sum_cons, List.sum_nil, windingOf, kb, kr, kt, kl, b1, b2, r1, r2, t1,
      t2, l1, l2, pt]
    rw [not_lt]
    nlinarith

end Iges.Props.Boxes
