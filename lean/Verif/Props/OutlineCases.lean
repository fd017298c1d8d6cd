import Mathlib.Analysis.SpecialFunctions.Integrals.Basic
import Mathlib.Analysis.Real.Pi.Bounds
import Verif.Props.Outline
import Verif.Props.ArcCases
/-
C67: concrete outlines, and one that ends up running the wrong way.
-/
namespace Iges.Props.Outlines
open Iges.Geo Iges.Spec Real

theorem same_match {p q : Point ℝ} {r : ℝ} (h : p = q) : PointMatches p q r = true := by rw [h]; exact C51_reflexive _ _

/-- C67: a triangle drawn clockwise is closed after the third line and then runs counterclockwise. -/
example : ∃ l o, Drawn l o ∧ o.closed = true ∧ Round l ∧ (∀ s ∈ l, Made s ∧ s.kind = .line) ∧ area l = -2 ∧
    area o.segs = 2 ∧ isContiguous o = true := by
  obtain ⟨s, hs, ks, s1, s2⟩ := ex_seg (a := 0) (b := 0) (c := 0) (d := 2) (by norm_num) (by norm_num) (by norm_num)
  obtain ⟨t, ht, kt, t1, t2⟩ := ex_seg (a := 0) (b := 2) (c := 2) (d := 0) (by norm_num) (by norm_num) (by norm_num)
  obtain ⟨u, hu, ku, u1, u2⟩ := ex_seg (a := 2) (b := 0) (c := 0) (d := 0) (by norm_num) (by norm_num) (by norm_num)
  have far : PointMatches (pt 2 0) (pt 0 0) 1e-8 = false := by apart
  have hl : ∀ x ∈ [s, t, u], Made x ∧ x.kind = .line := by
    intro x hx
    simp at hx
    rcases hx with rfl | rfl | rfl
    · exact ⟨.line hs, ks⟩
    · exact ⟨.line ht, kt⟩
    · exact ⟨.line hu, ku⟩
  obtain ⟨o, hd, hc⟩ := C67_drawable (l := [s, t, u]) (fun x hx => Or.inl (hl x hx).2)
    ⟨same_match (by rw [s2, t1]), same_match (by rw [t2, u1]), trivial⟩ (by
      intro k hk hlt
      have : k = 2 := by simp at hlt; omega
      subst this
      rintro ⟨f, e, hf, he, hm⟩
      simp at hf he
      subst hf he
      rw [t2, s1, far] at hm
      cases hm)
  have hcl : o.closed = true := hc.2 ⟨by simp, s, u, by simp, by simp, same_match (by rw [u2, s1])⟩
  have hr : Round [s, t, u] := ⟨pt 0 0, s1, by rw [t1, s2], by rw [u1, t2], u2⟩
  have ha : area [s, t, u] = -2 := by
    unfold area segArea lineArea
    simp only [List.map_cons, List.map_nil, ks, kt, ku, s1, s2, t1, t2, u1, u2, pt]
    norm_num
  refine ⟨_, o, hd, hcl, hr, hl, ha, ?_, by rw [C67_contiguous hd, hcl]⟩
  rw [C67_orientation_lines hd hcl hr (fun x hx => (hl x hx).2), ha]
  norm_num

/-- C67 (counterexample). A half circle and three lines under it, drawn counterclockwise: an arch.  The polygon over the
ends of the lines and the midpoint of the arc runs clockwise, so the outline is turned round and runs clockwise. -/
theorem C67_orientation_wrong : ∃ l o, Drawn l o ∧ o.closed = true ∧ Round l ∧ (∀ s ∈ l, Made s) ∧ 0 < area l ∧
    area o.segs < 0 := by
  obtain ⟨a, ha, ka, ra, ca, a1, a2, a3, a4⟩ := ex_arc_at (c := 0) (x := 1) (y := 0) (u := -1) (v := 0)
    (by norm_num) (by norm_num) (by norm_num) (by norm_num)
  have hcw : a.cw = false := by
    rcases (setArc_cases ha).2.2.2.2.2.2.2 with ⟨e, -⟩ | ⟨-, -, -, -, e, -⟩
    · rw [ka] at e; cases e
    · exact e
  simp only [sub_zero] at a3 a4
  rw [atan2_fwd] at a3 a4
  rw [atan2_back, if_neg (by linarith [pi_pos])] at a4
  unfold Seg.startAngle at a3
  unfold Seg.endAngle at a4
  rw [hcw] at a3 a4
  simp only [Bool.false_eq_true, if_false] at a3 a4
  obtain ⟨s, hs, ks, s1, s2⟩ := ex_seg (a := -1) (b := 0) (c := -0.6) (d := 0.7) (by norm_num) (by norm_num) (by norm_num)
  obtain ⟨t, ht, kt, t1, t2⟩ := ex_seg (a := -0.6) (b := 0.7) (c := 0.6) (d := 0.7) (by norm_num) (by norm_num) (by norm_num)
  obtain ⟨u, hu, ku, u1, u2⟩ := ex_seg (a := 0.6) (b := 0.7) (c := 1) (d := 0) (by norm_num) (by norm_num) (by norm_num)
  have far1 : PointMatches (pt (-0.6) 0.7) (pt 1 0) 1e-8 = false := by apart
  have far2 : PointMatches (pt 0.6 0.7) (pt 1 0) 1e-8 = false := by apart
  obtain ⟨o, hd, hc⟩ := C67_drawable (l := [a, s, t, u])
    (by intro x hx; simp at hx; rcases hx with rfl | rfl | rfl | rfl <;> simp [*])
    ⟨same_match (by rw [a2, s1]), same_match (by rw [s2, t1]), same_match (by rw [t2, u1]), trivial⟩ (by
      intro k hk hlt
      have : k = 2 ∨ k = 3 := by simp at hlt; omega
      rcases this with rfl | rfl
      · rintro ⟨f, e, hf, he, hm⟩
        simp at hf he
        subst hf he
        rw [s2, a1, far1] at hm
        cases hm
      · rintro ⟨f, e, hf, he, hm⟩
        simp at hf he
        subst hf he
        rw [t2, a1, far2] at hm
        cases hm)
  have hcl : o.closed = true := hc.2 ⟨by simp, a, u, by simp, by simp, same_match (by rw [u2, a1])⟩
  have hr : Round [a, s, t, u] := ⟨pt 1 0, a1, by rw [s1, a2], by rw [t1, s2], by rw [u1, t2], u2⟩
  have har : area [a, s, t, u] = π / 2 - 1.12 := by
    unfold area segArea lineArea arcArea
    simp only [List.map_cons, List.map_nil, ka, ks, kt, ku, s1, s2, t1, t2, u1, u2, a3, a4, ra, ca, pt, List.sum_cons,
      List.sum_nil]
    have : ∀ x : ℝ, (0 + 1 * cos x) * (1 * cos x) - (0 + 1 * sin x) * (-(1 * sin x)) = 1 := by
      intro x; linear_combination Real.sin_sq_add_cos_sq x
    simp only [this, intervalIntegral.integral_const, smul_eq_mul]
    norm_num
    ring
  have hpo : polygonArea [a, s, t, u] = 1 - 1.12 := by
    have hm : a.midpoint = some (pt 0 1) := by
      unfold Seg.midpoint
      rw [ka]
      simp only [a3, a4, ra, ca]
      rw [show (0 + π) * 0.5 = π / 2 by ring]
      simp [pt]
    unfold polygonArea chordArea lineArea
    simp only [List.map_cons, List.map_nil, ka, ks, kt, ku, s1, s2, t1, t2, u1, u2, a1, a2, pt, List.sum_cons,
      List.sum_nil, hm]
    norm_num
  have hpos : 0 < area [a, s, t, u] := by rw [har]; norm_num; linarith [pi_gt_three]
  refine ⟨_, o, hd, hcl, hr, ?_, hpos, ?_⟩
  · intro x hx
    simp at hx
    rcases hx with rfl | rfl | rfl | rfl
    · exact .arc ha
    · exact .line hs
    · exact .line ht
    · exact .line hu
  · cases drawn_state hd with
    | empty e => cases e
    | circle _ _ e => cases e
    | drawing _ _ _ _ e => rw [hcl] at e; cases e
    | done lo hi h1 _ _ _ h5 =>
      obtain ⟨p, hp⟩ := hr
      rw [h5, area_orient h1, winding_area h1 hp, hpo, if_pos (by norm_num)]
      linarith

end Iges.Props.Outlines
