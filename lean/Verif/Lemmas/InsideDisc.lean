import Verif.Props.RegionCircleCases
/-
The inside of a circle.
-/
namespace Iges.Disc
open Iges.Geo Iges.Spec Iges.Turn Real

theorem even_odd {c : Seg} (hk : c.kind = .circle) {q : Point ℝ}
    (hD : c.radius ^ 2 ≠ (q.y - c.center.y) ^ 2) (hon : planar2 q c.center ≠ c.radius ^ 2) :
    EvenOdd [c] q ↔ planar2 q c.center < c.radius ^ 2 := by
  unfold EvenOdd
  simp only [List.map_cons, List.map_nil, List.sum_cons, List.sum_nil, add_zero]
  have mem : ∀ p, p ∈ leftOf q c ↔ planar2 p c.center = c.radius ^ 2 ∧ p.z = 0 ∧ p.y = q.y ∧ p.x < q.x := by
    intro p
    unfold leftOf
    simp only [Set.mem_ofPred_eq]
    rw [covers_on hk]
    unfold OnCircle
    tauto
  unfold planar2 at hon mem ⊢
  rcases lt_or_gt_of_ne hD with h | h
  · have : leftOf q c = ∅ := by
      ext p
      rw [mem]
      simp only [Set.mem_empty_iff_false, iff_false]
      rintro ⟨h1, -, h3, -⟩
      rw [h3] at h1
      nlinarith [sq_nonneg (p.x - c.center.x)]
    rw [this, Set.ncard_empty]
    simp only [Nat.not_odd_zero, false_iff, not_lt]
    nlinarith [sq_nonneg (q.x - c.center.x)]
  · obtain ⟨w, hw, ew⟩ : ∃ w : ℝ, 0 < w ∧ w ^ 2 = c.radius ^ 2 - (q.y - c.center.y) ^ 2 :=
      ⟨√(c.radius ^ 2 - (q.y - c.center.y) ^ 2), Real.sqrt_pos.2 (by linarith), Real.sq_sqrt (by linarith)⟩
    have hset : leftOf q c = {p | (p = ⟨c.center.x - w, q.y, 0⟩ ∨ p = ⟨c.center.x + w, q.y, 0⟩) ∧ p.x < q.x} := by
      ext p
      rw [mem]
      simp only [Set.mem_ofPred_eq]
      constructor
      · rintro ⟨h1, h2, h3, h4⟩
        refine ⟨?_, h4⟩
        rw [h3] at h1
        have : (p.x - c.center.x) ^ 2 = w ^ 2 := by linarith
        rcases sq_eq_sq_iff_eq_or_eq_neg.1 this with e | e
        · right; ext
          · simp only; linarith
          · exact h3
          · exact h2
        · left; ext
          · simp only; linarith
          · exact h3
          · exact h2
      · rintro ⟨rfl | rfl, h4⟩
        · exact ⟨by simp only; linarith, rfl, rfl, h4⟩
        · exact ⟨by simp only; linarith, rfl, rfl, h4⟩
    have hne : (⟨c.center.x - w, q.y, 0⟩ : Point ℝ) ≠ ⟨c.center.x + w, q.y, 0⟩ := by
      intro e
      have := congrArg Point.x e
      simp only at this
      linarith
    rw [hset, Iges.Props.Inside.Round.ncard_two hne (fun p => p.x < q.x)]
    simp only
    constructor
    · intro hx
      by_contra hc
      push Not at hc
      have hc := lt_of_le_of_ne hc (Ne.symm hon)
      apply hx
      constructor
      · intro h1
        by_contra h2
        push Not at h2
        have := mul_nonneg (show 0 ≤ w - (q.x - c.center.x) by linarith) (show 0 ≤ w + (q.x - c.center.x) by linarith)
        nlinarith
      · intro h1; linarith
    · intro hx hiff
      have h1 : -w < q.x - c.center.x ∧ q.x - c.center.x < w := abs_lt.1 (abs_lt_of_sq_lt_sq (by linarith) hw.le)
      have := hiff.1 (by linarith)
      linarith

theorem inside {c : Seg} (hk : c.kind = .circle) {x : Point ℝ} (hon : planar2 x c.center ≠ c.radius ^ 2) :
    Inside [c] x ↔ planar2 x c.center < c.radius ^ 2 := by
  have hcont : Continuous fun u : ℝ × ℝ => (u.1 - c.center.x) ^ 2 + (u.2 - c.center.y) ^ 2 := by fun_prop
  have near : ∀ {S : Set ℝ}, IsOpen S → planar2 x c.center ∈ S → ∃ ε > 0, ∀ q : Point ℝ, |q.x - x.x| < ε → |q.y - x.y| < ε →
      planar2 q c.center ∈ S := by
    intro S hS hx
    obtain ⟨ε, h0, hb⟩ := Metric.isOpen_iff.1 (hS.preimage hcont) (x.x, x.y) hx
    refine ⟨ε, h0, fun q h1 h2 => ?_⟩
    have : (q.x, q.y) ∈ Metric.ball (x.x, x.y) ε := by
      rw [Metric.mem_ball, Prod.dist_eq, max_lt_iff]
      exact ⟨h1, h2⟩
    exact hb this
  constructor
  · rintro ⟨δ, h0, hδ⟩
    by_contra hc
    have hgt : c.radius ^ 2 < planar2 x c.center := lt_of_le_of_ne (not_lt.1 hc) (Ne.symm hon)
    obtain ⟨ε, e0, he⟩ := near isOpen_Ioi hgt
    obtain ⟨η, hη, hnot⟩ : ∃ η ∈ Set.Ioo 0 (min ε (√δ)), η ∉ ({c.start.y - x.y, c.stop.y - x.y, c.center.y + c.radius - x.y,
        c.center.y - c.radius - x.y} : Set ℝ) := by
      have hi : (Set.Ioo 0 (min ε (√δ))).Infinite := Set.Ioo_infinite (lt_min e0 (Real.sqrt_pos.2 h0))
      exact hi.exists_notMem_finite (Set.toFinite _)
    simp only [Set.mem_insert_iff, Set.mem_singleton_iff, not_or] at hnot
    obtain ⟨n1, n2, n3, n4⟩ := hnot
    have hηε : η < ε := hη.2.trans_le (min_le_left _ _)
    have hηδ : η ^ 2 < δ := by
      have h1 : η < √δ := hη.2.trans_le (min_le_right _ _)
      have h2 := Real.sq_sqrt h0.le
      nlinarith [hη.1]
    have hq := he ⟨x.x, x.y + η, 0⟩ (by simpa using e0) (by simp only [add_sub_cancel_left]; rwa [abs_of_pos hη.1])
    have hd := hδ ⟨x.x, x.y + η, 0⟩ rfl (by unfold planar2; simp only; linarith [show (x.x - x.x) ^ 2 + (x.y + η - x.y) ^ 2 = η ^ 2 by ring])
      (by
        intro s hs
        rw [List.mem_singleton.1 hs]
        refine ⟨fun e => n1 ?_, fun e => n2 ?_, fun e => absurd (hk.symm.trans e) (by simp)⟩
        · simp only at e; linarith
        · simp only at e; linarith)
    have hq' : c.radius ^ 2 < planar2 ⟨x.x, x.y + η, 0⟩ c.center := hq
    rw [even_odd hk _ hq'.ne'] at hd
    · exact absurd hd (not_lt.2 hq'.le)
    · simp only
      intro e
      rcases sq_eq_sq_iff_eq_or_eq_neg.1 e with e | e
      · exact n3 (by linarith)
      · exact n4 (by linarith)
  · intro hx
    obtain ⟨ε, e0, he⟩ := near isOpen_Iio hx
    refine ⟨ε ^ 2, by positivity, fun q hz hq _ => ?_⟩
    have hqx : |q.x - x.x| < ε ∧ |q.y - x.y| < ε := by
      unfold planar2 at hq
      constructor <;> refine abs_lt_of_sq_lt_sq ?_ e0.le
      · nlinarith [sq_nonneg (q.y - x.y)]
      · nlinarith [sq_nonneg (q.x - x.x)]
    have hq' : planar2 q c.center < c.radius ^ 2 := he q hqx.1 hqx.2
    rw [even_odd hk _ hq'.ne]
    · exact hq'
    · unfold planar2 at hq'
      nlinarith [sq_nonneg (q.x - c.center.x)]

end Iges.Disc
