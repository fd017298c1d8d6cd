import Mathlib.Data.Set.Card
import Mathlib.Analysis.SpecialFunctions.Trigonometric.Inverse
import Verif.Lemmas.Outline
import Verif.Props.ArcCases
/- A horizontal ray and the segments of an outline. -/
namespace Iges.Geo
open Spec Iges.Props Real Classical

/-- the points of a segment at the height of `p` -/
def level (p : Point ℝ) (s : Seg) : Set (Point ℝ) := {q | Covers s q ∧ q.y = p.y}

theorem sin_above {φ θ : ℝ} (h1 : -(π / 2) < φ) (a : φ < θ) (b : θ < π - φ) : sin φ < sin θ := by
  have e : sin θ - sin φ = 2 * sin ((θ - φ) / 2) * cos ((θ + φ) / 2) := Real.sin_sub_sin θ φ
  have s : 0 < sin ((θ - φ) / 2) := sin_pos_of_pos_of_lt_pi (by linarith) (by linarith)
  have c : 0 < cos ((θ + φ) / 2) := cos_pos_of_mem_Ioo ⟨by linarith, by linarith⟩
  nlinarith [mul_pos s c]

theorem sin_below {φ θ : ℝ} (h2 : φ < π / 2) (a : π - φ < θ) (b : θ < φ + 2 * π) : sin θ < sin φ := by
  have e : sin θ - sin φ = 2 * sin ((θ - φ) / 2) * cos ((θ + φ) / 2) := Real.sin_sub_sin θ φ
  have s : 0 < sin ((θ - φ) / 2) := sin_pos_of_pos_of_lt_pi (by linarith) (by linarith)
  have c : cos ((θ + φ) / 2) < 0 := cos_neg_of_pi_div_two_lt_of_lt (by linarith) (by linarith)
  nlinarith [mul_pos s (neg_pos.2 c)]

/-- the angles in a range of less than a full turn at which the sine has a given value: their number is odd just when the
sine is above that value at one end and below it at the other -/
theorem odd_angles {a b k : ℝ} (hab : a ≤ b) (ht : b < a + 2 * π) (ha : sin a ≠ k) (hb : sin b ≠ k) (hk : |k| ≠ 1) :
    {θ | a ≤ θ ∧ θ ≤ b ∧ sin θ = k}.Finite ∧
    (Odd {θ | a ≤ θ ∧ θ ≤ b ∧ sin θ = k}.ncard ↔ ¬ (k < sin a ↔ k < sin b)) := by
  by_cases hk1 : |k| < 1
  · obtain ⟨k1, k2⟩ := abs_lt.1 hk1
    obtain ⟨φ, f1, f2, rfl⟩ : ∃ φ, -(π / 2) < φ ∧ φ < π / 2 ∧ k = sin φ :=
      ⟨arcsin k, neg_pi_div_two_lt_arcsin.2 k1, arcsin_lt_pi_div_two.2 k2, (sin_arcsin k1.le k2.le).symm⟩
    obtain ⟨n, n1, n2⟩ : ∃ n : ℤ, φ + n * (2 * π) ≤ a ∧ a < φ + n * (2 * π) + 2 * π := by
      have hp : 0 < 2 * π := by positivity
      refine ⟨⌊(a - φ) / (2 * π)⌋, ?_, ?_⟩
      · have := (le_div_iff₀ hp).1 (Int.floor_le ((a - φ) / (2 * π)))
        linarith
      · have := (div_lt_iff₀ hp).1 (Int.lt_floor_add_one ((a - φ) / (2 * π)))
        linarith
    set N : ℝ := n * (2 * π) with hN
    have per : ∀ (θ : ℝ) (m : ℤ), sin (θ + m * (2 * π)) = sin θ := fun θ m => sin_add_int_mul_two_pi θ m
    have up : ∀ (m : ℤ) θ, φ + m * (2 * π) < θ → θ < π - φ + m * (2 * π) → sin φ < sin θ := by
      intro m θ h1 h2
      have := sin_above f1 (θ := θ - m * (2 * π)) (by linarith) (by linarith)
      rwa [← per (θ - m * (2 * π)) m, sub_add_cancel] at this
    have down : ∀ (m : ℤ) θ, π - φ + m * (2 * π) < θ → θ < φ + 2 * π + m * (2 * π) → sin θ < sin φ := by
      intro m θ h1 h2
      have := sin_below f2 (θ := θ - m * (2 * π)) (by linarith) (by linarith)
      rwa [← per (θ - m * (2 * π)) m, sub_add_cancel] at this
    have up0 := up n
    have dn0 := down n
    have up1 := up (n + 1)
    have dn1 := down (n + 1)
    push_cast at up1 dn1
    have e1 : ((n : ℝ) + 1) * (2 * π) = N + 2 * π := by rw [hN]; ring
    rw [e1] at up1 dn1
    rw [← hN] at up0 dn0
    -- the roots
    have r0 : sin (φ + N) = sin φ := per φ n
    have r1 : sin (π - φ + N) = sin φ := by rw [hN, per, sin_pi_sub]
    have r2 : sin (φ + (N + 2 * π)) = sin φ := by rw [← e1]; have := per φ (n + 1); push_cast at this; exact this
    have r3 : sin (π - φ + (N + 2 * π)) = sin φ := by
      rw [← e1]; have := per (π - φ) (n + 1); push_cast at this; rw [this, sin_pi_sub]
    have a0 : φ + N < a := lt_of_le_of_ne n1 (fun e => ha (by rw [← e]; exact r0))
    have a1 : a ≠ π - φ + N := fun e => ha (by rw [e]; exact r1)
    have b1 : b ≠ π - φ + N := fun e => hb (by rw [e]; exact r1)
    have b2 : b ≠ φ + (N + 2 * π) := fun e => hb (by rw [e]; exact r2)
    have b3 : b ≠ π - φ + (N + 2 * π) := fun e => hb (by rw [e]; exact r3)
    have hset : {θ | a ≤ θ ∧ θ ≤ b ∧ sin θ = sin φ} =
        {θ | a ≤ θ ∧ θ ≤ b ∧ (θ = π - φ + N ∨ θ = φ + (N + 2 * π) ∨ θ = π - φ + (N + 2 * π))} := by
      ext θ
      constructor
      · rintro ⟨h1, h2, h3⟩
        refine ⟨h1, h2, ?_⟩
        by_contra hne
        push Not at hne
        obtain ⟨m1, m2, m3⟩ := hne
        rcases lt_or_gt_of_ne m1 with l1 | l1
        · exact absurd h3 (up0 θ (by linarith) l1).ne'
        · rcases lt_or_gt_of_ne m2 with l2 | l2
          · exact absurd h3 (dn0 θ l1 (by linarith)).ne
          · rcases lt_or_gt_of_ne m3 with l3 | l3
            · exact absurd h3 (up1 θ l2 l3).ne'
            · exact absurd h3 (dn1 θ l3 (by linarith)).ne
      · rintro ⟨h1, h2, h3 | h3 | h3⟩ <;> refine ⟨h1, h2, ?_⟩ <;> rw [h3]
        · exact r1
        · exact r2
        · exact r3
    rw [hset]
    have pp := pi_pos
    rcases lt_or_gt_of_ne a1 with l1 | l1
    · have sa := up0 a a0 l1
      rcases lt_or_gt_of_ne b1 with m1 | m1
      · have sb := up0 b (by linarith) m1
        have : {θ | a ≤ θ ∧ θ ≤ b ∧ (θ = π - φ + N ∨ θ = φ + (N + 2 * π) ∨ θ = π - φ + (N + 2 * π))} = ∅ := by
          ext θ
          simp only [Set.mem_ofPred_eq, Set.mem_empty_iff_false, iff_false]
          rintro ⟨h1, h2, h | h | h⟩ <;> linarith
        rw [this]
        simp [sa, sb]
      · rcases lt_or_gt_of_ne b2 with m2 | m2
        · have sb := dn0 b m1 (by linarith)
          have : {θ | a ≤ θ ∧ θ ≤ b ∧ (θ = π - φ + N ∨ θ = φ + (N + 2 * π) ∨ θ = π - φ + (N + 2 * π))} = {π - φ + N} := by
            ext θ
            simp only [Set.mem_ofPred_eq, Set.mem_singleton_iff]
            constructor
            · rintro ⟨h1, h2, h | h | h⟩
              · exact h
              · linarith
              · linarith
            · rintro rfl
              exact ⟨l1.le, m1.le, Or.inl rfl⟩
          rw [this]
          simp [sa, sb.le]
        · have m3 : b < π - φ + (N + 2 * π) := by linarith
          have sb := up1 b m2 m3
          have : {θ | a ≤ θ ∧ θ ≤ b ∧ (θ = π - φ + N ∨ θ = φ + (N + 2 * π) ∨ θ = π - φ + (N + 2 * π))} =
              {π - φ + N, φ + (N + 2 * π)} := by
            ext θ
            simp only [Set.mem_ofPred_eq, Set.mem_insert_iff, Set.mem_singleton_iff]
            constructor
            · rintro ⟨h1, h2, h | h | h⟩
              · exact Or.inl h
              · exact Or.inr h
              · linarith
            · rintro (rfl | rfl)
              · exact ⟨l1.le, m1.le, Or.inl rfl⟩
              · exact ⟨by linarith, m2.le, Or.inr (Or.inl rfl)⟩
          rw [this, Set.ncard_pair (by intro e; linarith)]
          refine ⟨Set.toFinite _, ?_⟩
          simp [sa, sb]
    · have sa := dn0 a l1 (by linarith)
      have m1 : π - φ + N < b := by linarith
      rcases lt_or_gt_of_ne b2 with m2 | m2
      · have sb := dn0 b m1 (by linarith)
        have : {θ | a ≤ θ ∧ θ ≤ b ∧ (θ = π - φ + N ∨ θ = φ + (N + 2 * π) ∨ θ = π - φ + (N + 2 * π))} = ∅ := by
          ext θ
          simp only [Set.mem_ofPred_eq, Set.mem_empty_iff_false, iff_false]
          rintro ⟨h1, h2, h | h | h⟩ <;> linarith
        rw [this]
        simp [not_lt.2 sa.le, not_lt.2 sb.le]
      · rcases lt_or_gt_of_ne b3 with m3 | m3
        · have sb := up1 b m2 m3
          have : {θ | a ≤ θ ∧ θ ≤ b ∧ (θ = π - φ + N ∨ θ = φ + (N + 2 * π) ∨ θ = π - φ + (N + 2 * π))} =
              {φ + (N + 2 * π)} := by
            ext θ
            simp only [Set.mem_ofPred_eq, Set.mem_singleton_iff]
            constructor
            · rintro ⟨h1, h2, h | h | h⟩
              · linarith
              · exact h
              · linarith
            · rintro rfl
              exact ⟨by linarith, m2.le, Or.inr (Or.inl rfl)⟩
          rw [this]
          simp [sa.le, sb]
        · have sb := dn1 b m3 (by linarith)
          have : {θ | a ≤ θ ∧ θ ≤ b ∧ (θ = π - φ + N ∨ θ = φ + (N + 2 * π) ∨ θ = π - φ + (N + 2 * π))} =
              {φ + (N + 2 * π), π - φ + (N + 2 * π)} := by
            ext θ
            simp only [Set.mem_ofPred_eq, Set.mem_insert_iff, Set.mem_singleton_iff]
            constructor
            · rintro ⟨h1, h2, h | h | h⟩
              · linarith
              · exact Or.inl h
              · exact Or.inr h
            · rintro (rfl | rfl)
              · exact ⟨by linarith, m2.le, Or.inr (Or.inl rfl)⟩
              · exact ⟨by linarith, m3.le, Or.inr (Or.inr rfl)⟩
          rw [this, Set.ncard_pair (by intro e; linarith)]
          refine ⟨Set.toFinite _, ?_⟩
          simp [not_lt.2 sa.le, not_lt.2 sb.le]
  · have hk2 : 1 < |k| := lt_of_le_of_ne (not_lt.1 hk1) (Ne.symm hk)
    have hne : ∀ θ, sin θ ≠ k := fun θ e => by
      have := abs_sin_le_one θ
      rw [e] at this
      linarith
    have : {θ | a ≤ θ ∧ θ ≤ b ∧ sin θ = k} = ∅ := by
      ext θ
      simp only [Set.mem_ofPred_eq, Set.mem_empty_iff_false, iff_false]
      rintro ⟨-, -, h⟩
      exact hne θ h
    rw [this]
    refine ⟨Set.finite_empty, ?_⟩
    simp only [Set.ncard_empty, Nat.not_odd_zero, false_iff, not_not]
    rcases lt_abs.1 hk2 with h | h
    · have h1 := sin_le_one a
      have h2 := sin_le_one b
      constructor <;> intro h3 <;> linarith
    · have h1 := neg_one_le_sin a
      have h2 := neg_one_le_sin b
      constructor <;> intro h3 <;> linarith


theorem polar_inj {c : Point ℝ} {r a b : ℝ} (hr : 0 < r) (h1 : |a - b| < 2 * π) (h : polar c r a = polar c r b) : a = b := by
  have hx := congrArg Point.x h
  have hy := congrArg Point.y h
  simp only [polar, pt, add_right_inj, mul_eq_mul_left_iff, hr.ne', or_false] at hx hy
  have hc : cos (a - b) = 1 := by rw [cos_sub, hx, hy]; linarith [sin_sq_add_cos_sq b]
  obtain ⟨n, hn⟩ := (cos_eq_one_iff (a - b)).1 hc
  have pp := pi_pos
  rw [← hn, abs_mul, abs_of_pos (by positivity : 0 < 2 * π)] at h1
  have : |(n : ℝ)| < 1 := by
    by_contra hge
    have := mul_le_mul_of_nonneg_right (not_lt.1 hge) (by positivity : 0 ≤ 2 * π)
    linarith
  have : |n| < 1 := by exact_mod_cast this
  have hn0 : n = 0 := Int.abs_lt_one_iff.1 this
  rw [hn0] at hn
  simp at hn
  linarith

/-- heights on the same side when they are close and one is far -/
theorem same_side {y u v d : ℝ} (h : |u - v| ≤ d) (hd : d < |y - u|) : (y < u ↔ y < v) := by
  obtain ⟨h1, h2⟩ := abs_le.1 h
  rcases lt_abs.1 hd with h3 | h3
  · constructor <;> intro h4 <;> linarith
  · constructor <;> intro h4 <;> linarith

theorem level_arc {p : Point ℝ} {s : Seg} (ha : ArcOk s) (h1 : boxTol s < |p.y - s.start.y|)
    (h2 : boxTol s < |p.y - s.stop.y|) (hr : 1e-8 ≤ |s.radius ^ 2 - (p.y - s.center.y) ^ 2|) :
    (level p s).Finite ∧ (Odd (level p s).ncard ↔ ¬ (p.y < s.start.y ↔ p.y < s.stop.y)) := by
  have hpos := ha.pos
  have htol : boxTol s = slack s.radius := by unfold boxTol; rw [ha.kind]; rfl
  rw [htol] at h1 h2
  obtain ⟨k, hk⟩ : ∃ k, p.y = s.center.y + s.radius * k := ⟨(p.y - s.center.y) / s.radius, by field_simp; ring⟩
  have hends : ∀ q a, EndAt s.center s.radius q a → slack s.radius < |p.y - q.y| →
      sin a ≠ k ∧ (p.y < q.y ↔ k < sin a) := by
    rintro q a ⟨ρ, hρ, hs, rfl⟩ hd
    have hy : (polar s.center ρ a).y = s.center.y + ρ * sin a := rfl
    rw [hy] at hd ⊢
    have hcl : |(s.center.y + ρ * sin a) - (s.center.y + s.radius * sin a)| ≤ slack s.radius := by
      rw [show (s.center.y + ρ * sin a) - (s.center.y + s.radius * sin a) = (ρ - s.radius) * sin a by ring, abs_mul]
      calc _ ≤ |ρ - s.radius| * 1 := mul_le_mul_of_nonneg_left (abs_sin_le_one a) (abs_nonneg _)
        _ ≤ _ := by linarith
    refine ⟨?_, ?_⟩
    · intro e
      rw [hk, e, abs_sub_comm] at hd
      rw [e] at hcl
      linarith
    · rw [same_side hcl hd, hk]
      constructor
      · intro h; have := lt_of_mul_lt_mul_left (by linarith : s.radius * k < s.radius * sin a) hpos.le; exact this
      · intro h; have := mul_lt_mul_of_pos_left h hpos; linarith
  obtain ⟨n1, i1⟩ := hends _ _ ha.first h1
  obtain ⟨n2, i2⟩ := hends _ _ ha.last h2
  have hk1 : |k| ≠ 1 := by
    intro e
    have : k ^ 2 = 1 := by rw [← sq_abs, e]; norm_num
    rw [hk, show s.radius ^ 2 - (s.center.y + s.radius * k - s.center.y) ^ 2 = s.radius ^ 2 * (1 - k ^ 2) by ring, this] at hr
    norm_num at hr
  have himg : level p s = polar s.center s.radius '' {θ | s.startAngle ≤ θ ∧ θ ≤ s.endAngle ∧ sin θ = k} := by
    ext q
    unfold level
    simp only [Set.mem_ofPred_eq, Set.mem_image]
    rw [covers_arc ha.kind]
    constructor
    · rintro ⟨⟨a, b1, b2, rfl⟩, hy⟩
      refine ⟨a, ⟨b1, b2, ?_⟩, rfl⟩
      have hy : s.center.y + s.radius * sin a = s.center.y + s.radius * k := hy.trans hk
      exact mul_left_cancel₀ hpos.ne' (by linarith)
    · rintro ⟨a, ⟨b1, b2, b3⟩, rfl⟩
      refine ⟨⟨a, b1, b2, rfl⟩, ?_⟩
      show s.center.y + s.radius * sin a = p.y
      rw [b3, hk]
  have hse : sin s.startAngle ≠ k ∧ sin s.endAngle ≠ k ∧
      ((k < sin s.startAngle ↔ k < sin s.endAngle) ↔ (p.y < s.start.y ↔ p.y < s.stop.y)) := by
    unfold Seg.startAngle Seg.endAngle
    cases s.cw
    · simp only [Bool.false_eq_true, if_false]
      exact ⟨n1, n2, by rw [i1, i2]⟩
    · simp only [if_true]
      exact ⟨n2, n1, by rw [i1, i2]; exact Iff.comm⟩
  obtain ⟨hf, ho⟩ := odd_angles ha.le ha.turn hse.1 hse.2.1 hk1
  have hinj : Set.InjOn (polar s.center s.radius) {θ | s.startAngle ≤ θ ∧ θ ≤ s.endAngle ∧ sin θ = k} := by
    rintro a ⟨a1, a2, -⟩ b ⟨b1, b2, -⟩ e
    refine polar_inj hpos ?_ e
    have := ha.turn
    rw [abs_lt]
    constructor <;> linarith
  rw [himg]
  refine ⟨hf.image _, ?_⟩
  rw [hinj.ncard_image, ho, hse.2.2]

theorem level_circle {p : Point ℝ} {s : Seg} (hk : s.kind = .circle)
    (hr : 1e-8 ≤ |s.radius ^ 2 - (p.y - s.center.y) ^ 2|) :
    (level p s).Finite ∧ Even (level p s).ncard := by
  by_cases hd : s.radius ^ 2 - (p.y - s.center.y) ^ 2 < 0
  · have : level p s = ∅ := by
      ext q
      unfold level
      simp only [Set.mem_ofPred_eq, Set.mem_empty_iff_false, iff_false]
      rintro ⟨hc, hy⟩
      unfold Covers at hc
      rw [hk] at hc
      have := hc.1
      unfold planar2 at this
      rw [hy] at this
      nlinarith [sq_nonneg (q.x - s.center.x)]
    rw [this]
    simp
  · have hd : 0 ≤ s.radius ^ 2 - (p.y - s.center.y) ^ 2 := not_lt.1 hd
    have hd' : 0 < s.radius ^ 2 - (p.y - s.center.y) ^ 2 := by
      rw [abs_of_nonneg hd] at hr
      norm_num at hr
      linarith
    have hs := Real.sq_sqrt hd
    have hsp := Real.sqrt_pos.2 hd'
    set h := √(s.radius ^ 2 - (p.y - s.center.y) ^ 2) with hh
    have : level p s = {pt (s.center.x + h) p.y, pt (s.center.x - h) p.y} := by
      ext q
      unfold level
      simp only [Set.mem_ofPred_eq, Set.mem_insert_iff, Set.mem_singleton_iff]
      unfold Covers
      rw [hk]
      unfold OnCircle planar2
      simp only
      constructor
      · rintro ⟨⟨h1, h2⟩, h3⟩
        have : (q.x - s.center.x) ^ 2 = h ^ 2 := by rw [h3] at h1; rw [hs]; linarith
        rcases sq_eq_sq_iff_eq_or_eq_neg.1 this with e | e
        · left; unfold pt; ext
          · simp only; linarith
          · exact h3
          · exact h2
        · right; unfold pt; ext
          · simp only; linarith
          · exact h3
          · exact h2
      · rintro (rfl | rfl)
        · refine ⟨⟨?_, rfl⟩, rfl⟩
          simp only [pt]
          linear_combination hs
        · refine ⟨⟨?_, rfl⟩, rfl⟩
          simp only [pt]
          linear_combination hs
    rw [this]
    refine ⟨Set.toFinite _, ?_⟩
    rw [Set.ncard_pair]
    · decide
    · intro e
      have := congrArg Point.x e
      simp only [pt] at this
      linarith

theorem level_line {p : Point ℝ} {s : Seg} (hm : Made s) (hk : s.kind = .line) (h1 : p.y ≠ s.start.y)
    (h2 : p.y ≠ s.stop.y) :
    (level p s).Finite ∧ (Odd (level p s).ncard ↔ ¬ (p.y < s.start.y ↔ p.y < s.stop.y)) := by
  obtain ⟨-, -, -, -, cl⟩ := line_ends hm hk
  by_cases hs : (p.y < s.start.y ↔ p.y < s.stop.y)
  · have : level p s = ∅ := by
      ext q
      unfold level
      simp only [Set.mem_ofPred_eq, Set.mem_empty_iff_false, iff_false]
      rintro ⟨hc, hy⟩
      obtain ⟨t, t1, t2, rfl⟩ := (cl q).1 hc
      have hy : s.start.y + t * (s.stop.y - s.start.y) = p.y := hy
      rcases lt_or_gt_of_ne h1 with g | g
      · have g2 := hs.1 g
        rcases le_total t (1 / 2) with ht | ht
        · nlinarith [mul_nonneg t1 (sub_nonneg.2 g2.le), mul_pos (by linarith : 0 < 1 - t) (sub_pos.2 g)]
        · nlinarith [mul_pos (by linarith : 0 < t) (sub_pos.2 g2), mul_nonneg (sub_nonneg.2 t2) (sub_nonneg.2 g.le)]
      · have g2 : s.stop.y < p.y := lt_of_le_of_ne (not_lt.1 (fun e => absurd (hs.2 e) (not_lt.2 g.le))) (Ne.symm h2)
        rcases le_total t (1 / 2) with ht | ht
        · nlinarith [mul_nonneg t1 (sub_nonneg.2 g2.le), mul_pos (by linarith : 0 < 1 - t) (sub_pos.2 g)]
        · nlinarith [mul_pos (by linarith : 0 < t) (sub_pos.2 g2), mul_nonneg (sub_nonneg.2 t2) (sub_nonneg.2 g.le)]
    rw [this]
    simp [hs]
  · have hne : s.stop.y - s.start.y ≠ 0 := by
      intro e
      apply hs
      rw [show s.stop.y = s.start.y by linarith]
    have : level p s = {pt (s.start.x + (p.y - s.start.y) / (s.stop.y - s.start.y) * (s.stop.x - s.start.x)) p.y} := by
      ext q
      unfold level
      simp only [Set.mem_ofPred_eq, Set.mem_singleton_iff]
      rw [cl]
      constructor
      · rintro ⟨⟨t, t1, t2, rfl⟩, hy⟩
        have hy : s.start.y + t * (s.stop.y - s.start.y) = p.y := hy
        have : t = (p.y - s.start.y) / (s.stop.y - s.start.y) := by rw [eq_div_iff hne]; linarith
        rw [← this, hy]
      · rintro rfl
        refine ⟨⟨(p.y - s.start.y) / (s.stop.y - s.start.y), ?_, ?_, ?_⟩, rfl⟩
        · rcases lt_or_gt_of_ne h1 with g | g
          · have : s.stop.y < p.y := lt_of_le_of_ne (not_lt.1 (fun e => hs ⟨fun _ => e, fun _ => g⟩)) (Ne.symm h2)
            exact div_nonneg_of_nonpos (by linarith) (by linarith)
          · have : p.y < s.stop.y := by
              by_contra e
              exact hs ⟨fun e => absurd e (not_lt.2 g.le), fun e' => absurd e' e⟩
            exact div_nonneg (by linarith) (by linarith)
        · rcases lt_or_gt_of_ne h1 with g | g
          · have : s.stop.y < p.y := lt_of_le_of_ne (not_lt.1 (fun e => hs ⟨fun _ => e, fun _ => g⟩)) (Ne.symm h2)
            exact (div_le_one_of_neg (by linarith)).2 (by linarith)
          · have : p.y < s.stop.y := by
              by_contra e
              exact hs ⟨fun e => absurd e (not_lt.2 g.le), fun e' => absurd e' e⟩
            exact (div_le_one (by linarith)).2 (by linarith)
        · unfold pt
          ext
          · rfl
          · simp only; rw [div_mul_cancel₀ _ hne]; ring
          · rfl
    rw [this]
    simp [hs]


theorem ite_nodup (P : Prop) [Decidable P] (a b : Point ℝ) (f : Geo.Flag) (h : a ≠ b) :
    (if P then (⟨[b, a], f, true⟩ : Hits) else ⟨[a, b], f, true⟩).pts.Nodup := by
  split <;> simp [h, h.symm]

/-- no point is reported twice -/
theorem arcLine_nodup {arc : Seg} {arcS arcE lS lE m0 m1 : Point ℝ} (hne : 0 < planar2 lS lE)
    (hD : 1e-6 ≤ |chord arc.center arc.radius lS lE|) : (arcLine arc arcS arcE lS lE m0 m1).pts.Nodup := by
  unfold arcLine
  simp only
  rw [quad_disc]
  have hnt : ¬ |chord arc.center arc.radius lS lE| < 1e-6 := not_lt.2 hD
  rw [if_neg (by rintro ⟨h, -⟩; exact hnt h)]
  have hA : 0 < quadA lS lE := by rw [quadA_eq]; exact hne
  generalize chord arc.center arc.radius lS lE = D at *
  by_cases hneg : D < 0
  · rw [if_pos hneg]; simp
  · rw [if_neg hneg]
    simp only [hnt, if_false]
    have hDpos : 0 < D := by
      rw [abs_of_nonneg (not_lt.1 hneg)] at hD
      norm_num at hD
      linarith
    have hs := Real.sqrt_pos.2 hDpos
    have hne01 : (-quadB arc.center lS lE + √D) / (2 * quadA lS lE) ≠ (-quadB arc.center lS lE - √D) / (2 * quadA lS lE) := by
      intro e
      have h2A : 2 * quadA lS lE ≠ 0 := by positivity
      rw [div_left_inj' h2A] at e
      linarith
    generalize (-quadB arc.center lS lE + √D) / (2 * quadA lS lE) = t0 at *
    generalize (-quadB arc.center lS lE - √D) / (2 * quadA lS lE) = t1 at *
    have hpt : onLine lS lE t0 ≠ onLine lS lE t1 := by
      intro e
      have hx := congrArg Point.x e
      have hy := congrArg Point.y e
      simp only [onLine] at hx hy
      have hx' : (t0 - t1) * (lS.x - lE.x) = 0 := by linear_combination hx
      have hy' : (t0 - t1) * (lS.y - lE.y) = 0 := by linear_combination hy
      have ht := sub_ne_zero.2 hne01
      have h1 := (mul_eq_zero.1 hx').resolve_left ht
      have h2 := (mul_eq_zero.1 hy').resolve_left ht
      unfold planar2 at hne
      rw [h1, h2] at hne
      norm_num at hne
    obtain ⟨cands, hc⟩ : ∃ cands, cands =
      (if t0 ≥ 0 ∧ t0 ≤ 1 then [candidate arc.center arcS arcE (arc.kind == .circle) lS lE t0] else []) ++
        (if ¬ False ∧ t1 ≥ 0 ∧ t1 ≤ 1 then [candidate arc.center arcS arcE (arc.kind == .circle) lS lE t1] else []) := ⟨_, rfl⟩
    rw [← hc]
    have hlen : cands.length ≤ 2 := by
      rw [hc, List.length_append]
      split <;> split <;> simp
    have hnd : (cands.map Prod.fst).Nodup := by
      rw [hc]
      split <;> split <;> simp [candidate, hpt]
    clear hc
    match cands, hlen, hnd with
    | [], _, _ => simp
    | [q], _, _ =>
      simp only
      split
      · simp [pickCircle]
      · simp only [List.filter_cons, List.filter_nil]
        split <;> simp [pickArc]
    | [q, q'], _, hnd =>
      have hq : q.1 ≠ q'.1 := by simpa using hnd
      simp only
      split
      · simp only [pickCircle]
        exact ite_nodup _ _ _ _ hq
      · simp only [List.filter_cons, List.filter_nil]
        split
        · split
          · simp only [pickArc, if_false]
            exact ite_nodup _ _ _ _ hq.symm
          · simp [pickArc]
        · split <;> simp [pickArc]
    | _ :: _ :: _ :: _, h, _ => simp at h

/-- the ray of `IsInside`: a horizontal line from `p` of at least 5 -/
structure RayTo (p : Point ℝ) (X : ℝ) (ray : Seg) : Prop where
  made : Made ray
  kind : ray.kind = .line
  start : ray.start = p
  stop : ray.stop = ⟨X, p.y, 0⟩
  flat : p.z = 0
  long : 5 ≤ |X - p.x|

theorem RayTo.covers {p : Point ℝ} {X : ℝ} {ray : Seg} (h : RayTo p X ray) (q : Point ℝ) :
    Covers ray q ↔ q.z = 0 ∧ q.y = p.y ∧ ((p.x ≤ q.x ∧ q.x ≤ X) ∨ (X ≤ q.x ∧ q.x ≤ p.x)) := by
  obtain ⟨-, -, -, -, cl⟩ := line_ends h.made h.kind
  rw [cl, h.start, h.stop]
  have hne : X - p.x ≠ 0 := by
    intro e
    have := h.long
    rw [e] at this
    norm_num at this
  unfold OnLine pt
  simp only [sub_self, mul_zero, add_zero]
  constructor
  · rintro ⟨t, t1, t2, rfl⟩
    refine ⟨rfl, rfl, ?_⟩
    simp only
    rcases le_total p.x X with g | g
    · left
      constructor <;> nlinarith
    · right
      constructor <;> nlinarith
  · rintro ⟨z, y, hx⟩
    refine ⟨(q.x - p.x) / (X - p.x), ?_, ?_, ?_⟩
    · rcases hx with ⟨a, b⟩ | ⟨a, b⟩
      · exact div_nonneg (by linarith) (by linarith)
      · exact div_nonneg_of_nonpos (by linarith) (by linarith)
    · rcases hx with ⟨a, b⟩ | ⟨a, b⟩
      · rcases (lt_or_gt_of_ne hne) with g | g
        · linarith
        · exact (div_le_one g).2 (by linarith)
      · rcases (lt_or_gt_of_ne hne) with g | g
        · exact (div_le_one_of_neg g).2 (by linarith)
        · linarith
    · ext
      · simp only; rw [div_mul_cancel₀ _ hne]; ring
      · exact y
      · exact z

/-- the points of a segment on the ray -/
def hitSet (ray s : Seg) : Set (Point ℝ) := {q | Covers s q ∧ Covers ray q}

/-- The segment lies in the box given by the corners, which are not too far away; the ray ends 5 beyond a side of it. -/
structure Frame (lo hi p : Point ℝ) (X : ℝ) : Prop where
  inX : lo.x ≤ p.x ∧ p.x ≤ hi.x
  inY : lo.y ≤ p.y ∧ p.y ≤ hi.y
  side : X = lo.x - 5 ∨ X = hi.x + 5
  small : -10 ^ 7 ≤ lo.x ∧ -10 ^ 7 ≤ lo.y ∧ hi.x ≤ 10 ^ 7 ∧ hi.y ≤ 10 ^ 7

theorem matches_height {q e : Point ℝ} (hq : norm2 q ≤ 10 ^ 15) (he : norm2 e ≤ 10 ^ 15) (h : 4e-8 < |q.y - e.y|) :
    PointMatches q e 1e-8 = false := by
  apply no_match (by norm_num) hq he
  have : (4e-8) ^ 2 < (q.y - e.y) ^ 2 := by
    rw [← sq_abs (q.y - e.y)]
    exact pow_lt_pow_left₀ h (by norm_num) two_ne_zero
  unfold dist2
  nlinarith [sq_nonneg (q.x - e.x), sq_nonneg (q.z - e.z)]

theorem norm_small {q : Point ℝ} (hx : |q.x| ≤ 2 * 10 ^ 7) (hy : |q.y| ≤ 2 * 10 ^ 7) (hz : q.z = 0) : norm2 q ≤ 10 ^ 15 := by
  unfold norm2
  rw [hz, ← sq_abs q.x, ← sq_abs q.y]
  have h1 := pow_le_pow_left₀ (abs_nonneg q.x) hx 2
  have h2 := pow_le_pow_left₀ (abs_nonneg q.y) hy 2
  linarith


/-- what is known of a segment of the outline: it lies in the box, up to 1, and its ends are not too far away -/
structure Held (lo hi : Point ℝ) (s : Seg) : Prop where
  made : Made s
  inside : ∀ q, Covers s q → InBox 1 (lo, hi) q
  ends : s.kind = .circle ∨ (norm2 s.start ≤ 10 ^ 15 ∧ norm2 s.stop ≤ 10 ^ 15)

theorem Frame.width {lo hi p : Point ℝ} {X : ℝ} (f : Frame lo hi p X) : |X - p.x| ≤ hi.x - lo.x + 5 ∧ 5 ≤ |X - p.x| := by
  obtain ⟨a, b⟩ := f.inX
  rcases f.side with h | h
  · rw [h, abs_of_nonpos (by linarith)]; constructor <;> linarith
  · rw [h, abs_of_nonneg (by linarith)]; constructor <;> linarith

theorem Frame.point {lo hi p q : Point ℝ} {X : ℝ} (f : Frame lo hi p X) (hx : InBox 1 (lo, hi) q) (hy : q.y = p.y)
    (hz : q.z = 0) : norm2 q ≤ 10 ^ 15 := by
  obtain ⟨a, b, c, d⟩ := f.small
  obtain ⟨h1, h2, -, -⟩ := hx
  obtain ⟨g1, g2⟩ := f.inY
  simp only at h1 h2
  apply norm_small _ _ hz
  · rw [abs_le]; constructor <;> linarith
  · rw [hy, abs_le]; constructor <;> linarith

theorem covers_flat {s : Seg} {q : Point ℝ} (h : Covers s q) : q.z = 0 := by
  unfold Covers at h
  split at h
  · exact h.elim
  · obtain ⟨t, -, -, rfl⟩ := h; rfl
  · exact h.2
  · obtain ⟨a, -, -, rfl⟩ := h; rfl

theorem count_one {prev s next : Seg} {y : ℝ} {q : Point ℝ}
    (h : s.kind = .circle ∨ (PointMatches q s.start 1e-8 = false ∧ PointMatches q s.stop 1e-8 = false)) :
    nodeCount prev s next y q = 1 := by
  unfold nodeCount
  rcases h with h | ⟨h1, h2⟩
  · rw [if_pos h]
  · by_cases hk : s.kind = .circle
    · rw [if_pos hk]
    · rw [if_neg hk]; simp [h1, h2]

theorem sum_ones {l : List (Point ℝ)} {f : Point ℝ → Nat} (h : ∀ q ∈ l, f q = 1) : (l.map f).sum = l.length := by
  induction l with
  | nil => rfl
  | cons a l ih =>
    rw [List.map_cons, List.sum_cons, h a (by simp), ih fun q hq => h q (by simp [hq]), List.length_cons]
    omega

theorem count_hits {ray prev s next : Seg} {y : ℝ}
    (hret : (intersections s ray).ret = true ↔ (intersections s ray).pts ≠ [])
    (hnd : (intersections s ray).pts.Nodup) (hm : ∀ q, q ∈ (intersections s ray).pts ↔ q ∈ hitSet ray s)
    (hn : ∀ q ∈ hitSet ray s, nodeCount prev s next y q = 1) :
    segCount ray prev s next y = (hitSet ray s).ncard := by
  classical
  have e : hitSet ray s = ((intersections s ray).pts.toFinset : Set (Point ℝ)) := by
    ext q; rw [Finset.mem_coe, List.mem_toFinset, hm]
  have h2 : segCount ray prev s next y = (intersections s ray).pts.length := by
    unfold segCount
    simp only
    split
    · exact sum_ones fun q hq => hn q ((hm q).1 hq)
    · rename_i h
      rw [hret, not_not] at h
      rw [h]; rfl
  rw [h2, e, Set.ncard_coe_finset, List.toFinset_card_of_nodup hnd]

theorem count_line {lo hi p : Point ℝ} {X : ℝ} {ray prev s next : Seg} (hr : RayTo p X ray) (f : Frame lo hi p X)
    (hs : Held lo hi s) (hk : s.kind = .line) (hc : Clear (hi.x - lo.x) p s) :
    segCount ray prev s next p.y = (hitSet ray s).ncard := by
  unfold Clear at hc
  rw [hk] at hc
  obtain ⟨c0, c1, c2, c3⟩ := hc
  obtain ⟨w1, w2⟩ := f.width
  obtain ⟨gs, ge, -, -, cs⟩ := line_ends hs.made hk
  rcases hs.ends with h | ⟨n1, n2⟩
  · rw [hk] at h; cases h
  have hcount : ∀ q ∈ hitSet ray s, nodeCount prev s next p.y q = 1 := by
    intro q hq
    have hy := ((hr.covers q).1 hq.2).2.1
    have hn := f.point (hs.inside q hq.1) hy (covers_flat hq.1)
    have hd := abs_nonneg (s.stop.y - s.start.y)
    apply count_one
    right
    constructor
    · apply matches_height hn n1; rw [hy]; nlinarith
    · apply matches_height hn n2; rw [hy]; nlinarith
  rcases c3 with ⟨e, c3⟩ | c3
  · obtain ⟨h1, h2, -, h4⟩ := C63_parallel hs.made hr.made hk hr.kind
      (by unfold across; rw [hr.start, hr.stop, e]; ring)
      (by
        unfold across; rw [hr.start, ← e]
        rw [show (p.x - s.start.x) * (s.start.y - s.start.y) - (p.y - s.start.y) * (s.stop.x - s.start.x) =
          -((s.stop.x - s.start.x) * (p.y - s.start.y)) by ring, abs_neg, abs_mul]
        exact c3)
    have he : hitSet ray s = ∅ := by
      ext q
      simp only [Set.mem_empty_iff_false, iff_false]
      exact h4 q
    rw [he, Set.ncard_empty]
    unfold segCount
    simp [h1]
  · have hac : 1e-6 ≤ |across s.start s.stop ray.start ray.stop| := by
      unfold across
      rw [hr.start, hr.stop]
      rw [show (X - p.x) * (s.stop.y - s.start.y) - (p.y - p.y) * (s.stop.x - s.start.x) =
        (X - p.x) * (s.stop.y - s.start.y) by ring, abs_mul]
      nlinarith [abs_nonneg (s.stop.y - s.start.y)]
    obtain ⟨m1, m2, m3⟩ := C63_meet hs.made hr.made hk hr.kind hac
    by_cases hex : ∃ q, q ∈ hitSet ray s
    · obtain ⟨q, hq⟩ := hex
      obtain ⟨hret, hpts⟩ := m1 q hq.1 hq.2
      apply count_hits
      · rw [hret, hpts]; simp
      · rw [hpts]; simp
      · intro q'
        rw [hpts, List.mem_singleton]
        constructor
        · rintro rfl; exact hq
        · intro h'
          have := (m1 q' h'.1 h'.2).2
          rw [hpts] at this
          simpa using this.symm
      · exact hcount
    · have he : hitSet ray s = ∅ := Set.eq_empty_of_forall_notMem fun q hq => hex ⟨q, hq⟩
      rw [he, Set.ncard_empty]
      have : (intersections s ray).ret = false := by
        by_contra hne
        obtain ⟨q, t, u, -, ht, hu, ⟨t1, t2⟩, ⟨u1, u2⟩, -⟩ := m3 (by simpa using hne)
        apply hex
        unfold AtParam at ht hu
        rw [hr.start, hr.stop] at hu
        have hy : q.y = p.y := by rw [hu]; simp [pt]
        have hy2 : p.y = s.start.y + t * (s.stop.y - s.start.y) := by rw [← hy, ht]; rfl
        have t3 : 0 ≤ t := by
          by_contra h
          rw [not_le] at h
          have : |p.y - s.start.y| ≤ 1e-8 * |s.stop.y - s.start.y| := by
            rw [hy2, add_sub_cancel_left, abs_mul]
            apply mul_le_mul_of_nonneg_right _ (abs_nonneg _)
            rw [abs_of_neg h]; linarith
          linarith
        have t4 : t ≤ 1 := by
          by_contra h
          rw [not_le] at h
          have : |p.y - s.stop.y| ≤ 1e-8 * |s.stop.y - s.start.y| := by
            rw [hy2, show s.start.y + t * (s.stop.y - s.start.y) - s.stop.y = (t - 1) * (s.stop.y - s.start.y) by ring, abs_mul]
            apply mul_le_mul_of_nonneg_right _ (abs_nonneg _)
            rw [abs_of_pos (by linarith)]; linarith
          linarith
        have hcov : Covers s q := (cs q).2 ⟨t, t3, t4, ht⟩
        have hqx : q.x = p.x + u * (X - p.x) := by rw [hu]; rfl
        have hb := hs.inside q hcov
        have hfar := c0 q hcov hy
        rw [hqx, add_sub_cancel_left, abs_mul] at hfar
        refine ⟨q, hcov, (hr.covers q).2 ⟨covers_flat hcov, hy, ?_⟩⟩
        have u3 : 0 ≤ u := by
          by_contra h
          rw [not_le] at h
          rw [abs_of_neg h] at hfar
          have : -u * |X - p.x| ≤ 1e-8 * (hi.x - lo.x + 5) :=
            mul_le_mul (by linarith) w1 (abs_nonneg _) (by norm_num)
          linarith
        obtain ⟨hb1, hb2, -, -⟩ := hb
        simp only at hb1 hb2
        obtain ⟨a, b⟩ := f.inX
        rcases f.side with h | h
        · right
          constructor
          · rw [h]; linarith
          · rw [hqx, h]; nlinarith
        · left
          constructor
          · rw [hqx, h]; nlinarith
          · rw [h]; linarith
      unfold segCount
      simp [this]

/-- the discriminant for a horizontal line -/
theorem chord_ray {p c : Point ℝ} {R X : ℝ} {ray : Seg} (hr : RayTo p X ray) :
    chord c R ray.start ray.stop = 4 * (X - p.x) ^ 2 * (R ^ 2 - (p.y - c.y) ^ 2) := by
  unfold chord planar2 across
  rw [hr.start, hr.stop]
  simp only
  ring

theorem chord_clear {p c : Point ℝ} {R X : ℝ} {ray : Seg} (hr : RayTo p X ray) (h : 1e-8 ≤ |R ^ 2 - (p.y - c.y) ^ 2|) :
    1e-6 ≤ |chord c R ray.start ray.stop| := by
  rw [chord_ray hr, abs_mul, abs_mul, abs_of_pos (by norm_num : (0:ℝ) < 4), abs_of_nonneg (sq_nonneg _), ← sq_abs]
  have h5 : 25 ≤ |X - p.x| ^ 2 := by nlinarith [hr.long]
  nlinarith [abs_nonneg (R ^ 2 - (p.y - c.y) ^ 2)]

theorem RayTo.apart {p : Point ℝ} {X : ℝ} {ray : Seg} (hr : RayTo p X ray) :
    ray.start.x ≠ ray.stop.x ∨ ray.start.y ≠ ray.stop.y := by
  left
  rw [hr.start, hr.stop]
  simp only
  intro e
  have := hr.long
  rw [e] at this
  norm_num at this

theorem count_circle {lo hi p : Point ℝ} {X : ℝ} {ray prev s next : Seg} (hr : RayTo p X ray)
    (hk : s.kind = .circle) (hc : Clear (hi.x - lo.x) p s) :
    segCount ray prev s next p.y = (hitSet ray s).ncard := by
  unfold Clear at hc
  rw [hk] at hc
  have hD := chord_clear hr hc.2
  obtain ⟨h1, h2⟩ := C64_circle_line (Or.inl ⟨rfl, rfl⟩) hr.made hk hr.kind hr.apart hD
  refine count_hits h2 ?_ h1 fun q _ => count_one (Or.inl hk)
  obtain ⟨gs, ge, -, -, -⟩ := line_ends hr.made hr.kind
  have hi' : intersections s ray = arcLine s s.start s.stop ray.start ray.stop s.start s.stop := by
    unfold intersections checkArcLine; rw [hk, hr.kind]; simp only [or_true, if_true, gs, ge]
  rw [hi']
  exact arcLine_nodup (line_positive hr.apart) hD

theorem count_arc {lo hi p : Point ℝ} {X : ℝ} {ray prev s next : Seg} (hr : RayTo p X ray) (f : Frame lo hi p X)
    (hs : Held lo hi s) (hk : s.kind = .arc) (hc : Clear (hi.x - lo.x) p s) :
    segCount ray prev s next p.y = (hitSet ray s).ncard := by
  unfold Clear at hc
  rw [hk] at hc
  obtain ⟨c0, c1, c2, -, c3⟩ := hc
  rcases hs.ends with h | ⟨n1, n2⟩
  · rw [hk] at h; cases h
  have hb : 0 ≤ boxTol s := by
    unfold boxTol; rw [hk]; exact le_max_of_le_left (by norm_num)
  have hD := chord_clear hr c3
  obtain ⟨h1, h2, h3⟩ := C64_arc_line hs.made hr.made hk hr.kind hr.apart hD
  refine count_hits h3 ?_ (fun q => ⟨fun hq => ?_, fun hq => h1 q hq.1 hq.2⟩) fun q hq => count_one (Or.inr ?_)
  · obtain ⟨gs, ge, -, -, -⟩ := line_ends hr.made hr.kind
    have hi' : intersections s ray = arcLine s s.start s.stop ray.start ray.stop s.start s.stop := by
      unfold intersections checkArcLine; rw [hk, hr.kind]; simp only [true_or, if_true, gs, ge]
    rw [hi']
    exact arcLine_nodup (line_positive hr.apart) hD
  · obtain ⟨g1, -, g2⟩ := h2 q hq
    have hy := ((hr.covers q).1 g1).2.1
    rcases g2 with g2 | ⟨-, g2⟩ | ⟨-, g2⟩
    · exact ⟨g2, g1⟩
    · rw [hy] at g2; linarith
    · rw [hy] at g2; linarith
  · have hy := ((hr.covers q).1 hq.2).2.1
    have hn := f.point (hs.inside q hq.1) hy (covers_flat hq.1)
    constructor
    · apply matches_height hn n1; rw [hy]; linarith
    · apply matches_height hn n2; rw [hy]; linarith

theorem count_seg {lo hi p : Point ℝ} {X : ℝ} {ray prev s next : Seg} (hr : RayTo p X ray) (f : Frame lo hi p X)
    (hs : Held lo hi s) (hc : Clear (hi.x - lo.x) p s) : segCount ray prev s next p.y = (hitSet ray s).ncard := by
  cases hk : s.kind with
  | none => unfold Clear at hc; rw [hk] at hc; exact hc.2.elim
  | line => exact count_line hr f hs hk hc
  | arc => exact count_arc hr f hs hk hc
  | circle => exact count_circle hr hk hc

/-- the points of a segment at the height of `p` and to the right of it -/
def rightOf (p : Point ℝ) (s : Seg) : Set (Point ℝ) := {q | Covers s q ∧ q.y = p.y ∧ p.x < q.x}

theorem hit_side {lo hi p : Point ℝ} {X : ℝ} {ray s : Seg} (hr : RayTo p X ray) (f : Frame lo hi p X)
    (hs : Held lo hi s) (hc : Clear (hi.x - lo.x) p s) :
    (X = lo.x - 5 → hitSet ray s = leftOf p s) ∧ (X = hi.x + 5 → hitSet ray s = rightOf p s) := by
  obtain ⟨a, b⟩ := f.inX
  have hfar : ∀ q, Covers s q → q.y = p.y → q.x ≠ p.x := by
    intro q h1 h2 e
    have := hc.1 q h1 h2
    rw [e, sub_self, abs_zero] at this
    nlinarith
  constructor
  · intro hX
    ext q
    unfold hitSet leftOf
    simp only [Set.mem_ofPred_eq, hr.covers]
    constructor
    · rintro ⟨h1, -, h2, h3⟩
      refine ⟨h1, h2, lt_of_le_of_ne ?_ (hfar q h1 h2)⟩
      rcases h3 with h3 | h3
      · linarith
      · exact h3.2
    · rintro ⟨h1, h2, h3⟩
      refine ⟨h1, covers_flat h1, h2, Or.inr ⟨?_, h3.le⟩⟩
      have := (hs.inside q h1).1
      simp only at this
      rw [hX]; linarith
  · intro hX
    ext q
    unfold hitSet rightOf
    simp only [Set.mem_ofPred_eq, hr.covers]
    constructor
    · rintro ⟨h1, -, h2, h3⟩
      refine ⟨h1, h2, lt_of_le_of_ne ?_ (hfar q h1 h2).symm⟩
      rcases h3 with h3 | h3
      · exact h3.1
      · linarith
    · rintro ⟨h1, h2, h3⟩
      refine ⟨h1, covers_flat h1, h2, Or.inl ⟨h3.le, ?_⟩⟩
      have := (hs.inside q h1).2.1
      simp only at this
      rw [hX]; linarith

theorem level_finite {w : ℝ} {p : Point ℝ} {s : Seg} (hm : Made s) (hc : Clear w p s) : (level p s).Finite ∧
    ((s.kind = .circle ∧ Even (level p s).ncard) ∨
     (s.kind ≠ .circle ∧ (Odd (level p s).ncard ↔ ¬ (p.y < s.start.y ↔ p.y < s.stop.y)))) := by
  unfold Clear at hc
  cases hk : s.kind with
  | none => rw [hk] at hc; exact hc.2.elim
  | line =>
    rw [hk] at hc
    obtain ⟨-, c1, c2, -⟩ := hc
    have hd := abs_nonneg (s.stop.y - s.start.y)
    have := level_line hm hk (p := p) (by intro e; rw [e, sub_self, abs_zero] at c1; nlinarith)
      (by intro e; rw [e, sub_self, abs_zero] at c2; nlinarith)
    exact ⟨this.1, Or.inr ⟨by simp, this.2⟩⟩
  | arc =>
    rw [hk] at hc
    obtain ⟨-, c1, c2, -, c3⟩ := hc
    have := level_arc ((made_ok hm).arc hk) (p := p) (by linarith) (by linarith) c3
    exact ⟨this.1, Or.inr ⟨by simp, this.2⟩⟩
  | circle =>
    rw [hk] at hc
    have := level_circle hk hc.2
    exact ⟨this.1, Or.inl ⟨rfl, this.2⟩⟩

theorem level_parts {w : ℝ} (hw : 0 ≤ w) {p : Point ℝ} {s : Seg} (hm : Made s) (hc : Clear w p s) :
    (level p s).ncard = (leftOf p s).ncard + (rightOf p s).ncard := by
  have hf := (level_finite hm hc).1
  have e : level p s = leftOf p s ∪ rightOf p s := by
    ext q
    unfold level leftOf rightOf
    simp only [Set.mem_union, Set.mem_ofPred_eq]
    constructor
    · rintro ⟨h1, h2⟩
      have : q.x ≠ p.x := by
        intro e
        have := hc.1 q h1 h2
        rw [e, sub_self, abs_zero] at this
        nlinarith
      rcases lt_or_gt_of_ne this with h | h
      · exact Or.inl ⟨h1, h2, h⟩
      · exact Or.inr ⟨h1, h2, h⟩
    · rintro (⟨h1, h2, -⟩ | ⟨h1, h2, -⟩) <;> exact ⟨h1, h2⟩
  rw [e] at hf ⊢
  apply Set.ncard_union_eq _ (hf.subset Set.subset_union_left) (hf.subset Set.subset_union_right)
  rw [Set.disjoint_left]
  rintro q ⟨-, -, h⟩ ⟨-, -, h'⟩
  linarith

theorem clear_stop {w : ℝ} {p : Point ℝ} {s : Seg} (hk : s.kind ≠ .circle) (hc : Clear w p s) : 4e-8 < |p.y - s.stop.y| := by
  obtain ⟨-, hc⟩ := hc
  split at hc
  · exact hc.elim
  · nlinarith [abs_nonneg (s.stop.y - s.start.y), hc.2.1]
  · rename_i h
    have hb : 0 ≤ boxTol s := by
      unfold boxTol; rw [h]; exact le_max_of_le_left (by norm_num)
    linarith [hc.2.1]
  · exact absurd ‹s.kind = .circle› hk

theorem side_of_match {p a b : Point ℝ} (ha : norm2 a ≤ 10 ^ 15) (hb : norm2 b ≤ 10 ^ 15)
    (hm : PointMatches a b 1e-8 = true) (hc : 4e-8 < |p.y - a.y|) : (p.y < a.y ↔ p.y < b.y) := by
  apply same_side _ hc
  by_contra h
  rw [not_le] at h
  rw [matches_height ha hb h] at hm
  cases hm

/-- in a clear chain of lines and arcs the number of points at the height of `p` is odd just when the two ends of the
chain are on opposite sides of that height -/
theorem chain_parity {w : ℝ} {p : Point ℝ} (l : List Seg) (hne : l ≠ []) (hm : ∀ s ∈ l, Made s) (hp : Pieces l)
    (hc : ∀ s ∈ l, Clear w p s) (hs : ∀ s ∈ l, norm2 s.start ≤ 10 ^ 15 ∧ norm2 s.stop ≤ 10 ^ 15) (hch : Chained l) :
    ∃ f e, l.head? = some f ∧ l.getLast? = some e ∧
      (Odd ((l.map fun s => (level p s).ncard).sum) ↔ ¬ (p.y < f.start.y ↔ p.y < e.stop.y)) := by
  induction l with
  | nil => exact absurd rfl hne
  | cons s l ih =>
    have hk : s.kind ≠ .circle := by
      rcases hp s (by simp) with h | h <;> simp [h]
    have h1 := ((level_finite (hm s (by simp)) (hc s (by simp))).2.resolve_left fun h => hk h.1).2
    cases l with
    | nil => exact ⟨s, s, rfl, rfl, by simpa using h1⟩
    | cons t l =>
      obtain ⟨f, e, hf, he, ih⟩ := ih (by simp) (fun x hx => hm x (by simp [hx])) (fun x hx => hp x (by simp [hx]))
        (fun x hx => hc x (by simp [hx])) (fun x hx => hs x (by simp [hx])) hch.2
      refine ⟨s, e, rfl, ?_, ?_⟩
      · rw [List.getLast?_cons_cons]; exact he
      · have hft : f = t := by simpa using hf.symm
        subst hft
        have hside := side_of_match (hs s (by simp)).2 (hs f (by simp)).1 hch.1 (clear_stop hk (hc s (by simp)))
        rw [List.map_cons, List.sum_cons, Nat.odd_add', ih]
        rw [← Nat.not_odd_iff_even, h1, ← hside]
        by_cases A : p.y < s.start.y <;> by_cases B : p.y < s.stop.y <;> by_cases C : p.y < e.stop.y <;> simp [A, B, C]

end Iges.Geo
