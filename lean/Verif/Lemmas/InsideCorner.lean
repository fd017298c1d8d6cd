import Verif.Props.Inside
import Verif.Spec.InsideCorner
/-! `IsInside` for a polygon with corners at the height of the point. -/
namespace Iges.Props.InsideCorner
open Iges.Geo Iges.Spec Real Iges.Props.Outlines Iges.Props.Inside

/-- where a line that is not horizontal is at the height `y` -/
noncomputable def xAt (s : Seg) (y : ℝ) : ℝ := s.start.x + (y - s.start.y) / (s.stop.y - s.start.y) * (s.stop.x - s.start.x)

/-- the two ends are on different sides of the height of `p`, which itself counts as above -/
def Cross (y : ℝ) (s : Seg) : Prop := ¬ (s.start.y < y ↔ s.stop.y < y)

/-- the points of a line that is not horizontal at a height -/
theorem at_height {s : Seg} (hm : Made s) (hk : s.kind = .line) (hne : s.start.y ≠ s.stop.y) (y : ℝ) (q : Point ℝ) :
    (Covers s q ∧ q.y = y) ↔ q = ⟨xAt s y, y, 0⟩ ∧ (min s.start.y s.stop.y ≤ y ∧ y ≤ max s.start.y s.stop.y) := by
  obtain ⟨-, -, -, -, cs⟩ := line_ends hm hk
  rw [cs]
  have hd : s.stop.y - s.start.y ≠ 0 := sub_ne_zero.2 hne.symm
  constructor
  · rintro ⟨⟨t, t0, t1, rfl⟩, hy⟩
    simp only [pt] at hy
    have ht : t = (y - s.start.y) / (s.stop.y - s.start.y) := by rw [← hy]; field_simp; ring
    refine ⟨?_, ?_, ?_⟩
    · unfold xAt pt
      rw [← ht]
      ext <;> simp only
      exact hy
    · rw [← hy]
      rcases le_total s.start.y s.stop.y with h | h
      · rw [min_eq_left h]; nlinarith
      · rw [min_eq_right h]; nlinarith
    · rw [← hy]
      rcases le_total s.start.y s.stop.y with h | h
      · rw [max_eq_right h]; nlinarith
      · rw [max_eq_left h]; nlinarith
  · rintro ⟨rfl, h1, h2⟩
    refine ⟨⟨(y - s.start.y) / (s.stop.y - s.start.y), ?_, ?_, ?_⟩, rfl⟩
    · rcases lt_or_gt_of_ne hne with h | h
      · rw [min_eq_left h.le] at h1; exact div_nonneg (by linarith) (by linarith)
      · rw [max_eq_left h.le] at h2; exact div_nonneg_of_nonpos (by linarith) (by linarith)
    · rcases lt_or_gt_of_ne hne with h | h
      · rw [max_eq_right h.le] at h2; rw [div_le_one (by linarith)]; linarith
      · rw [min_eq_right h.le] at h1; rw [div_le_one_of_neg (by linarith)]; linarith
    · unfold xAt pt
      ext <;> simp only
      field_simp
      ring

theorem xAt_start {s : Seg} : xAt s s.start.y = s.start.x := by unfold xAt; simp
theorem xAt_stop {s : Seg} (hne : s.start.y ≠ s.stop.y) : xAt s s.stop.y = s.stop.x := by
  unfold xAt
  have hd : s.stop.y - s.start.y ≠ 0 := sub_ne_zero.2 hne.symm
  rw [div_self hd]; ring

theorem cross_range {s : Seg} {y : ℝ} (h : Cross y s) : s.start.y ≠ s.stop.y ∧ min s.start.y s.stop.y ≤ y ∧ y ≤ max s.start.y s.stop.y := by
  unfold Cross at h
  by_cases a : s.start.y < y <;> by_cases b : s.stop.y < y <;> simp only [a, b, not_true_eq_false] at h
  · rw [not_lt] at b
    exact ⟨by linarith, (min_le_left _ _).trans a.le, b.trans (le_max_right _ _)⟩
  · rw [not_lt] at a
    exact ⟨by linarith, (min_le_right _ _).trans b.le, a.trans (le_max_left _ _)⟩

/-- the heights of the box of a line -/
theorem line_box_y {s : Seg} (hk : s.kind = .line) (lo hi : Point ℝ) (y : ℝ) :
    ((boxOr s lo hi).1.y ≤ y ∧ (boxOr s lo hi).2.y ≤ y) ↔ s.start.y ≤ y ∧ s.stop.y ≤ y := by
  unfold boxOr Seg.box
  rw [hk]
  simp only
  split
  · split <;> simp only [Option.getD_some] <;> tauto
  · unfold endBox
    simp only [Option.getD_some]
    split_ifs <;> constructor <;> rintro ⟨a, b⟩ <;> constructor <;> linarith

/-- what a point in which the ray meets a line at `p.y` adds -/
theorem node_corner {prev s next : Seg} (hm : Made s) (hk : s.kind = .line) {w : ℝ} {p q : Point ℝ} (ha : Apart w p s) (hne : s.start.y ≠ s.stop.y)
    (hq : Covers s q) (hy : q.y = p.y) (nq : norm2 q ≤ 10 ^ 15) (n1 : norm2 s.start ≤ 10 ^ 15) (n2 : norm2 s.stop ≤ 10 ^ 15) :
    nodeCount prev s next p.y q = open Classical in if Cross p.y s then 1 else 0 := by
  classical
  obtain ⟨-, -, z1, z2, -⟩ := line_ends hm hk
  obtain ⟨-, -, a1, a2, -⟩ := ha
  have hd := abs_nonneg (s.stop.y - s.start.y)
  obtain ⟨hq', hr1, hr2⟩ := (at_height hm hk hne p.y q).1 ⟨hq, hy⟩
  have far : ∀ e : Point ℝ, norm2 e ≤ 10 ^ 15 → 4e-8 + 1e-8 * |s.stop.y - s.start.y| < |p.y - e.y| → PointMatches q e 1e-8 = false := by
    intro e he h
    apply matches_height nq he
    rw [hy]; nlinarith
  rcases a1 with a1 | a1
  · have : q = s.start := by
      rw [hq', ← a1, xAt_start]
      ext <;> simp [z1]
    unfold nodeCount
    rw [if_neg (by rw [hk]; simp), matches_self_of_eq this]
    simp only [Bool.true_or, if_true, line_box_y hk, hk, reduceCtorEq, false_and, if_false]
    unfold Cross
    rw [a1]
    have : s.stop.y ≠ p.y := fun h => hne (by rw [a1, h])
    by_cases h : s.stop.y < p.y
    · simp [h, h.le]
    · have : ¬ s.stop.y ≤ p.y := by rw [not_lt] at h; intro h'; exact this (le_antisymm h' h)
      simp [h, this]
  · rcases a2 with a2 | a2
    · have : q = s.stop := by
        rw [hq', ← a2, xAt_stop hne]
        ext <;> simp [z2]
      unfold nodeCount
      rw [if_neg (by rw [hk]; simp), matches_self_of_eq this]
      simp only [Bool.or_true, if_true, line_box_y hk, hk, reduceCtorEq, false_and, if_false]
      unfold Cross
      rw [a2]
      have : s.start.y ≠ p.y := fun h => hne (by rw [a2, h])
      by_cases h : s.start.y < p.y
      · simp [h, h.le]
      · have : ¬ s.start.y ≤ p.y := by rw [not_lt] at h; intro h'; exact this (le_antisymm h' h)
        simp [h, this]
    · rw [count_one (Or.inr ⟨far _ n1 a1, far _ n2 a2⟩)]
      have e1 : s.start.y ≠ p.y := by intro e; rw [e, sub_self, abs_zero] at a1; have := abs_nonneg (s.stop.y - p.y); linarith
      have e2 : s.stop.y ≠ p.y := by intro e; rw [e, sub_self, abs_zero] at a2; have := abs_nonneg (p.y - s.start.y); linarith
      rw [if_pos]
      unfold Cross
      rcases lt_or_gt_of_ne hne with h | h
      · rw [min_eq_left h.le] at hr1
        rw [max_eq_right h.le] at hr2
        have x1 := lt_of_le_of_ne hr1 e1
        have x2 := lt_of_le_of_ne hr2 e2.symm
        simp [x1, x2.le]
      · rw [min_eq_right h.le] at hr1
        rw [max_eq_left h.le] at hr2
        have x1 := lt_of_le_of_ne hr1 e2
        have x2 := lt_of_le_of_ne hr2 e1.symm
        simp [x1, x2.le]

/-- a horizontal line at the height of the ray is not counted -/
theorem count_flat {lo hi p : Point ℝ} {X : ℝ} {ray prev s next : Seg} (hr : RayTo p X ray) (f : Frame lo hi p X)
    (hs : Held lo hi s) (ha : Apart (hi.x - lo.x) p s) (he : s.start.y = s.stop.y) (hx : s.start.x ≠ s.stop.x) (hp : s.start.y = p.y) :
    segCount ray prev s next p.y = 0 := by
  obtain ⟨hk, c0, -⟩ := ha
  obtain ⟨gs, ge, -, -, -⟩ := line_ends hr.made hr.kind
  obtain ⟨-, -, z1, z2, cs⟩ := line_ends hs.made hk
  obtain ⟨w1, w2⟩ := f.width
  have d1 : s.stop.x - s.start.x ≠ 0 := sub_ne_zero.2 hx.symm
  have d2 : X - p.x ≠ 0 := by intro e; rw [e, abs_zero] at w2; linarith
  have cov1 : Covers s s.start := (cs _).2 ⟨0, by norm_num, by norm_num, by ext <;> simp [pt, z1]⟩
  have cov2 : Covers s s.stop := (cs _).2 ⟨1, by norm_num, by norm_num, by ext <;> simp [pt, z2]⟩
  have f1 := c0 _ cov1 hp
  have f2 := c0 _ cov2 (by rw [← he, hp])
  obtain ⟨b1, b2, -, -⟩ := hs.inside _ cov1
  obtain ⟨b3, b4, -, -⟩ := hs.inside _ cov2
  simp only at b1 b2 b3 b4
  obtain ⟨m1, m2, m3, m4⟩ := f.small
  have hwid : |s.stop.x - s.start.x| ≤ hi.x - lo.x + 2 := by rw [abs_le]; constructor <;> linarith
  have hX : ∀ a, lo.x - 1 ≤ a → a ≤ hi.x + 1 → 4 ≤ |a - X| := by
    intro a a1 a2
    rcases f.side with h | h
    · rw [h, abs_of_nonneg (by linarith)]; linarith
    · rw [h, abs_of_nonpos (by linarith)]; linarith
  -- a parameter is not close to 0 or 1
  have key : ∀ {x a b : ℝ}, b ≠ 0 → 1e-8 * |b| ≤ |x - a| → 1e-8 * |b| ≤ |x - a - b| → ¬ (|(x - a) / b| < 1e-8 ∨ |(x - a) / b - 1| < 1e-8) := by
    intro x a b hb h1 h2
    rintro (h | h)
    · rw [abs_div, div_lt_iff₀ (abs_pos.2 hb)] at h; linarith
    · rw [show (x - a) / b - 1 = (x - a - b) / b by field_simp, abs_div, div_lt_iff₀ (abs_pos.2 hb)] at h; linarith
  have o1 := key (x := s.start.x) (a := p.x) d2 (by nlinarith) (by
    rw [show s.start.x - p.x - (X - p.x) = s.start.x - X by ring]
    have := hX s.start.x (by linarith) (by linarith); nlinarith)
  have o2 := key (x := s.stop.x) (a := p.x) d2 (by nlinarith) (by
    rw [show s.stop.x - p.x - (X - p.x) = s.stop.x - X by ring]
    have := hX s.stop.x (by linarith) (by linarith); nlinarith)
  have o3 := key (x := p.x) (a := s.start.x) d1 (by rw [abs_sub_comm p.x]; nlinarith) (by
    rw [show p.x - s.start.x - (s.stop.x - s.start.x) = p.x - s.stop.x by ring, abs_sub_comm p.x]; nlinarith)
  have o4 := key (x := X) (a := s.start.x) d1 (by
    rw [abs_sub_comm X]
    have := hX s.start.x (by linarith) (by linarith); nlinarith) (by
    rw [show X - s.start.x - (s.stop.x - s.start.x) = X - s.stop.x by ring, abs_sub_comm X]
    have := hX s.stop.x (by linarith) (by linarith); nlinarith)
  have : (intersections s ray).ret = false := by
    unfold intersections
    rw [hk, hr.kind]
    simp only
    unfold checkLines
    simp only [gs, ge, hr.start, hr.stop, he.symm, hp, sub_self, zero_mul, mul_zero, abs_zero]
    rw [if_pos (by norm_num), if_neg (by norm_num), if_pos]
    rw [if_pos (abs_nonneg _), if_pos (abs_nonneg _)]
    rw [if_pos (abs_nonneg _), if_pos (abs_nonneg _)]
    exact ⟨o1, o2, o3, o4⟩
  unfold segCount
  simp [this]

/-- a straight segment counts just when it crosses the height of `p`, which itself counts as above, on the side of the ray -/
theorem count_corner {lo hi p : Point ℝ} {X : ℝ} {ray prev s next : Seg} (hr : RayTo p X ray) (f : Frame lo hi p X)
    (hs : Held lo hi s) (ha : Apart (hi.x - lo.x) p s) :
    segCount ray prev s next p.y = open Classical in
      if Cross p.y s ∧ ((X = lo.x - 5 ∧ xAt s p.y < p.x) ∨ (X = hi.x + 5 ∧ p.x < xAt s p.y)) then 1 else 0 := by
  classical
  have ha' := ha
  obtain ⟨hk, c0, c1, c2, c3⟩ := ha'
  obtain ⟨w1, w2⟩ := f.width
  obtain ⟨gs, ge, z1, z2, cs⟩ := line_ends hs.made hk
  rcases hs.ends with h | ⟨n1, n2⟩
  · rw [hk] at h; cases h
  rcases c3 with ⟨e, hx, c3⟩ | c3
  · rw [if_neg (by rintro ⟨h, -⟩; exact (cross_range h).1 e)]
    rcases c3 with c3 | c3
    · exact count_flat hr f hs ha e hx c3
    · obtain ⟨h1, -⟩ := C63_parallel hs.made hr.made hk hr.kind
        (by unfold across; rw [hr.start, hr.stop, e]; ring)
        (by
          unfold across; rw [hr.start, ← e]
          rw [show (p.x - s.start.x) * (s.start.y - s.start.y) - (p.y - s.start.y) * (s.stop.x - s.start.x) =
            -((s.stop.x - s.start.x) * (p.y - s.start.y)) by ring, abs_neg, abs_mul]
          exact c3)
      unfold segCount
      simp [h1]
  · have hne : s.start.y ≠ s.stop.y := by intro e; rw [e, sub_self, abs_zero] at c3; linarith
    have hac : 1e-6 ≤ |across s.start s.stop ray.start ray.stop| := by
      unfold across
      rw [hr.start, hr.stop]
      rw [show (X - p.x) * (s.stop.y - s.start.y) - (p.y - p.y) * (s.stop.x - s.start.x) =
        (X - p.x) * (s.stop.y - s.start.y) by ring, abs_mul]
      nlinarith [abs_nonneg (s.stop.y - s.start.y)]
    obtain ⟨m1, m2, m3⟩ := C63_meet hs.made hr.made hk hr.kind hac
    obtain ⟨ix1, ix2⟩ := f.inX
    by_cases hex : ∃ q, q ∈ hitSet ray s
    · obtain ⟨q, hq⟩ := hex
      obtain ⟨hret, hpts⟩ := m1 q hq.1 hq.2
      have hray := (hr.covers q).1 hq.2
      have hy := hray.2.1
      have hnq := f.point (hs.inside q hq.1) hy (covers_flat hq.1)
      have hfar := c0 q hq.1 hy
      have hqx : q.x = xAt s p.y := by rw [((at_height hs.made hk hne p.y q).1 ⟨hq.1, hy⟩).1]
      have hqp : q.x ≠ p.x := by intro e; rw [e, sub_self, abs_zero] at hfar; nlinarith
      have hside : (X = lo.x - 5 ∧ xAt s p.y < p.x) ∨ (X = hi.x + 5 ∧ p.x < xAt s p.y) := by
        rw [← hqx]
        rcases f.side with h | h
        · left; refine ⟨h, ?_⟩
          rcases hray.2.2 with ⟨a, b⟩ | ⟨a, b⟩
          · rw [h] at b; linarith
          · exact lt_of_le_of_ne b hqp
        · right; refine ⟨h, ?_⟩
          rcases hray.2.2 with ⟨a, b⟩ | ⟨a, b⟩
          · exact lt_of_le_of_ne a hqp.symm
          · rw [h] at a; linarith
      unfold segCount
      simp only [hret, hpts, if_true, List.map_cons, List.map_nil, List.sum_cons, List.sum_nil, add_zero]
      rw [node_corner hs.made hk ha hne hq.1 hy hnq n1 n2]
      simp only [hside, and_true]
    · rw [if_neg]
      · have : (intersections s ray).ret = false := by
          by_contra hnr
          obtain ⟨q, t, u, -, ht, hu, ⟨t1, t2⟩, ⟨u1, u2⟩, -⟩ := m3 (by simpa using hnr)
          apply hex
          unfold AtParam at ht hu
          rw [hr.start, hr.stop] at hu
          have hy : q.y = p.y := by rw [hu]; simp [pt]
          have hy2 : p.y = s.start.y + t * (s.stop.y - s.start.y) := by rw [← hy, ht]; rfl
          have t3 : 0 ≤ t := by
            rcases c1 with c1 | c1
            · rw [c1] at hy2
              have : t * (s.stop.y - s.start.y) = 0 := by rw [c1]; linarith
              rcases mul_eq_zero.1 this with h | h
              · rw [h]
              · exact absurd (sub_eq_zero.1 h).symm hne
            by_contra h
            rw [not_le] at h
            have : |p.y - s.start.y| ≤ 1e-8 * |s.stop.y - s.start.y| := by
              rw [hy2, add_sub_cancel_left, abs_mul]
              apply mul_le_mul_of_nonneg_right _ (abs_nonneg _)
              rw [abs_of_neg h]; linarith
            linarith
          have t4 : t ≤ 1 := by
            rcases c2 with c2 | c2
            · have : (t - 1) * (s.stop.y - s.start.y) = 0 := by linear_combination -hy2 - c2
              rcases mul_eq_zero.1 this with h | h
              · linarith
              · exact absurd (sub_eq_zero.1 h).symm hne
            by_contra h
            rw [not_le] at h
            have : |p.y - s.stop.y| ≤ 1e-8 * |s.stop.y - s.start.y| := by
              rw [hy2, show s.start.y + t * (s.stop.y - s.start.y) - s.stop.y = (t - 1) * (s.stop.y - s.start.y) by ring, abs_mul]
              apply mul_le_mul_of_nonneg_right _ (abs_nonneg _)
              rw [abs_of_pos (by linarith)]; linarith
            linarith
          have hcov : Covers s q := (cs q).2 ⟨t, t3, t4, ht⟩
          have hqx : q.x = p.x + u * (X - p.x) := by rw [hu]; rfl
          have hb := hs.inside q hcov
          have hfar := c0 q hcov hy
          rw [hqx, add_sub_cancel_left, abs_mul] at hfar
          refine ⟨q, hcov, (hr.covers q).2 ⟨covers_flat hcov, hy, ?_⟩⟩
          have u3 : 0 ≤ u := by
            by_contra h
            rw [not_le] at h
            rw [abs_of_neg h] at hfar
            have : -u * |X - p.x| ≤ 1e-8 * (hi.x - lo.x + 5) :=
              mul_le_mul (by linarith) w1 (abs_nonneg _) (by norm_num)
            linarith
          obtain ⟨hb1, hb2, -, -⟩ := hb
          simp only at hb1 hb2
          rcases f.side with h | h
          · right
            constructor
            · rw [h]; linarith
            · rw [hqx, h]; nlinarith
          · left
            constructor
            · rw [hqx, h]; nlinarith
            · rw [h]; linarith
        unfold segCount
        simp [this]
      · rintro ⟨hcr, hside⟩
        obtain ⟨-, r1, r2⟩ := cross_range hcr
        obtain ⟨hcov, -⟩ := (at_height hs.made hk hne p.y ⟨xAt s p.y, p.y, 0⟩).2 ⟨rfl, r1, r2⟩
        apply hex
        obtain ⟨hb1, hb2, -, -⟩ := hs.inside _ hcov
        simp only at hb1 hb2
        refine ⟨_, hcov, (hr.covers _).2 ⟨rfl, rfl, ?_⟩⟩
        rcases hside with ⟨h, h'⟩ | ⟨h, h'⟩
        · right; exact ⟨by rw [h]; simp only; linarith, h'.le⟩
        · left; exact ⟨h'.le, by rw [h]; simp only; linarith⟩

/-! ### Points nearby -/

/-- the points of a line to the left of a point whose height is not that of an end -/
theorem left_count {s : Seg} (hm : Made s) (hk : s.kind = .line) (p' : Point ℝ) (h1 : s.start.y ≠ p'.y) (h2 : s.stop.y ≠ p'.y) :
    (leftOf p' s).ncard = open Classical in if Cross p'.y s ∧ xAt s p'.y < p'.x then 1 else 0 := by
  classical
  by_cases hne : s.start.y = s.stop.y
  · have : leftOf p' s = ∅ := by
      obtain ⟨-, -, -, -, cs⟩ := line_ends hm hk
      ext q
      unfold leftOf
      simp only [Set.mem_ofPred_eq, Set.mem_empty_iff_false, iff_false]
      rintro ⟨hq, hy, -⟩
      obtain ⟨t, -, -, rfl⟩ := (cs q).1 hq
      simp only [pt] at hy
      rw [← hne, sub_self, mul_zero, add_zero] at hy
      exact h1 hy
    rw [this, Set.ncard_empty, if_neg (by rintro ⟨h, -⟩; exact (cross_range h).1 hne)]
  · have hmem : ∀ q, q ∈ leftOf p' s ↔ q = ⟨xAt s p'.y, p'.y, 0⟩ ∧ Cross p'.y s ∧ xAt s p'.y < p'.x := by
      intro q
      unfold leftOf
      simp only [Set.mem_ofPred_eq, ← and_assoc]
      rw [at_height hm hk hne]
      constructor
      · rintro ⟨⟨rfl, r1, r2⟩, h⟩
        refine ⟨⟨rfl, ?_⟩, h⟩
        unfold Cross
        rcases lt_or_gt_of_ne hne with g | g
        · rw [min_eq_left g.le] at r1
          rw [max_eq_right g.le] at r2
          have x1 := lt_of_le_of_ne r1 h1
          simp [x1, r2]
        · rw [min_eq_right g.le] at r1
          rw [max_eq_left g.le] at r2
          have x1 := lt_of_le_of_ne r1 h2
          simp [x1, r2]
      · rintro ⟨⟨rfl, hc⟩, h⟩
        exact ⟨⟨rfl, (cross_range hc).2⟩, h⟩
    by_cases hc : Cross p'.y s ∧ xAt s p'.y < p'.x
    · rw [if_pos hc]
      have : leftOf p' s = {⟨xAt s p'.y, p'.y, 0⟩} := by
        ext q; rw [hmem]; simp [hc]
      rw [this, Set.ncard_singleton]
    · rw [if_neg hc]
      have : leftOf p' s = ∅ := by
        ext q; rw [hmem]; simp only [hc, and_false, Set.mem_empty_iff_false]
      rw [this, Set.ncard_empty]

/-- two points nearby -/
def Close (δ : ℝ) (p q : Point ℝ) : Prop := |q.x - p.x| < δ ∧ |q.y - p.y| < δ

/-- ends of a segment are below a point near `p` just when they are below `p`, or at the height of `p` and that point is above `p` -/
theorem near_low (p a : Point ℝ) : ∃ δ > 0, ∀ q, Close δ p q → a.y ≠ q.y →
    (a.y < q.y ↔ if q.y ≤ p.y then a.y < p.y else a.y ≤ p.y) := by
  by_cases h : a.y = p.y
  · refine ⟨1, by norm_num, fun q _ hne => ?_⟩
    rw [h] at hne ⊢
    by_cases hq : q.y ≤ p.y
    · simp [hq]
    · simp [not_le.1 hq]
  · refine ⟨|a.y - p.y|, abs_pos.2 (sub_ne_zero.2 h), fun q hq _ => ?_⟩
    obtain ⟨q1, q2⟩ := abs_lt.1 hq.2
    rcases lt_or_gt_of_ne h with g | g
    · rw [abs_of_neg (by linarith)] at q1 q2
      have : a.y < q.y := by linarith
      simp [this, g, g.le]
    · rw [abs_of_pos (by linarith)] at q1 q2
      have : ¬ a.y < q.y := by rw [not_lt]; linarith
      simp [this, not_lt.2 g.le, not_le.2 g]

theorem near_left {p : Point ℝ} {s : Seg} (h : s.start.y ≠ s.stop.y) (hx : xAt s p.y ≠ p.x) : ∃ δ > 0, ∀ q, Close δ p q →
    (xAt s q.y < q.x ↔ xAt s p.y < p.x) := by
  have hd : s.stop.y - s.start.y ≠ 0 := sub_ne_zero.2 h.symm
  set k := (s.stop.x - s.start.x) / (s.stop.y - s.start.y) with hk
  have hpos : 0 < |k| + 1 := by positivity
  refine ⟨|xAt s p.y - p.x| / (|k| + 1), div_pos (abs_pos.2 (sub_ne_zero.2 hx)) hpos, fun q ⟨hq1, hq2⟩ => ?_⟩
  rw [lt_div_iff₀ hpos] at hq1 hq2
  have e : xAt s q.y - q.x = xAt s p.y - p.x + (k * (q.y - p.y) - (q.x - p.x)) := by
    unfold xAt
    rw [hk]
    field_simp
    ring
  have hb : |k * (q.y - p.y) - (q.x - p.x)| < |xAt s p.y - p.x| := by
    have t1 := abs_sub (k * (q.y - p.y)) (q.x - p.x)
    rw [abs_mul] at t1
    have hk0 := abs_nonneg k
    have m := le_max_left |q.x - p.x| |q.y - p.y|
    have m' := le_max_right |q.x - p.x| |q.y - p.y|
    have m'' : max |q.x - p.x| |q.y - p.y| * (|k| + 1) < |xAt s p.y - p.x| := by
      rcases max_cases |q.x - p.x| |q.y - p.y| with ⟨e, -⟩ | ⟨e, -⟩ <;> rw [e] <;> assumption
    have := mul_le_mul_of_nonneg_left m' hk0
    nlinarith
  obtain ⟨b1, b2⟩ := abs_lt.1 hb
  rcases lt_or_gt_of_ne hx with g | g
  · rw [abs_of_neg (by linarith)] at b1 b2
    constructor <;> intro <;> linarith
  · rw [abs_of_pos (by linarith)] at b1 b2
    constructor <;> intro <;> linarith

theorem Close.mono {δ ε : ℝ} {p q : Point ℝ} (h : Close δ p q) (hle : δ ≤ ε) : Close ε p q := ⟨h.1.trans_le hle, h.2.trans_le hle⟩

/-- the sides of the height of `p`, which itself counts as above, or as below -/
def Cross' (y : ℝ) (s : Seg) : Prop := ¬ (s.start.y ≤ y ↔ s.stop.y ≤ y)

theorem cross'_range {s : Seg} {y : ℝ} (h : Cross' y s) : s.start.y ≠ s.stop.y ∧ min s.start.y s.stop.y ≤ y ∧ y ≤ max s.start.y s.stop.y := by
  unfold Cross' at h
  by_cases a : s.start.y ≤ y <;> by_cases b : s.stop.y ≤ y <;> simp only [a, b, not_true_eq_false] at h
  · rw [not_le] at b
    exact ⟨by linarith, (min_le_left _ _).trans a, b.le.trans (le_max_right _ _)⟩
  · rw [not_le] at a
    exact ⟨by linarith, (min_le_right _ _).trans b, a.le.trans (le_max_left _ _)⟩

/-- the crossings to the left of points near `p` -/
theorem near_count {w : ℝ} (hw : 0 ≤ w) {p : Point ℝ} {s : Seg} (hm : Made s) (ha : Apart w p s) : ∃ δ > 0, ∀ q, Close δ p q → s.start.y ≠ q.y → s.stop.y ≠ q.y →
    (leftOf q s).ncard = open Classical in if (if q.y ≤ p.y then Cross p.y s else Cross' p.y s) ∧ xAt s p.y < p.x then 1 else 0 := by
  classical
  obtain ⟨hk, c0, -⟩ := ha
  obtain ⟨δ1, p1, h1⟩ := near_low p s.start
  obtain ⟨δ2, p2, h2⟩ := near_low p s.stop
  have hcross : ∀ q, Close (min δ1 δ2) p q → s.start.y ≠ q.y → s.stop.y ≠ q.y →
      (Cross q.y s ↔ if q.y ≤ p.y then Cross p.y s else Cross' p.y s) := by
    intro q hq e1 e2
    unfold Cross Cross'
    rw [h1 q (hq.mono (min_le_left _ _)) e1, h2 q (hq.mono (min_le_right _ _)) e2]
    split <;> rfl
  by_cases hx : s.start.y ≠ s.stop.y ∧ xAt s p.y ≠ p.x
  · obtain ⟨δ3, p3, h3⟩ := near_left hx.1 hx.2
    refine ⟨min (min δ1 δ2) δ3, lt_min (lt_min p1 p2) p3, fun q hq e1 e2 => ?_⟩
    rw [left_count hm hk q e1 e2]
    simp only [hcross q (hq.mono (min_le_left _ _)) e1 e2, h3 q (hq.mono (min_le_right _ _))]
  · refine ⟨min δ1 δ2, lt_min p1 p2, fun q hq e1 e2 => ?_⟩
    have hno : ¬ (if q.y ≤ p.y then Cross p.y s else Cross' p.y s) := by
      intro h
      have hr : s.start.y ≠ s.stop.y ∧ min s.start.y s.stop.y ≤ p.y ∧ p.y ≤ max s.start.y s.stop.y := by
        split at h
        · exact cross_range h
        · exact cross'_range h
      obtain ⟨hcov, -⟩ := (at_height hm hk hr.1 p.y ⟨xAt s p.y, p.y, 0⟩).2 ⟨rfl, hr.2⟩
      have := c0 _ hcov rfl
      apply hx
      refine ⟨hr.1, fun e => ?_⟩
      simp only [e, sub_self, abs_zero] at this
      nlinarith
    rw [left_count hm hk q e1 e2, if_neg, if_neg]
    · rintro ⟨h, -⟩; exact hno h
    · rintro ⟨h, -⟩; exact hno ((hcross q hq e1 e2).1 h)

/-! ### Parity round a closed chain -/

open Classical in
/-- along a chain, a property of points changes an odd number of times just when the ends of the chain differ -/
theorem chain_changes (P : Point ℝ → Prop) (l : List Seg) (hne : l ≠ []) (hP : ∀ s ∈ l, ∀ t ∈ l, PointMatches s.stop t.start 1e-8 = true → (P s.stop ↔ P t.start))
    (hch : Chained l) : ∃ f e, l.head? = some f ∧ l.getLast? = some e ∧
      (Odd ((l.map fun s => if ¬ (P s.start ↔ P s.stop) then 1 else 0).sum) ↔ ¬ (P f.start ↔ P e.stop)) := by
  induction l with
  | nil => exact absurd rfl hne
  | cons s l ih =>
    have h1 : Odd (if ¬ (P s.start ↔ P s.stop) then 1 else 0) ↔ ¬ (P s.start ↔ P s.stop) := by split <;> simp_all
    cases l with
    | nil => exact ⟨s, s, rfl, rfl, by simpa using h1⟩
    | cons t l =>
      obtain ⟨f, e, hf, he, ih⟩ := ih (by simp) (fun x hx y hy => hP x (by simp [hx]) y (by simp [hy])) hch.2
      refine ⟨s, e, rfl, by rw [List.getLast?_cons_cons]; exact he, ?_⟩
      have hft : f = t := by simpa using hf.symm
      subst hft
      have hside := hP s (by simp) f (by simp) hch.1
      rw [List.map_cons, List.sum_cons, Nat.odd_add', ih, ← Nat.not_odd_iff_even, h1, ← hside]
      by_cases A : P s.start <;> by_cases B : P s.stop <;> by_cases C : P e.stop <;> simp [A, B, C]

open Classical in
theorem loop_changes (P : Point ℝ → Prop) (l : List Seg) (hP : ∀ s ∈ l, ∀ t ∈ l, PointMatches s.stop t.start 1e-8 = true → (P s.stop ↔ P t.start))
    (hch : Chained l) (he : EndsMeet l) : Even ((l.map fun s => if ¬ (P s.start ↔ P s.stop) then 1 else 0).sum) := by
  obtain ⟨f, e, hf, hl, hm⟩ := he
  have hne : l ≠ [] := by rintro rfl; cases hf
  obtain ⟨f', e', hf', he', h⟩ := chain_changes P l hne hP hch
  have e1 : f' = f := by rw [hf] at hf'; exact (Option.some.inj hf').symm
  have e2 : e' = e := by rw [hl] at he'; exact (Option.some.inj he').symm
  subst e1 e2
  rw [← Nat.not_odd_iff_even, h, not_not]
  exact (hP e' (List.mem_of_getLast? hl) f' (List.mem_of_head? hf) hm).symm

theorem near_all (l : List Seg) (p : Point ℝ) (P : Point ℝ → Seg → Prop) (h : ∀ s ∈ l, ∃ δ > 0, ∀ q, Close δ p q → P q s) :
    ∃ δ > 0, ∀ q, Close δ p q → ∀ s ∈ l, P q s := by
  induction l with
  | nil => exact ⟨1, by norm_num, fun q _ s hs => by cases hs⟩
  | cons s l ih =>
    obtain ⟨δ1, p1, h1⟩ := h s (by simp)
    obtain ⟨δ2, p2, h2⟩ := ih fun t ht => h t (by simp [ht])
    refine ⟨min δ1 δ2, lt_min p1 p2, fun q hq t ht => ?_⟩
    rcases List.mem_cons.1 ht with rfl | ht
    · exact h1 q (hq.mono (min_le_left _ _))
    · exact h2 q (hq.mono (min_le_right _ _)) t ht

end Iges.Props.InsideCorner
