import Verif.Props.SegCases
/-
C62: where two circles meet.
-/
namespace Iges.Props
open Iges.Geo Iges.Spec Real

theorem hyp_planar (p q : Point ℝ) : hyp (p.x - q.x) (p.y - q.y) = √(planar2 p q) := by
  unfold hyp planar2; congr 1; ring

theorem planar2_nonneg (p q : Point ℝ) : 0 ≤ planar2 p q := by unfold planar2; positivity

theorem planar2_comm (p q : Point ℝ) : planar2 p q = planar2 q p := by unfold planar2; ring

/-- the two points of `calcCircleIntercepts` without angles -/
theorem intercepts_mem {c c2 : Point ℝ} {r r2 d : ℝ} (hd : d = √(planar2 c c2)) (hpos : 0 < d) :
    let m := (d ^ 2 - r2 ^ 2 + r ^ 2) / (2 * d)
    let h := √(r ^ 2 - m ^ 2)
    let u := pt (c.x + (m * (c2.x - c.x) - h * (c2.y - c.y)) / d) (c.y + (m * (c2.y - c.y) + h * (c2.x - c.x)) / d)
    let v := pt (c.x + (m * (c2.x - c.x) + h * (c2.y - c.y)) / d) (c.y + (m * (c2.y - c.y) - h * (c2.x - c.x)) / d)
    intercepts c r c2 r2 d = (u, v) ∨ intercepts c r c2 r2 d = (v, u) := by
  intro m h u v
  have hdd : d = hyp (c2.x - c.x) (c2.y - c.y) := by rw [hd, planar2_comm, hyp_planar]
  have e1 := hyp_cos (c2.x - c.x) (c2.y - c.y)
  have e2 := hyp_sin (c2.x - c.x) (c2.y - c.y)
  rw [← hdd] at e1 e2
  set θ := atan2 (c2.y - c.y) (c2.x - c.x) with hθ
  have em : (d * d - r2 * r2 + r * r) / (2 * d) = m := by simp only [m]; ring
  have eh : √(r * r - m * m) = h := by simp only [h]; congr 1; ring
  have cu : (⟨m / d * (c2.x - c.x) + c.x + h * cos (θ + π / 2), m / d * (c2.y - c.y) + c.y + h * sin (θ + π / 2), 0⟩ : Point ℝ)
      = u := by
    simp only [u, pt]
    rw [Real.cos_add_pi_div_two, Real.sin_add_pi_div_two]
    ext
    · simp only; rw [← e2, ← e1]; field_simp; ring
    · simp only; rw [← e2, ← e1]; field_simp; ring
    · rfl
  have cv : (⟨m / d * (c2.x - c.x) + c.x + h * cos (θ + π / 2 + π), m / d * (c2.y - c.y) + c.y + h * sin (θ + π / 2 + π), 0⟩ :
      Point ℝ) = v := by
    simp only [v, pt]
    rw [Real.cos_add_pi, Real.sin_add_pi, Real.cos_add_pi_div_two, Real.sin_add_pi_div_two]
    ext
    · simp only; rw [← e2, ← e1]; field_simp; ring
    · simp only; rw [← e2, ← e1]; field_simp; ring
    · rfl
  unfold intercepts
  simp only [em, eh, ← hθ, cu, cv]
  split
  · exact Or.inr rfl
  · exact Or.inl rfl

/-- the two points lie on both circles, and no other point does -/
theorem intercepts_iff {c c2 : Point ℝ} {r r2 d : ℝ} (hd : d = √(planar2 c c2)) (hpos : 0 < d) (hr : 0 < r) (hr2 : 0 < r2)
    (h1 : r ≤ d + r2) (h2 : r2 ≤ d + r) (h3 : d ≤ r + r2) (x : Point ℝ) :
    (OnCircle c r x ∧ OnCircle c2 r2 x) ↔
      x = (intercepts c r c2 r2 d).1 ∨ x = (intercepts c r c2 r2 d).2 := by
  have hdd : d ^ 2 = (c2.x - c.x) ^ 2 + (c2.y - c.y) ^ 2 := by
    rw [hd, Real.sq_sqrt (planar2_nonneg _ _)]; unfold planar2; ring
  have hm : ((d ^ 2 - r2 ^ 2 + r ^ 2) / (2 * d)) ^ 2 ≤ r ^ 2 := by
    rw [div_pow, div_le_iff₀ (by positivity)]
    have k1 : 0 ≤ (d + r2 - r) * (d + r - r2) := mul_nonneg (by linarith) (by linarith)
    have k2 : 0 ≤ (r + r2 - d) * (d + r + r2) := mul_nonneg (by linarith) (by linarith)
    nlinarith [mul_nonneg k1 k2]
  obtain ⟨m, hme⟩ : ∃ m, m = (d ^ 2 - r2 ^ 2 + r ^ 2) / (2 * d) := ⟨_, rfl⟩
  have hm' : 2 * d * m = d ^ 2 - r2 ^ 2 + r ^ 2 := by rw [hme]; field_simp
  obtain ⟨h, hh⟩ : ∃ h, h = √(r ^ 2 - m ^ 2) := ⟨_, rfl⟩
  have hh2 : h ^ 2 = r ^ 2 - m ^ 2 := by rw [hh]; exact Real.sq_sqrt (by rw [hme]; linarith)
  have key : (OnCircle c r x ∧ OnCircle c2 r2 x) ↔
      x = pt (c.x + (m * (c2.x - c.x) - h * (c2.y - c.y)) / d) (c.y + (m * (c2.y - c.y) + h * (c2.x - c.x)) / d) ∨
      x = pt (c.x + (m * (c2.x - c.x) + h * (c2.y - c.y)) / d) (c.y + (m * (c2.y - c.y) - h * (c2.x - c.x)) / d) := by
    unfold OnCircle planar2
    obtain ⟨A, hA⟩ : ∃ A, A = c2.x - c.x := ⟨_, rfl⟩
    obtain ⟨B, hB⟩ : ∃ B, B = c2.y - c.y := ⟨_, rfl⟩
    have e1 : c2.x = c.x + A := by linarith
    have e2 : c2.y = c.y + B := by linarith
    rw [← hA, ← hB] at hdd ⊢
    rw [e1, e2]
    clear hA hB e1 e2 hme hm hh hd
    constructor
    · rintro ⟨⟨q1, hz⟩, q2, -⟩
      have hdot : A * (x.x - c.x) + B * (x.y - c.y) = d * m := by nlinarith
      have hcr : (A * (x.y - c.y) - B * (x.x - c.x)) ^ 2 = (d * h) ^ 2 := by
        rw [mul_pow, hh2]
        have : (A * (x.x - c.x) + B * (x.y - c.y)) ^ 2 = (d * m) ^ 2 := by rw [hdot]
        linear_combination d ^ 2 * q1 - this + (-((x.x - c.x) ^ 2 + (x.y - c.y) ^ 2)) * hdd
      have fin : ∀ k : ℝ, A * (x.y - c.y) - B * (x.x - c.x) = d * k →
          x = pt (c.x + (m * A - k * B) / d) (c.y + (m * B + k * A) / d) := by
        intro k hk
        unfold pt
        ext
        · simp only
          have : d ^ 2 * (x.x - c.x) = d * (m * A - k * B) := by
            rw [hdd]; linear_combination A * hdot - B * hk
          have h' : d * (x.x - c.x) = m * A - k * B := by
            have : d * (d * (x.x - c.x)) = d * (m * A - k * B) := by linear_combination this
            exact mul_left_cancel₀ hpos.ne' this
          rw [← h']; field_simp; ring
        · simp only
          have : d ^ 2 * (x.y - c.y) = d * (m * B + k * A) := by
            rw [hdd]; linear_combination B * hdot + A * hk
          have h' : d * (x.y - c.y) = m * B + k * A := by
            have : d * (d * (x.y - c.y)) = d * (m * B + k * A) := by linear_combination this
            exact mul_left_cancel₀ hpos.ne' this
          rw [← h']; field_simp; ring
        · exact hz
      rcases sq_eq_sq_iff_eq_or_eq_neg.1 hcr with e | e
      · exact Or.inl (fin h e)
      · right
        have := fin (-h) (by rw [e]; ring)
        rw [this]; unfold pt
        ext <;> simp only <;> ring
    · have fin : ∀ k : ℝ, k ^ 2 = h ^ 2 → x = pt (c.x + (m * A - k * B) / d) (c.y + (m * B + k * A) / d) →
          ((x.x - c.x) ^ 2 + (x.y - c.y) ^ 2 = r ^ 2 ∧ x.z = 0) ∧
          (x.x - (c.x + A)) ^ 2 + (x.y - (c.y + B)) ^ 2 = r2 ^ 2 ∧ x.z = 0 := by
        rintro k hk rfl
        have q1 : ((m * A - k * B) / d) ^ 2 + ((m * B + k * A) / d) ^ 2 = r ^ 2 := by
          rw [div_pow, div_pow, ← add_div, div_eq_iff (by positivity), hdd]
          linear_combination (A ^ 2 + B ^ 2) * (hk + hh2)
        have q3 : A * ((m * A - k * B) / d) + B * ((m * B + k * A) / d) = d * m := by
          rw [mul_div_assoc', mul_div_assoc', ← add_div, div_eq_iff hpos.ne']
          linear_combination (-m) * hdd
        unfold pt
        simp only [add_sub_cancel_left]
        refine ⟨⟨q1, trivial⟩, ?_, trivial⟩
        have w1 : c.x + (m * A - k * B) / d - (c.x + A) = (m * A - k * B) / d - A := by ring
        have w2 : c.y + (m * B + k * A) / d - (c.y + B) = (m * B + k * A) / d - B := by ring
        rw [w1, w2]
        linear_combination q1 - 2 * q3 - hdd - hm'
      rintro (e | e)
      · exact fin h rfl e
      · exact fin (-h) (by ring) (by rw [e]; unfold pt; ext <;> simp only <;> ring)
  have := intercepts_mem (r := r) (r2 := r2) hd hpos
  simp only at this
  rw [← hme, ← hh] at this
  rcases this with e | e <;> rw [e, key]
  exact or_comm

/-- circles that cross do so in two different points -/
theorem intercepts_ne {c c2 : Point ℝ} {r r2 d : ℝ} (hd : d = √(planar2 c c2)) (hpos : 0 < d)
    (h1 : r < d + r2) (h2 : r2 < d + r) (h3 : d < r + r2) :
    (intercepts c r c2 r2 d).1 ≠ (intercepts c r c2 r2 d).2 := by
  have hdd : d ^ 2 = (c2.x - c.x) ^ 2 + (c2.y - c.y) ^ 2 := by
    rw [hd, Real.sq_sqrt (planar2_nonneg _ _)]; unfold planar2; ring
  have hm : ((d ^ 2 - r2 ^ 2 + r ^ 2) / (2 * d)) ^ 2 < r ^ 2 := by
    rw [div_pow, div_lt_iff₀ (by positivity)]
    have k1 : 0 < (d + r2 - r) * (d + r - r2) := mul_pos (by linarith) (by linarith)
    have k2 : 0 < (r + r2 - d) * (d + r + r2) := mul_pos (by linarith) (by linarith)
    nlinarith [mul_pos k1 k2]
  have := intercepts_mem (r := r) (r2 := r2) hd hpos
  simp only at this
  obtain ⟨m, hme⟩ : ∃ m, m = (d ^ 2 - r2 ^ 2 + r ^ 2) / (2 * d) := ⟨_, rfl⟩
  rw [← hme] at this hm
  have hh : 0 < √(r ^ 2 - m ^ 2) := Real.sqrt_pos.2 (by linarith)
  generalize √(r ^ 2 - m ^ 2) = h at *
  have key : pt (c.x + (m * (c2.x - c.x) - h * (c2.y - c.y)) / d) (c.y + (m * (c2.y - c.y) + h * (c2.x - c.x)) / d) ≠
      pt (c.x + (m * (c2.x - c.x) + h * (c2.y - c.y)) / d) (c.y + (m * (c2.y - c.y) - h * (c2.x - c.x)) / d) := by
    intro e
    have ex := congrArg Point.x e
    have ey := congrArg Point.y e
    simp only [pt, add_right_inj] at ex ey
    rw [div_left_inj' hpos.ne'] at ex ey
    have zx : c2.y - c.y = 0 := by
      have : h * (c2.y - c.y) = 0 := by linarith
      exact (mul_eq_zero.1 this).resolve_left hh.ne'
    have zy : c2.x - c.x = 0 := by
      have : h * (c2.x - c.x) = 0 := by linarith
      exact (mul_eq_zero.1 this).resolve_left hh.ne'
    rw [zx, zy] at hdd
    have : 0 < d ^ 2 := by positivity
    linarith
  rcases this with e | e <;> rw [e]
  · exact key
  · exact key.symm

/-- C62. What `GetIntersections` of two circles says: two points just when the circles cross and are neither nearly
touching from outside nor nearly the same; then these are two different points, and exactly the common points. -/
theorem C62_meet {s o : Seg} (hs : Made s) (ho : Made o) (ks : s.kind = .circle) (ko : o.kind = .circle)
    (h : (intersections s o).ret = true) :
    ∃ p q, (intersections s o).pts = [p, q] ∧ p ≠ q ∧ (intersections s o).flag = .none ∧
      ∀ x, (Covers s x ∧ Covers o x) ↔ x = p ∨ x = q := by
  obtain ⟨hr, -, -⟩ := (made_ok hs).circle ks
  obtain ⟨hr2, -, -⟩ := (made_ok ho).circle ko
  have hcov : ∀ x, (Covers s x ∧ Covers o x) ↔ (OnCircle s.center s.radius x ∧ OnCircle o.center o.radius x) := by
    intro x; unfold Covers; rw [ks, ko]
  have hi : intersections s o = checkCircles s o := by unfold intersections; rw [ks, ko]
  rw [hi] at h ⊢
  have hd := hyp_planar s.center o.center
  unfold checkCircles at h ⊢
  simp only at h ⊢
  generalize hyp (s.center.x - o.center.x) (s.center.y - o.center.y) = d at *
  have hd0 : 0 ≤ d := by rw [hd]; exact Real.sqrt_nonneg _
  split at h
  · simp at h
  rename_i c1
  rw [if_neg c1]
  split at h
  · simp at h
  rename_i c2
  rw [if_neg c2]
  split at h
  · simp at h
  rename_i c3
  rw [if_neg c3]
  split at h
  · simp at h
  rename_i c4
  rw [if_neg c4]
  split at h
  · simp at h
  rename_i c5
  rw [if_neg c5]
  have b3 : d < s.radius + o.radius := by
    rcases abs_cases (d - s.radius - o.radius) with ⟨e, h'⟩ | ⟨e, h'⟩
    · rw [e] at c3; norm_num at c3; linarith
    · linarith
  have b1 : s.radius < d + o.radius := by
    by_contra hc
    exact c4 ⟨Or.inl (by linarith), by linarith⟩
  have b2 : o.radius < d + s.radius := by
    by_contra hc
    exact c5 ⟨Or.inr (by linarith), by linarith⟩
  have hpos : 0 < d := by
    rcases hd0.lt_or_eq with h0 | h0
    · exact h0
    · rw [← h0] at b1 b2; linarith
  exact ⟨_, _, rfl, intercepts_ne hd hpos b1 b2 b3, rfl, fun x => by
    rw [hcov, intercepts_iff hd hpos hr hr2 b1.le b2.le b3.le]⟩

/-- C62. Two circles are reported to meet just when each reaches beyond the other, the gap to touching from outside is at
least 0.001 and they are not the same up to 0.001. -/
theorem C62_meet_iff {s o : Seg} (ks : s.kind = .circle) (ko : o.kind = .circle) (hr : 0 < s.radius) (hr2 : 0 < o.radius) :
    (intersections s o).ret = true ↔
      |s.radius - o.radius| < √(planar2 s.center o.center) ∧
      √(planar2 s.center o.center) ≤ s.radius + o.radius - 0.001 ∧
      ¬ (PointMatches s.center o.center 1e-3 = true ∧ |s.radius - o.radius| < 1e-3) := by
  have hi : intersections s o = checkCircles s o := by unfold intersections; rw [ks, ko]
  rw [hi]
  have hd := hyp_planar s.center o.center
  unfold checkCircles
  simp only
  rw [← hd]
  generalize hyp (s.center.x - o.center.x) (s.center.y - o.center.y) = d at *
  have habs : |s.radius - o.radius| < d ↔ s.radius - o.radius < d ∧ o.radius - s.radius < d := abs_sub_lt_iff
  rw [habs]
  split
  · rename_i h; simp; intro _ _ h2; norm_num at h2; linarith
  rename_i c1
  split
  · rename_i h; simp [h]
  rename_i c2
  split
  · rename_i h
    simp
    intro _ _ h2
    rw [abs_lt] at h
    norm_num at h h2
    linarith [h.1]
  rename_i c3
  split
  · rename_i h; simp; intro h1; linarith [h.2]
  rename_i c4
  split
  · rename_i h; simp; intro _ h1; linarith [h.2]
  rename_i c5
  simp only [true_iff]
  refine ⟨⟨?_, ?_⟩, ?_, c2⟩
  · by_contra hc
    exact c4 ⟨Or.inl (by linarith), by linarith⟩
  · by_contra hc
    exact c5 ⟨Or.inr (by linarith), by linarith⟩
  · rcases abs_cases (d - s.radius - o.radius) with ⟨e, h'⟩ | ⟨e, h'⟩
    · rw [e] at c3; norm_num at c3; linarith
    · rw [e] at c3; norm_num at c3 ⊢; linarith

/-- C62. What the flag says when two circles are not reported to meet: nothing — they have no point in common; tangent —
the gap or the overlap is less than 0.001; encircles — the other circle lies in the disc of this one; inside — this one
lies in the disc of the other; identical — centres and radii agree up to 0.001. -/
theorem C62_flag {s o : Seg} (ks : s.kind = .circle) (ko : o.kind = .circle) (hr : 0 < s.radius) (hr2 : 0 < o.radius)
    (h : (intersections s o).ret = false) :
    (intersections s o).pts = [] ∧
    match (intersections s o).flag with
    | .none => ∀ x, ¬ (Covers s x ∧ Covers o x)
    | .tangent => |√(planar2 s.center o.center) - (s.radius + o.radius)| < 0.001
    | .encircles => ∀ x, Covers o x → planar2 x s.center ≤ s.radius ^ 2
    | .inside => ∀ x, Covers s x → planar2 x o.center ≤ o.radius ^ 2
    | .ident => PointMatches s.center o.center 1e-3 = true ∧ |s.radius - o.radius| < 0.001
    | _ => False := by
  have hi : intersections s o = checkCircles s o := by unfold intersections; rw [ks, ko]
  have hcs : ∀ x, Covers s x ↔ OnCircle s.center s.radius x := by intro x; unfold Covers; rw [ks]
  have hco : ∀ x, Covers o x ↔ OnCircle o.center o.radius x := by intro x; unfold Covers; rw [ko]
  simp only [hcs, hco]
  rw [hi] at h ⊢
  have hd := hyp_planar s.center o.center
  unfold checkCircles at h ⊢
  simp only at h ⊢
  rw [← hd]
  have hd0 := hyp_nonneg (s.center.x - o.center.x) (s.center.y - o.center.y)
  have hsq := hyp_sq (s.center.x - o.center.x) (s.center.y - o.center.y)
  generalize hyp (s.center.x - o.center.x) (s.center.y - o.center.y) = d at *
  -- the triangle inequality, for a point at distance `b` of a centre at distance `d`
  have tri : ∀ {X Y A B b : ℝ}, X ^ 2 + Y ^ 2 = b ^ 2 → A ^ 2 + B ^ 2 = d ^ 2 → 0 ≤ b → X * A + Y * B ≤ b * d := by
    intro X Y A B b e1 e2 hb
    have : (X * A + Y * B) ^ 2 ≤ (b * d) ^ 2 := by
      rw [mul_pow, ← e1, ← e2]; nlinarith [sq_nonneg (X * B - Y * A)]
    exact le_of_sq_le_sq this (mul_nonneg hb hd0)
  split at h
  · rename_i c1
    rw [if_pos c1]
    refine ⟨rfl, ?_⟩
    rintro x ⟨⟨q1, -⟩, q2, -⟩
    unfold planar2 at q1 q2
    have t := tri (X := x.x - s.center.x) (Y := x.y - s.center.y) (A := o.center.x - s.center.x)
      (B := o.center.y - s.center.y) q1 (by rw [hsq]; ring) hr.le
    nlinarith
  rename_i c1
  rw [if_neg c1]
  split at h
  · rename_i c2; rw [if_pos c2]; refine ⟨rfl, c2.1, ?_⟩; have := c2.2; norm_num at this ⊢; exact this
  rename_i c2
  rw [if_neg c2]
  split at h
  · rename_i c3; rw [if_pos c3]; refine ⟨rfl, ?_⟩; simp only; rw [← sub_sub]; exact c3
  rename_i c3
  rw [if_neg c3]
  split at h
  · rename_i c4
    rw [if_pos c4]
    refine ⟨rfl, ?_⟩
    rintro x ⟨q, -⟩
    unfold planar2 at q ⊢
    have t := tri (X := x.x - o.center.x) (Y := x.y - o.center.y) (A := o.center.x - s.center.x)
      (B := o.center.y - s.center.y) q (by rw [hsq]; ring) hr2.le
    nlinarith [c4.2]
  rename_i c4
  rw [if_neg c4]
  split at h
  · rename_i c5
    rw [if_pos c5]
    refine ⟨rfl, ?_⟩
    rintro x ⟨q, -⟩
    unfold planar2 at q ⊢
    have t := tri (X := x.x - s.center.x) (Y := x.y - s.center.y) (A := s.center.x - o.center.x)
      (B := s.center.y - o.center.y) q (by rw [hsq]) hr.le
    nlinarith [c5.2]
  rename_i c5
  simp at h

/-- a point of a circle by the direction `atan2` gives -/
theorem onCircle_atan2 {c : Point ℝ} {r : ℝ} (hr : 0 < r) {x : Point ℝ} (h : OnCircle c r x) :
    x = polar c r (atan2 (x.y - c.y) (x.x - c.x)) := by
  have e := polar_of c x h.2
  have hh : hyp (x.x - c.x) (x.y - c.y) = r := by
    rw [hyp_planar, h.1]; exact Real.sqrt_sq hr.le
  rw [hh] at e
  exact e

/-- the order in which `calcCircleIntercepts` gives two points -/
theorem order_angles {c : Point ℝ} {r : ℝ} (hr : 0 < r) {u v : Point ℝ} (hu : OnCircle c r u) (hv : OnCircle c r v)
    (hne : u ≠ v) {w : Point ℝ × Point ℝ}
    (hw : w = (let a0 := atan2 (u.y - c.y) (u.x - c.x)
               let a1 := atan2 (v.y - c.y) (v.x - c.x)
               if (a0 ≥ 0 ∧ a1 ≥ 0 ∧ a0 > a1) ∨ (a0 < 0 ∧ a1 < 0 ∧ a0 > a1) ∨ (a0 < 0 ∧ a1 ≥ 0) then (v, u) else (u, v))) :
    ∃ a b, 0 ≤ a ∧ a < b ∧ b < 2 * π ∧ w.1 = polar c r a ∧ w.2 = polar c r b := by
  have eu := onCircle_atan2 hr hu
  have ev := onCircle_atan2 hr hv
  have u1 := atan2_gt (u.y - c.y) (u.x - c.x)
  have u2 := atan2_le (u.y - c.y) (u.x - c.x)
  have v1 := atan2_gt (v.y - c.y) (v.x - c.x)
  have v2 := atan2_le (v.y - c.y) (v.x - c.x)
  simp only at hw
  generalize atan2 (u.y - c.y) (u.x - c.x) = a at *
  generalize atan2 (v.y - c.y) (v.x - c.x) = b at *
  have hab : a ≠ b := by rintro rfl; exact hne (eu.trans ev.symm)
  have hp := Real.pi_pos
  rcases le_or_gt 0 a with ha | ha <;> rcases le_or_gt 0 b with hb | hb
  · rcases lt_or_gt_of_ne hab with h | h
    · rw [if_neg (by rintro (⟨-, -, h'⟩ | ⟨h', -⟩ | ⟨h', -⟩) <;> linarith)] at hw
      subst hw; exact ⟨a, b, ha, h, by linarith, eu, ev⟩
    · rw [if_pos (Or.inl ⟨ha, hb, h⟩)] at hw
      subst hw; exact ⟨b, a, hb, h, by linarith, ev, eu⟩
  · rw [if_neg (by rintro (⟨-, h', -⟩ | ⟨h', -⟩ | ⟨h', -⟩) <;> linarith)] at hw
    subst hw; exact ⟨a, b + 2 * π, ha, by linarith, by linarith, eu, by rw [polar_add]; exact ev⟩
  · rw [if_pos (Or.inr (Or.inr ⟨ha, hb⟩))] at hw
    subst hw; exact ⟨b, a + 2 * π, hb, by linarith, by linarith, ev, by rw [polar_add]; exact eu⟩
  · rcases lt_or_gt_of_ne hab with h | h
    · rw [if_neg (by rintro (⟨h', -⟩ | ⟨-, -, h'⟩ | ⟨-, h'⟩) <;> linarith)] at hw
      subst hw
      exact ⟨a + 2 * π, b + 2 * π, by linarith, by linarith, by linarith, by rw [polar_add]; exact eu,
        by rw [polar_add]; exact ev⟩
    · rw [if_pos (Or.inr (Or.inl ⟨ha, hb, h⟩))] at hw
      subst hw
      exact ⟨b + 2 * π, a + 2 * π, by linarith, by linarith, by linarith, by rw [polar_add]; exact ev,
        by rw [polar_add]; exact eu⟩

theorem intercepts_order {c c2 : Point ℝ} {r r2 d : ℝ} (hr : 0 < r)
    (hon : OnCircle c r (intercepts c r c2 r2 d).1 ∧ OnCircle c r (intercepts c r c2 r2 d).2)
    (hne : (intercepts c r c2 r2 d).1 ≠ (intercepts c r c2 r2 d).2) :
    ∃ a b, 0 ≤ a ∧ a < b ∧ b < 2 * π ∧ (intercepts c r c2 r2 d).1 = polar c r a ∧
      (intercepts c r c2 r2 d).2 = polar c r b := by
  obtain ⟨u, v, hw⟩ : ∃ u v : Point ℝ, intercepts c r c2 r2 d = (let a0 := atan2 (u.y - c.y) (u.x - c.x)
               let a1 := atan2 (v.y - c.y) (v.x - c.x)
               if (a0 ≥ 0 ∧ a1 ≥ 0 ∧ a0 > a1) ∨ (a0 < 0 ∧ a1 < 0 ∧ a0 > a1) ∨ (a0 < 0 ∧ a1 ≥ 0) then (v, u) else (u, v)) :=
    ⟨⟨_, _, _⟩, ⟨_, _, _⟩, rfl⟩
  have : (OnCircle c r u ∧ OnCircle c r v) ∧ u ≠ v := by
    simp only at hw
    rw [hw] at hon hne
    split at hon <;> rename_i hc
    · rw [if_pos hc] at hne; exact ⟨⟨hon.2, hon.1⟩, hne.symm⟩
    · rw [if_neg hc] at hne; exact ⟨hon, hne⟩
  exact order_angles hr this.1.1 this.1.2 this.2 hw

/-- C62. The two points come in the order in which a turn from the direction of the X axis, counterclockwise about the
centre of this circle, meets them. -/
theorem C62_order {s o : Seg} (hs : Made s) (ho : Made o) (ks : s.kind = .circle) (ko : o.kind = .circle)
    (h : (intersections s o).ret = true) :
    ∃ a b, 0 ≤ a ∧ a < b ∧ b < 2 * π ∧
      (intersections s o).pts = [polar s.center s.radius a, polar s.center s.radius b] := by
  obtain ⟨p, q, hp, hne, -, hx⟩ := C62_meet hs ho ks ko h
  have hcs : ∀ x, Covers s x → OnCircle s.center s.radius x := by intro x hx; unfold Covers at hx; rwa [ks] at hx
  have hi : intersections s o = checkCircles s o := by unfold intersections; rw [ks, ko]
  obtain ⟨hr, -, -⟩ := (made_ok hs).circle ks
  have h' := h
  rw [hi] at h' hp ⊢
  have e : ∃ w, w = intercepts s.center s.radius o.center o.radius
      (hyp (s.center.x - o.center.x) (s.center.y - o.center.y)) ∧ (checkCircles s o).pts = [w.1, w.2] := by
    unfold checkCircles at h' ⊢
    simp only at h' ⊢
    split at h'
    · simp at h'
    rename_i c1
    split at h'
    · simp at h'
    rename_i c2
    split at h'
    · simp at h'
    rename_i c3
    split at h'
    · simp at h'
    rename_i c4
    split at h'
    · simp at h'
    rename_i c5
    rw [if_neg c1, if_neg c2, if_neg c3, if_neg c4, if_neg c5]
    exact ⟨_, rfl, rfl⟩
  obtain ⟨w, hw, e⟩ := e
  rw [e] at hp ⊢
  simp only [List.cons.injEq, and_true] at hp
  obtain ⟨rfl, rfl⟩ := hp
  obtain ⟨a, b, h1, h2, h3, h4, h5⟩ := intercepts_order hr (c := s.center) (r := s.radius) (c2 := o.center) (r2 := o.radius)
    (d := hyp (s.center.x - o.center.x) (s.center.y - o.center.y))
    (by rw [← hw]; exact ⟨hcs _ ((hx _).2 (Or.inl rfl)).1, hcs _ ((hx _).2 (Or.inr rfl)).1⟩) (by rw [← hw]; exact hne)
  exact ⟨a, b, h1, h2, h3, by rw [hw, h4, h5]⟩

/-- a circle about a point of the X axis -/
theorem ex_circle {x r : ℝ} (hx : 0 ≤ x ∧ x ≤ 100) (hr : 1e-4 < r ∧ r ≤ 100) :
    ∃ s, setArc (pt x 0) (pt (x + r) 0) (pt (x + r) 0) false = (s, true) ∧ s.kind = .circle ∧ s.center = pt x 0 ∧
      s.radius = r := by
  obtain ⟨hx1, hx2⟩ := hx
  obtain ⟨hr1, hr2⟩ := hr
  have hr0 : 0 < r := by norm_num at hr1; linarith
  have hm : PointMatches (pt x 0) (pt (x + r) 0) 1e-8 = false := by
    apply no_match
    · norm_num
    · norm_num [norm2, pt]; nlinarith
    · norm_num [norm2, pt]; nlinarith
    · norm_num [dist2, pt]; norm_num at hr1; nlinarith
  obtain ⟨s, h⟩ := (C61_arc_accepted (pt x 0) (pt (x + r) 0) (pt (x + r) 0) false).2 ⟨⟨rfl, rfl, rfl⟩, hm, hm,
    Or.inl (C51_reflexive _ _)⟩
  have hc := setArc_cases h
  refine ⟨s, h, ?_, hc.2.2.2.2.2.1, ?_⟩
  · rcases hc.2.2.2.2.2.2.2 with ⟨e, -⟩ | ⟨-, e, -⟩
    · exact e
    · rw [C51_reflexive] at e; cases e
  · rw [hc.2.2.2.2.2.2.1]
    unfold hyp pt
    simp only [add_sub_cancel_left, sub_zero, mul_zero, add_zero]
    exact Real.sqrt_mul_self hr0.le

/-- C62: two circles of radius 1 at distance 1 meet in two points. -/
example : ∃ s o, Made s ∧ Made o ∧ s.kind = .circle ∧ o.kind = .circle ∧ (intersections s o).ret = true := by
  obtain ⟨s, hs, ks, cs, rs⟩ := ex_circle (x := 0) (r := 1) (by norm_num) (by norm_num)
  obtain ⟨o, ho, ko, co, ro⟩ := ex_circle (x := 1) (r := 1) (by norm_num) (by norm_num)
  refine ⟨s, o, .arc hs, .arc ho, ks, ko, ?_⟩
  rw [C62_meet_iff ks ko (by rw [rs]; norm_num) (by rw [ro]; norm_num), cs, co, rs, ro]
  have e : planar2 (pt 0 0) (pt 1 0) = 1 := by norm_num [planar2, pt]
  rw [e, Real.sqrt_one]
  refine ⟨by norm_num, by norm_num, ?_⟩
  rintro ⟨h, -⟩
  have : PointMatches (pt 0 0) (pt 1 0) 1e-3 = false := by apart
  rw [this] at h
  cases h

/-- C62: a circle far away, one inside, one around: the other answers. -/
example : ∃ s o, Made s ∧ Made o ∧ s.kind = .circle ∧ o.kind = .circle ∧ (intersections s o).ret = false ∧
    (intersections s o).flag = .encircles := by
  obtain ⟨s, hs, ks, cs, rs⟩ := ex_circle (x := 0) (r := 3) (by norm_num) (by norm_num)
  obtain ⟨o, ho, ko, co, ro⟩ := ex_circle (x := 1) (r := 1) (by norm_num) (by norm_num)
  have hi : intersections s o = checkCircles s o := by unfold intersections; rw [ks, ko]
  have hm : PointMatches (pt 0 0) (pt 1 0) 1e-3 = false := by apart
  have e : hyp ((pt 0 0).x - (pt 1 0).x) ((pt 0 0).y - (pt 1 0).y) = 1 := by norm_num [hyp, pt]
  have : checkCircles s o = ⟨[], .encircles, false⟩ := by
    unfold checkCircles
    simp only [cs, co, rs, ro, e, hm]
    norm_num
  exact ⟨s, o, .arc hs, .arc ho, ks, ko, by rw [hi, this], by rw [hi, this]⟩

/-- C62: two circles that overlap by 0.0005 cross in two points more than 0.04 apart, but are reported as touching, without
any point. -/
theorem C62_crossing_missed : ∃ s o p q, Made s ∧ Made o ∧ s.kind = .circle ∧ o.kind = .circle ∧
    Covers s p ∧ Covers o p ∧ Covers s q ∧ Covers o q ∧ 0.04 ^ 2 < planar2 p q ∧
    (intersections s o).ret = false ∧ (intersections s o).pts = [] := by
  obtain ⟨s, hs, ks, cs, rs⟩ := ex_circle (x := 0) (r := 1) (by norm_num) (by norm_num)
  obtain ⟨o, ho, ko, co, ro⟩ := ex_circle (x := 1.9995) (r := 1) (by norm_num) (by norm_num)
  have hnot : ¬ (intersections s o).ret = true := by
    rw [C62_meet_iff ks ko (by rw [rs]; norm_num) (by rw [ro]; norm_num), cs, co, rs, ro]
    have e : planar2 (pt 0 0) (pt 1.9995 0) = 1.9995 ^ 2 := by norm_num [planar2, pt]
    rw [e, Real.sqrt_sq (by norm_num)]
    norm_num
  have hret : (intersections s o).ret = false := by simpa using hnot
  have h2 : √(1 - 0.99975 ^ 2) ^ 2 = 1 - (0.99975 : ℝ) ^ 2 := Real.sq_sqrt (by norm_num)
  have cov : ∀ y : ℝ, y ^ 2 = 1 - 0.99975 ^ 2 → Covers s (pt 0.99975 y) ∧ Covers o (pt 0.99975 y) := by
    intro y hy
    unfold Covers
    rw [ks, ko]
    simp only [OnCircle, cs, co, rs, ro, planar2, pt, sub_zero, and_true]
    rw [hy]; norm_num
  obtain ⟨a1, a2⟩ := cov _ h2
  obtain ⟨b1, b2⟩ := cov (-√(1 - 0.99975 ^ 2)) (by rw [neg_sq]; exact h2)
  refine ⟨s, o, _, _, .arc hs, .arc ho, ks, ko, a1, a2, b1, b2, ?_, hret,
    (C62_flag ks ko (by rw [rs]; norm_num) (by rw [ro]; norm_num) hret).1⟩
  unfold planar2 pt
  simp only [sub_self]
  have : (√(1 - 0.99975 ^ 2) - -√(1 - 0.99975 ^ 2)) ^ 2 = 4 * (1 - (0.99975 : ℝ) ^ 2) := by linear_combination 4 * h2
  rw [this]
  norm_num

end Iges.Props
