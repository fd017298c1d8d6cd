import Verif.Lemmas.SegSplit
/-
C61: the points a segment stands for are those of the line, arc or circle that was asked for, and its bounding box
contains them tightly.
-/
namespace Iges.Props
open Iges.Geo Iges.Spec Real

/-- C61. A line set by `SetParams` stands for the points of the straight line between the given points. -/
theorem C61_line_points {a b : Point ℝ} {s : Seg} (h : setLine a b = (s, true)) (p : Point ℝ) :
    Covers s p ↔ OnLine a b p := by
  rcases setLine_cases a b with e | ⟨-, -, -, e⟩
  · rw [h] at e; simp at e
  · rw [h] at e
    have := (Prod.mk.inj e).1
    subst this
    rfl

/-- turning a point given by radius and direction -/
theorem turn_polar (c : Point ℝ) (r a θ : ℝ) : turn c θ (polar c r a) = polar c r (a + θ) := by
  unfold turn polar pt
  rw [Real.cos_add, Real.sin_add]
  ext
  · simp only; ring
  · simp only; ring
  · rfl

/-- two points at positive distances are in the same direction just when the angles have equal sine and cosine -/
theorem sameDirection_polar {c : Point ℝ} {r ρ a b : ℝ} (hr : 0 < r) (hρ : 0 < ρ) :
    SameDirection c (polar c r a) (polar c ρ b) ↔ cos (a - b) = 1 := by
  unfold SameDirection polar pt
  simp only [add_sub_cancel_left]
  constructor
  · rintro ⟨k, hk, hx, hy⟩
    have e1 := Real.sin_sq_add_cos_sq a
    have e2 := Real.sin_sq_add_cos_sq b
    have hsq : ρ ^ 2 = (k * r) ^ 2 := by
      have : (ρ * cos b) ^ 2 + (ρ * sin b) ^ 2 = (k * (r * cos a)) ^ 2 + (k * (r * sin a)) ^ 2 := by rw [hx, hy]
      nlinarith
    have hkr : 0 < k * r := mul_pos hk hr
    have hρk : ρ = k * r := by nlinarith [sq_nonneg (ρ - k * r)]
    have c1 : cos b = cos a := by
      have : ρ * cos b = ρ * cos a := by rw [hx, hρk]; ring
      exact mul_left_cancel₀ hρ.ne' this
    have c2 : sin b = sin a := by
      have : ρ * sin b = ρ * sin a := by rw [hy, hρk]; ring
      exact mul_left_cancel₀ hρ.ne' this
    rw [Real.cos_sub, c1, c2]
    nlinarith
  · intro h
    have e1 := Real.sin_sq_add_cos_sq a
    have e2 := Real.sin_sq_add_cos_sq b
    rw [Real.cos_sub] at h
    have hc : cos b = cos a := by nlinarith [sq_nonneg (cos a - cos b), sq_nonneg (sin a - sin b)]
    have hs : sin b = sin a := by nlinarith [sq_nonneg (cos a - cos b), sq_nonneg (sin a - sin b)]
    refine ⟨ρ / r, div_pos hρ hr, ?_, ?_⟩
    · rw [hc]; field_simp
    · rw [hs]; field_simp

/-- angles between 0 and a full turn with equal sine and cosine are equal -/
theorem eq_of_cos_sub {x y : ℝ} (hx : 0 < x) (hx' : x < 2 * π) (hy : 0 < y) (hy' : y < 2 * π) (h : cos (x - y) = 1) :
    x = y := by
  obtain ⟨k, hk⟩ := (Real.cos_eq_one_iff _).1 h
  have hp := Real.pi_pos
  have k1 : (-1 : ℝ) < k := by by_contra hc; nlinarith
  have k2 : (k : ℝ) < 1 := by by_contra hc; nlinarith
  have k1' : -1 < k := by exact_mod_cast k1
  have k2' : k < 1 := by exact_mod_cast k2
  obtain rfl : k = 0 := by omega
  simp at hk
  linarith

/-- two end points of an accepted arc are not in the same direction -/
theorem arc_directions {c a b : Point ℝ} {cw : Bool} {s : Seg} (h : setArc c a b cw = (s, true)) (hk : s.kind = .arc) :
    atan2 (a.y - c.y) (a.x - c.x) ≠ atan2 (b.y - c.y) (b.x - c.x) := by
  obtain ⟨hc, ha, hb, hra, hrb, e1, e2, h⟩ := setArc_cases h
  rcases h with ⟨h, -⟩ | ⟨-, hab, hs, he, hcw, hr, hsa, hea⟩
  · rw [hk] at h; cases h
  intro e
  have pa := polar_of c a ha
  have pb := polar_of c b hb
  rw [← e] at pb
  rw [e2] at hr
  generalize hyp (a.x - c.x) (a.y - c.y) = r1 at *
  generalize hyp (b.x - c.x) (b.y - c.y) = r2 at *
  generalize atan2 (a.y - c.y) (a.x - c.x) = α at *
  have : PointMatches a b 1e-8 = true := by
    apply matches_of_close
    have hd : dist2 a b = (r2 - r1) ^ 2 := by
      rw [pa, pb]
      unfold dist2 polar pt
      have := Real.sin_sq_add_cos_sq α
      simp only
      linear_combination (r2 - r1) ^ 2 * this
    rw [hd]
    have := abs_le.1 hr
    nlinarith
  rw [this] at hab
  cases hab

/-- C61. An arc set by `SetParams` stands for the points that the start point passes when it is turned about the centre, in
the sense asked for, until it is in the direction of the end point. -/
theorem C61_arc_points {c a b : Point ℝ} {cw : Bool} {s : Seg} (h : setArc c a b cw = (s, true)) (hk : s.kind = .arc)
    (p : Point ℝ) : Covers s p ↔ OnArc c a b cw p := by
  have hne := arc_directions h hk
  have hok := setArc_ok h hk
  obtain ⟨hc, ha, hb, hra, hrb, e1, e2, h⟩ := setArc_cases h
  rcases h with ⟨h, -⟩ | ⟨-, hab, hs, he, hcw, hr, hsa, hea⟩
  · rw [hk] at h; cases h
  have pa := polar_of c a ha
  have pb := polar_of c b hb
  have p1 := atan2_gt (a.y - c.y) (a.x - c.x)
  have p2 := atan2_le (a.y - c.y) (a.x - c.x)
  have p3 := atan2_gt (b.y - c.y) (b.x - c.x)
  have p4 := atan2_le (b.y - c.y) (b.x - c.x)
  have hpi := Real.pi_pos
  rw [covers_arc hk, e1, e2]
  clear hok hr
  generalize hyp (a.x - c.x) (a.y - c.y) = r1 at *
  generalize hyp (b.x - c.x) (b.y - c.y) = r2 at *
  generalize atan2 (a.y - c.y) (a.x - c.x) = α at *
  generalize atan2 (b.y - c.y) (b.x - c.x) = β at *
  unfold OnArc Sweep
  cases cw
  · simp only [Seg.startAngle, Seg.endAngle, hcw, hsa, hea, Bool.false_eq_true, if_false, false_and, true_and]
    have key : ∀ φ, SameDirection c (turn c φ a) b ↔ cos (α + φ - β) = 1 := by
      intro φ; rw [pa, pb, turn_polar]; exact sameDirection_polar hra hrb
    obtain ⟨φ₀, hφ, hφ', hφe, hφs⟩ : ∃ φ₀, 0 < φ₀ ∧ φ₀ < 2 * π ∧ (if β < α then β + 2 * π else β) = α + φ₀ ∧
        cos (α + φ₀ - β) = 1 := by
      split
      · refine ⟨β + 2 * π - α, by linarith, by linarith, by ring, ?_⟩
        rw [show α + (β + 2 * π - α) - β = 2 * π by ring]; exact Real.cos_two_pi
      · rename_i hn
        refine ⟨β - α, ?_, by linarith, by ring, ?_⟩
        · rcases lt_or_gt_of_ne hne with h | h
          · linarith
          · exact absurd h hn
        · rw [show α + (β - α) - β = 0 by ring]; exact Real.cos_zero
    rw [hφe]
    constructor
    · rintro ⟨t, t1, t2, rfl⟩
      refine ⟨φ₀, ⟨hφ, hφ', (key _).2 hφs⟩, t - α, by linarith, by linarith, ?_⟩
      rw [pa, turn_polar]; congr 1; ring
    · rintro ⟨φ, ⟨h1, h2, h3⟩, θ, θ1, θ2, rfl⟩
      have : φ = φ₀ := by
        refine eq_of_cos_sub h1 h2 hφ hφ' ?_
        rw [key] at h3
        have u : φ - φ₀ = (α + φ - β) - (α + φ₀ - β) := by ring
        have s1 := Real.sin_sq_add_cos_sq (α + φ - β)
        have s2 := Real.sin_sq_add_cos_sq (α + φ₀ - β)
        rw [u, Real.cos_sub, h3, hφs]
        have z1 : sin (α + φ - β) = 0 := by nlinarith
        rw [z1]; ring
      subst this
      refine ⟨α + θ, by linarith, by linarith, ?_⟩
      rw [pa, turn_polar]
  · simp only [Seg.startAngle, Seg.endAngle, hcw, hsa, hea, if_true, true_and, Bool.true_eq_false, false_and, if_false]
    have key : ∀ φ, SameDirection c (turn c (-φ) a) b ↔ cos (α - φ - β) = 1 := by
      intro φ; rw [pa, pb, turn_polar, ← sub_eq_add_neg]; exact sameDirection_polar hra hrb
    obtain ⟨φ₀, hφ, hφ', hφe, hφs⟩ : ∃ φ₀, 0 < φ₀ ∧ φ₀ < 2 * π ∧ (if α < β then α + 2 * π else α) = β + φ₀ ∧
        cos (α - φ₀ - β) = 1 := by
      split
      · refine ⟨α + 2 * π - β, by linarith, by linarith, by ring, ?_⟩
        rw [show α - (α + 2 * π - β) - β = -(2 * π) by ring, Real.cos_neg]; exact Real.cos_two_pi
      · rename_i hn
        refine ⟨α - β, ?_, by linarith, by ring, ?_⟩
        · rcases lt_or_gt_of_ne hne with h | h
          · exact absurd h hn
          · linarith
        · rw [show α - (α - β) - β = 0 by ring]; exact Real.cos_zero
    have tw : ∀ θ, polar c r1 ((if α < β then α + 2 * π else α) - θ) = polar c r1 (α - θ) := by
      intro θ
      split
      · rw [show α + 2 * π - θ = (α - θ) + 2 * π by ring, polar_add]
      · rfl
    rw [hφe] at tw ⊢
    constructor
    · rintro ⟨t, t1, t2, rfl⟩
      refine ⟨φ₀, ⟨hφ, hφ', (key _).2 hφs⟩, β + φ₀ - t, by linarith, by linarith, ?_⟩
      rw [pa, turn_polar, ← sub_eq_add_neg, ← tw]; congr 1; ring
    · rintro ⟨φ, ⟨h1, h2, h3⟩, θ, θ1, θ2, rfl⟩
      have : φ = φ₀ := by
        refine eq_of_cos_sub h1 h2 hφ hφ' ?_
        rw [key] at h3
        have u : φ - φ₀ = (α - φ₀ - β) - (α - φ - β) := by ring
        have s1 := Real.sin_sq_add_cos_sq (α - φ - β)
        rw [u, Real.cos_sub, h3, hφs]
        have z1 : sin (α - φ - β) = 0 := by nlinarith
        rw [z1]; ring
      subst this
      refine ⟨β + φ - θ, by linarith, by linarith, ?_⟩
      rw [pa, turn_polar, ← sub_eq_add_neg, ← tw]

/-- C61. An arc whose start and end point match is set as the full circle through the start point. -/
theorem C61_circle_points {c a b : Point ℝ} {cw : Bool} {s : Seg} (h : setArc c a b cw = (s, true))
    (hk : s.kind = .circle) (p : Point ℝ) : Covers s p ↔ p.z = 0 ∧ planar2 p c = planar2 a c := by
  obtain ⟨-, -, -, -, -, e1, e2, -⟩ := setArc_cases h
  unfold Covers
  rw [hk]
  unfold OnCircle
  rw [e1, e2, hyp_sq]
  unfold planar2
  tauto

/-- C61. An arc is accepted, for points in the plane, when the centre matches neither end point and the end points are
equally far from the centre up to 1e-8; it is a circle just when the end points match. -/
theorem C61_arc_accepted (c a b : Point ℝ) (cw : Bool) :
    (∃ s, setArc c a b cw = (s, true)) ↔
      (c.z = 0 ∧ a.z = 0 ∧ b.z = 0) ∧ PointMatches c a 1e-8 = false ∧ PointMatches c b 1e-8 = false ∧
      (PointMatches a b 1e-8 = true ∨ |√(planar2 b c) - √(planar2 a c)| ≤ 1e-8) := by
  have e : ∀ u v : Point ℝ, hyp (u.x - v.x) (u.y - v.y) = √(planar2 u v) := by
    intro u v; unfold hyp planar2; congr 1; ring
  unfold setArc
  simp only [e]
  split
  · rename_i h
    constructor
    · rintro ⟨s, hs⟩; simp at hs
    · rintro ⟨⟨h1, h2, h3⟩, -⟩; simp [h1, h2, h3] at h
  · rename_i hz
    push Not at hz
    split
    · rename_i h
      constructor
      · rintro ⟨s, hs⟩; simp at hs
      · rintro ⟨-, h1, h2, -⟩; simp [h1, h2] at h
    · rename_i h
      push Not at h
      split
      · rename_i hm
        exact ⟨fun _ => ⟨⟨hz.1, hz.2.1, hz.2.2⟩, by simpa using h.1, by simpa using h.2, Or.inl hm⟩, fun _ => ⟨_, rfl⟩⟩
      · rename_i hm
        split
        · rename_i hr
          constructor
          · rintro ⟨s, hs⟩; simp at hs
          · rintro ⟨-, -, -, h1 | h1⟩
            · exact absurd h1 hm
            · exact absurd h1 (not_le.2 hr)
        · rename_i hr
          exact ⟨fun _ => ⟨⟨hz.1, hz.2.1, hz.2.2⟩, by simpa using h.1, by simpa using h.2, Or.inr (not_lt.1 hr)⟩,
            fun _ => ⟨_, rfl⟩⟩

/-- C61. The bounding box of every segment a program can have — set as line, arc or circle, reversed, split, any number
of times — contains all points of the segment, and each side of it comes up to a point of the segment, within the
stated tolerance. -/
theorem C61_box {s : Seg} (h : Made s) (hk : s.kind ≠ .none) :
    ∃ b, s.box = some b ∧ (∀ p, Covers s p → InBox (boxTol s) b p) ∧ Tight (boxTol s) (Covers s) b := by
  have hok := made_ok h
  match hm : s.kind with
  | .none => exact absurd hm hk
  | .circle =>
    obtain ⟨hr, hc, -⟩ := hok.circle hm
    refine ⟨_, by unfold Seg.box; rw [hm], ?_, ?_⟩
    · intro p hp
      unfold Covers at hp
      rw [hm] at hp
      obtain ⟨hp, -⟩ := hp
      unfold planar2 at hp
      unfold InBox boxTol
      rw [hm]
      simp only
      refine ⟨?_, ?_, ?_, ?_⟩
      · nlinarith [sq_nonneg (p.x - s.center.x), sq_nonneg (p.y - s.center.y)]
      · nlinarith [sq_nonneg (p.x - s.center.x), sq_nonneg (p.y - s.center.y)]
      · nlinarith [sq_nonneg (p.x - s.center.x), sq_nonneg (p.y - s.center.y)]
      · nlinarith [sq_nonneg (p.x - s.center.x), sq_nonneg (p.y - s.center.y)]
    · have cov : ∀ x y : ℝ, (x - s.center.x) ^ 2 + (y - s.center.y) ^ 2 = s.radius ^ 2 → Covers s (pt x y) := by
        intro x y hxy
        unfold Covers
        rw [hm]
        exact ⟨hxy, rfl⟩
      unfold boxTol
      rw [hm]
      refine ⟨⟨pt (s.center.x - s.radius) s.center.y, cov _ _ (by ring), by simp [pt]⟩,
        ⟨pt (s.center.x + s.radius) s.center.y, cov _ _ (by ring), by simp [pt]⟩,
        ⟨pt s.center.x (s.center.y - s.radius), cov _ _ (by ring), by simp [pt]⟩,
        ⟨pt s.center.x (s.center.y + s.radius), cov _ _ (by ring), by simp [pt]⟩⟩
  | .arc =>
    have ha := hok.arc hm
    have ht : boxTol s = slack s.radius := by unfold boxTol slack; rw [hm]
    refine ⟨_, by unfold Seg.box; rw [hm], ?_, ?_⟩
    · intro p hp
      rw [covers_arc hm] at hp
      obtain ⟨a, h1, h2, rfl⟩ := hp
      rw [ht]
      exact box_arc_contains ha h1 h2
    · rw [ht]; exact box_arc_tight ha
  | .line =>
    obtain ⟨hcw, hz1, hz2⟩ := hok.line hm
    have hs : s.getStart = s.start := by unfold Seg.getStart; rw [hcw]; rfl
    have he : s.getEnd = s.stop := by unfold Seg.getEnd; rw [hcw]; rfl
    have hcov : ∀ p, Covers s p ↔ OnLine s.start s.stop p := by
      intro p; unfold Covers; rw [hm]; simp only [hs, he]
    have ht : boxTol s = 1e-8 := by unfold boxTol; rw [hm]
    have c0 : Covers s s.start := (hcov _).2 ⟨0, le_refl _, by norm_num, by ext <;> simp [pt, hz1]⟩
    have c1 : Covers s s.stop := (hcov _).2 ⟨1, by norm_num, le_refl _, by ext <;> simp [pt, hz2]⟩
    have h8 : (0 : ℝ) < 1e-8 := by norm_num
    rw [ht]
    unfold Seg.box
    simp only [hm]
    by_cases hv : |s.start.x - s.stop.x| < 1e-8
    · rw [if_pos hv]
      have hv' := abs_lt.1 hv
      by_cases hy : s.start.y ≤ s.stop.y
      · rw [if_pos hy]
        refine ⟨_, rfl, ?_, ?_⟩
        · intro p hp
          obtain ⟨t, t1, t2, rfl⟩ := (hcov p).1 hp
          unfold InBox pt
          simp only
          refine ⟨?_, ?_, ?_, ?_⟩ <;> nlinarith
        · refine ⟨⟨_, c0, by simpa using h8.le⟩, ⟨_, c1, by simpa using h8.le⟩, ⟨_, c0, by simpa using h8.le⟩,
            ⟨_, c1, by simpa using h8.le⟩⟩
      · rw [if_neg hy]
        push Not at hy
        refine ⟨_, rfl, ?_, ?_⟩
        · intro p hp
          obtain ⟨t, t1, t2, rfl⟩ := (hcov p).1 hp
          unfold InBox pt
          simp only
          refine ⟨?_, ?_, ?_, ?_⟩ <;> nlinarith
        · refine ⟨⟨_, c1, by simpa using h8.le⟩, ⟨_, c0, by simpa using h8.le⟩, ⟨_, c1, by simpa using h8.le⟩,
            ⟨_, c0, by simpa using h8.le⟩⟩
    · rw [if_neg hv]
      refine ⟨_, rfl, ?_, ?_⟩
      · intro p hp
        obtain ⟨t, t1, t2, rfl⟩ := (hcov p).1 hp
        obtain ⟨e1, e2, e3, e4⟩ := endBox_spec s.start s.stop
        unfold InBox pt
        rw [e1, e2, e3, e4]
        simp only
        have m1 := min_le_left s.start.x s.stop.x
        have m2 := min_le_right s.start.x s.stop.x
        have m3 := min_le_left s.start.y s.stop.y
        have m4 := min_le_right s.start.y s.stop.y
        have m5 := le_max_left s.start.x s.stop.x
        have m6 := le_max_right s.start.x s.stop.x
        have m7 := le_max_left s.start.y s.stop.y
        have m8 := le_max_right s.start.y s.stop.y
        refine ⟨?_, ?_, ?_, ?_⟩ <;> nlinarith
      · obtain ⟨e1, e2, e3, e4⟩ := endBox_spec s.start s.stop
        unfold Tight
        rw [e1, e2, e3, e4]
        refine ⟨?_, ?_, ?_, ?_⟩
        · rcases min_choice s.start.x s.stop.x with e | e <;> rw [e]
          · exact ⟨_, c0, by simpa using h8.le⟩
          · exact ⟨_, c1, by simpa using h8.le⟩
        · rcases max_choice s.start.x s.stop.x with e | e <;> rw [e]
          · exact ⟨_, c0, by simpa using h8.le⟩
          · exact ⟨_, c1, by simpa using h8.le⟩
        · rcases min_choice s.start.y s.stop.y with e | e <;> rw [e]
          · exact ⟨_, c0, by simpa using h8.le⟩
          · exact ⟨_, c1, by simpa using h8.le⟩
        · rcases max_choice s.start.y s.stop.y with e | e <;> rw [e]
          · exact ⟨_, c0, by simpa using h8.le⟩
          · exact ⟨_, c1, by simpa using h8.le⟩

/-- C61. Reversing a segment does not change its points. -/
theorem C61_reverse {s : Seg} (h : Made s) (p : Point ℝ) : Covers s.reverse p ↔ Covers s p := by
  have hok := made_ok h
  cases hk : s.kind
  · unfold Seg.reverse; rw [hk]
  · obtain ⟨hcw, -, -⟩ := hok.line hk
    unfold Covers Seg.reverse
    simp only [hk]
    unfold Seg.getStart Seg.getEnd OnLine
    simp only [hcw, Bool.false_eq_true, if_false]
    constructor
    · rintro ⟨t, t1, t2, rfl⟩
      exact ⟨1 - t, by linarith, by linarith, by unfold pt; congr 1 <;> ring⟩
    · rintro ⟨t, t1, t2, rfl⟩
      exact ⟨1 - t, by linarith, by linarith, by unfold pt; congr 1 <;> ring⟩
  · unfold Covers Seg.reverse
    simp only [hk]
    unfold Seg.startAngle Seg.endAngle
    cases hc : s.cw <;> simp
  · unfold Seg.reverse; rw [hk]

/-- C61. Reversing exchanges the ends of a line and of an arc, keeps the length, and twice restores the segment. -/
theorem C61_reverse_ends (s : Seg) :
    (s.kind = .line ∨ s.kind = .arc → s.reverse.start = s.stop ∧ s.reverse.stop = s.start) ∧
    s.reverse.kind = s.kind ∧ s.reverse.length = s.length ∧ s.reverse.reverse = s := by
  cases hk : s.kind
  · refine ⟨by simp, ?_, ?_, ?_⟩ <;> simp [Seg.reverse, hk]
  · refine ⟨fun _ => ?_, ?_, ?_, ?_⟩
    · simp [Seg.reverse, hk]
    · simp [Seg.reverse, hk]
    · simp only [Seg.reverse, hk, Seg.length]
      unfold hyp; congr 1; ring
    · simp only [Seg.reverse, hk]; rw [← hk]
  · refine ⟨fun _ => ?_, ?_, ?_, ?_⟩
    · simp [Seg.reverse, hk]
    · simp [Seg.reverse, hk]
    · simp only [Seg.reverse, hk, Seg.length, Seg.startAngle, Seg.endAngle]
      cases s.cw <;> simp
    · simp only [Seg.reverse, hk, Bool.not_not]; rw [← hk]
  · refine ⟨by simp, ?_, ?_, ?_⟩ <;> simp [Seg.reverse, hk]

/-- C61. The midpoint of a segment is one of its points; for a line and an arc it is as far from the one end as from the
other. -/
theorem C61_midpoint {s : Seg} (h : Made s) (hk : s.kind ≠ .none) :
    ∃ m, s.midpoint = some m ∧ Covers s m ∧
      (s.kind = .line → planar2 m s.start = planar2 m s.stop) ∧
      (s.kind = .arc → planar2 m (polar s.center s.radius s.startAngle) = planar2 m (polar s.center s.radius s.endAngle)) := by
  have hok := made_ok h
  match hm : s.kind with
  | .none => exact absurd hm hk
  | .circle =>
    obtain ⟨-, hc, -⟩ := hok.circle hm
    refine ⟨_, by unfold Seg.midpoint; rw [hm], ?_, by simp, by simp⟩
    unfold Covers OnCircle planar2
    rw [hm]
    exact ⟨by ring, hc⟩
  | .line =>
    obtain ⟨hcw, -, -⟩ := hok.line hm
    refine ⟨_, by unfold Seg.midpoint; rw [hm], ?_, fun _ => by unfold planar2; ring, by simp⟩
    unfold Covers OnLine Seg.getStart Seg.getEnd pt
    rw [hm, hcw]
    exact ⟨0.5, by norm_num, by norm_num, by ext <;> simp <;> ring⟩
  | .arc =>
    have ha := hok.arc hm
    have hle := ha.le
    have e : (s.sang + s.eang) * 0.5 = (s.startAngle + s.endAngle) / 2 := by
      unfold Seg.startAngle Seg.endAngle
      cases s.cw <;> simp <;> ring
    refine ⟨polar s.center s.radius ((s.startAngle + s.endAngle) / 2), ?_, ?_, by simp, fun _ => ?_⟩
    · unfold Seg.midpoint
      rw [hm]
      simp only [e]
      unfold polar pt
      rw [ha.flat]
    · rw [covers_arc hm]
      exact ⟨_, by linarith, by linarith, rfl⟩
    · generalize s.startAngle = a
      generalize s.endAngle = b
      obtain ⟨m, d, rfl, rfl⟩ : ∃ m d, a = m - d ∧ b = m + d := ⟨(a + b) / 2, (b - a) / 2, by ring, by ring⟩
      rw [show (m - d + (m + d)) / 2 = m by ring]
      unfold planar2 polar pt
      simp only
      rw [Real.cos_add, Real.cos_sub, Real.sin_add, Real.sin_sub]
      have h1 := Real.sin_sq_add_cos_sq m
      linear_combination (0 : ℝ) * h1

/-- C61. The length: the distance of the ends for a line; the radius times the angle for an arc; the circumference for a
circle. -/
theorem C61_length {s : Seg} :
    (s.kind = .line → s.length = √(planar2 s.start s.stop)) ∧
    (s.kind = .arc → s.length = s.radius * (s.endAngle - s.startAngle)) ∧
    (s.kind = .circle → s.length = 2 * π * s.radius) := by
  refine ⟨fun h => ?_, fun h => ?_, fun h => ?_⟩ <;> unfold Seg.length <;> simp only [h]
  · unfold hyp planar2; congr 1; ring
  · ring

end Iges.Props
