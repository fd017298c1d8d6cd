import Mathlib.Analysis.Real.Pi.Bounds
import Mathlib.Analysis.SpecialFunctions.Trigonometric.Bounds
import Verif.Lemmas.Trig
import Verif.Spec.IdfSeg
/-
C72: arcs of IDF outlines: centre, radius, leftmost point, reversal.
-/
namespace Iges.Props.IdfArc
open Iges.Idf Iges.Idf.Spec Iges.Geo Real

/-- the centre as the code computes it, without the case distinctions -/
theorem centre_formula (a b : P2) (θ : ℝ) (h0 : θ ≠ 0) (h1 : |θ| < 360) :
    (centreAndRadius a b θ).center =
      ⟨(a.x + b.x) / 2 - (b.y - a.y) / 2 * (cos (θ * π / 360) / sin (θ * π / 360)),
       (a.y + b.y) / 2 + (b.x - a.x) / 2 * (cos (θ * π / 360) / sin (θ * π / 360))⟩ ∧
    (centreAndRadius a b θ).radius = a.dist b / 2 / |sin (θ * π / 360)| ∧ sin (θ * π / 360) ≠ 0 := by
  have hpi := Real.pi_pos
  obtain ⟨hl, hu⟩ := abs_lt.1 h1
  have hs : (0 < θ → 0 < sin (θ * π / 360)) ∧ (θ < 0 → sin (θ * π / 360) < 0) := by
    constructor
    · intro h
      exact Real.sin_pos_of_pos_of_lt_pi (by positivity) (by nlinarith)
    · intro h
      exact Real.sin_neg_of_neg_of_neg_pi_lt (by nlinarith) (by nlinarith)
  have hs0 : sin (θ * π / 360) ≠ 0 := by
    rcases lt_or_gt_of_ne h0 with h | h
    · exact ne_of_lt (hs.2 h)
    · exact ne_of_gt (hs.1 h)
  set d := a.dist b / 2 with hd
  have hd0 : 0 ≤ d := by rw [hd]; unfold P2.dist; positivity
  set S := sin (θ * π / 360) with hS
  set C := cos (θ * π / 360) with hC
  have hSC : S ^ 2 + C ^ 2 = 1 := Real.sin_sq_add_cos_sq _
  have hr : (if d / S < 0 then -(d / S) else d / S) = d / |S| := by
    rcases lt_or_gt_of_ne h0 with h | h
    · have := hs.2 h
      rw [abs_of_neg this]
      rcases eq_or_lt_of_le hd0 with h' | h'
      · rw [← h']; simp
      · rw [if_pos (div_neg_of_pos_of_neg h' this), div_neg]
    · have := hs.1 h
      rw [abs_of_pos this, if_neg (not_lt.2 (by positivity))]
  have hdh : (d / |S|) * (d / |S|) - d * d = (d * (C / S)) ^ 2 := by
    have : |S| * |S| = S * S := abs_mul_abs_self S
    rw [div_mul_div_comm, this]
    field_simp
    nlinarith [hSC]
  have hh : Real.sqrt (if (d / |S|) * (d / |S|) - d * d < 0 then 0 else (d / |S|) * (d / |S|) - d * d) = |d * (C / S)| := by
    rw [hdh, if_neg (not_lt.2 (sq_nonneg _)), Real.sqrt_sq_eq_abs]
  have ex : 2 * d * cos (angRad a b) = b.x - a.x := by
    have := hyp_cos (b.x - a.x) (b.y - a.y)
    rw [hd]; unfold P2.dist angRad
    unfold hyp at this
    linarith
  have ey : 2 * d * sin (angRad a b) = b.y - a.y := by
    have := hyp_sin (b.x - a.x) (b.y - a.y)
    rw [hd]; unfold P2.dist angRad
    unfold hyp at this
    linarith
  -- the direction of the centre from the middle of the chord
  have hdir : |d * (C / S)| * cos (if θ > 180 ∨ θ < -180 then (if θ > 0 then angRad a b + π / 2 else angRad a b - π / 2) + π
        else (if θ > 0 then angRad a b + π / 2 else angRad a b - π / 2)) = -(d * (C / S) * sin (angRad a b)) ∧
      |d * (C / S)| * sin (if θ > 180 ∨ θ < -180 then (if θ > 0 then angRad a b + π / 2 else angRad a b - π / 2) + π
        else (if θ > 0 then angRad a b + π / 2 else angRad a b - π / 2)) = d * (C / S) * cos (angRad a b) := by
    have hcpos : -180 ≤ θ → θ ≤ 180 → 0 ≤ C := fun g1 g2 =>
      Real.cos_nonneg_of_mem_Icc ⟨by nlinarith, by nlinarith⟩
    have hcneg : θ > 180 ∨ θ < -180 → C ≤ 0 := by
      rintro (g | g)
      · exact Real.cos_nonpos_of_pi_div_two_le_of_le (by nlinarith) (by nlinarith)
      · rw [hC, ← Real.cos_neg]
        exact Real.cos_nonpos_of_pi_div_two_le_of_le (by nlinarith) (by nlinarith)
    have habs : |d * (C / S)| = d * |C / S| := by rw [abs_mul, abs_of_nonneg hd0]
    rcases lt_or_gt_of_ne h0 with h | h
    · have hSn := hs.2 h
      rw [if_neg (not_lt.2 (le_of_lt h))]
      by_cases hb : θ > 180 ∨ θ < -180
      · rw [if_pos hb]
        have h2 : 0 ≤ C / S := div_nonneg_of_nonpos (hcneg hb) (le_of_lt hSn)
        rw [habs, abs_of_nonneg h2, Real.cos_add_pi, Real.sin_add_pi, Real.cos_sub_pi_div_two, Real.sin_sub_pi_div_two]
        constructor <;> ring
      · rw [if_neg hb]
        obtain ⟨b1, b2⟩ := not_or.1 hb
        have h2 : C / S ≤ 0 := div_nonpos_of_nonneg_of_nonpos (hcpos (not_lt.1 b2) (not_lt.1 b1)) (le_of_lt hSn)
        rw [habs, abs_of_nonpos h2, Real.cos_sub_pi_div_two, Real.sin_sub_pi_div_two]
        constructor <;> ring
    · have hSp := hs.1 h
      rw [if_pos h]
      by_cases hb : θ > 180 ∨ θ < -180
      · rw [if_pos hb]
        have h2 : C / S ≤ 0 := div_nonpos_of_nonpos_of_nonneg (hcneg hb) (le_of_lt hSp)
        rw [habs, abs_of_nonpos h2, Real.cos_add_pi, Real.sin_add_pi, Real.cos_add_pi_div_two, Real.sin_add_pi_div_two]
        constructor <;> ring
      · rw [if_neg hb]
        obtain ⟨b1, b2⟩ := not_or.1 hb
        have h2 : 0 ≤ C / S := div_nonneg (hcpos (not_lt.1 b2) (not_lt.1 b1)) (le_of_lt hSp)
        rw [habs, abs_of_nonneg h2, Real.cos_add_pi_div_two, Real.sin_add_pi_div_two]
        constructor <;> ring
  refine ⟨?_, ?_, hs0⟩
  · unfold centreAndRadius
    simp only [← hd, ← hS, hr, hh]
    rw [hdir.1, hdir.2]
    ext
    · simp only; rw [← ey]; ring
    · simp only; rw [← ex]; ring
  · unfold centreAndRadius
    simp only [← hd, ← hS, hr]

/-- **C72_arc** (the arc from its ends and its angle): the segment made from two different points and an included angle
between 0.01 and 359.99 degrees, in either direction, keeps the two points and the angle, and turning the start point by
that angle about the centre gives exactly the end point; both ends are at the distance `radius` from the centre. -/
theorem C72_arc (a b : P2) (θ : ℝ) (h0 : 0.01 < |θ|) (h1 : |θ| ≤ 359.99) :
    (arcSeg a b θ false).start = a ∧ (arcSeg a b θ false).stop = b ∧ (arcSeg a b θ false).angle = θ ∧
    turnDeg (arcSeg a b θ false).center θ a = b ∧ 0 ≤ (arcSeg a b θ false).radius ∧
    gap2 a (arcSeg a b θ false).center = (arcSeg a b θ false).radius ^ 2 ∧
    gap2 b (arcSeg a b θ false).center = (arcSeg a b θ false).radius ^ 2 := by
  have hm : θ > minAng ∨ θ < -minAng := by
    unfold minAng
    rcases lt_abs.1 h0 with h | h
    · exact Or.inl h
    · right; linarith
  have hf : ¬ fullTurn θ := by
    unfold fullTurn minAng
    rintro ⟨-, h⟩
    norm_num at h h1
    linarith
  have e : arcSeg a b θ false = centreAndRadius a b θ := by
    unfold arcSeg
    rw [if_pos (Or.inr (Or.inr rfl)), if_neg hf, if_pos hm]
  have hθ0 : θ ≠ 0 := by rintro rfl; norm_num at h0
  obtain ⟨hc, hr, hs⟩ := centre_formula a b θ hθ0 (by norm_num at h1; linarith)
  rw [e]
  have hsc := Real.sin_sq_add_cos_sq (θ * π / 360)
  have hcos : cos (θ * π / 180) = 1 - 2 * sin (θ * π / 360) ^ 2 := by
    rw [show θ * π / 180 = 2 * (θ * π / 360) by ring, Real.cos_two_mul]; linarith
  have hsin : sin (θ * π / 180) = 2 * sin (θ * π / 360) * cos (θ * π / 360) := by
    rw [show θ * π / 180 = 2 * (θ * π / 360) by ring, Real.sin_two_mul]
  refine ⟨rfl, rfl, rfl, ?_, ?_, ?_, ?_⟩
  · rw [hc]
    unfold turnDeg
    rw [hcos, hsin]
    generalize sin (θ * π / 360) = S at *
    generalize cos (θ * π / 360) = C at *
    have hC2 : C ^ 2 = 1 - S ^ 2 := by linarith
    ext
    · simp only
      field_simp
      ring_nf
      rw [hC2]; ring
    · simp only
      field_simp
      ring_nf
      rw [hC2]; ring
  · rw [hr]; unfold P2.dist; positivity
  all_goals
    rw [hc, hr]
    unfold gap2
    have hsq : (a.dist b / 2 / |sin (θ * π / 360)|) ^ 2 = ((b.x - a.x) ^ 2 + (b.y - a.y) ^ 2) / 4 / sin (θ * π / 360) ^ 2 := by
      rw [div_pow, sq_abs, div_pow]
      congr 2
      · unfold P2.dist
        rw [Real.sq_sqrt (by nlinarith [mul_self_nonneg (b.x - a.x), mul_self_nonneg (b.y - a.y)])]; ring
      · norm_num
    rw [hsq]
    generalize sin (θ * π / 360) = S at *
    generalize cos (θ * π / 360) = C at *
    have hC2 : C ^ 2 = 1 - S ^ 2 := by linarith
    simp only
    field_simp
    ring_nf
    rw [hC2]; ring

/-- **C72_circle**: an included angle within 0.01 of 360 degrees, in either direction, gives the circle about the first
point through the second. -/
theorem C72_circle (a b : P2) (θ : ℝ) (k : Bool) (h : |(|θ| - 360)| < 0.01) :
    (arcSeg a b θ k).isCircle = true ∧ (arcSeg a b θ k).center = a ∧ 0 ≤ (arcSeg a b θ k).radius ∧
    (arcSeg a b θ k).radius ^ 2 = gap2 b a ∧ (arcSeg a b θ k).minX = a.x - (arcSeg a b θ k).radius := by
  have hf : fullTurn θ := by
    unfold fullTurn minAng
    exact ⟨(abs_lt.1 h).2, (abs_lt.1 h).1⟩
  have e : arcSeg a b θ k = ⟨a, b, a, 360, 0, a.dist b⟩ := by
    unfold arcSeg; rw [if_pos (Or.inl hf), if_pos hf]
  have hc : Seg.isCircle ⟨a, b, a, 360, 0, a.dist b⟩ = true := by
    unfold Seg.isCircle fullTurn minAng; norm_num
  rw [e]
  refine ⟨hc, rfl, Real.sqrt_nonneg _, ?_, ?_⟩
  · unfold P2.dist gap2
    simp only
    rw [Real.sq_sqrt (by nlinarith [mul_self_nonneg (b.x - a.x), mul_self_nonneg (b.y - a.y)])]; ring
  · unfold Seg.minX
    rw [if_neg (by norm_num), hc]; rfl

theorem toInt_err (x : ℝ) : |(toInt x : ℝ) - x| ≤ 1 := by
  unfold toInt
  split
  · have h1 := Int.floor_le x
    have h2 := Int.lt_floor_add_one x
    rw [abs_le]; constructor <;> linarith
  · have h1 := Int.le_ceil x
    have h2 := Int.ceil_lt_add_one x
    rw [abs_le]; constructor <;> linarith

/-- the angle in degrees is off by at most a ten-thousandth of a degree -/
theorem angDeg_err (a b : P2) : |angDeg a b * π / 180 - angRad a b| ≤ 1 / 10000 * π / 180 := by
  have hp := Real.pi_pos
  have h := toInt_err (angRad a b / π * 1800000)
  have e : angDeg a b * π / 180 - angRad a b =
      ((toInt (angRad a b / π * 1800000) : ℝ) - angRad a b / π * 1800000) * (1 / 10000 * π / 180) := by
    unfold angDeg; field_simp; ring
  rw [e, abs_mul, abs_of_pos (show 0 < 1 / 10000 * π / 180 by positivity)]
  nlinarith [show 0 < 1 / 10000 * π / 180 by positivity]

theorem tol_small : 1 / 10000 * π / 180 ≤ 2e-6 := by
  have := Real.pi_le_four
  have : π < 3.15 := Real.pi_lt_d2
  norm_num at this ⊢; linarith

/-- a point from its distance and direction -/
theorem polar (c p : P2) : p.x = c.x + c.dist p * cos (angRad c p) ∧ p.y = c.y + c.dist p * sin (angRad c p) := by
  have h1 := hyp_cos (p.x - c.x) (p.y - c.y)
  have h2 := hyp_sin (p.x - c.x) (p.y - c.y)
  unfold P2.dist angRad
  unfold hyp at h1 h2
  constructor <;> linarith

theorem turn_polar (c p : P2) (θ : ℝ) : turnDeg c θ p =
    ⟨c.x + c.dist p * cos (angRad c p + θ * π / 180), c.y + c.dist p * sin (angRad c p + θ * π / 180)⟩ := by
  obtain ⟨h1, h2⟩ := polar c p
  unfold turnDeg
  rw [Real.cos_add, Real.sin_add]
  ext
  · simp only
    rw [show p.x - c.x = c.dist p * cos (angRad c p) by linarith, show p.y - c.y = c.dist p * sin (angRad c p) by linarith]
    ring
  · simp only
    rw [show p.x - c.x = c.dist p * cos (angRad c p) by linarith, show p.y - c.y = c.dist p * sin (angRad c p) by linarith]
    ring

/-- **C72_kicad** (the KiCad convention): made from a centre, a point and an angle, the arc starts at the point, has that
centre and angle, both ends are at the same distance from the centre, and the end is the start turned by the angle to within
two millionths of the radius. -/
theorem C72_kicad (c p : P2) (θ : ℝ) (h0 : 0.01 ≤ |θ|) (h1 : |θ| ≤ 359.99) :
    (arcSeg c p θ true).start = p ∧ (arcSeg c p θ true).center = c ∧ (arcSeg c p θ true).angle = θ ∧
    0 ≤ (arcSeg c p θ true).radius ∧ (arcSeg c p θ true).radius ^ 2 = gap2 p c ∧
    gap2 (arcSeg c p θ true).stop c = gap2 p c ∧
    gap2 (arcSeg c p θ true).stop (turnDeg c θ p) ≤ (2e-6 * (arcSeg c p θ true).radius) ^ 2 := by
  have hf : ¬ fullTurn θ := by
    unfold fullTurn minAng
    rintro ⟨-, h⟩
    norm_num at h h1
    linarith
  have hm : ¬ (θ < minAng ∧ θ > -minAng) := by
    rintro ⟨g1, g2⟩
    unfold minAng at g1 g2
    exact absurd (abs_lt.2 ⟨g2, g1⟩) (not_lt.2 h0)
  have e : arcSeg c p θ true = ⟨p, ⟨c.dist p * cos ((angDeg c p + θ) / 180 * π) + c.x,
      c.dist p * sin ((angDeg c p + θ) / 180 * π) + c.y⟩, c, θ, angDeg c p, c.dist p⟩ := by
    unfold arcSeg
    rw [if_neg]
    rintro (h | h | h)
    · exact hf h
    · exact hm h
    · cases h
  have hr : c.dist p ^ 2 = gap2 p c := by
    unfold P2.dist gap2
    rw [Real.sq_sqrt (by nlinarith [mul_self_nonneg (p.x - c.x), mul_self_nonneg (p.y - c.y)])]; ring
  rw [e]
  refine ⟨rfl, rfl, rfl, Real.sqrt_nonneg _, hr, ?_, ?_⟩
  · rw [← hr]
    unfold gap2
    simp only
    have := Real.sin_sq_add_cos_sq ((angDeg c p + θ) / 180 * π)
    rw [show ∀ r x y : ℝ, (r * cos x + y - y) ^ 2 = r ^ 2 * cos x ^ 2 by intros; ring,
      show ∀ r x y : ℝ, (r * sin x + y - y) ^ 2 = r ^ 2 * sin x ^ 2 by intros; ring]
    nlinarith [this]
  · rw [turn_polar]
    set u := (angDeg c p + θ) / 180 * π with hu
    set w := angRad c p + θ * π / 180 with hw
    have hd : |u - w| ≤ 2e-6 := by
      have := angDeg_err c p
      rw [show u - w = angDeg c p * π / 180 - angRad c p by rw [hu, hw]; ring]
      exact le_trans this tol_small
    have hgap : gap2 ⟨c.dist p * cos u + c.x, c.dist p * sin u + c.y⟩ ⟨c.x + c.dist p * cos w, c.y + c.dist p * sin w⟩ =
        c.dist p ^ 2 * (2 - 2 * cos (u - w)) := by
      unfold gap2
      rw [Real.cos_sub]
      have h1 := Real.sin_sq_add_cos_sq u
      have h2 := Real.sin_sq_add_cos_sq w
      simp only
      linear_combination c.dist p ^ 2 * h1 + c.dist p ^ 2 * h2
    rw [hgap]
    have h3 := Real.one_sub_sq_div_two_le_cos (x := u - w)
    have h4 : (u - w) ^ 2 ≤ (2e-6) ^ 2 := by
      rw [← sq_abs]; exact pow_le_pow_left₀ (abs_nonneg _) hd 2
    have h5 : 0 ≤ c.dist p ^ 2 := sq_nonneg _
    rw [mul_pow]
    nlinarith [mul_le_mul_of_nonneg_left h4 h5]

/-- the two decisions of `GetMinX` on an arc that turns counterclockwise; all angles in radians -/
theorem minx_turn {φ O T δ : ℝ} (hφ : -π ≤ φ) (hφ' : φ ≤ π) (hO : |O - φ| ≤ δ) (hT : 0 < T) :
    (π ≤ O + T → ∃ t, 0 ≤ t ∧ t ≤ 1 ∧ cos (φ + t * T) ≤ -1 + δ) ∧
    (O + T < π → ∀ t, 0 ≤ t → t ≤ 1 → min (cos φ) (cos (φ + T)) - δ ≤ cos (φ + t * T)) := by
  obtain ⟨o1, o2⟩ := abs_le.1 hO
  have hδ : 0 ≤ δ := le_trans (abs_nonneg _) hO
  have near : ∀ x : ℝ, |x - π| ≤ δ → cos x ≤ -1 + δ := by
    intro x hx
    have := Real.abs_cos_sub_cos_le x π
    rw [Real.cos_pi] at this
    have := le_trans (le_abs_self _) (le_trans this hx)
    linarith
  constructor
  · intro h
    by_cases hx : π ≤ φ + T
    · refine ⟨(π - φ) / T, by apply div_nonneg <;> linarith, by rw [div_le_one hT]; linarith, ?_⟩
      rw [div_mul_cancel₀ _ (ne_of_gt hT), show φ + (π - φ) = π by ring, Real.cos_pi]
      linarith
    · have hx := not_le.1 hx
      refine ⟨1, by norm_num, le_rfl, ?_⟩
      apply near
      rw [one_mul, abs_le]
      constructor <;> linarith
  · intro h t ht0 ht1
    by_cases hx : φ + T ≤ π
    · have htT : t * T ≤ T := by nlinarith
      have htT0 : 0 ≤ t * T := by positivity
      have key : |φ + t * T| ≤ |φ| ∨ |φ + t * T| ≤ |φ + T| := by
        rcases le_total 0 (φ + t * T) with hp | hn
        · right
          rw [abs_of_nonneg hp, abs_of_nonneg (by linarith)]; linarith
        · left
          rw [abs_of_nonpos hn, abs_of_nonpos (by linarith)]; linarith
      have hc : min (cos φ) (cos (φ + T)) ≤ cos (φ + t * T) := by
        rcases key with hk | hk
        · refine le_trans (min_le_left _ _) ?_
          rw [← Real.cos_abs φ, ← Real.cos_abs (φ + t * T)]
          exact Real.cos_le_cos_of_nonneg_of_le_pi (abs_nonneg _) (abs_le.2 ⟨hφ, hφ'⟩) hk
        · refine le_trans (min_le_right _ _) ?_
          rw [← Real.cos_abs (φ + T), ← Real.cos_abs (φ + t * T)]
          exact Real.cos_le_cos_of_nonneg_of_le_pi (abs_nonneg _) (abs_le.2 ⟨by linarith, hx⟩) hk
      linarith
    · have hx := not_le.1 hx
      have h1 := near (φ + T) (by rw [abs_le]; constructor <;> linarith)
      have h2 := min_le_right (cos φ) (cos (φ + T))
      have h3 := Real.neg_one_le_cos (φ + t * T)
      linarith

/-- **C72_minx** (`GetMinX` of an arc): no point of the arc lies to the left of `GetMinX` and some point of it lies there, to
within two millionths of the radius. -/
theorem C72_minx (a b : P2) (θ : ℝ) (h0 : 0.01 < |θ|) (h1 : |θ| ≤ 359.99) :
    (∀ p, OnArc (arcSeg a b θ false).center a θ p →
      (arcSeg a b θ false).minX ≤ p.x + 2e-6 * (arcSeg a b θ false).radius) ∧
    ∃ p, OnArc (arcSeg a b θ false).center a θ p ∧ p.x ≤ (arcSeg a b θ false).minX + 2e-6 * (arcSeg a b θ false).radius := by
  obtain ⟨e1, e2, e3, e4, e5, e6, -⟩ := C72_arc a b θ h0 h1
  have hoff : (arcSeg a b θ false).off = angDeg (arcSeg a b θ false).center a := by
    have hm : θ > minAng ∨ θ < -minAng := by
      unfold minAng
      rcases lt_abs.1 h0 with h | h
      · exact Or.inl h
      · right; linarith
    have hf : ¬ fullTurn θ := by
      unfold fullTurn minAng
      rintro ⟨-, h⟩
      norm_num at h h1
      linarith
    unfold arcSeg
    rw [if_pos (Or.inr (Or.inr rfl)), if_neg hf, if_pos hm]
    rfl
  have hcirc : (arcSeg a b θ false).isCircle = false := by
    unfold Seg.isCircle fullTurn minAng
    rw [e3, decide_eq_false_iff_not]
    rintro ⟨-, h⟩
    norm_num at h h1
    linarith
  generalize arcSeg a b θ false = s at *
  have hθ0 : θ ≠ 0 := by rintro rfl; norm_num at h0
  set c := s.center with hc
  have hrad : c.dist a = s.radius := by
    have : c.dist a ^ 2 = s.radius ^ 2 := by
      rw [← e6]
      unfold P2.dist gap2
      rw [Real.sq_sqrt (by nlinarith [mul_self_nonneg (a.x - c.x), mul_self_nonneg (a.y - c.y)])]; ring
    exact (pow_left_inj₀ (Real.sqrt_nonneg _) e5 (by norm_num)).1 this
  have hx : ∀ t, (turnDeg c (t * θ) a).x = c.x + s.radius * cos (angRad c a + t * (θ * π / 180)) := by
    intro t
    rw [turn_polar, hrad, show t * θ * π / 180 = t * (θ * π / 180) by ring]
  have ha : a.x = c.x + s.radius * cos (angRad c a) := by rw [← hrad]; exact (polar c a).1
  have hb : b.x = c.x + s.radius * cos (angRad c a + θ * π / 180) := by
    rw [← e4, turn_polar, hrad]
  have hO := le_trans (angDeg_err c a) tol_small
  have g1 := atan2_gt (a.y - c.y) (a.x - c.x)
  have g2 := atan2_le (a.y - c.y) (a.x - c.x)
  have hφ : -π ≤ angRad c a := le_of_lt g1
  have hφ' : angRad c a ≤ π := g2
  set φ := angRad c a with hφd
  set T := θ * π / 180 with hTd
  -- the two decisions, whatever the direction
  obtain ⟨dec, d1, d2⟩ : ∃ dec : Prop, (dec → s.minX = c.x - s.radius ∧ ∃ t, 0 ≤ t ∧ t ≤ 1 ∧ cos (φ + t * T) ≤ -1 + 2e-6) ∧
      (¬ dec → s.minX = min a.x b.x ∧ ∀ t, 0 ≤ t → t ≤ 1 → min (cos φ) (cos (φ + T)) - 2e-6 ≤ cos (φ + t * T)) := by
    have hp := Real.pi_pos
    have rad : ∀ x : ℝ, (180 ≤ x ↔ π ≤ x * π / 180) ∧ (x ≤ -180 ↔ x * π / 180 ≤ -π) := by
      intro x
      refine ⟨⟨fun h => by nlinarith, fun h => ?_⟩, ⟨fun h => by nlinarith, fun h => ?_⟩⟩
      · by_contra hh; nlinarith [not_le.1 hh]
      · by_contra hh; nlinarith [not_le.1 hh]
    have hsum : ∀ x, (x + θ) * π / 180 = x * π / 180 + T := by intro x; rw [hTd]; ring
    rcases lt_or_gt_of_ne hθ0 with h | h
    · have hT : 0 < -T := by rw [hTd]; nlinarith
      obtain ⟨m1, m2⟩ := minx_turn (φ := -φ) (O := -(angDeg c a * π / 180)) (T := -T) (δ := 2e-6) (by linarith)
        (by linarith) (by rw [show -(angDeg c a * π / 180) - -φ = -(angDeg c a * π / 180 - φ) by ring, abs_neg]; exact hO) hT
      refine ⟨s.off + s.angle ≤ -180, fun hd => ⟨?_, ?_⟩, fun hd => ⟨?_, ?_⟩⟩
      · unfold Seg.minX
        rw [e3] at hd ⊢
        rw [if_neg hθ0, hcirc]
        simp only [Bool.false_eq_true, if_false]
        rw [if_neg (not_lt.2 (le_of_lt h)), if_pos hd]
      · rw [hoff, e3, (rad _).2, hsum] at hd
        obtain ⟨t, t0, t1, ht⟩ := m1 (by linarith)
        refine ⟨t, t0, t1, ?_⟩
        rwa [show -φ + t * -T = -(φ + t * T) by ring, Real.cos_neg] at ht
      · unfold Seg.minX
        rw [e3] at hd ⊢
        rw [if_neg hθ0, hcirc, e1, e2]
        simp only [Bool.false_eq_true, if_false]
        rw [if_neg (not_lt.2 (le_of_lt h)), if_neg hd]
      · rw [hoff, e3, (rad _).2, hsum] at hd
        intro t t0 t1
        have := m2 (by linarith [not_le.1 hd]) t t0 t1
        rwa [show -φ + t * -T = -(φ + t * T) by ring, show -φ + -T = -(φ + T) by ring, Real.cos_neg, Real.cos_neg,
          Real.cos_neg] at this
    · have hT : 0 < T := by rw [hTd]; positivity
      obtain ⟨m1, m2⟩ := minx_turn (φ := φ) (O := angDeg c a * π / 180) (T := T) (δ := 2e-6) hφ hφ' hO hT
      refine ⟨180 ≤ s.off + s.angle, fun hd => ⟨?_, ?_⟩, fun hd => ⟨?_, ?_⟩⟩
      · unfold Seg.minX
        rw [e3] at hd ⊢
        rw [if_neg hθ0, hcirc]
        simp only [Bool.false_eq_true, if_false]
        rw [if_pos h, if_pos hd]
      · rw [hoff, e3, (rad _).1, hsum] at hd
        exact m1 hd
      · unfold Seg.minX
        rw [e3] at hd ⊢
        rw [if_neg hθ0, hcirc, e1, e2]
        simp only [Bool.false_eq_true, if_false]
        rw [if_pos h, if_neg hd]
      · rw [hoff, e3, (rad _).1, hsum] at hd
        exact m2 (not_le.1 hd)
  by_cases hd : dec
  · obtain ⟨hm, t, t0, t1, ht⟩ := d1 hd
    constructor
    · rintro p ⟨u, u0, u1, rfl⟩
      rw [hx, hm]
      nlinarith [Real.neg_one_le_cos (φ + u * T)]
    · refine ⟨_, ⟨t, t0, t1, rfl⟩, ?_⟩
      rw [hx, hm]
      nlinarith
  · obtain ⟨hm, hall⟩ := d2 hd
    constructor
    · rintro p ⟨u, u0, u1, rfl⟩
      rw [hx, hm, ha, hb]
      have := hall u u0 u1
      rcases le_total (cos φ) (cos (φ + T)) with hle | hle
      · rw [min_eq_left hle] at this
        refine le_trans (min_le_left _ _) ?_
        nlinarith
      · rw [min_eq_right hle] at this
        refine le_trans (min_le_right _ _) ?_
        nlinarith
    · have hr : 0 ≤ 2e-6 * s.radius := by positivity
      rcases le_total a.x b.x with hle | hle
      · refine ⟨_, ⟨0, le_rfl, by norm_num, rfl⟩, ?_⟩
        rw [hx, hm, min_eq_left hle, zero_mul, add_zero, ← ha]; linarith
      · refine ⟨_, ⟨1, by norm_num, le_rfl, rfl⟩, ?_⟩
        rw [hx, hm, min_eq_right hle, one_mul, ← hb]; linarith

/-- **C72_swap** (walking an arc from its other end): `SwapEnds` on an arc made from its ends and its angle gives the arc made
from the ends in the other order and the opposite angle, and it has the same points. -/
theorem C72_swap (a b : P2) (θ : ℝ) (h0 : 0.01 < |θ|) (h1 : |θ| ≤ 359.99) :
    (arcSeg a b θ false).swap = arcSeg b a (-θ) false ∧
    ∀ p, OnArc (arcSeg a b θ false).center a θ p ↔ OnArc (arcSeg a b θ false).swap.center b (-θ) p := by
  have conv : ∀ (a b : P2) (θ : ℝ), 0.01 < |θ| → |θ| ≤ 359.99 → arcSeg a b θ false = centreAndRadius a b θ := by
    intro a b θ h0 h1
    have hm : θ > minAng ∨ θ < -minAng := by
      unfold minAng
      rcases lt_abs.1 h0 with h | h
      · exact Or.inl h
      · right; linarith
    have hf : ¬ fullTurn θ := by
      unfold fullTurn minAng
      rintro ⟨-, h⟩
      norm_num at h h1
      linarith
    unfold arcSeg
    rw [if_pos (Or.inr (Or.inr rfl)), if_neg hf, if_pos hm]
  have hθ0 : θ ≠ 0 := by rintro rfl; norm_num at h0
  have h360 : |θ| < 360 := by norm_num at h1; linarith
  have hsw : (arcSeg a b θ false).swap = arcSeg b a (-θ) false := by
    rw [conv a b θ h0 h1, conv b a (-θ) (by rwa [abs_neg]) (by rwa [abs_neg])]
    obtain ⟨c1, r1, -⟩ := centre_formula a b θ hθ0 h360
    obtain ⟨c2, r2, -⟩ := centre_formula b a (-θ) (neg_ne_zero.2 hθ0) (by rwa [abs_neg])
    have hcc : (centreAndRadius b a (-θ)).center = (centreAndRadius a b θ).center := by
      rw [c1, c2, show -θ * π / 360 = -(θ * π / 360) by ring, Real.cos_neg, Real.sin_neg]
      ext <;> (simp only; ring)
    have hrr : (centreAndRadius b a (-θ)).radius = (centreAndRadius a b θ).radius := by
      rw [r1, r2, show -θ * π / 360 = -(θ * π / 360) by ring, Real.sin_neg, abs_neg]
      unfold P2.dist
      congr 3
      ring
    have hcirc : (centreAndRadius a b θ).isCircle = false := by
      unfold Seg.isCircle fullTurn minAng
      rw [show (centreAndRadius a b θ).angle = θ from rfl, decide_eq_false_iff_not]
      rintro ⟨-, h⟩
      norm_num at h h1
      linarith
    have hnm : ¬ ((centreAndRadius a b θ).angle < minAng ∧ (centreAndRadius a b θ).angle > -minAng) := by
      rw [show (centreAndRadius a b θ).angle = θ from rfl]
      rintro ⟨g1, g2⟩
      unfold minAng at g1 g2
      exact absurd (abs_lt.2 ⟨g2, g1⟩) (not_lt.2 (le_of_lt h0))
    unfold Seg.swap
    rw [hcirc]
    simp only [Bool.false_eq_true, if_false]
    rw [if_neg hnm]
    have hoff : (centreAndRadius b a (-θ)).off = angDeg (centreAndRadius b a (-θ)).center b := rfl
    apply Idf.Seg.ext
    · rfl
    · rfl
    · exact hcc.symm
    · rfl
    · rw [hoff, hcc]; rfl
    · exact hrr.symm
  refine ⟨hsw, ?_⟩
  have hcen : (arcSeg a b θ false).swap.center = (arcSeg a b θ false).center := by
    unfold Seg.swap
    split
    · rfl
    · split <;> rfl
  obtain ⟨-, -, -, e4, -⟩ := C72_arc a b θ h0 h1
  rw [hcen]
  generalize (arcSeg a b θ false).center = c at *
  have key : ∀ u, turnDeg c ((1 - u) * -θ) b = turnDeg c (u * θ) a := by
    intro u
    rw [← e4]
    have hh : ∀ x y, turnDeg c x (turnDeg c y a) = turnDeg c (x + y) a := by
      intro x y
      unfold turnDeg
      rw [show (x + y) * π / 180 = x * π / 180 + y * π / 180 by ring, Real.cos_add, Real.sin_add]
      ext <;> (simp only; ring)
    rw [hh]
    congr 1
    ring
  intro p
  constructor
  · rintro ⟨t, t0, t1, rfl⟩
    exact ⟨1 - t, by linarith, by linarith, (key t).symm⟩
  · rintro ⟨t, t0, t1, rfl⟩
    refine ⟨1 - t, by linarith, by linarith, ?_⟩
    rw [← key (1 - t)]
    congr 1
    ring

/-- the hypotheses of the theorems on arcs hold of a quarter turn -/
example : (0.01 : ℝ) < |90| ∧ |(90 : ℝ)| ≤ 359.99 := by norm_num

/-- and the centre of the quarter turn from (1, 0) to (0, 1) is the origin -/
example : (arcSeg ⟨1, 0⟩ ⟨0, 1⟩ 90 false).center = ⟨0, 0⟩ := by
  obtain ⟨-, -, -, h, -⟩ := C72_arc ⟨1, 0⟩ ⟨0, 1⟩ 90 (by norm_num) (by norm_num)
  have e : (90 : ℝ) * π / 180 = π / 2 := by ring
  unfold turnDeg at h
  rw [e, Real.cos_pi_div_two, Real.sin_pi_div_two] at h
  obtain ⟨h1, h2⟩ := P2.mk.inj h
  generalize (arcSeg ⟨1, 0⟩ ⟨0, 1⟩ 90 false).center = c at *
  ext
  · simp only; linarith
  · simp only; linarith

end Iges.Props.IdfArc
