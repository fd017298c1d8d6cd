import Verif.Model.SegSplit
import Verif.Spec.Segment
/- Facts on `atan2`, on the extreme values of sine and cosine on an interval, and on turning points. -/
namespace Iges.Geo
open Real

theorem hyp_nonneg (x y : ℝ) : 0 ≤ hyp x y := Real.sqrt_nonneg _

theorem hyp_sq (x y : ℝ) : hyp x y ^ 2 = x ^ 2 + y ^ 2 := by
  unfold hyp
  rw [Real.sq_sqrt (by nlinarith [sq_nonneg x, sq_nonneg y])]
  ring

theorem hyp_eq_norm (x y : ℝ) : hyp x y = ‖(⟨x, y⟩ : ℂ)‖ := by
  unfold hyp
  rw [Complex.norm_def, Complex.normSq_mk]

theorem hyp_cos (x y : ℝ) : hyp x y * cos (atan2 y x) = x := by
  rw [hyp_eq_norm]; exact Complex.norm_mul_cos_arg _

theorem hyp_sin (x y : ℝ) : hyp x y * sin (atan2 y x) = y := by
  rw [hyp_eq_norm]; exact Complex.norm_mul_sin_arg _

theorem atan2_gt (y x : ℝ) : -π < atan2 y x := Complex.neg_pi_lt_arg _
theorem atan2_le (y x : ℝ) : atan2 y x ≤ π := Complex.arg_le_pi _

/-- the direction of a point given by a positive radius and an angle in the principal range -/
theorem atan2_polar {r a : ℝ} (hr : 0 < r) (h1 : -π < a) (h2 : a ≤ π) : atan2 (r * sin a) (r * cos a) = a := by
  unfold atan2
  have : (⟨r * cos a, r * sin a⟩ : ℂ) = r * (Complex.cos a + Complex.sin a * Complex.I) := by
    apply Complex.ext <;> simp [← Complex.ofReal_cos, ← Complex.ofReal_sin]
  rw [this]
  exact Complex.arg_mul_cos_add_sin_mul_I hr ⟨h1, h2⟩

/-- Where an interval of angles passes no multiple of the full turn, the cosine is largest at one of the ends. -/
theorem cos_le_ends {lo hi a : ℝ} (h : ∀ k : ℤ, ¬ (lo ≤ 2 * π * k ∧ 2 * π * k ≤ hi)) (h1 : lo ≤ a) (h2 : a ≤ hi) :
    cos a ≤ cos lo ∨ cos a ≤ cos hi := by
  have hp := Real.pi_pos
  set k : ℤ := ⌊a / (2 * π)⌋ with hk
  have hka : 2 * π * k ≤ a := by
    have := Int.floor_le (a / (2 * π))
    rw [le_div_iff₀ (by positivity)] at this
    linarith
  have hka' : a < 2 * π * ((k + 1 : ℤ) : ℝ) := by
    have := Int.lt_floor_add_one (a / (2 * π))
    rw [div_lt_iff₀ (by positivity)] at this
    push_cast
    linarith
  have hlo : 2 * π * k < lo := by
    by_contra hc
    exact h k ⟨not_lt.1 hc, le_trans hka h2⟩
  have hhi : hi < 2 * π * ((k + 1 : ℤ) : ℝ) := by
    by_contra hc
    exact h (k + 1) ⟨le_trans h1 hka'.le, not_lt.1 hc⟩
  have sh : ∀ b : ℝ, cos b = cos (b - 2 * π * k) := by
    intro b
    have := Real.cos_sub_int_mul_two_pi b k
    rw [← this]
    congr 1
    ring
  push_cast at hhi hka'
  rw [sh a, sh lo, sh hi]
  by_cases hm : a - 2 * π * k ≤ π
  · left
    exact Real.cos_le_cos_of_nonneg_of_le_pi (by linarith) hm (by linarith)
  · right
    rw [← Real.cos_two_pi_sub (a - _), ← Real.cos_two_pi_sub (hi - _)]
    exact Real.cos_le_cos_of_nonneg_of_le_pi (by linarith) (by linarith) (by linarith)

theorem cos_ge_ends {lo hi a : ℝ} (h : ∀ k : ℤ, ¬ (lo ≤ π + 2 * π * k ∧ π + 2 * π * k ≤ hi)) (h1 : lo ≤ a)
    (h2 : a ≤ hi) : cos lo ≤ cos a ∨ cos hi ≤ cos a := by
  have := cos_le_ends (lo := lo - π) (hi := hi - π) (a := a - π)
    (fun k ⟨x, y⟩ => h k ⟨by linarith, by linarith⟩) (by linarith) (by linarith)
  simp only [Real.cos_sub_pi] at this
  rcases this with h | h
  · left; linarith
  · right; linarith

theorem sin_le_ends {lo hi a : ℝ} (h : ∀ k : ℤ, ¬ (lo ≤ π / 2 + 2 * π * k ∧ π / 2 + 2 * π * k ≤ hi)) (h1 : lo ≤ a)
    (h2 : a ≤ hi) : sin a ≤ sin lo ∨ sin a ≤ sin hi := by
  have := cos_le_ends (lo := lo - π / 2) (hi := hi - π / 2) (a := a - π / 2)
    (fun k ⟨x, y⟩ => h k ⟨by linarith, by linarith⟩) (by linarith) (by linarith)
  simpa only [Real.cos_sub_pi_div_two] using this

theorem sin_ge_ends {lo hi a : ℝ} (h : ∀ k : ℤ, ¬ (lo ≤ -(π / 2) + 2 * π * k ∧ -(π / 2) + 2 * π * k ≤ hi))
    (h1 : lo ≤ a) (h2 : a ≤ hi) : sin lo ≤ sin a ∨ sin hi ≤ sin a := by
  have := cos_ge_ends (lo := lo - π / 2) (hi := hi - π / 2) (a := a - π / 2)
    (fun k ⟨x, y⟩ => h (k + 1) ⟨by push_cast; linarith, by push_cast; linarith⟩) (by linarith) (by linarith)
  simpa only [Real.cos_sub_pi_div_two] using this

end Iges.Geo
