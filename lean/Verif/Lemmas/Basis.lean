import Verif.Spec.NurbsCurve
import Mathlib.Algebra.BigOperators.Ring.Finset
import Mathlib.Algebra.Order.BigOperators.Group.Finset
import Mathlib.Algebra.BigOperators.Group.Finset.Piecewise
import Mathlib.Tactic.Linarith
import Mathlib.Tactic.FieldSimp
import Mathlib.Tactic.Ring
/-
The B-spline functions: where they vanish, their signs and their sum, and their values at the ends.
-/
namespace Iges.Spec

open Finset

theorem basis_support (t : ℕ → ℝ) (s : ℕ) (u : ℝ) : ∀ (p i : ℕ), (s < i ∨ i + p < s) → basis t s u p i = 0
  | 0, i, h => by unfold basis; rw [if_neg (by omega)]
  | p + 1, i, h => by
    unfold basis
    rw [basis_support t s u p i (by omega), basis_support t s u p (i + 1) (by omega)]; ring

theorem basis_nonneg {t : ℕ → ℝ} {s : ℕ} {u : ℝ} (h1 : t s ≤ u) (h2 : u ≤ t (s + 1)) : ∀ (p : ℕ),
    (∀ i j, i ≤ j → j ≤ s + p → t i ≤ t j) → ∀ i, 0 ≤ basis t s u p i
  | 0, _, i => by unfold basis; split <;> norm_num
  | p + 1, hm, i => by
    have ih := basis_nonneg h1 h2 p (fun i j a b => hm i j a (by omega))
    unfold basis
    apply add_nonneg
    · by_cases hz : s < i ∨ i + p < s
      · rw [basis_support t s u p i hz, mul_zero]
      · refine mul_nonneg (div_nonneg ?_ ?_) (ih i)
        · have := hm i s (by omega) (by omega); linarith
        · have := hm i (i + p + 1) (by omega) (by omega); linarith
    · by_cases hz : s < i + 1 ∨ i + 1 + p < s
      · rw [basis_support t s u p (i + 1) hz, mul_zero]
      · refine mul_nonneg (div_nonneg ?_ ?_) (ih (i + 1))
        · have := hm (s + 1) (i + p + 2) (by omega) (by omega); linarith
        · have := hm (i + 1) (i + p + 2) (by omega) (by omega); linarith

theorem basis_sum {t : ℕ → ℝ} {s n : ℕ} {u : ℝ} (hs : t s < t (s + 1)) (hn : s < n) : ∀ (p : ℕ), p ≤ s →
    (∀ i j, i ≤ j → j ≤ s + p → t i ≤ t j) → ∑ i ∈ range n, basis t s u p i = 1
  | 0, _, _ => by
    unfold basis
    rw [Finset.sum_ite_eq' (range n) s (fun _ => (1 : ℝ)), if_pos (mem_range.mpr hn)]
  | p + 1, hp, hm => by
    have ih := basis_sum (u := u) hs hn p (by omega) (fun i j a b => hm i j a (by omega))
    have key : ∀ i, (t (i + p + 2) - u) / (t (i + p + 2) - t (i + 1)) * basis t s u p (i + 1) =
        basis t s u p (i + 1) - (u - t (i + 1)) / (t (i + 1 + p + 1) - t (i + 1)) * basis t s u p (i + 1) := by
      intro i
      by_cases hz : s < i + 1 ∨ i + 1 + p < s
      · rw [basis_support t s u p (i + 1) hz]; ring
      · have a1 := hm (i + 1) s (by omega) (by omega)
        have a2 := hm (s + 1) (i + p + 2) (by omega) (by omega)
        have e : i + 1 + p + 1 = i + p + 2 := by omega
        rw [e]
        have : t (i + p + 2) - t (i + 1) ≠ 0 := by intro h; linarith
        field_simp; ring
    have e1 : ∑ i ∈ range n, basis t s u (p + 1) i =
        ∑ i ∈ range n, ((u - t i) / (t (i + p + 1) - t i) * basis t s u p i) +
        ∑ i ∈ range n, (basis t s u p (i + 1) -
          (u - t (i + 1)) / (t (i + 1 + p + 1) - t (i + 1)) * basis t s u p (i + 1)) := by
      rw [← sum_add_distrib]
      refine sum_congr rfl fun i _ => ?_
      rw [← key i]; rfl
    have e2 := Finset.sum_range_succ (fun i => basis t s u p i - (u - t i) / (t (i + p + 1) - t i) * basis t s u p i) n
    have e3 := Finset.sum_range_succ' (fun i => basis t s u p i - (u - t i) / (t (i + p + 1) - t i) * basis t s u p i) n
    rw [basis_support t s u p n (Or.inl hn)] at e2
    rw [basis_support t s u p 0 (by omega)] at e3
    rw [e1]
    rw [e2, sum_sub_distrib, ih] at e3
    linarith

theorem basis_start {t : ℕ → ℝ} {p : ℕ} (h : ∀ i ≤ p, t i = t 0) (hs : t p < t (p + 1)) : ∀ (q : ℕ), q ≤ p →
    ∀ i, basis t p (t p) q i = if i + q = p then 1 else 0
  | 0, _, i => by unfold basis; simp
  | q + 1, hq, i => by
    have ih := basis_start h hs q (by omega)
    unfold basis
    rw [ih i, ih (i + 1)]
    by_cases a : i + (q + 1) = p
    · have e1 : i + 1 + q = p := by omega
      have e2 : ¬ i + q = p := by omega
      have e3 : i + q + 2 = p + 1 := by omega
      rw [if_pos a, if_pos e1, if_neg e2, e3, h (i + 1) (by omega), ← h p le_rfl]
      rw [div_self (by intro h; linarith)]; ring
    · have e1 : ¬ i + 1 + q = p := by omega
      rw [if_neg a, if_neg e1]
      by_cases b : i + q = p
      · rw [if_pos b, h i (by omega), h p le_rfl]; ring
      · rw [if_neg b]; ring

theorem basis_end {t : ℕ → ℝ} {s p : ℕ} (h : ∀ i ≤ p, t (s + 1 + i) = t (s + 1)) (hs : t s < t (s + 1)) :
    ∀ (q : ℕ), q ≤ p → ∀ i, basis t s (t (s + 1)) q i = if i = s then 1 else 0
  | 0, _, i => by unfold basis; rfl
  | q + 1, hq, i => by
    have ih := basis_end h hs q (by omega)
    unfold basis
    rw [ih i, ih (i + 1)]
    by_cases a : i = s
    · have e : i + q + 1 = s + 1 + q := by omega
      rw [if_pos a, if_neg (by omega), e, h q (by omega), a, div_self (by intro h; linarith)]; ring
    · rw [if_neg a]
      by_cases b : i + 1 = s
      · have e : i + q + 2 = s + 1 + q := by omega
        rw [if_pos b, e, h q (by omega)]; ring
      · rw [if_neg b]; ring

end Iges.Spec
