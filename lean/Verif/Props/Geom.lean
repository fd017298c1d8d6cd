import Verif.Model.Geom
import Verif.Spec.Geom
import Mathlib.Tactic.Ring
import Mathlib.Tactic.Linarith
import Mathlib.Tactic.NormNum
import Mathlib.Tactic.Positivity
import Mathlib.Tactic.FieldSimp
/-
C36 (transforms) and C51 (point matching).
-/
namespace Iges.Props
open Iges

section
variable {K : Type} [CommRing K]

/-- C36. The product applied to a point is the second factor applied first, then the first. -/
theorem C36_product_is_composition (a b : Transform K) (p : Point K) :
    (a.mul b).act p = a.act (b.act p) := by
  ext <;> simp only [Transform.mul, Transform.act, Mat.mul, Mat.act, Point.add] <;> ring

/-- C36. Composition is associative. -/
theorem C36_associative (a b c : Transform K) : (a.mul b).mul c = a.mul (b.mul c) := by
  ext <;> simp only [Transform.mul, Mat.mul, Mat.act, Point.add] <;> ring

/-- C36. The default transform is a two-sided identity and leaves points alone. -/
theorem C36_identity (a : Transform K) (p : Point K) :
    Transform.one.mul a = a ∧ a.mul Transform.one = a ∧ (Transform.one : Transform K).act p = p := by
  refine ⟨?_, ?_, ?_⟩ <;> ext <;>
    simp only [Transform.mul, Transform.act, Transform.one, Mat.one, Mat.mul, Mat.act, Point.add] <;> ring

/-- A transform is determined by its action when the ring is not trivial: two transforms with the same
action are equal, so `C36_product_is_composition` fixes the product. -/
theorem C36_action_faithful (a b : Transform K) (h : ∀ p, a.act p = b.act p) : a = b := by
  have h0 := h ⟨0, 0, 0⟩
  have h1 := h ⟨1, 0, 0⟩
  have h2 := h ⟨0, 1, 0⟩
  have h3 := h ⟨0, 0, 1⟩
  simp only [Transform.act, Mat.act, Point.add, Point.mk.injEq, mul_zero, mul_one, add_zero, zero_add] at h0 h1 h2 h3
  obtain ⟨a0, a1, a2⟩ := h0
  obtain ⟨b0, b1, b2⟩ := h1
  obtain ⟨c0, c1, c2⟩ := h2
  obtain ⟨d0, d1, d2⟩ := h3
  rw [a0] at b0 c0 d0
  rw [a1] at b1 c1 d1
  rw [a2] at b2 c2 d2
  have k := fun (u v w : K) (e : u + w = v + w) => add_right_cancel e
  ext
  · exact k _ _ _ b0
  · exact k _ _ _ c0
  · exact k _ _ _ d0
  · exact k _ _ _ b1
  · exact k _ _ _ c1
  · exact k _ _ _ d1
  · exact k _ _ _ b2
  · exact k _ _ _ c2
  · exact k _ _ _ d2
  · exact a0
  · exact a1
  · exact a2

/-- C36. For an entity at the head of a finite chain the overall transform applies the own transform of the
entity first and the one at the end of the chain last. Partial: nothing keeps a chain finite
(`C36_cycle_never_returns`). -/
theorem C36_overall_transform_partial (s : TxStore K) (a : Nat) (l : List Nat)
    (h : Spec.IsChain s (a :: l)) (fuel : Nat) (hf : l.length < fuel) :
    ∃ t, GetTransformMatrix s fuel a = some t ∧ ∀ p, t.act p = Spec.applyChain s (a :: l) p := by
  induction l generalizing a fuel with
  | nil =>
    obtain ⟨f, rfl⟩ : ∃ f, fuel = f + 1 := ⟨fuel - 1, by simp at hf; omega⟩
    refine ⟨s.own a, ?_, fun p => rfl⟩
    simp only [Spec.IsChain] at h
    simp [GetTransformMatrix, h]
  | cons b l ih =>
    obtain ⟨f, rfl⟩ : ∃ f, fuel = f + 1 := ⟨fuel - 1, by simp at hf; omega⟩
    simp only [Spec.IsChain] at h
    obtain ⟨t, h1, h2⟩ := ih b h.2 f (by simp at hf; omega)
    refine ⟨t.mul (s.own a), ?_, ?_⟩
    · simp [GetTransformMatrix, h.1, h1]
    · intro p
      rw [C36_product_is_composition, h2]
      rfl

/-- C36: if following the transforms never ends, as on a cycle, the query never returns. -/
theorem C36_cycle_never_returns (s : TxStore K) (S : Nat → Prop)
    (h : ∀ i, S i → ∃ j, s.next i = some j ∧ S j) (a : Nat) (ha : S a) (fuel : Nat) :
    GetTransformMatrix s fuel a = none := by
  induction fuel generalizing a with
  | zero => rfl
  | succ f ih =>
    obtain ⟨j, h1, h2⟩ := h a ha
    simp [GetTransformMatrix, h1, ih j h2]

end

/-- Scaling by `s` (unit conversion) of the offset is compatible with the product: rescaling both factors
rescales the product, and a scaled point maps to the scaled image. -/
theorem C36_rescale_offset {K : Type} [CommRing K] (a b : Transform K) (s : K) (p : Point K) :
    (⟨(a.mul b).R, (a.mul b).T.scale s⟩ : Transform K)
      = (⟨a.R, a.T.scale s⟩ : Transform K).mul ⟨b.R, b.T.scale s⟩ ∧
    (⟨a.R, a.T.scale s⟩ : Transform K).act (p.scale s) = (a.act p).scale s := by
  refine ⟨?_, ?_⟩ <;> ext <;>
    simp only [Transform.mul, Transform.act, Mat.mul, Mat.act, Point.add, Point.scale] <;> ring

example : ∃ s : TxStore ℤ, Spec.IsChain s [2, 1, 0] :=
  ⟨⟨fun _ => Transform.one, fun i => if i = 0 then none else some (i - 1)⟩, by simp [Spec.IsChain]⟩

/-! ### C51 -/

theorem sq3 (a b c : ℝ) : |a * a + b * b + c * c| = a * a + b * b + c * c :=
  abs_of_nonneg (by nlinarith [mul_self_nonneg a, mul_self_nonneg b, mul_self_nonneg c])

/-- C51. The exact set of matching points of moderate size: the squared distance is at most
`3.0001 * minRes²`, or `3e-30` for a very fine resolution. -/
theorem C51_match_iff (p q : Point ℝ) (r : ℝ) (hp : Spec.norm2 p ≤ 10 ^ 15) (hq : Spec.norm2 q ≤ 10 ^ 15) :
    PointMatches p q r = true ↔ Spec.dist2 p q ≤ max (3.0001 * r ^ 2) (3 / 10 ^ 30) := by
  unfold Spec.norm2 at hp hq
  have hb : ¬ (|p.x * p.x + p.y * p.y + p.z * p.z| > 10 ^ 15 ∨ |q.x * q.x + q.y * q.y + q.z * q.z| > 10 ^ 15) := by
    rw [sq3, sq3]
    push Not
    constructor <;> nlinarith
  unfold PointMatches Spec.dist2
  simp only [if_neg hb]
  have e1 : r * (3.0001 * r) = 3.0001 * r ^ 2 := by ring
  have e2 : (q.x - p.x) * (q.x - p.x) + (q.y - p.y) * (q.y - p.y) + (q.z - p.z) * (q.z - p.z)
    = (p.x - q.x) ^ 2 + (p.y - q.y) ^ 2 + (p.z - q.z) ^ 2 := by ring
  have e3 : (if 3.0001 * r ^ 2 < 3 / 10 ^ 30 then (3 / 10 ^ 30 : ℝ) else 3.0001 * r ^ 2)
      = max (3.0001 * r ^ 2) (3 / 10 ^ 30) := by
    split
    · rw [max_eq_right]; linarith
    · rw [max_eq_left]; linarith
  rw [e1, e2, e3]
  generalize (p.x - q.x) ^ 2 + (p.y - q.y) ^ 2 + (p.z - q.z) ^ 2 = D
  generalize max (3.0001 * r ^ 2) (3 / 10 ^ 30) = E
  by_cases hd : D ≤ E
  · rw [if_neg (by simpa using hd)]; simp [hd]
  · rw [if_pos (by simpa using hd)]; simp [hd]

/-- C51. The exact set of matching points when one of them is far from the origin (squared norm above
`1e15`): the bound `3e-30` becomes relative to the larger squared norm. -/
theorem C51_match_far_iff (p q : Point ℝ) (r : ℝ) (h : Spec.norm2 p > 10 ^ 15 ∨ Spec.norm2 q > 10 ^ 15) :
    PointMatches p q r = true ↔
      Spec.dist2 p q ≤ max (3.0001 * r ^ 2) (3 / 10 ^ 30 * max (Spec.norm2 p) (Spec.norm2 q)) := by
  have hn1 : p.x * p.x + p.y * p.y + p.z * p.z = Spec.norm2 p := by unfold Spec.norm2; ring
  have hn2 : q.x * q.x + q.y * q.y + q.z * q.z = Spec.norm2 q := by unfold Spec.norm2; ring
  have hb : |p.x * p.x + p.y * p.y + p.z * p.z| > 10 ^ 15 ∨ |q.x * q.x + q.y * q.y + q.z * q.z| > 10 ^ 15 := by
    rw [sq3, sq3, hn1, hn2]; exact h
  have hM : (0 : ℝ) < max (Spec.norm2 p) (Spec.norm2 q) := by
    rcases h with h | h
    · exact lt_of_lt_of_le (lt_trans (by norm_num) h) (le_max_left _ _)
    · exact lt_of_lt_of_le (lt_trans (by norm_num) h) (le_max_right _ _)
  unfold PointMatches
  simp only [if_pos hb]
  rw [sq3, sq3, hn1, hn2]
  generalize max (Spec.norm2 p) (Spec.norm2 q) = M at *
  have hs : (1 / Real.sqrt M) ^ 2 = 1 / M := by
    rw [div_pow, Real.sq_sqrt hM.le]; norm_num
  generalize 1 / Real.sqrt M = k at *
  have e1 : r * k * (3.0001 * (r * k)) = 3.0001 * r ^ 2 * (1 / M) := by rw [← hs]; ring
  have e2 : ((q.scale k).x - (p.scale k).x) * ((q.scale k).x - (p.scale k).x)
      + ((q.scale k).y - (p.scale k).y) * ((q.scale k).y - (p.scale k).y)
      + ((q.scale k).z - (p.scale k).z) * ((q.scale k).z - (p.scale k).z) = Spec.dist2 p q * (1 / M) := by
    rw [← hs]; simp only [Point.scale, Spec.dist2]; ring
  rw [e1, e2]
  have e3 : (if 3.0001 * r ^ 2 * (1 / M) < 3 / 10 ^ 30 then (3 / 10 ^ 30 : ℝ) else 3.0001 * r ^ 2 * (1 / M))
      = max (3.0001 * r ^ 2) (3 / 10 ^ 30 * M) * (1 / M) := by
    have hM' : (0 : ℝ) ≤ 1 / M := by positivity
    have e4 : 3 / 10 ^ 30 * M * (1 / M) = (3 / 10 ^ 30 : ℝ) := by field_simp
    rw [max_mul_of_nonneg _ _ hM', e4]
    split
    · rw [max_eq_right]; linarith
    · rw [max_eq_left]; linarith
  rw [e3]
  have hM' : (0 : ℝ) < 1 / M := by positivity
  generalize Spec.dist2 p q = D
  generalize max (3.0001 * r ^ 2) (3 / 10 ^ 30 * M) = E
  have key : D * (1 / M) > E * (1 / M) ↔ ¬ D ≤ E := by
    rw [gt_iff_lt, mul_lt_mul_iff_left₀ hM', not_le]
  by_cases hd : D ≤ E
  · rw [if_neg (by rw [key]; simpa using hd)]; simp [hd]
  · rw [if_pos (by rw [key]; exact hd)]; simp [hd]

theorem dist2_comm (p q : Point ℝ) : Spec.dist2 p q = Spec.dist2 q p := by unfold Spec.dist2; ring

theorem far_or_near (p q : Point ℝ) :
    (Spec.norm2 p ≤ 10 ^ 15 ∧ Spec.norm2 q ≤ 10 ^ 15) ∨ (Spec.norm2 p > 10 ^ 15 ∨ Spec.norm2 q > 10 ^ 15) := by
  by_cases h1 : Spec.norm2 p ≤ 10 ^ 15
  · by_cases h2 : Spec.norm2 q ≤ 10 ^ 15
    · exact .inl ⟨h1, h2⟩
    · exact .inr (.inr (by linarith))
  · exact .inr (.inl (by linarith))

/-- C51. Matching is reflexive. -/
theorem C51_reflexive (p : Point ℝ) (r : ℝ) : PointMatches p p r = true := by
  have h0 : Spec.dist2 p p = 0 := by unfold Spec.dist2; ring
  rcases far_or_near p p with h | h
  · rw [C51_match_iff p p r h.1 h.2, h0]
    exact le_max_of_le_right (by norm_num)
  · rw [C51_match_far_iff p p r h, h0]
    exact le_max_of_le_left (by positivity)

/-- C51. Matching is symmetric. -/
theorem C51_symmetric (p q : Point ℝ) (r : ℝ) : PointMatches p q r = PointMatches q p r := by
  rw [Bool.eq_iff_iff]
  rcases far_or_near p q with h | h
  · rw [C51_match_iff p q r h.1 h.2, C51_match_iff q p r h.2 h.1, dist2_comm]
  · rw [C51_match_far_iff p q r h, C51_match_far_iff q p r h.symm, dist2_comm, max_comm (Spec.norm2 p)]

/-- C51: points further apart than twice the resolution never match, points at most `sqrt 3` times the
resolution apart always do, for points of moderate size and any resolution of at least `1e-15`. -/
theorem C51_tolerance (p q : Point ℝ) (r : ℝ) (hr : 1 / 10 ^ 15 ≤ r) (hp : Spec.norm2 p ≤ 10 ^ 15)
    (hq : Spec.norm2 q ≤ 10 ^ 15) :
    (Spec.dist2 p q ≤ 3 * r ^ 2 → PointMatches p q r = true) ∧
    (Spec.dist2 p q > (2 * r) ^ 2 → PointMatches p q r = false) := by
  have hr2 : (1 / 10 ^ 15 : ℝ) ^ 2 ≤ r ^ 2 := pow_le_pow_left₀ (by norm_num) hr 2
  have hmax : max (3.0001 * r ^ 2) (3 / 10 ^ 30 : ℝ) = 3.0001 * r ^ 2 := by
    rw [max_eq_left]
    norm_num at hr2 ⊢
    linarith
  constructor
  · intro h
    rw [C51_match_iff p q r hp hq, hmax]
    nlinarith [sq_nonneg r]
  · intro h
    rw [← Bool.not_eq_true, C51_match_iff p q r hp hq, hmax]
    have : 0 < r ^ 2 := by
      have : (0 : ℝ) < r := lt_of_lt_of_le (by norm_num) hr
      positivity
    norm_num at h ⊢
    nlinarith

example : PointMatches ⟨0, 0, 0⟩ ⟨1, 1, 1⟩ 1 = true ∧ PointMatches ⟨0, 0, 0⟩ ⟨2, 0, 1⟩ 1 = false := by
  constructor
  · rw [C51_match_iff _ _ _ (by norm_num [Spec.norm2]) (by norm_num [Spec.norm2])]
    norm_num [Spec.dist2]
  · rw [← Bool.not_eq_true, C51_match_iff _ _ _ (by norm_num [Spec.norm2]) (by norm_num [Spec.norm2])]
    norm_num [Spec.dist2]

/-! ### C53 -/

theorem norm2_eq (p : Point ℝ) : p.x * p.x + p.y * p.y + p.z * p.z = Spec.norm2 p := by
  unfold Spec.norm2; ring

/-- C53. `CheckNormal` always leaves a vector whose squared length is within `1e-8` of one. -/
theorem C53_unit_length (p : Point ℝ) : |Spec.norm2 (CheckNormal p) - 1| ≤ 1 / 10 ^ 8 := by
  unfold CheckNormal
  simp only [norm2_eq]
  split
  · norm_num [Spec.norm2]
  · rename_i h
    have hpos : 0 < Spec.norm2 p := by
      have : (0 : ℝ) < 1 / 10 ^ 12 := by norm_num
      linarith
    split
    · have : Spec.norm2 ⟨p.x / Real.sqrt (Spec.norm2 p), p.y / Real.sqrt (Spec.norm2 p),
          p.z / Real.sqrt (Spec.norm2 p)⟩ = 1 := by
        have e : Spec.norm2 ⟨p.x / Real.sqrt (Spec.norm2 p), p.y / Real.sqrt (Spec.norm2 p),
          p.z / Real.sqrt (Spec.norm2 p)⟩ = Spec.norm2 p / (Real.sqrt (Spec.norm2 p)) ^ 2 := by
          generalize Real.sqrt (Spec.norm2 p) = k
          simp only [Spec.norm2, div_pow]; ring
        rw [e, Real.sq_sqrt hpos.le, div_self hpos.ne']
      rw [this]; norm_num
    · rename_i h2
      push Not at h2
      rw [abs_le]; exact h2

theorem checkNormal_tiny (p : Point ℝ) (h : Spec.norm2 p < 1 / 10 ^ 12) : CheckNormal p = ⟨0, 0, 1⟩ := by
  unfold CheckNormal
  simp only [norm2_eq]
  rw [if_pos h]

/-- C53. A vector that is not tiny keeps its direction. -/
theorem C53_direction_kept (p : Point ℝ) (h : 1 / 10 ^ 12 ≤ Spec.norm2 p) :
    ∃ k : ℝ, 0 < k ∧ CheckNormal p = p.scale k := by
  have hpos : 0 < Spec.norm2 p := lt_of_lt_of_le (by norm_num) h
  unfold CheckNormal
  simp only [norm2_eq]
  rw [if_neg (by linarith)]
  split
  · refine ⟨1 / Real.sqrt (Spec.norm2 p), by positivity, ?_⟩
    simp only [Point.scale, mul_one_div]
  · exact ⟨1, by norm_num, by simp [Point.scale]⟩

/-- C53. The normal of three points is perpendicular to both edges, provided that the triangle is not
degenerate (twice its area is at least `1e-6`); otherwise it is the z direction. -/
theorem C53_perpendicular (p0 p1 p2 : Point ℝ) :
    let a := p1.sub p0
    let b := p2.sub p0
    let area2 := (a.y * b.z - a.z * b.y) ^ 2 + (a.z * b.x - a.x * b.z) ^ 2 + (a.x * b.y - a.y * b.x) ^ 2
    let n := CalcNormal p0 p1 p2
    (1 / 10 ^ 12 ≤ area2 → n.x * a.x + n.y * a.y + n.z * a.z = 0 ∧ n.x * b.x + n.y * b.y + n.z * b.z = 0) ∧
    (area2 < 1 / 10 ^ 12 → n = ⟨0, 0, 1⟩) := by
  intro a b area2 n
  constructor
  · intro h
    obtain ⟨k, -, hk⟩ := C53_direction_kept
      ⟨a.y * b.z - a.z * b.y, a.z * b.x - a.x * b.z, a.x * b.y - a.y * b.x⟩ h
    have hn : n = (⟨a.y * b.z - a.z * b.y, a.z * b.x - a.x * b.z, a.x * b.y - a.y * b.x⟩ : Point ℝ).scale k := hk
    rw [hn]
    simp only [Point.scale]
    constructor <;> ring
  · intro h
    exact checkNormal_tiny ⟨a.y * b.z - a.z * b.y, a.z * b.x - a.x * b.z, a.x * b.y - a.y * b.x⟩ h

/-- C53: a degenerate triangle in the plane `x = 0` gets a normal that lies in this plane. -/
theorem C53_degenerate_not_perpendicular :
    let p1 : Point ℝ := ⟨0, 0, 1⟩
    CalcNormal ⟨0, 0, 0⟩ p1 ⟨0, 0, 2⟩ = p1 := by
  have := (C53_perpendicular ⟨0, 0, 0⟩ ⟨0, 0, 1⟩ ⟨0, 0, 2⟩).2 (by norm_num [Point.sub])
  exact this

example : (1 / 10 ^ 12 : ℝ) ≤ Spec.norm2 ⟨3, 4, 0⟩ := by norm_num [Spec.norm2]

end Iges.Props
