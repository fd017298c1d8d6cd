import Mathlib.Algebra.BigOperators.Finprod
import Verif.Lemmas.TurnsDisc
/- The crossings of lines and arcs with a ray, counted point by point. -/
namespace Iges.Turn
open Real

/-- the points of a curve at the height of `x` and to the left of it -/
def hits (k : Curve) (x : ℝ × ℝ) : Set (ℝ × ℝ) := {q | q ∈ k.trace ∧ q.2 = x.2 ∧ q.1 < x.1}

/-- a sum over at most one point -/
theorem sum_one {S : Set (ℝ × ℝ)} {f : ℝ × ℝ → ℤ} {q : ℝ × ℝ} {v : ℤ} (P : Prop) (hS : ∀ x, x ∈ S ↔ P ∧ x = q)
    (h1 : P → f q = v) (h2 : ¬ P → v = 0) : S.Finite ∧ ∑ᶠ x ∈ S, f x = v := by
  by_cases hP : P
  · have : S = {q} := by ext x; rw [hS]; simp [hP]
    rw [this]
    exact ⟨Set.finite_singleton q, by rw [finsum_mem_singleton, h1 hP]⟩
  · have : S = ∅ := by ext x; rw [hS]; simp [hP]
    rw [this]
    exact ⟨Set.finite_empty, by rw [finsum_mem_empty, h2 hP]⟩

theorem hits_line {p q x : ℝ × ℝ} (hp : x.2 ≠ p.2) (hq : x.2 ≠ q.2) : (hits (.line p q) x).Finite ∧
    ∑ᶠ _y ∈ hits (.line p q) x, (if q.2 < p.2 then (1 : ℤ) else -1) = (Curve.line p q).wind x := by
  by_cases hpq : p.2 = q.2
  · refine sum_one (q := p) False ?_ (fun h => h.elim) (fun _ => ?_)
    · intro y
      constructor
      · rintro ⟨h1, h2, -⟩
        have h1 : y ∈ segment ℝ p q := h1
        rw [segment_eq_image'] at h1
        obtain ⟨t, -, rfl⟩ := h1
        refine (hp ?_).elim
        rw [← h2]
        simp [← hpq]
      · rintro ⟨h, -⟩; exact h.elim
    · show step _ _ _ _ = 0
      unfold step
      rw [hpq]
      ring
  · refine sum_one (q := (lineX p q x.2, x.2)) (x.2 ∈ Set.uIcc p.2 q.2 ∧ lineX p q x.2 < x.1) ?_ ?_ ?_
    · intro y
      constructor
      · rintro ⟨h1, h2, h3⟩
        have h1 : y ∈ segment ℝ p q := h1
        rw [segment_eq_image'] at h1
        obtain ⟨t, ht, rfl⟩ := h1
        have e1 : x.2 = p.2 + t * (q.2 - p.2) := by rw [← h2]; simp
        have hd : q.2 - p.2 ≠ 0 := fun e => hpq (by linarith)
        have e2 : (p + t • (q - p)).1 = lineX p q x.2 := by
          unfold lineX
          rw [e1]
          simp only [Prod.fst_add, Prod.smul_fst, Prod.fst_sub, smul_eq_mul, add_sub_cancel_left]
          rw [mul_div_assoc, div_self hd, mul_one]
        refine ⟨⟨?_, by rw [← e2]; exact h3⟩, Prod.ext e2 h2⟩
        rw [Set.mem_uIcc, e1]
        rcases le_total p.2 q.2 with h | h
        · left; constructor <;> nlinarith [ht.1, ht.2]
        · right; constructor <;> nlinarith [ht.1, ht.2]
      · rintro ⟨⟨h1, h2⟩, rfl⟩
        exact ⟨lineX_mem hpq h1, rfl, h2⟩
    · rintro ⟨h1, h2⟩
      show _ = step _ _ _ _
      unfold step
      rw [ind_true h2]
      rcases Set.mem_uIcc.1 h1 with ⟨h3, h4⟩ | ⟨h3, h4⟩
      · have h4 : x.2 < q.2 := lt_of_le_of_ne h4 hq
        rw [if_neg (by linarith), ind_false (not_le.2 h4), ind_true h3]
        norm_num
      · have h4 : x.2 < p.2 := lt_of_le_of_ne h4 hp
        rw [if_pos (by linarith), ind_true h3, ind_false (not_le.2 h4)]
        norm_num
    · intro h
      show step _ _ _ _ = 0
      unfold step
      by_cases h2 : lineX p q x.2 < x.1
      · have h1 : x.2 ∉ Set.uIcc p.2 q.2 := fun h1 => h ⟨h1, h2⟩
        rw [Set.mem_uIcc] at h1
        push Not at h1
        rcases le_or_gt p.2 x.2 with h3 | h3
        · rw [ind_true h3, ind_true (h1.1 h3).le]; ring
        · rw [ind_false (not_le.2 h3), ind_false (p := q.2 ≤ x.2)]
          · ring
          · intro h4; have := h1.2 h4; linarith
      · rw [ind_false h2]; ring

section
variable {c : ℝ × ℝ} {r : ℝ}

/-- which way an arc that runs counterclockwise goes -/
noncomputable def down (c q : ℝ × ℝ) : ℤ := if q.1 < c.1 then 1 else -1

/-- the claim for one arc -/
def Counted (c : ℝ × ℝ) (r : ℝ) (x : ℝ × ℝ) (a b : ℝ) : Prop :=
  c.2 + r * sin a ≠ x.2 → c.2 + r * sin b ≠ x.2 → (hits (.arc c r a b) x).Finite ∧
    ∑ᶠ q ∈ hits (.arc c r a b) x, down c q = (Curve.arc c r a b).wind x

theorem sin_right {u v : ℝ} {j : ℤ} (h1 : 2 * π * j - π / 2 ≤ u) (h2 : u ≤ v) (h3 : v ≤ 2 * π * j + π / 2) : sin u ≤ sin v := by
  have := sin_le_sin_of_le_of_le_pi_div_two (x := u - 2 * π * j) (y := v - 2 * π * j) (by linarith) (by linarith) (by linarith)
  rwa [← sin_turn j, ← sin_turn j (v - _), add_sub_cancel, add_sub_cancel] at this

theorem sin_left {u v : ℝ} {j : ℤ} (h1 : 2 * π * j + π / 2 ≤ u) (h2 : u ≤ v) (h3 : v ≤ 2 * π * j + 3 * π / 2) : sin v ≤ sin u := by
  have := sin_le_sin_of_le_of_le_pi_div_two (x := π - (v - 2 * π * j)) (y := π - (u - 2 * π * j)) (by linarith) (by linarith)
    (by linarith)
  rwa [sin_pi_sub, sin_pi_sub, ← sin_turn j, ← sin_turn j (u - _), add_sub_cancel, add_sub_cancel] at this

theorem counted_half (hr : 0 < r) {x : ℝ × ℝ} {u v : ℝ} {j : ℤ} (huv : u ≤ v)
    (h : (2 * π * j - π / 2 ≤ u ∧ v ≤ 2 * π * j + π / 2) ∨ (2 * π * j + π / 2 ≤ u ∧ v ≤ 2 * π * j + 3 * π / 2)) :
    Counted c r x u v := by
  intro hu hv
  have hw : (Curve.arc c r u v).wind x = swept c r x v - swept c r x u := rfl
  rcases h with ⟨h1, h2⟩ | ⟨h1, h2⟩
  · have hs := sin_right h1 huv h2
    have hs' : c.2 + r * sin u ≤ c.2 + r * sin v := by nlinarith
    refine sum_one (q := (rightX c r x.2, x.2))
      ((c.2 + r * sin u < x.2 ∧ x.2 < c.2 + r * sin v) ∧ rightX c r x.2 < x.1) ?_ ?_ ?_
    · intro y
      constructor
      · rintro ⟨⟨θ, ht, rfl⟩, e1, e2⟩
        rw [Set.uIcc_of_le huv] at ht
        have hx := rim_right (c := c) hr.le (cos_right (h1.trans ht.1) (ht.2.trans h2))
        have e1 : c.2 + r * sin θ = x.2 := e1
        rw [e1] at hx
        refine ⟨⟨⟨lt_of_le_of_ne ?_ hu, lt_of_le_of_ne ?_ (Ne.symm hv)⟩, by rw [hx]; exact e2⟩, ?_⟩
        · rw [← e1]; nlinarith [sin_right h1 ht.1 (ht.2.trans h2)]
        · rw [← e1]; nlinarith [sin_right (h1.trans ht.1) ht.2 h2]
        · rw [hx, ← e1]; rfl
      · rintro ⟨⟨⟨e1, e2⟩, e3⟩, rfl⟩
        obtain ⟨θ, ht, e⟩ := arc_height (c := c) (r := r) (a := u) (b := v) (y := x.2)
          (by rw [Set.mem_uIcc]; exact Or.inl ⟨e1.le, e2.le⟩)
        have ht' := ht
        rw [Set.uIcc_of_le huv] at ht
        have hx := rim_right (c := c) hr.le (cos_right (h1.trans ht.1) (ht.2.trans h2))
        rw [e] at hx
        refine ⟨⟨θ, ht', ?_⟩, rfl, e3⟩
        exact Prod.ext hx.symm e
    · rintro ⟨⟨e1, e2⟩, e3⟩
      rw [hw, swept_right x h1 (huv.trans h2), swept_right x (h1.trans huv) h2]
      unfold low down
      rw [ind_true e3, ind_true e1.le, ind_false (not_le.2 e2), if_neg]
      · ring
      · simp only [rightX]; linarith [Real.sqrt_nonneg (r ^ 2 - (x.2 - c.2) ^ 2)]
    · intro hn
      rw [hw, swept_right x h1 (huv.trans h2), swept_right x (h1.trans huv) h2]
      by_cases e3 : rightX c r x.2 < x.1
      · have e : low c r x u = low c r x v := by
          unfold low
          rcases lt_or_gt_of_ne hu with e1 | e1
          · have e2 : c.2 + r * sin v ≤ x.2 := not_lt.1 fun e2 => hn ⟨⟨e1, e2⟩, e3⟩
            rw [ind_true e1.le, ind_true e2]
          · rw [ind_false (not_le.2 e1), ind_false (by linarith)]
        rw [e]; ring
      · rw [ind_false e3]; ring
  · have hs := sin_left h1 huv h2
    have hs' : c.2 + r * sin v ≤ c.2 + r * sin u := by nlinarith
    refine sum_one (q := (leftX c r x.2, x.2))
      ((c.2 + r * sin v < x.2 ∧ x.2 < c.2 + r * sin u) ∧ leftX c r x.2 < x.1) ?_ ?_ ?_
    · intro y
      constructor
      · rintro ⟨⟨θ, ht, rfl⟩, e1, e2⟩
        rw [Set.uIcc_of_le huv] at ht
        have hx := rim_left (c := c) hr.le (cos_left (h1.trans ht.1) (ht.2.trans h2))
        have e1 : c.2 + r * sin θ = x.2 := e1
        rw [e1] at hx
        refine ⟨⟨⟨lt_of_le_of_ne ?_ hv, lt_of_le_of_ne ?_ (Ne.symm hu)⟩, by rw [hx]; exact e2⟩, ?_⟩
        · rw [← e1]; nlinarith [sin_left (h1.trans ht.1) ht.2 h2]
        · rw [← e1]; nlinarith [sin_left h1 ht.1 (ht.2.trans h2)]
        · rw [hx, ← e1]; rfl
      · rintro ⟨⟨⟨e1, e2⟩, e3⟩, rfl⟩
        obtain ⟨θ, ht, e⟩ := arc_height (c := c) (r := r) (a := u) (b := v) (y := x.2)
          (by rw [Set.mem_uIcc]; exact Or.inr ⟨e1.le, e2.le⟩)
        have ht' := ht
        rw [Set.uIcc_of_le huv] at ht
        have hx := rim_left (c := c) hr.le (cos_left (h1.trans ht.1) (ht.2.trans h2))
        rw [e] at hx
        refine ⟨⟨θ, ht', ?_⟩, rfl, e3⟩
        exact Prod.ext hx.symm e
    · rintro ⟨⟨e1, e2⟩, e3⟩
      rw [hw, swept_left x h1 (huv.trans h2), swept_left x (h1.trans huv) h2]
      unfold low down
      rw [ind_true e3, ind_true e1.le, ind_false (not_le.2 e2), if_pos]
      · ring
      · simp only [leftX]
        have : 0 < √(r ^ 2 - (x.2 - c.2) ^ 2) := by
          apply Real.sqrt_pos.2
          have a1 : x.2 - c.2 < r := by nlinarith [sin_le_one u]
          have a2 : -r < x.2 - c.2 := by nlinarith [neg_one_le_sin v]
          nlinarith
        linarith
    · intro hn
      rw [hw, swept_left x h1 (huv.trans h2), swept_left x (h1.trans huv) h2]
      by_cases e3 : leftX c r x.2 < x.1
      · have e : low c r x u = low c r x v := by
          unfold low
          rcases lt_or_gt_of_ne hv with e1 | e1
          · have e2 : c.2 + r * sin u ≤ x.2 := not_lt.1 fun e2 => hn ⟨⟨e1, e2⟩, e3⟩
            rw [ind_true e1.le, ind_true e2]
          · rw [ind_false (not_le.2 e1), ind_false (by linarith)]
        rw [e]; ring
      · rw [ind_false e3]; ring

theorem hits_arc (hr : 0 < r) {x : ℝ × ℝ} (hD : (x.2 - c.2) ^ 2 ≠ r ^ 2) {a b : ℝ} (hab : a ≤ b) (hb : b < a + 2 * π) :
    Counted c r x a b := by
  refine by_halves hab (fun u v j _ h _ hh => counted_half hr h hh) ?_
  rintro u v w hau huv hvw hwb ⟨k, hk⟩ h1 h2 hu hw
  have hv : c.2 + r * sin v ≠ x.2 := by
    intro e
    apply hD
    rw [← e, add_sub_cancel_left, mul_pow]
    have : cos v = 0 := by rw [hk, cos_add_pi_div_two, mul_comm, sin_int_mul_pi, neg_zero]
    have := sin_sq_add_cos_sq v
    rw [‹cos v = 0›] at this
    rw [show sin v ^ 2 = 1 by linarith, mul_one]
  obtain ⟨f1, e1⟩ := h1 hu hv
  obtain ⟨f2, e2⟩ := h2 hv hw
  have hun : hits (.arc c r u w) x = hits (.arc c r u v) x ∪ hits (.arc c r v w) x := by
    ext y
    have t1 : y ∈ (Curve.arc c r u w).trace ↔ y ∈ (Curve.arc c r u v).trace ∨ y ∈ (Curve.arc c r v w).trace := by
      show y ∈ rim c r '' _ ↔ y ∈ rim c r '' _ ∨ y ∈ rim c r '' _
      rw [Set.uIcc_of_le huv, Set.uIcc_of_le hvw, Set.uIcc_of_le (huv.trans hvw), ← Set.Icc_union_Icc_eq_Icc huv hvw,
        Set.image_union]
      rfl
    unfold hits
    simp only [Set.mem_ofPred_eq, Set.mem_union, t1]
    tauto
  have hdj : Disjoint (hits (.arc c r u v) x) (hits (.arc c r v w) x) := by
    rw [Set.disjoint_left]
    rintro y ⟨⟨θ, ht, rfl⟩, e, -⟩ ⟨⟨φ, hf, e'⟩, -⟩
    rw [Set.uIcc_of_le huv] at ht
    rw [Set.uIcc_of_le hvw] at hf
    have hne : ¬ θ < φ := fun hlt => rim_ne (c := c) hr hlt (by linarith [ht.1, hf.2]) e'.symm
    have : θ = v := le_antisymm ht.2 (by linarith [hf.1])
    subst this
    exact hv e
  refine ⟨by rw [hun]; exact f1.union f2, ?_⟩
  rw [hun, finsum_mem_union hdj f1 f2, e1, e2]
  show swept c r x v - swept c r x u + (swept c r x w - swept c r x v) = swept c r x w - swept c r x u
  ring

end

/-- a sum of ones and minus ones is odd just when the number of terms is -/
theorem odd_sum {α : Type} {S : Set α} (hS : S.Finite) {f : α → ℤ} (hf : ∀ x ∈ S, Odd (f x)) : Odd (∑ᶠ x ∈ S, f x) ↔ Odd S.ncard := by
  induction S, hS using Set.Finite.induction_on with
  | empty => simp
  | @insert a S ha hS ih =>
    rw [finsum_mem_insert _ ha hS, Set.ncard_insert_of_notMem ha hS]
    have h1 := ih fun x hx => hf x (Set.mem_insert_of_mem a hx)
    have h2 := hf a (Set.mem_insert a S)
    rw [Int.odd_add, Nat.odd_add_one, ← h1, ← Int.not_odd_iff_even]
    tauto

end Iges.Turn
