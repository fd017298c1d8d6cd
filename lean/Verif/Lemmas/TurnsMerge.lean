import Mathlib.Topology.Order.IntermediateValue
import Verif.Lemmas.TurnsSplit
/-
Two closed curves that cross in two points: how often the parts, put together otherwise, go round a point.
-/
namespace Iges.Turn
open Set Filter Topology Real

/-- how often a closed curve goes round does not change where there is no curve -/
theorem turns_const {a : ℝ × ℝ} {l : List Curve} (hl : Linked a l a) (hk : ∀ k ∈ l, k.Ok) {S : Set (ℝ × ℝ)}
    (hS : IsPreconnected S) (ho : ∀ x ∈ S, Off l x) {y z : ℝ × ℝ} (hy : y ∈ S) (hz : z ∈ S) : turns l y = turns l z := by
  refine hS.constant (f := turns l) ?_ hy hz
  intro x hx
  refine ContinuousAt.continuousWithinAt ?_
  exact (continuousAt_const (y := turns l x)).congr ((turns_local hl hk (ho x hx)).mono fun _ e => e.symm)

/-- a curve whose inner points are not on the closed curve `m` is on one side of it -/
theorem side_one {a : ℝ × ℝ} {m : List Curve} (hm : Linked a m a) (hok : ∀ k ∈ m, k.Ok) {k : Curve}
    (h : ∀ t ∈ Ioo (0 : ℝ) 1, Off m (k.at t)) : ∃ v, ∀ x ∈ k.trace, Off m x → turns m x = v := by
  have hS : IsPreconnected {t | t ∈ Icc (0 : ℝ) 1 ∧ Off m (k.at t)} := by
    refine Set.OrdConnected.isPreconnected ⟨?_⟩
    rintro x ⟨hx, hx'⟩ y ⟨hy, hy'⟩ z ⟨h1, h2⟩
    refine ⟨⟨hx.1.trans h1, h2.trans hy.2⟩, ?_⟩
    rcases eq_or_lt_of_le h1 with rfl | h1
    · exact hx'
    rcases eq_or_lt_of_le h2 with rfl | h2
    · exact hy'
    exact h z ⟨lt_of_le_of_lt hx.1 h1, lt_of_lt_of_le h2 hy.2⟩
  refine ⟨turns m (k.at (1 / 2)), ?_⟩
  intro x hx ho
  rw [at_trace] at hx
  obtain ⟨t, ht, rfl⟩ := hx
  refine turns_const hm hok (hS.image k.at (at_cont k).continuousOn) ?_ ⟨t, ⟨ht, ho⟩, rfl⟩
    ⟨1 / 2, ⟨by norm_num, h _ (by norm_num)⟩, rfl⟩
  rintro x ⟨t, ⟨-, h⟩, rfl⟩
  exact h

/-- and so are curves that run end to end, if `m` does not go through the joints -/
theorem side_all {a : ℝ × ℝ} {m : List Curve} (hm : Linked a m a) (hok : ∀ k ∈ m, k.Ok) {l : List Curve} {b c : ℝ × ℝ}
    (hl : Linked b l c) (h : ∀ k ∈ l, ∀ t ∈ Ioo (0 : ℝ) 1, Off m (k.at t)) (hj : ∀ k ∈ l.tail, Off m k.first) :
    ∃ v, ∀ k ∈ l, ∀ x ∈ k.trace, Off m x → turns m x = v := by
  induction l generalizing b with
  | nil => exact ⟨0, by simp⟩
  | cons k l ih =>
    obtain ⟨v, hv⟩ := side_one hm hok (h k (by simp))
    cases l with
    | nil => exact ⟨v, by simpa using hv⟩
    | cons k' l =>
      obtain ⟨w, hw⟩ := ih hl.2 (fun k hk => h k (by simp [hk])) (fun k hk => hj k (by simp at hk ⊢; exact Or.inr hk))
      have o := hj k' (by simp)
      have e1 : k'.first = k.last := hl.2.1
      have e2 := hw k' (by simp) _ (first_mem _) o
      have e3 := hv k.last (last_mem _) (by rw [← e1]; exact o)
      rw [← e1, e2] at e3
      refine ⟨w, ?_⟩
      intro u hu
      rw [List.mem_cons] at hu
      rcases hu with rfl | hu
      · rw [e3]; exact hv
      · exact hw u hu

/-- far away there is no curve -/
theorem off_far (l : List Curve) : ∃ H : ℝ, ∀ x : ℝ × ℝ, H ≤ |x.2| → Off l x := by
  induction l with
  | nil => exact ⟨0, fun x _ k hk => by simp at hk⟩
  | cons k l ih =>
    obtain ⟨H, hH⟩ := ih
    have hc : IsCompact k.trace := by rw [at_trace]; exact isCompact_Icc.image (at_cont k)
    obtain ⟨K, hK⟩ := hc.exists_bound_of_continuousOn (f := fun x : ℝ × ℝ => x.2) continuous_snd.continuousOn
    refine ⟨max H (K + 1), fun x hx k' hk' hm => ?_⟩
    rw [List.mem_cons] at hk'
    rcases hk' with rfl | hk'
    · have := hK x hm
      rw [Real.norm_eq_abs] at this
      have := le_max_right H (K + 1)
      linarith
    · exact hH x ((le_max_left _ _).trans hx) k' hk' hm

/-- where a closed curve goes `n` times round -/
def level (l : List Curve) (n : ℤ) : Set (ℝ × ℝ) := {x | Off l x ∧ turns l x = n}

/-- Two closed curves, `A` and `B` from `P` to `Q` and back, and `C` and `D` from `P` to `Q` and back, each of which goes once
round a region that is in one piece, as is what is outside of it.  Each part of one curve is on one side of the other one,
and there are points inside both, and points inside each one only. -/
structure Crossing (P Q : ℝ × ℝ) (A B C D : List Curve) : Prop where
  linkA : Linked P A Q
  linkB : Linked Q B P
  linkC : Linked P C Q
  linkD : Linked Q D P
  okA : ∀ k ∈ A, k.Ok
  okB : ∀ k ∈ B, k.Ok
  okC : ∀ k ∈ C, k.Ok
  okD : ∀ k ∈ D, k.Ok
  oneO : ∀ x, Off (A ++ B) x → turns (A ++ B) x = 0 ∨ turns (A ++ B) x = 1
  oneM : ∀ x, Off (C ++ D) x → turns (C ++ D) x = 0 ∨ turns (C ++ D) x = 1
  conO : ∀ n, IsPreconnected (level (A ++ B) n)
  conM : ∀ n, IsPreconnected (level (C ++ D) n)
  sideA : ∃ v, ∀ k ∈ A, ∀ x ∈ k.trace, Off (C ++ D) x → turns (C ++ D) x = v
  sideB : ∃ v, ∀ k ∈ B, ∀ x ∈ k.trace, Off (C ++ D) x → turns (C ++ D) x = v
  sideC : ∃ v, ∀ k ∈ C, ∀ x ∈ k.trace, Off (A ++ B) x → turns (A ++ B) x = v
  sideD : ∃ v, ∀ k ∈ D, ∀ x ∈ k.trace, Off (A ++ B) x → turns (A ++ B) x = v
  both : ∃ x, x ∈ level (A ++ B) 1 ∧ x ∈ level (C ++ D) 1
  onlyO : ∃ x, x ∈ level (A ++ B) 1 ∧ x ∈ level (C ++ D) 0
  onlyM : ∃ x, x ∈ level (A ++ B) 0 ∧ x ∈ level (C ++ D) 1

section
variable {P Q : ℝ × ℝ} {A B C D : List Curve}

theorem Crossing.swap (h : Crossing P Q A B C D) : Crossing P Q C D A B :=
  ⟨h.linkC, h.linkD, h.linkA, h.linkB, h.okC, h.okD, h.okA, h.okB, h.oneM, h.oneO, h.conM, h.conO, h.sideC, h.sideD, h.sideA,
    h.sideB, by obtain ⟨x, a, b⟩ := h.both; exact ⟨x, b, a⟩, by obtain ⟨x, a, b⟩ := h.onlyM; exact ⟨x, b, a⟩,
    by obtain ⟨x, a, b⟩ := h.onlyO; exact ⟨x, b, a⟩⟩

theorem Crossing.linkO (h : Crossing P Q A B C D) : Linked P (A ++ B) P := linked_append.2 ⟨_, h.linkA, h.linkB⟩
theorem Crossing.linkM (h : Crossing P Q A B C D) : Linked P (C ++ D) P := linked_append.2 ⟨_, h.linkC, h.linkD⟩

/-- the parts are outside (`v = 0`) or inside (`v = 1`) of a closed curve -/
def Beside (l m : List Curve) (v : ℤ) : Prop := ∀ k ∈ l, ∀ x ∈ k.trace, Off m x → turns m x = v

/-- parts on one side are not met on the other one -/
theorem beside_off {l m : List Curve} {v w : ℤ} (h : Beside l m v) (hne : v ≠ w) : ∀ x ∈ level m w, Off l x := by
  rintro x ⟨h1, h2⟩ k hk hx
  exact hne ((h k hk x hx h1).symm.trans h2)

/-- a curve that goes nowhere outside of `m` does not go round a point outside of `m` -/
theorem none_outside {a : ℝ × ℝ} {l m : List Curve} (hl : Linked a l a) (hk : ∀ k ∈ l, k.Ok) (hkm : ∀ k ∈ m, k.Ok)
    (hcon : IsPreconnected (level m 0)) (ho : ∀ x ∈ level m 0, Off l x) {x : ℝ × ℝ} (hx : x ∈ level m 0) : turns l x = 0 := by
  obtain ⟨H1, h1⟩ := off_far m
  obtain ⟨H2, h2⟩ := turns_far m hkm
  obtain ⟨H3, h3⟩ := turns_far l hk
  have hb : ∀ H ∈ [H1, H2, H3], H ≤ |((0 : ℝ), max H1 (max H2 H3)).2| := by
    intro H hH
    refine le_trans ?_ (le_abs_self _)
    simp only [List.mem_cons, List.not_mem_nil, or_false] at hH
    rcases hH with rfl | rfl | rfl <;> simp
  rw [turns_const hl hk hcon ho hx ⟨h1 _ (hb H1 (by simp)), h2 _ (hb H2 (by simp))⟩]
  exact h3 _ (hb H3 (by simp))

theorem off_of_left {l m : List Curve} {v : ℤ} : ∀ x ∈ level (l ++ m) v, Off l x := fun _ h k hk => h.1 k (by simp [hk])
theorem off_of_right {l m : List Curve} {v : ℤ} : ∀ x ∈ level (l ++ m) v, Off m x := fun _ h k hk => h.1 k (by simp [hk])

/-- if `A` is outside and `C` inside, then `B` is inside and `D` outside -/
theorem Crossing.others (h : Crossing P Q A B C D) (hA : Beside A (C ++ D) 0) (hC : Beside C (A ++ B) 1) :
    Beside B (C ++ D) 1 ∧ Beside D (A ++ B) 0 := by
  obtain ⟨x, xo, xm⟩ := h.onlyM
  obtain ⟨z, zo, zm⟩ := h.both
  constructor
  · obtain ⟨v, hv⟩ := h.sideB
    by_cases hv1 : v = 1
    · subst hv1; exact hv
    · exfalso
      have hoff : ∀ x ∈ level (C ++ D) 1, Off (A ++ B) x := fun x hx =>
        off_append.2 ⟨beside_off hA (by norm_num) x hx, beside_off hv hv1 x hx⟩
      have e := turns_const h.linkO (ok_append h.okA h.okB) (h.conM 1) hoff xm zm
      rw [xo.2, zo.2] at e
      norm_num at e
  · obtain ⟨v, hv⟩ := h.sideD
    by_cases hv0 : v = 0
    · subst hv0; exact hv
    · exfalso
      have hoff : ∀ x ∈ level (A ++ B) 0, Off (C ++ D) x := fun x hx =>
        off_append.2 ⟨beside_off hC (by norm_num) x hx, beside_off hv hv0 x hx⟩
      have e := none_outside h.linkM (ok_append h.okC h.okD) (ok_append h.okA h.okB) (h.conO 0) hoff xo
      rw [xm.2] at e
      norm_num at e

/-- the curve that goes back along `l` -/
structure Back (l r : List Curve) (P Q : ℝ × ℝ) : Prop where
  link : Linked Q r P
  ok : ∀ k ∈ r, k.Ok
  turns : ∀ x, turns r x = - turns l x
  off : ∀ x, Off r x ↔ Off l x

/-- `B` and `C` go round what is inside of both curves -/
theorem Crossing.common (h : Crossing P Q A B C D) (hA : Beside A (C ++ D) 0) (hC : Beside C (A ++ B) 1) {R : List Curve}
    (hR : Back C R P Q) {x : ℝ × ℝ} (hO : Off (A ++ B) x) (hM : Off (C ++ D) x) :
    turns B x + turns C x = turns (A ++ B) x * turns (C ++ D) x := by
  obtain ⟨hB, hD⟩ := h.others hA hC
  have link : Linked Q (B ++ C) Q := linked_append.2 ⟨_, h.linkB, h.linkC⟩
  have ok := ok_append h.okB h.okC
  have z1 : ∀ x ∈ level (A ++ B) 0, turns (B ++ C) x = 0 := fun x hx =>
    none_outside link ok (ok_append h.okA h.okB) (h.conO 0)
      (fun y hy => off_append.2 ⟨off_of_right y hy, beside_off hC (by norm_num) y hy⟩) hx
  have z2 : ∀ x ∈ level (C ++ D) 0, turns (B ++ C) x = 0 := fun x hx =>
    none_outside link ok (ok_append h.okC h.okD) (h.conM 0)
      (fun y hy => off_append.2 ⟨beside_off hB (by norm_num) y hy, off_of_left y hy⟩) hx
  rcases h.oneO x hO with e | e
  · have := z1 x ⟨hO, e⟩
    rw [turns_append] at this
    rw [this, e, zero_mul]
  rcases h.oneM x hM with e' | e'
  · have := z2 x ⟨hM, e'⟩
    rw [turns_append] at this
    rw [this, e', mul_zero]
  obtain ⟨y, yo, ym⟩ := h.onlyM
  have hy := z1 y yo
  have hlink : Linked P (A ++ R) P := linked_append.2 ⟨_, h.linkA, hR.link⟩
  have hc := turns_const hlink (ok_append h.okA hR.ok) (h.conM 1)
    (fun w hw => off_append.2 ⟨beside_off hA (by norm_num) w hw, (hR.off w).2 (off_of_left w hw)⟩) ⟨hM, e'⟩ ym
  have ho := yo.2
  rw [e, e']
  simp only [turns_append, hR.turns] at hc hy ho e
  linarith

end
end Iges.Turn
