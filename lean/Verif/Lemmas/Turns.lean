import Mathlib.Analysis.Convex.Topology
import Mathlib.Analysis.SpecialFunctions.Trigonometric.Basic
import Mathlib.Topology.Order.IntermediateValue
/-
How often a closed curve made of straight lines and circular arcs goes round a point: the number of crossings with the
ray to the left, each with its sign.  A height that is hit at the end of a piece is counted for the part above it.  The
number does not change when the point moves without meeting the curve (`turns_segment`).
-/
namespace Iges.Turn
open Real Filter Topology Classical

noncomputable section

/-- 1 for true and 0 for false -/
def ind (p : Prop) : ℤ := if p then 1 else 0

theorem ind_congr {p q : Prop} (h : p ↔ q) : ind p = ind q := by unfold ind; simp [h]
theorem ind_true {p : Prop} (h : p) : ind p = 1 := if_pos h
theorem ind_false {p : Prop} (h : ¬ p) : ind p = 0 := if_neg h

/-- the point of a circle in a direction -/
def rim (c : ℝ × ℝ) (r θ : ℝ) : ℝ × ℝ := (c.1 + r * cos θ, c.2 + r * sin θ)

/-- a straight line, or an arc that runs from the direction `a` to the direction `b` -/
inductive Curve where
  | line (p q : ℝ × ℝ)
  | arc (c : ℝ × ℝ) (r a b : ℝ)

def Curve.first : Curve → ℝ × ℝ
  | .line p _ => p
  | .arc c r a _ => rim c r a

def Curve.last : Curve → ℝ × ℝ
  | .line _ q => q
  | .arc c r _ b => rim c r b

/-- the points of a curve -/
def Curve.trace : Curve → Set (ℝ × ℝ)
  | .line p q => segment ℝ p q
  | .arc c r a b => rim c r '' Set.uIcc a b

/-- the crossings of a piece that is met at `X` by the ray: the piece goes from the height `P` to the height `Q` -/
def step (P Q X : ℝ) (x : ℝ × ℝ) : ℤ := ind (X < x.1) * (ind (Q ≤ x.2) - ind (P ≤ x.2))

/-- where a straight line is at a height -/
def lineX (p q : ℝ × ℝ) (h : ℝ) : ℝ := p.1 + (h - p.2) / (q.2 - p.2) * (q.1 - p.1)

/-- the right and the left point of a circle at a height -/
def rightX (c : ℝ × ℝ) (r h : ℝ) : ℝ := c.1 + √(r ^ 2 - (h - c.2) ^ 2)
@[inherit_doc rightX]
def leftX (c : ℝ × ℝ) (r h : ℝ) : ℝ := c.1 - √(r ^ 2 - (h - c.2) ^ 2)

/-- whether the point of a circle in a direction is not above `x` -/
def low (c : ℝ × ℝ) (r : ℝ) (x : ℝ × ℝ) (θ : ℝ) : ℤ := ind (c.2 + r * sin θ ≤ x.2)

/-- the crossings of a full circle -/
def whole (c : ℝ × ℝ) (r : ℝ) (x : ℝ × ℝ) : ℤ :=
  ind (rightX c r x.2 < x.1) * (ind (c.2 + r ≤ x.2) - ind (c.2 - r ≤ x.2)) +
  ind (leftX c r x.2 < x.1) * (ind (c.2 - r ≤ x.2) - ind (c.2 + r ≤ x.2))

/-- the crossings of an arc that starts at the bottom of the circle and goes on to a direction -/
def swept (c : ℝ × ℝ) (r : ℝ) (x : ℝ × ℝ) (θ : ℝ) : ℤ :=
  let j := ⌊(θ + π / 2) / (2 * π)⌋
  j * whole c r x +
    if θ - 2 * π * j < π / 2 then ind (rightX c r x.2 < x.1) * (low c r x θ - ind (c.2 - r ≤ x.2))
    else ind (rightX c r x.2 < x.1) * (ind (c.2 + r ≤ x.2) - ind (c.2 - r ≤ x.2)) +
      ind (leftX c r x.2 < x.1) * (low c r x θ - ind (c.2 + r ≤ x.2))

/-- the crossings of a curve with the ray to the left of `x`: 1 where it goes down, -1 where it goes up -/
def Curve.wind (k : Curve) (x : ℝ × ℝ) : ℤ :=
  match k with
  | .line p q => step p.2 q.2 (lineX p q x.2) x
  | .arc c r a b => swept c r x b - swept c r x a

/-- the crossings of some curves -/
def turns (l : List Curve) (x : ℝ × ℝ) : ℤ := (l.map fun k => k.wind x).sum

/-- the curves run end to end from `a` to `b` -/
def Linked (a : ℝ × ℝ) : List Curve → ℝ × ℝ → Prop
  | [], b => a = b
  | k :: l, b => k.first = a ∧ Linked k.last l b

/-- `x` is on none of the curves -/
def Off (l : List Curve) (x : ℝ × ℝ) : Prop := ∀ k ∈ l, x ∉ k.trace

@[simp] theorem turns_nil (x : ℝ × ℝ) : turns [] x = 0 := rfl
@[simp] theorem turns_cons (k : Curve) (l : List Curve) (x : ℝ × ℝ) : turns (k :: l) x = k.wind x + turns l x := rfl
@[simp] theorem turns_append (l m : List Curve) (x : ℝ × ℝ) : turns (l ++ m) x = turns l x + turns m x := by
  unfold turns; simp

theorem linked_append {a b : ℝ × ℝ} {l m : List Curve} : Linked a (l ++ m) b ↔ ∃ c, Linked a l c ∧ Linked c m b := by
  induction l generalizing a with
  | nil => simp [Linked]
  | cons k l ih => simp [Linked, ih, and_assoc]

/-! ### Pieces that go up or down all the way -/

/-- what an end at the height of `z`, on its left, adds for points above -/
def ends (z v x : ℝ × ℝ) : ℤ := ind (v.2 = z.2 ∧ v.1 < z.1) * ind (z.2 ≤ x.2)

theorem above_const {v : ℝ} {z : ℝ × ℝ} (h : v ≠ z.2) : ∀ᶠ x in 𝓝 z, ind (v ≤ x.2) = ind (v ≤ z.2) := by
  have hc : Continuous fun x : ℝ × ℝ => x.2 := continuous_snd
  rcases lt_or_gt_of_ne h with h | h
  · filter_upwards [hc.continuousAt.eventually (lt_mem_nhds h)] with x hx
    rw [ind_true hx.le, ind_true h.le]
  · filter_upwards [hc.continuousAt.eventually (gt_mem_nhds h)] with x hx
    rw [ind_false (not_le.2 hx), ind_false (not_le.2 h)]

theorem left_const {X : ℝ → ℝ} (hX : Continuous X) {z : ℝ × ℝ} (h : X z.2 ≠ z.1) :
    ∀ᶠ x in 𝓝 z, ind (X x.2 < x.1) = ind (X z.2 < z.1) := by
  have hc : Continuous fun x : ℝ × ℝ => x.1 - X x.2 := continuous_fst.sub (hX.comp continuous_snd)
  rcases lt_or_gt_of_ne h with h | h
  · filter_upwards [hc.continuousAt.eventually (lt_mem_nhds (show (0 : ℝ) < z.1 - X z.2 by linarith))] with x hx
    rw [ind_true (by linarith), ind_true h]
  · filter_upwards [hc.continuousAt.eventually (gt_mem_nhds (show z.1 - X z.2 < (0 : ℝ) by linarith))] with x hx
    rw [ind_false (by linarith), ind_false (by linarith)]

/-- near a point that is not on the piece the number of crossings changes only as its ends say -/
theorem step_local {P Q : ℝ × ℝ} {X : ℝ → ℝ} (hX : Continuous X) (hP : P.2 ≠ Q.2 → X P.2 = P.1)
    (hQ : P.2 ≠ Q.2 → X Q.2 = Q.1) {z : ℝ × ℝ} (hz : P.2 ≠ Q.2 → z.2 ∈ Set.uIcc P.2 Q.2 → X z.2 ≠ z.1)
    (hz' : P.2 = Q.2 → P.2 = z.2 → (P.1 < z.1 ↔ Q.1 < z.1)) :
    ∃ k : ℤ, ∀ᶠ x in 𝓝 z, step P.2 Q.2 (X x.2) x - ends z Q x + ends z P x = k := by
  by_cases hPQ : P.2 = Q.2
  · refine ⟨0, Eventually.of_forall fun x => ?_⟩
    have e : ind (P.2 = z.2 ∧ P.1 < z.1) = ind (Q.2 = z.2 ∧ Q.1 < z.1) := by
      apply ind_congr
      rw [← hPQ]
      constructor
      · rintro ⟨h1, h2⟩; exact ⟨h1, (hz' hPQ h1).1 h2⟩
      · rintro ⟨h1, h2⟩; exact ⟨h1, (hz' hPQ h1).2 h2⟩
    unfold step ends
    rw [hPQ] at e ⊢
    rw [e]
    ring
  · by_cases h1 : P.2 = z.2
    · have hx : X z.2 ≠ z.1 := hz hPQ (by rw [← h1]; exact Set.left_mem_uIcc)
      refine ⟨ind (X z.2 < z.1) * ind (Q.2 ≤ z.2), ?_⟩
      filter_upwards [left_const hX hx, above_const (v := Q.2) (z := z) (by rw [← h1]; exact Ne.symm hPQ)] with x e1 e2
      have e3 : ind (Q.2 = z.2 ∧ Q.1 < z.1) = 0 := ind_false (fun h => hPQ (by rw [h1, h.1]))
      have e4 : ind (P.2 = z.2 ∧ P.1 < z.1) = ind (X z.2 < z.1) := ind_congr (by
        rw [← hP hPQ, h1]; simp)
      unfold step ends
      rw [e1, e2, e3, e4, h1]
      ring
    · by_cases h2 : Q.2 = z.2
      · have hx : X z.2 ≠ z.1 := hz hPQ (by rw [← h2]; exact Set.right_mem_uIcc)
        refine ⟨-(ind (X z.2 < z.1) * ind (P.2 ≤ z.2)), ?_⟩
        filter_upwards [left_const hX hx, above_const (v := P.2) (z := z) h1] with x e1 e2
        have e3 : ind (P.2 = z.2 ∧ P.1 < z.1) = 0 := ind_false (fun h => h1 h.1)
        have e4 : ind (Q.2 = z.2 ∧ Q.1 < z.1) = ind (X z.2 < z.1) := ind_congr (by
          rw [← hQ hPQ, h2]; simp)
        unfold step ends
        rw [e1, e2, e3, e4, h2]
        ring
      · have e3 : ind (P.2 = z.2 ∧ P.1 < z.1) = 0 := ind_false (fun h => h1 h.1)
        have e4 : ind (Q.2 = z.2 ∧ Q.1 < z.1) = 0 := ind_false (fun h => h2 h.1)
        by_cases hb : ind (Q.2 ≤ z.2) = ind (P.2 ≤ z.2)
        · refine ⟨0, ?_⟩
          filter_upwards [above_const h1, above_const h2] with x e1 e2
          unfold step ends
          rw [e1, e2, e3, e4, hb]
          ring
        · have hx : X z.2 ≠ z.1 := by
            apply hz hPQ
            rw [Set.mem_uIcc]
            by_contra hn
            push Not at hn
            apply hb
            by_cases hq : Q.2 ≤ z.2
            · rw [ind_true hq]
              rcases le_or_gt P.2 z.2 with hp | hp
              · rw [ind_true hp]
              · exact absurd (hn.2 hq) (not_lt.2 hp.le)
            · rw [ind_false hq]
              rcases le_or_gt P.2 z.2 with hp | hp
              · exact absurd (hn.1 hp) (by linarith)
              · rw [ind_false (not_le.2 hp)]
          refine ⟨ind (X z.2 < z.1) * (ind (Q.2 ≤ z.2) - ind (P.2 ≤ z.2)), ?_⟩
          filter_upwards [above_const h1, above_const h2, left_const hX hx] with x e1 e2 e5
          unfold step ends
          rw [e1, e2, e3, e4, e5]
          ring

/-! ### Lines -/

theorem lineX_cont (p q : ℝ × ℝ) : Continuous (lineX p q) := by unfold lineX; fun_prop

theorem lineX_first {p q : ℝ × ℝ} : lineX p q p.2 = p.1 := by unfold lineX; simp

theorem lineX_last {p q : ℝ × ℝ} (h : p.2 ≠ q.2) : lineX p q q.2 = q.1 := by
  unfold lineX
  rw [div_self (by intro e; apply h; linarith)]
  ring

/-- the point of a line at a height between those of its ends -/
theorem lineX_mem {p q : ℝ × ℝ} (h : p.2 ≠ q.2) {y : ℝ} (hy : y ∈ Set.uIcc p.2 q.2) : (lineX p q y, y) ∈ segment ℝ p q := by
  have hd : q.2 - p.2 ≠ 0 := fun e => h (by linarith)
  have ht : 0 ≤ (y - p.2) / (q.2 - p.2) ∧ (y - p.2) / (q.2 - p.2) ≤ 1 := by
    rcases Set.mem_uIcc.1 hy with ⟨h1, h2⟩ | ⟨h1, h2⟩
    · have : 0 < q.2 - p.2 := lt_of_le_of_ne (by linarith) (Ne.symm hd)
      exact ⟨div_nonneg (by linarith) this.le, (div_le_one this).2 (by linarith)⟩
    · have : q.2 - p.2 < 0 := lt_of_le_of_ne (by linarith) hd
      exact ⟨div_nonneg_of_nonpos (by linarith) this.le, (div_le_one_of_neg this).2 (by linarith)⟩
  rw [segment_eq_image']
  refine ⟨(y - p.2) / (q.2 - p.2), ht, ?_⟩
  ext
  · simp [lineX]
  · simp only [Prod.snd_add, Prod.smul_snd, Prod.snd_sub, smul_eq_mul]
    rw [div_mul_cancel₀ _ hd]
    ring

theorem line_local {p q z : ℝ × ℝ} (hz : z ∉ (Curve.line p q).trace) :
    ∃ k : ℤ, ∀ᶠ x in 𝓝 z, (Curve.line p q).wind x - ends z q x + ends z p x = k := by
  refine step_local (P := p) (Q := q) (lineX_cont p q) (fun _ => lineX_first) (fun h => lineX_last h) ?_ ?_
  · intro h hm e
    apply hz
    have := lineX_mem h hm
    rw [e] at this
    exact this
  · intro h1 h2
    by_contra hne
    apply hz
    show z ∈ segment ℝ p q
    have : z.1 ∈ Set.uIcc p.1 q.1 := by
      rw [Set.mem_uIcc]
      by_cases hp : p.1 < z.1
      · left
        refine ⟨hp.le, not_lt.1 fun hq => hne ⟨fun _ => hq, fun _ => hp⟩⟩
      · right
        refine ⟨not_lt.1 fun hq => ?_, not_lt.1 hp⟩
        · apply hne
          exact ⟨fun h => absurd h hp, fun h => absurd (hq.trans h) (lt_irrefl _)⟩
    rw [← segment_eq_uIcc, segment_eq_image'] at this
    obtain ⟨t, ht, e⟩ := this
    rw [segment_eq_image']
    refine ⟨t, ht, ?_⟩
    ext
    · simpa using e
    · simp [← h1, h2]

/-! ### Arcs -/

section
variable {c : ℝ × ℝ} {r : ℝ}

theorem rightX_cont : Continuous (rightX c r) := by unfold rightX; fun_prop
theorem leftX_cont : Continuous (leftX c r) := by unfold leftX; fun_prop

theorem floor_turn {θ : ℝ} {j : ℤ} (h1 : 2 * π * j - π / 2 ≤ θ) (h2 : θ < 2 * π * j + 3 * π / 2) :
    ⌊(θ + π / 2) / (2 * π)⌋ = j := by
  have := pi_pos
  rw [Int.floor_eq_iff, le_div_iff₀ (by linarith), div_lt_iff₀ (by linarith)]
  constructor <;> linarith

theorem sin_turn (j : ℤ) (θ : ℝ) : sin (2 * π * j + θ) = sin θ := by
  rw [show 2 * π * j + θ = θ + j * (2 * π) by ring]; exact sin_add_int_mul_two_pi θ j

theorem cos_turn (j : ℤ) (θ : ℝ) : cos (2 * π * j + θ) = cos θ := by
  rw [show 2 * π * j + θ = θ + j * (2 * π) by ring]; exact cos_add_int_mul_two_pi θ j

theorem low_top (x : ℝ × ℝ) (j : ℤ) : low c r x (2 * π * j + π / 2) = ind (c.2 + r ≤ x.2) := by
  unfold low; rw [sin_turn, sin_pi_div_two, mul_one]

theorem low_bottom (x : ℝ × ℝ) (j : ℤ) : low c r x (2 * π * j + 3 * π / 2) = ind (c.2 - r ≤ x.2) := by
  unfold low
  rw [sin_turn, show 3 * π / 2 = π / 2 + π by ring, sin_add_pi, sin_pi_div_two]
  apply ind_congr
  rw [mul_neg, mul_one]; rfl

/-- the right half of a turn -/
theorem swept_right (x : ℝ × ℝ) {θ : ℝ} {j : ℤ} (h1 : 2 * π * j - π / 2 ≤ θ) (h2 : θ ≤ 2 * π * j + π / 2) :
    swept c r x θ = j * whole c r x + ind (rightX c r x.2 < x.1) * (low c r x θ - ind (c.2 - r ≤ x.2)) := by
  have := pi_pos
  unfold swept
  simp only
  rw [floor_turn h1 (by linarith)]
  rcases lt_or_eq_of_le h2 with h | h
  · rw [if_pos (by linarith)]
  · rw [if_neg (by linarith), h, low_top]
    ring

/-- the left half of a turn -/
theorem swept_left (x : ℝ × ℝ) {θ : ℝ} {j : ℤ} (h1 : 2 * π * j + π / 2 ≤ θ) (h2 : θ ≤ 2 * π * j + 3 * π / 2) :
    swept c r x θ = j * whole c r x + (ind (rightX c r x.2 < x.1) * (ind (c.2 + r ≤ x.2) - ind (c.2 - r ≤ x.2)) +
      ind (leftX c r x.2 < x.1) * (low c r x θ - ind (c.2 + r ≤ x.2))) := by
  have := pi_pos
  rcases lt_or_eq_of_le h2 with h | h
  · unfold swept
    simp only
    rw [floor_turn (by linarith) h, if_neg (by linarith)]
  · have e : θ = 2 * π * (j + 1 : ℤ) - π / 2 := by rw [h]; push_cast; ring
    rw [swept_right x (j := j + 1) (by rw [e]) (by rw [e]; linarith), h, low_bottom]
    unfold whole
    push_cast
    ring

/-- a full turn -/
theorem swept_turn (x : ℝ × ℝ) (θ : ℝ) : swept c r x (θ + 2 * π) = swept c r x θ + whole c r x := by
  have hp := pi_pos
  unfold swept
  simp only
  have e : (θ + 2 * π + π / 2) / (2 * π) = (θ + π / 2) / (2 * π) + 1 := by field_simp; ring
  have e2 : low c r x (θ + 2 * π) = low c r x θ := by unfold low; rw [sin_add_two_pi]
  rw [e, Int.floor_add_one, e2]
  have e3 : θ + 2 * π - 2 * π * ((⌊(θ + π / 2) / (2 * π)⌋ + 1 : ℤ) : ℝ) = θ - 2 * π * (⌊(θ + π / 2) / (2 * π)⌋ : ℝ) := by
    push_cast; ring
  rw [e3]
  push_cast
  split_ifs <;> ring

/-- an arc between two directions, near a point that is not on it -/
def Near (c : ℝ × ℝ) (r : ℝ) (z : ℝ × ℝ) (a b : ℝ) : Prop :=
  ∃ k : ℤ, ∀ᶠ x in 𝓝 z, swept c r x b - swept c r x a - ends z (rim c r b) x + ends z (rim c r a) x = k

theorem Near.trans {z : ℝ × ℝ} {a b d : ℝ} (h1 : Near c r z a b) (h2 : Near c r z b d) : Near c r z a d := by
  obtain ⟨k, h1⟩ := h1
  obtain ⟨m, h2⟩ := h2
  refine ⟨k + m, ?_⟩
  filter_upwards [h1, h2] with x e1 e2
  rw [← e1, ← e2]
  ring

theorem Near.symm {z : ℝ × ℝ} {a b : ℝ} (h : Near c r z a b) : Near c r z b a := by
  obtain ⟨k, h⟩ := h
  refine ⟨-k, ?_⟩
  filter_upwards [h] with x e
  rw [← e]
  ring

theorem rim_right (hr : 0 ≤ r) {θ : ℝ} (h : 0 ≤ cos θ) : rightX c r (c.2 + r * sin θ) = c.1 + r * cos θ := by
  unfold rightX
  rw [show r ^ 2 - (c.2 + r * sin θ - c.2) ^ 2 = (r * cos θ) ^ 2 by
    have := sin_sq_add_cos_sq θ; linear_combination (-r ^ 2) * this, Real.sqrt_sq (by positivity)]

theorem rim_left (hr : 0 ≤ r) {θ : ℝ} (h : cos θ ≤ 0) : leftX c r (c.2 + r * sin θ) = c.1 + r * cos θ := by
  unfold leftX
  rw [show r ^ 2 - (c.2 + r * sin θ - c.2) ^ 2 = (r * -cos θ) ^ 2 by
    have := sin_sq_add_cos_sq θ; linear_combination (-r ^ 2) * this, Real.sqrt_sq (mul_nonneg hr (by linarith))]
  ring

theorem cos_right {θ : ℝ} {j : ℤ} (h1 : 2 * π * j - π / 2 ≤ θ) (h2 : θ ≤ 2 * π * j + π / 2) : 0 ≤ cos θ := by
  have := cos_nonneg_of_neg_pi_div_two_le_of_le (x := θ - 2 * π * j) (by linarith) (by linarith)
  rwa [← cos_turn j, add_sub_cancel] at this

theorem cos_left {θ : ℝ} {j : ℤ} (h1 : 2 * π * j + π / 2 ≤ θ) (h2 : θ ≤ 2 * π * j + 3 * π / 2) : cos θ ≤ 0 := by
  have := cos_nonpos_of_pi_div_two_le_of_le (x := θ - 2 * π * j) (by linarith) (by linarith)
  rwa [← cos_turn j, add_sub_cancel] at this

/-- a height between those of the ends of an arc is met on it -/
theorem arc_height {a b y : ℝ} (h : y ∈ Set.uIcc (rim c r a).2 (rim c r b).2) :
    ∃ θ ∈ Set.uIcc a b, c.2 + r * sin θ = y :=
  intermediate_value_uIcc (f := fun θ => c.2 + r * sin θ) (by fun_prop) h

theorem near_half (hr : 0 ≤ r) {z : ℝ × ℝ} {a b : ℝ} {j : ℤ}
    (h : (2 * π * j - π / 2 ≤ a ∧ a ≤ 2 * π * j + π / 2 ∧ 2 * π * j - π / 2 ≤ b ∧ b ≤ 2 * π * j + π / 2) ∨
      (2 * π * j + π / 2 ≤ a ∧ a ≤ 2 * π * j + 3 * π / 2 ∧ 2 * π * j + π / 2 ≤ b ∧ b ≤ 2 * π * j + 3 * π / 2))
    (hz : z ∉ rim c r '' Set.uIcc a b) : Near c r z a b := by
  rcases h with ⟨a1, a2, b1, b2⟩ | ⟨a1, a2, b1, b2⟩
  · have hp : rightX c r (rim c r a).2 = (rim c r a).1 := rim_right hr (cos_right a1 a2)
    have hq : rightX c r (rim c r b).2 = (rim c r b).1 := rim_right hr (cos_right b1 b2)
    obtain ⟨k, hk⟩ := step_local (P := rim c r a) (Q := rim c r b) (z := z) (rightX_cont (c := c) (r := r)) (fun _ => hp) (fun _ => hq)
      (by
        intro _ hm e
        obtain ⟨θ, h1, h2⟩ := arc_height hm
        apply hz
        refine ⟨θ, h1, ?_⟩
        have : 2 * π * j - π / 2 ≤ θ ∧ θ ≤ 2 * π * j + π / 2 := by
          rcases Set.mem_uIcc.1 h1 with ⟨h3, h4⟩ | ⟨h3, h4⟩ <;> constructor <;> linarith
        have hx := rim_right (c := c) hr (cos_right this.1 this.2)
        rw [h2, e] at hx
        exact Prod.ext hx.symm h2)
      (by intro e _; rw [← hp, ← hq, e])
    refine ⟨k, ?_⟩
    filter_upwards [hk] with x hx
    rw [← hx, swept_right x a1 a2, swept_right x b1 b2]
    unfold step low rim
    ring
  · have hp : leftX c r (rim c r a).2 = (rim c r a).1 := rim_left hr (cos_left a1 a2)
    have hq : leftX c r (rim c r b).2 = (rim c r b).1 := rim_left hr (cos_left b1 b2)
    obtain ⟨k, hk⟩ := step_local (P := rim c r a) (Q := rim c r b) (z := z) (leftX_cont (c := c) (r := r)) (fun _ => hp) (fun _ => hq)
      (by
        intro _ hm e
        obtain ⟨θ, h1, h2⟩ := arc_height hm
        apply hz
        refine ⟨θ, h1, ?_⟩
        have : 2 * π * j + π / 2 ≤ θ ∧ θ ≤ 2 * π * j + 3 * π / 2 := by
          rcases Set.mem_uIcc.1 h1 with ⟨h3, h4⟩ | ⟨h3, h4⟩ <;> constructor <;> linarith
        have hx := rim_left (c := c) hr (cos_left this.1 this.2)
        rw [h2, e] at hx
        exact Prod.ext hx.symm h2)
      (by intro e _; rw [← hp, ← hq, e])
    refine ⟨k, ?_⟩
    filter_upwards [hk] with x hx
    rw [← hx, swept_left x a1 a2, swept_left x b1 b2]
    unfold step low rim
    ring

/-- every direction is in some half turn -/
theorem half_turn (θ : ℝ) : ∃ k : ℤ, π * k - π / 2 ≤ θ ∧ θ ≤ π * k + π / 2 := by
  have hp := pi_pos
  refine ⟨⌊(θ + π / 2) / π⌋, ?_, ?_⟩
  · have := Int.floor_le ((θ + π / 2) / π)
    rw [le_div_iff₀ hp] at this
    linarith
  · have := Int.lt_floor_add_one ((θ + π / 2) / π)
    rw [div_lt_iff₀ hp] at this
    linarith

/-- Something that holds for arcs within a half turn and for arcs put together holds for all arcs. -/
theorem by_halves {R : ℝ → ℝ → Prop} {a b : ℝ} (hab : a ≤ b)
    (half : ∀ u v : ℝ, ∀ j : ℤ, a ≤ u → u ≤ v → v ≤ b →
      (2 * π * j - π / 2 ≤ u ∧ v ≤ 2 * π * j + π / 2) ∨ (2 * π * j + π / 2 ≤ u ∧ v ≤ 2 * π * j + 3 * π / 2) → R u v)
    (add : ∀ u v w : ℝ, a ≤ u → u ≤ v → v ≤ w → w ≤ b → (∃ k : ℤ, v = π * k + π / 2) → R u v → R v w → R u w) : R a b := by
  have hp := pi_pos
  have base : ∀ u v : ℝ, ∀ k : ℤ, a ≤ u → u ≤ v → v ≤ b → π * k - π / 2 ≤ u → v ≤ π * k + π / 2 → R u v := by
    intro u v k h1 h2 h3 h4 h5
    rcases Int.even_or_odd' k with ⟨j, rfl | rfl⟩
    · refine half u v j h1 h2 h3 (Or.inl ⟨?_, ?_⟩) <;> push_cast at h4 h5 <;> linarith
    · refine half u v j h1 h2 h3 (Or.inr ⟨?_, ?_⟩) <;> push_cast at h4 h5 <;> linarith
  have key : ∀ n : ℕ, ∀ u : ℝ, ∀ k : ℤ, a ≤ u → u ≤ b → π * k - π / 2 ≤ u → u ≤ π * k + π / 2 →
      b ≤ π * k + π / 2 + n * π → R u b := by
    intro n
    induction n with
    | zero =>
      intro u k h1 h2 h3 h4 h5
      exact base u b k h1 h2 le_rfl h3 (by simpa using h5)
    | succ n ih =>
      intro u k h1 h2 h3 h4 h5
      by_cases hb : b ≤ π * k + π / 2
      · exact base u b k h1 h2 le_rfl h3 hb
      · push Not at hb
        refine add u (π * k + π / 2) b h1 h4 hb.le le_rfl ⟨k, rfl⟩ (base _ _ k h1 h4 hb.le h3 le_rfl) ?_
        refine ih (π * k + π / 2) (k + 1) (h1.trans h4) hb.le ?_ ?_ ?_ <;> push_cast at * <;> linarith
  obtain ⟨k, h1, h2⟩ := half_turn a
  obtain ⟨n, hn⟩ := exists_nat_ge ((b - (π * k + π / 2)) / π)
  rw [div_le_iff₀ hp] at hn
  exact key n a k le_rfl hab h1 h2 (by linarith)

theorem near_arc (hr : 0 ≤ r) {z : ℝ × ℝ} {a b : ℝ} (hz : z ∉ rim c r '' Set.uIcc a b) : Near c r z a b := by
  wlog hab : a ≤ b generalizing a b
  · exact (this (by rwa [Set.uIcc_comm]) (le_of_not_ge hab)).symm
  refine by_halves hab ?_ (fun u v w _ _ _ _ _ h1 h2 => h1.trans h2)
  intro u v j h1 h2 h3 h
  refine near_half hr (j := j) ?_ ?_
  · rcases h with ⟨h4, h5⟩ | ⟨h4, h5⟩
    · exact Or.inl ⟨h4, h2.trans h5, h4.trans h2, h5⟩
    · exact Or.inr ⟨h4, h2.trans h5, h4.trans h2, h5⟩
  · rintro ⟨θ, ht, e⟩
    apply hz
    refine ⟨θ, ?_, e⟩
    rw [Set.uIcc_of_le h2] at ht
    rw [Set.uIcc_of_le hab]
    exact ⟨h1.trans ht.1, ht.2.trans h3⟩

end

/-! ### Closed curves -/

/-- arcs have a radius that is not negative -/
def Curve.Ok : Curve → Prop
  | .line _ _ => True
  | .arc _ r _ _ => 0 ≤ r

theorem curve_local {k : Curve} (hk : k.Ok) {z : ℝ × ℝ} (hz : z ∉ k.trace) :
    ∃ n : ℤ, ∀ᶠ x in 𝓝 z, k.wind x - ends z k.last x + ends z k.first x = n := by
  cases k with
  | line p q => exact line_local hz
  | arc c r a b => exact near_arc hk hz

theorem chain_local {a b : ℝ × ℝ} {l : List Curve} (hl : Linked a l b) (hk : ∀ k ∈ l, k.Ok) {z : ℝ × ℝ} (hz : Off l z) :
    ∃ n : ℤ, ∀ᶠ x in 𝓝 z, turns l x - ends z b x + ends z a x = n := by
  induction l generalizing a with
  | nil =>
    refine ⟨0, Eventually.of_forall fun x => ?_⟩
    rw [show a = b from hl]
    simp
  | cons k l ih =>
    obtain ⟨h1, h2⟩ := hl
    obtain ⟨n, hn⟩ := curve_local (hk k (by simp)) (hz k (by simp))
    obtain ⟨m, hm⟩ := ih h2 (fun k h => hk k (by simp [h])) (fun k h => hz k (by simp [h]))
    refine ⟨n + m, ?_⟩
    filter_upwards [hn, hm] with x e1 e2
    rw [← e1, ← e2, turns_cons, h1]
    ring

/-- The number of turns of a closed curve does not change near a point that is not on the curve. -/
theorem turns_local {a : ℝ × ℝ} {l : List Curve} (hl : Linked a l a) (hk : ∀ k ∈ l, k.Ok) {z : ℝ × ℝ} (hz : Off l z) :
    ∀ᶠ x in 𝓝 z, turns l x = turns l z := by
  obtain ⟨n, hn⟩ := chain_local hl hk hz
  have := hn.self_of_nhds
  filter_upwards [hn] with x hx
  linarith

/-- The number of turns of a closed curve is the same at both ends of a line that does not meet the curve. -/
theorem turns_segment {a : ℝ × ℝ} {l : List Curve} (hl : Linked a l a) (hk : ∀ k ∈ l, k.Ok) {y z : ℝ × ℝ}
    (h : ∀ x ∈ segment ℝ y z, Off l x) : turns l y = turns l z := by
  refine (convex_segment y z).isPreconnected.constant (f := turns l) ?_ (left_mem_segment ℝ y z) (right_mem_segment ℝ y z)
  intro x hx
  refine ContinuousAt.continuousWithinAt ?_
  exact (continuousAt_const (y := turns l x)).congr ((turns_local hl hk (h x hx)).mono fun _ e => e.symm)

/-- far above and far below there are no crossings -/
theorem turns_far (l : List Curve) (hk : ∀ k ∈ l, k.Ok) : ∃ H : ℝ, ∀ x : ℝ × ℝ, H ≤ |x.2| → turns l x = 0 := by
  induction l with
  | nil => exact ⟨0, fun _ _ => rfl⟩
  | cons k l ih =>
    obtain ⟨H, hH⟩ := ih fun k h => hk k (by simp [h])
    have hok := hk k (by simp)
    obtain ⟨K, hK⟩ : ∃ K : ℝ, ∀ x : ℝ × ℝ, K ≤ |x.2| → k.wind x = 0 := by
      cases k with
      | line p q =>
        refine ⟨|p.2| + |q.2| + 1, fun x hx => ?_⟩
        have : ind (q.2 ≤ x.2) = ind (p.2 ≤ x.2) := by
          rcases le_abs'.1 hx with h | h
          · rw [ind_false, ind_false]
            · linarith [neg_abs_le p.2, abs_nonneg q.2]
            · linarith [neg_abs_le q.2, abs_nonneg p.2]
          · rw [ind_true, ind_true]
            · linarith [le_abs_self p.2, abs_nonneg q.2]
            · linarith [le_abs_self q.2, abs_nonneg p.2]
        show step _ _ _ _ = 0
        unfold step
        rw [this]
        ring
      | arc c r a b =>
        refine ⟨|c.2| + r + 1, fun x hx => ?_⟩
        have hr : 0 ≤ r := hok
        have hl : ∃ n : ℤ, (∀ θ, low c r x θ = n) ∧ ind (c.2 - r ≤ x.2) = n ∧ ind (c.2 + r ≤ x.2) = n := by
          rcases le_abs'.1 hx with h | h
          · refine ⟨0, fun θ => ind_false ?_, ind_false ?_, ind_false ?_⟩
            · nlinarith [neg_abs_le c.2, neg_one_le_sin θ]
            · linarith [neg_abs_le c.2]
            · linarith [neg_abs_le c.2]
          · refine ⟨1, fun θ => ind_true ?_, ind_true ?_, ind_true ?_⟩
            · nlinarith [le_abs_self c.2, sin_le_one θ]
            · linarith [le_abs_self c.2]
            · linarith [le_abs_self c.2]
        obtain ⟨n, h1, h2, h3⟩ := hl
        show swept c r x b - swept c r x a = 0
        unfold swept whole
        simp only [h1, h2, h3]
        simp
    refine ⟨max H K, fun x hx => ?_⟩
    rw [turns_cons, hK x (le_trans (le_max_right _ _) hx), hH x (le_trans (le_max_left _ _) hx), add_zero]

end
end Iges.Turn
