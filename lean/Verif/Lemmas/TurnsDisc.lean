import Verif.Lemmas.Turns
/-
A closed curve and a disc: the curve is cut in two where it goes into the disc and where it comes out, and a part of the
circle is put in place of one of the two pieces.
-/
namespace Iges.Turn
open Real Filter Topology

/-- squared distance in the plane -/
def d2 (c x : ℝ × ℝ) : ℝ := (x.1 - c.1) ^ 2 + (x.2 - c.2) ^ 2

/-- the curves stay in the disc, its rim included -/
def InDisc (c : ℝ × ℝ) (r : ℝ) (l : List Curve) : Prop := ∀ k ∈ l, ∀ x ∈ k.trace, d2 c x ≤ r ^ 2

/-- the curves stay out of the disc -/
def OutDisc (c : ℝ × ℝ) (r : ℝ) (l : List Curve) : Prop := ∀ k ∈ l, ∀ x ∈ k.trace, r ^ 2 ≤ d2 c x

theorem d2_rim (c : ℝ × ℝ) (r θ : ℝ) : d2 c (rim c r θ) = r ^ 2 := by
  unfold d2 rim
  simp only
  linear_combination r ^ 2 * sin_sq_add_cos_sq θ

theorem off_append {l m : List Curve} {x : ℝ × ℝ} : Off (l ++ m) x ↔ Off l x ∧ Off m x := by
  unfold Off
  constructor
  · exact fun h => ⟨fun k hk => h k (by simp [hk]), fun k hk => h k (by simp [hk])⟩
  · rintro ⟨h1, h2⟩ k hk
    rcases List.mem_append.1 hk with hk | hk
    · exact h1 k hk
    · exact h2 k hk

section
variable {c : ℝ × ℝ} {r : ℝ} {l : List Curve} {a : ℝ × ℝ}

/-- A closed curve in a disc does not go round a point that is not inside the disc. -/
theorem turns_outside (hl : Linked a l a) (hk : ∀ k ∈ l, k.Ok) (hd : InDisc c r l) {z : ℝ × ℝ} (hz : r ^ 2 ≤ d2 c z)
    (ho : Off l z) : turns l z = 0 := by
  obtain ⟨H, hH⟩ := turns_far l hk
  obtain ⟨u, hu, hu2⟩ : ∃ u : ℝ × ℝ, 0 ≤ u.1 * (z.1 - c.1) + u.2 * (z.2 - c.2) ∧ u.2 ≠ 0 := by
    by_cases h : z.2 - c.2 = 0
    · exact ⟨(0, 1), by rw [h]; simp, by simp⟩
    · exact ⟨(z.1 - c.1, z.2 - c.2), by nlinarith [sq_nonneg (z.1 - c.1), sq_nonneg (z.2 - c.2)], h⟩
  obtain ⟨T, hT, hT2⟩ : ∃ T : ℝ, 0 < T ∧ H ≤ |z.2 + T * u.2| := by
    have hp : 0 < |u.2| := abs_pos.2 hu2
    refine ⟨(|H| + |z.2| + 1) / |u.2|, by positivity, ?_⟩
    have e : |(|H| + |z.2| + 1) / |u.2| * u.2| = |H| + |z.2| + 1 := by
      rw [abs_mul, abs_div, abs_abs, div_mul_cancel₀ _ hp.ne', abs_of_nonneg (by positivity)]
    have := abs_sub_abs_le_abs_sub ((|H| + |z.2| + 1) / |u.2| * u.2) (-z.2)
    rw [e, abs_neg, sub_neg_eq_add, add_comm _ z.2] at this
    linarith [le_abs_self H]
  rw [turns_segment hl hk (z := (z.1 + T * u.1, z.2 + T * u.2)) ?_]
  · exact hH _ hT2
  · intro x hx
    rw [segment_eq_image'] at hx
    obtain ⟨t, ⟨h0, -⟩, rfl⟩ := hx
    rcases h0.eq_or_lt with rfl | h0
    · simpa using ho
    · intro k hk hm
      have := hd k hk _ hm
      unfold d2 at this hz
      simp only [Prod.fst_add, Prod.smul_fst, Prod.fst_sub, smul_eq_mul, Prod.snd_add, Prod.smul_snd, Prod.snd_sub,
        add_sub_cancel_left] at this
      have h1 : 0 < t * T := mul_pos h0 hT
      have h2 : 0 < (t * T) ^ 2 * u.2 ^ 2 := by positivity
      nlinarith [mul_nonneg h1.le hu, sq_nonneg (t * T * u.1)]

/-- A closed curve that stays out of a disc goes as often round a point inside as round a point of the rim. -/
theorem turns_inside (hl : Linked a l a) (hk : ∀ k ∈ l, k.Ok) (hd : OutDisc c r l) {y z : ℝ × ℝ} (hy : d2 c y < r ^ 2)
    (hz : d2 c z ≤ r ^ 2) (ho : Off l z) : turns l y = turns l z := by
  refine turns_segment hl hk ?_
  intro x hx
  rw [segment_eq_image'] at hx
  obtain ⟨t, ⟨h0, h1⟩, rfl⟩ := hx
  rcases h1.eq_or_lt with rfl | h1
  · simpa using ho
  · intro k hk hm
    have := hd k hk _ hm
    unfold d2 at this hz hy
    simp only [Prod.fst_add, Prod.smul_fst, Prod.fst_sub, smul_eq_mul, Prod.snd_add, Prod.smul_snd, Prod.snd_sub] at this
    have e : (y.1 + t * (z.1 - y.1) - c.1) ^ 2 + (y.2 + t * (z.2 - y.2) - c.2) ^ 2 =
        (1 - t) * ((y.1 - c.1) ^ 2 + (y.2 - c.2) ^ 2) + t * ((z.1 - c.1) ^ 2 + (z.2 - c.2) ^ 2) -
          t * (1 - t) * ((z.1 - y.1) ^ 2 + (z.2 - y.2) ^ 2) := by ring
    have h2 : 0 ≤ t * (1 - t) * ((z.1 - y.1) ^ 2 + (z.2 - y.2) ^ 2) :=
      mul_nonneg (mul_nonneg h0 (by linarith)) (by positivity)
    have h3 : (1 - t) * ((y.1 - c.1) ^ 2 + (y.2 - c.2) ^ 2) < (1 - t) * r ^ 2 := mul_lt_mul_of_pos_left hy (by linarith)
    have h4 : t * ((z.1 - c.1) ^ 2 + (z.2 - c.2) ^ 2) ≤ t * r ^ 2 := mul_le_mul_of_nonneg_left hz h0
    linarith

/-- A circle goes once round the points inside. -/
theorem whole_inside (hr : 0 < r) {x : ℝ × ℝ} (hx : d2 c x < r ^ 2) : whole c r x = 1 := by
  unfold d2 at hx
  have hD : 0 < r ^ 2 - (x.2 - c.2) ^ 2 := by nlinarith [sq_nonneg (x.1 - c.1)]
  have hs := abs_lt_of_sq_lt_sq (show (x.2 - c.2) ^ 2 < r ^ 2 by linarith) hr.le
  rw [abs_lt] at hs
  have hq : |x.1 - c.1| < √(r ^ 2 - (x.2 - c.2) ^ 2) := by
    apply Real.lt_sqrt_of_sq_lt
    rw [sq_abs]
    linarith
  rw [abs_lt] at hq
  unfold whole
  rw [ind_false (by unfold rightX; linarith), ind_true (p := leftX c r x.2 < x.1) (by unfold leftX; linarith),
    ind_true (p := c.2 - r ≤ x.2) (by linarith), ind_false (p := c.2 + r ≤ x.2) (by linarith)]
  norm_num

theorem rim_ne (hr : 0 < r) {θ φ : ℝ} (h1 : θ < φ) (h2 : φ < θ + 2 * π) : rim c r θ ≠ rim c r φ := by
  intro e
  unfold rim at e
  injection e with e1 e2
  have e1 : cos θ = cos φ := by
    have : r * (cos θ - cos φ) = 0 := by linarith
    rcases mul_eq_zero.1 this with h | h <;> linarith
  have e2 : sin θ = sin φ := by
    have : r * (sin θ - sin φ) = 0 := by linarith
    rcases mul_eq_zero.1 this with h | h <;> linarith
  have h : cos (φ - θ) = 1 := by
    rw [cos_sub, e1, e2]
    linear_combination sin_sq_add_cos_sq φ
  rw [cos_eq_one_iff] at h
  obtain ⟨n, hn⟩ := h
  have hp := pi_pos
  have n1 : (0 : ℝ) < n := by
    by_contra hc
    push Not at hc
    nlinarith
  have n2 : (n : ℝ) < 1 := by
    by_contra hc
    push Not at hc
    nlinarith
  have : 0 < n := by exact_mod_cast n1
  have : n < 1 := by exact_mod_cast n2
  omega

theorem arc_inDisc (α β : ℝ) : InDisc c r [.arc c r α β] := by
  intro k hk x hx
  simp at hk
  subst hk
  obtain ⟨θ, -, rfl⟩ := hx
  rw [d2_rim]

theorem arc_outDisc (α β : ℝ) : OutDisc c r [.arc c r α β] := by
  intro k hk x hx
  simp at hk
  subst hk
  obtain ⟨θ, -, rfl⟩ := hx
  rw [d2_rim]

theorem inDisc_append {m : List Curve} : InDisc c r (l ++ m) ↔ InDisc c r l ∧ InDisc c r m := by
  unfold InDisc
  constructor
  · exact fun h => ⟨fun k hk => h k (by simp [hk]), fun k hk => h k (by simp [hk])⟩
  · rintro ⟨h1, h2⟩ k hk
    rcases List.mem_append.1 hk with hk | hk
    · exact h1 k hk
    · exact h2 k hk

theorem outDisc_append {m : List Curve} : OutDisc c r (l ++ m) ↔ OutDisc c r l ∧ OutDisc c r m := by
  unfold OutDisc
  constructor
  · exact fun h => ⟨fun k hk => h k (by simp [hk]), fun k hk => h k (by simp [hk])⟩
  · rintro ⟨h1, h2⟩ k hk
    rcases List.mem_append.1 hk with hk | hk
    · exact h1 k hk
    · exact h2 k hk

theorem ok_append {m : List Curve} (h1 : ∀ k ∈ l, k.Ok) (h2 : ∀ k ∈ m, k.Ok) : ∀ k ∈ l ++ m, k.Ok := by
  intro k hk
  rcases List.mem_append.1 hk with hk | hk
  · exact h1 k hk
  · exact h2 k hk

/-- inside the disc there are points as near to the rim as one likes -/
theorem near_rim (hr : 0 < r) (θ : ℝ) {p : ℝ × ℝ → Prop} (h : ∀ᶠ x in 𝓝 (rim c r θ), p x) : ∃ x, p x ∧ d2 c x < r ^ 2 := by
  have hc : Continuous fun s : ℝ => rim c s θ := by unfold rim; fun_prop
  have h1 : ∀ᶠ s in 𝓝 r, p (rim c s θ) := hc.continuousAt.eventually h
  have h2 : ∀ᶠ s in 𝓝[<] r, p (rim c s θ) := h1.filter_mono nhdsWithin_le_nhds
  have h3 : ∀ᶠ s in 𝓝[<] r, s < r := self_mem_nhdsWithin
  have h4 : ∀ᶠ s in 𝓝[<] r, 0 < s := (lt_mem_nhds hr).filter_mono nhdsWithin_le_nhds
  obtain ⟨s, e1, e2, e3⟩ := (h2.and (h3.and h4)).exists
  refine ⟨_, e1, ?_⟩
  rw [d2_rim]
  nlinarith

end

/-- A closed curve is cut in two, `F` from `P` to `Q` and `G` from `Q` to `P`, by its only two points on a circle; it goes
once round the middle of the arc from `Q` to `P` and not round the middle of the rest of the circle.  Then `F` is in the
disc and `G` is not. -/
structure Cut (c : ℝ × ℝ) (r θP θQ : ℝ) (F G : List Curve) : Prop where
  pos : 0 < r
  less : θQ < θP
  turn : θP < θQ + 2 * π
  okF : ∀ k ∈ F, k.Ok
  okG : ∀ k ∈ G, k.Ok
  linkF : Linked (rim c r θP) F (rim c r θQ)
  linkG : Linked (rim c r θQ) G (rim c r θP)
  sideF : InDisc c r F ∨ OutDisc c r F
  sideG : InDisc c r G ∨ OutDisc c r G
  offIn : Off (F ++ G) (rim c r ((θQ + θP) / 2))
  offOut : Off (F ++ G) (rim c r ((θQ + θP) / 2 + π))
  once : turns (F ++ G) (rim c r ((θQ + θP) / 2)) = 1
  never : turns (F ++ G) (rim c r ((θQ + θP) / 2 + π)) = 0

section
variable {c : ℝ × ℝ} {r θP θQ : ℝ} {F G : List Curve}

theorem rim_turn (θ : ℝ) : rim c r (θ + 2 * π) = rim c r θ := by
  unfold rim; rw [cos_add_two_pi, sin_add_two_pi]

theorem linked_one {a b : ℝ × ℝ} (α β : ℝ) (ha : a = rim c r α) (hb : b = rim c r β) : Linked a [.arc c r α β] b :=
  ⟨ha.symm, hb.symm⟩

theorem ok_arc (hr : 0 < r) (α β : ℝ) : ∀ k ∈ [Curve.arc c r α β], k.Ok := by
  intro k hk
  simp at hk
  subst hk
  exact hr.le

variable (h : Cut c r θP θQ F G)
include h

/-- the inner arc, both ways -/
theorem Cut.inner_off {α β : ℝ} (hs : Set.uIcc α β = Set.Icc θQ θP) : Off [.arc c r α β] (rim c r ((θQ + θP) / 2 + π)) := by
  intro k hk
  simp at hk
  subst hk
  rintro ⟨θ, ht, e⟩
  rw [hs] at ht
  have := h.less
  have := h.turn
  refine rim_ne h.pos (θ := θ) (φ := (θQ + θP) / 2 + π) ?_ ?_ e <;> linarith [ht.1, ht.2]

/-- the outer arc, both ways -/
theorem Cut.outer_off {α β : ℝ} (hs : Set.uIcc α β = Set.Icc θP (θQ + 2 * π)) : Off [.arc c r α β] (rim c r ((θQ + θP) / 2)) := by
  intro k hk
  simp at hk
  subst hk
  rintro ⟨θ, ht, e⟩
  rw [hs] at ht
  have := h.less
  have := h.turn
  refine rim_ne h.pos (θ := (θQ + θP) / 2) (φ := θ) ?_ ?_ e.symm <;> linarith [ht.1, ht.2]

theorem Cut.uIn : Set.uIcc θP θQ = Set.Icc θQ θP := by rw [Set.uIcc_comm, Set.uIcc_of_le h.less.le]
theorem Cut.uIn' : Set.uIcc θQ θP = Set.Icc θQ θP := Set.uIcc_of_le h.less.le
theorem Cut.uOut : Set.uIcc θP (θQ + 2 * π) = Set.Icc θP (θQ + 2 * π) := Set.uIcc_of_le h.turn.le
theorem Cut.uOut' : Set.uIcc (θQ + 2 * π) θP = Set.Icc θP (θQ + 2 * π) := by rw [Set.uIcc_comm, h.uOut]

omit h in
/-- what is left of the circle -/
theorem arc_rest (x : ℝ × ℝ) : (Curve.arc c r θP (θQ + 2 * π)).wind x = whole c r x + (Curve.arc c r θP θQ).wind x := by
  show swept c r x _ - swept c r x _ = whole c r x + (swept c r x _ - swept c r x _)
  rw [swept_turn]
  ring

omit h in
theorem arc_back (x : ℝ × ℝ) : (Curve.arc c r θQ θP).wind x = -(Curve.arc c r θP θQ).wind x := by
  show swept c r x _ - swept c r x _ = -(swept c r x _ - swept c r x _)
  ring

theorem Cut.linkO : Linked (rim c r θP) (F ++ G) (rim c r θP) := linked_append.2 ⟨_, h.linkF, h.linkG⟩

/-- `F` is in the disc and `G` is not -/
theorem Cut.sides : InDisc c r F ∧ OutDisc c r G := by
  have okO := ok_append h.okF h.okG
  have lO := h.linkO
  obtain ⟨oFi, oGi⟩ := off_append.1 h.offIn
  obtain ⟨oFo, oGo⟩ := off_append.1 h.offOut
  have rimIn : r ^ 2 ≤ d2 c (rim c r ((θQ + θP) / 2)) := by rw [d2_rim]
  have rimOut : r ^ 2 ≤ d2 c (rim c r ((θQ + θP) / 2 + π)) := by rw [d2_rim]
  rcases h.sideF with hF | hF <;> rcases h.sideG with hG | hG
  · have := turns_outside lO okO (inDisc_append.2 ⟨hF, hG⟩) rimIn h.offIn
    rw [h.once] at this
    cases this
  · exact ⟨hF, hG⟩
  · exfalso
    -- the inner arc closes `F` outside and, backwards, `G` inside
    have hpi := pi_pos
    have l1 : Linked (rim c r θP) (F ++ [.arc c r θQ θP]) (rim c r θP) :=
      linked_append.2 ⟨_, h.linkF, linked_one _ _ rfl rfl⟩
    have l2 : Linked (rim c r θQ) (G ++ [.arc c r θP θQ]) (rim c r θQ) :=
      linked_append.2 ⟨_, h.linkG, linked_one _ _ rfl rfl⟩
    have l3 : Linked (rim c r θQ) (G ++ [.arc c r θP (θQ + 2 * π)]) (rim c r θQ) :=
      linked_append.2 ⟨_, h.linkG, linked_one _ _ rfl (rim_turn _).symm⟩
    have z2 := turns_outside l2 (ok_append h.okG (ok_arc h.pos _ _)) (inDisc_append.2 ⟨hG, arc_inDisc _ _⟩) rimOut
      (off_append.2 ⟨oGo, h.inner_off h.uIn⟩)
    have z3 := turns_outside l3 (ok_append h.okG (ok_arc h.pos _ _)) (inDisc_append.2 ⟨hG, arc_inDisc _ _⟩) rimIn
      (off_append.2 ⟨oGi, h.outer_off h.uOut⟩)
    have n3 := turns_local l3 (ok_append h.okG (ok_arc h.pos _ _)) (off_append.2 ⟨oGi, h.outer_off h.uOut⟩)
    have nO := turns_local lO okO h.offIn
    obtain ⟨x, ⟨e3, eO⟩, hx⟩ := near_rim h.pos _ (n3.and nO)
    have e1 := turns_inside l1 (ok_append h.okF (ok_arc h.pos _ _)) (outDisc_append.2 ⟨hF, arc_outDisc _ _⟩) hx
      (z := rim c r ((θQ + θP) / 2 + π)) (by rw [d2_rim]) (off_append.2 ⟨oFo, h.inner_off h.uIn'⟩)
    have hn := h.never
    have ho := h.once
    have b1 := arc_back (c := c) (r := r) (θP := θP) (θQ := θQ) (rim c r ((θQ + θP) / 2 + π))
    have b2 := arc_back (c := c) (r := r) (θP := θP) (θQ := θQ) x
    have b3 := arc_rest (c := c) (r := r) (θP := θP) (θQ := θQ) x
    have b4 := arc_rest (c := c) (r := r) (θP := θP) (θQ := θQ) (rim c r ((θQ + θP) / 2))
    rw [whole_inside h.pos hx] at b3
    simp only [turns_append, turns_cons, turns_nil, add_zero] at *
    omega
  · have hpi := pi_pos
    have e1 := turns_inside lO okO (outDisc_append.2 ⟨hF, hG⟩) (y := c) (by unfold d2; simpa using pow_pos h.pos 2)
      (z := rim c r ((θQ + θP) / 2)) (by rw [d2_rim]) h.offIn
    have e2 := turns_inside lO okO (outDisc_append.2 ⟨hF, hG⟩) (y := c) (by unfold d2; simpa using pow_pos h.pos 2)
      (z := rim c r ((θQ + θP) / 2 + π)) (by rw [d2_rim]) h.offOut
    rw [e1, h.once, h.never] at e2
    cases e2

theorem Cut.outside {x : ℝ × ℝ} (hx : r ^ 2 < d2 c x) : Off F x := by
  intro k hk hm
  have := h.sides.1 k hk x hm
  linarith

/-- The inner arc, put in place of `F`: the disc is taken away. -/
theorem Cut.minus {x : ℝ × ℝ} (hx : d2 c x ≠ r ^ 2) :
    turns (G ++ [.arc c r θP θQ]) x = if d2 c x < r ^ 2 then 0 else turns (F ++ G) x := by
  obtain ⟨hF, hG⟩ := h.sides
  obtain ⟨oFi, oGi⟩ := off_append.1 h.offIn
  obtain ⟨oFo, oGo⟩ := off_append.1 h.offOut
  have rimOut : r ^ 2 ≤ d2 c (rim c r ((θQ + θP) / 2 + π)) := by rw [d2_rim]
  have l1 : Linked (rim c r θP) (F ++ [.arc c r θQ θP]) (rim c r θP) :=
    linked_append.2 ⟨_, h.linkF, linked_one _ _ rfl rfl⟩
  have l2 : Linked (rim c r θQ) (G ++ [.arc c r θP θQ]) (rim c r θQ) :=
    linked_append.2 ⟨_, h.linkG, linked_one _ _ rfl rfl⟩
  have ok1 := ok_append h.okF (ok_arc (c := c) h.pos θQ θP)
  have d1 := inDisc_append.2 ⟨hF, arc_inDisc (c := c) (r := r) θQ θP⟩
  split
  · rename_i hlt
    have e := turns_inside l2 (ok_append h.okG (ok_arc h.pos _ _)) (outDisc_append.2 ⟨hG, arc_outDisc _ _⟩) hlt
      (z := rim c r ((θQ + θP) / 2 + π)) (by rw [d2_rim]) (off_append.2 ⟨oGo, h.inner_off h.uIn⟩)
    have z1 := turns_outside l1 ok1 d1 rimOut (off_append.2 ⟨oFo, h.inner_off h.uIn'⟩)
    have hn := h.never
    have b := arc_back (c := c) (r := r) (θP := θP) (θQ := θQ) (rim c r ((θQ + θP) / 2 + π))
    simp only [turns_append, turns_cons, turns_nil, add_zero] at *
    omega
  · rename_i hlt
    have hgt : r ^ 2 < d2 c x := lt_of_le_of_ne (not_lt.1 hlt) (Ne.symm hx)
    have z1 := turns_outside l1 ok1 d1 hgt.le (fun k hk hm => by have := d1 k hk x hm; linarith)
    have b := arc_back (c := c) (r := r) (θP := θP) (θQ := θQ) x
    simp only [turns_append, turns_cons, turns_nil, add_zero] at *
    omega

/-- The outer arc, put in place of `F`: the disc is added. -/
theorem Cut.plus {x : ℝ × ℝ} (hx : d2 c x ≠ r ^ 2) :
    turns (G ++ [.arc c r θP (θQ + 2 * π)]) x = if d2 c x < r ^ 2 then 1 else turns (F ++ G) x := by
  have hm := h.minus hx
  have hr := arc_rest (c := c) (r := r) (θP := θP) (θQ := θQ) x
  simp only [turns_append, turns_cons, turns_nil, add_zero] at *
  rw [hr]
  split
  · rename_i hlt
    rw [if_pos hlt] at hm
    rw [whole_inside h.pos hlt]
    omega
  · rename_i hlt
    rw [if_neg hlt] at hm
    have hgt : r ^ 2 < d2 c x := lt_of_le_of_ne (not_lt.1 hlt) (Ne.symm hx)
    have hw : whole c r x = 0 := by
      have l : Linked (rim c r θP) [.arc c r θP (θP + 2 * π)] (rim c r θP) := linked_one _ _ rfl (rim_turn _).symm
      have := turns_outside l (ok_arc h.pos _ _) (arc_inDisc _ _) hgt.le (fun k hk hm => by
        have := arc_inDisc (c := c) (r := r) _ _ k hk x hm
        linarith)
      simp only [turns_cons, turns_nil, add_zero] at this
      have e : (Curve.arc c r θP (θP + 2 * π)).wind x = swept c r x (θP + 2 * π) - swept c r x θP := rfl
      rw [e, swept_turn] at this
      linarith
    omega

end
end Iges.Turn
