import Verif.Lemmas.OutlineOp
import Verif.Props.Circles
import Verif.Spec.OutlineOp
/-
C82: cutting a circle out of an outline (`SubOutline`) and joining a circle to it (`AddOutline`).
-/
namespace Iges.Props
open Iges.Geo Spec Real

theorem change_refused {o : Outline} {c : Seg} {opsub : Bool} {p q : Point ℝ × ℕ} {pEnd qEnd : Bool}
    (h : (changeOutline o c opsub p q pEnd qEnd).ret = false) : (changeOutline o c opsub p q pEnd qEnd).error = true := by
  have join : ∀ segs i p q sp, (joinArc o segs i p q sp).ret = false → (joinArc o segs i p q sp).error = true := by
    intro segs i p q sp h
    generalize hR : joinArc o segs i p q sp = R at h ⊢
    unfold joinArc at hR
    simp only at hR
    generalize (if ((segs[i]?.map fun s => PointMatches s.stop p 1e-8).getD false) = true then i
      else before segs.length i) = k at hR
    split at hR
    · subst hR; rfl
    · split at hR
      · subst hR; rfl
      · subst hR; cases h
  generalize hR : changeOutline o c opsub p q pEnd qEnd = R at h ⊢
  unfold changeOutline at hR
  simp only at hR
  split at hR
  · subst hR; rfl
  split at hR
  · split at hR
    · subst hR; rfl
    · subst hR; cases h
  split at hR
  · split at hR
    · subst hR; rfl
    · subst hR; cases h
    · subst hR; rfl
  · unfold splitAndJoin at hR
    simp only at hR
    generalize (if pEnd = true then (o.segs, true) else splitOne o.segs p.2 p.1) = r at hR
    generalize (if qEnd = true then (r.1, true) else splitOne r.1 (if pEnd = false ∧ p.2 < q.2 then q.2 + 1 else q.2) q.1) = t
      at hR
    split at hR
    · subst hR; rfl
    split at hR
    · subst hR; rfl
    · subst hR; exact join _ _ _ _ _ h

/-- C82. `SubOutline` and `AddOutline` with a circle, when they return false without reporting an error, have left the
outline as it was; so also when they report that nothing meets. -/
theorem C82_untouched (o : Outline) (a : Option Seg) (opsub : Bool) (h : (opCircle o a opsub).ret = false)
    (he : (opCircle o a opsub).error = false) :
    (opCircle o a opsub).out.segs = o.segs ∧ (opCircle o a opsub).out.closed = o.closed := by
  generalize hR : opCircle o a opsub = R at h he ⊢
  unfold opCircle at hR
  simp only at hR
  split at hR
  · subst hR; cases he
  cases a with
  | none => simp only at hR; subst hR; cases he
  | some c =>
    simp only at hR
    split at hR
    · subst hR; cases he
    split at hR
    · subst hR; cases he
    · subst hR; exact ⟨rfl, rfl⟩
    · split at hR
      · subst hR; exact ⟨rfl, rfl⟩
      · split at hR
        · split at hR
          · subst hR; exact ⟨rfl, rfl⟩
          · split at hR
            · subst hR; rw [change_refused h] at he; cases he
            · subst hR; rw [change_refused h] at he; cases he
        · subst hR; cases he
      · subst hR; cases he

/-- C82. No circle, something that is no circle, or an outline that is not closed: refused with an error, and the outline
stays as it was. -/
theorem C82_refused (o : Outline) (a : Option Seg) (opsub : Bool)
    (h : o.closed = false ∨ a = none ∨ ∃ c, a = some c ∧ c.kind ≠ .circle) :
    (opCircle o a opsub).ret = false ∧ (opCircle o a opsub).error = true ∧ (opCircle o a opsub).out.segs = o.segs := by
  unfold opCircle
  simp only
  split
  · exact ⟨rfl, rfl, rfl⟩
  rename_i hc
  rcases h with h | rfl | ⟨c, rfl, h⟩
  · exact absurd h hc
  · exact ⟨rfl, rfl, rfl⟩
  · simp only
    rw [if_pos h]
    exact ⟨rfl, rfl, rfl⟩

/-- the middle of the arc of a circle counterclockwise from `p` to `q` is to the right of the line from `p` to `q` -/
theorem mid_right {c : Seg} {p q : Point ℝ} (hr : 0 < c.radius) (hp : OnCircle c.center c.radius p)
    (hq : OnCircle c.center c.radius q) (hne : p ≠ q) :
    ∃ k > 0, q.x - p.x = -(k * sin (midAngle c.center p q)) ∧ q.y - p.y = k * cos (midAngle c.center p q) := by
  have hyp_r : ∀ {x : Point ℝ}, OnCircle c.center c.radius x → hyp (x.x - c.center.x) (x.y - c.center.y) = c.radius := by
    intro x hx
    have h1 := hyp_sq (x.x - c.center.x) (x.y - c.center.y)
    have h2 := hx.1
    unfold planar2 at h2
    have h3 := hyp_nonneg (x.x - c.center.x) (x.y - c.center.y)
    nlinarith
  have px := hyp_cos (p.x - c.center.x) (p.y - c.center.y)
  have py := hyp_sin (p.x - c.center.x) (p.y - c.center.y)
  have qx := hyp_cos (q.x - c.center.x) (q.y - c.center.y)
  have qy := hyp_sin (q.x - c.center.x) (q.y - c.center.y)
  rw [hyp_r hp] at px py
  rw [hyp_r hq] at qx qy
  have g1 := atan2_gt (p.y - c.center.y) (p.x - c.center.x)
  have g2 := atan2_le (p.y - c.center.y) (p.x - c.center.x)
  have g3 := atan2_gt (q.y - c.center.y) (q.x - c.center.x)
  have g4 := atan2_le (q.y - c.center.y) (q.x - c.center.x)
  unfold midAngle
  simp only
  have hz : p.z = q.z := by rw [hp.2, hq.2]
  have hd : atan2 (p.y - c.center.y) (p.x - c.center.x) ≠ atan2 (q.y - c.center.y) (q.x - c.center.x) := by
    intro e
    apply hne
    rw [e] at px py
    ext
    · linarith
    · linarith
    · exact hz
  generalize atan2 (p.y - c.center.y) (p.x - c.center.x) = a1 at *
  generalize atan2 (q.y - c.center.y) (q.x - c.center.x) = a2 at *
  obtain ⟨b, hb, hb1, hb2, hcos, hsin⟩ : ∃ b, (if a2 < a1 then a2 + 2 * π else a2) = b ∧ a1 < b ∧ b < a1 + 2 * π ∧
      cos b = cos a2 ∧ sin b = sin a2 := by
    refine ⟨_, rfl, ?_, ?_, ?_, ?_⟩
    · split
      · linarith
      · rename_i h; exact lt_of_le_of_ne (not_lt.1 h) hd
    · split
      · linarith
      · linarith
    · exact cos_shift _ _
    · exact sin_shift _ _
  rw [hb]
  refine ⟨2 * c.radius * sin ((b - a1) / 2), ?_, ?_, ?_⟩
  · have := sin_pos_of_pos_of_lt_pi (x := (b - a1) / 2) (by linarith) (by linarith)
    positivity
  · have h : cos b - cos a1 = -2 * sin ((b + a1) / 2) * sin ((b - a1) / 2) := cos_sub_cos b a1
    rw [add_comm b a1] at h
    have : q.x - p.x = c.radius * (cos b - cos a1) := by rw [hcos]; linarith
    rw [this, h]; ring
  · have h : sin b - sin a1 = 2 * sin ((b - a1) / 2) * cos ((b + a1) / 2) := sin_sub_sin b a1
    rw [add_comm b a1] at h
    have : q.y - p.y = c.radius * (sin b - sin a1) := by rw [hsin]; linarith
    rw [this, h]; ring

/-- two points of a circle on a line: the middle of the arc from the first to the second is opposite to the point farthest
to the left of the line, the middle of the other one is that point -/
theorem mid_leftmost {c s : Seg} {p q : Point ℝ} (hr : 0 < c.radius) (hp : OnCircle c.center c.radius p)
    (hq : OnCircle c.center c.radius q) {τ : ℝ} (hτ : 0 < τ) (hx : q.x - p.x = τ * (s.stop.x - s.start.x))
    (hy : q.y - p.y = τ * (s.stop.y - s.start.y)) (hne : p ≠ q) :
    pointAt c (midAngle c.center p q + π) = leftmost c s ∧ pointAt c (midAngle c.center q p) = leftmost c s := by
  have hL : 0 < planar2 s.stop s.start := by
    by_contra h
    have h0 : planar2 s.stop s.start = 0 := le_antisymm (not_lt.1 h) (planar2_nonneg _ _)
    unfold planar2 at h0
    have h1 : s.stop.x - s.start.x = 0 := by nlinarith [sq_nonneg (s.stop.x - s.start.x), sq_nonneg (s.stop.y - s.start.y)]
    have h2 : s.stop.y - s.start.y = 0 := by nlinarith [sq_nonneg (s.stop.x - s.start.x), sq_nonneg (s.stop.y - s.start.y)]
    apply hne
    ext
    · rw [h1] at hx; linarith
    · rw [h2] at hy; linarith
    · rw [hp.2, hq.2]
  have hd : √(planar2 s.stop s.start) ^ 2 = planar2 s.stop s.start := Real.sq_sqrt hL.le
  have hdpos : 0 < √(planar2 s.stop s.start) := Real.sqrt_pos.2 hL
  unfold leftmost
  simp only
  generalize √(planar2 s.stop s.start) = d at *
  have dir : ∀ {m k σ : ℝ}, 0 < k → |σ| = τ → σ * (s.stop.x - s.start.x) = -(k * sin m) → σ * (s.stop.y - s.start.y) = k * cos m →
      k = τ * d := by
    intro m k σ hk hσ h1 h2
    have : k ^ 2 = (τ * d) ^ 2 := by
      have e : σ ^ 2 = τ ^ 2 := by rw [← hσ, sq_abs]
      rw [mul_pow, hd, ← e]
      unfold planar2
      have := sin_sq_add_cos_sq m
      calc k ^ 2 = (k * sin m) ^ 2 + (k * cos m) ^ 2 := by rw [mul_pow, mul_pow, ← mul_add, this, mul_one]
        _ = (σ * (s.stop.x - s.start.x)) ^ 2 + (σ * (s.stop.y - s.start.y)) ^ 2 := by rw [h1, h2]; ring
        _ = _ := by ring
    have h3 : 0 < τ * d := by positivity
    nlinarith
  constructor
  · obtain ⟨k, hk, e1, e2⟩ := mid_right hr hp hq hne
    rw [hx] at e1
    rw [hy] at e2
    have hkd := dir hk (abs_of_pos hτ) e1 e2
    subst hkd
    unfold pointAt pt
    rw [cos_add_pi, sin_add_pi]
    have hs : sin (midAngle c.center p q) = -((s.stop.x - s.start.x) / d) := by
      field_simp; nlinarith
    have hc : cos (midAngle c.center p q) = (s.stop.y - s.start.y) / d := by
      field_simp; nlinarith
    rw [hs, hc]
    ext <;> simp only <;> ring
  · obtain ⟨k, hk, e1, e2⟩ := mid_right hr hq hp (Ne.symm hne)
    have e1' : -τ * (s.stop.x - s.start.x) = -(k * sin (midAngle c.center q p)) := by rw [← e1]; linarith
    have e2' : -τ * (s.stop.y - s.start.y) = k * cos (midAngle c.center q p) := by rw [← e2]; linarith
    have hkd := dir hk (by rw [abs_neg, abs_of_pos hτ]) e1' e2'
    subst hkd
    unfold pointAt pt
    have hs : sin (midAngle c.center q p) = (s.stop.x - s.start.x) / d := by
      field_simp; nlinarith
    have hc : cos (midAngle c.center q p) = -((s.stop.y - s.start.y) / d) := by
      field_simp; nlinarith
    rw [hs, hc]
    ext <;> simp only <;> ring

/-- a line split at two of its points: the pieces lie between them in the order of the line -/
theorem split_line_order {s s' m t : Seg} {p q : Point ℝ} (hm : Made s) (hk : s.kind = .line) (hp : Covers s p)
    (hq : Covers s q) (hpq : PointMatches p q 1e-8 = false) (h : s.split [p, q] = some (s', [m, t])) :
    ∃ τ > 0, (s'.stop = p ∧ t.start = q ∧ q.x - p.x = τ * (s.stop.x - s.start.x) ∧ q.y - p.y = τ * (s.stop.y - s.start.y)) ∨
      (s'.stop = q ∧ t.start = p ∧ p.x - q.x = τ * (s.stop.x - s.start.x) ∧ p.y - q.y = τ * (s.stop.y - s.start.y)) := by
  obtain ⟨hcw, hz1, hz2⟩ := (made_ok hm).line hk
  have gs : s.getStart = s.start := by unfold Seg.getStart; rw [hcw]; rfl
  have ge : s.getEnd = s.stop := by unfold Seg.getEnd; rw [hcw]; rfl
  have hcov : ∀ x, Covers s x → ∃ t, 0 ≤ t ∧ t ≤ 1 ∧ x = at_ s t := by
    intro x hx; unfold Covers at hx; rw [hk] at hx; simp only [gs, ge] at hx; exact hx
  obtain ⟨a, -, -, rfl⟩ := hcov p hp
  obtain ⟨b, -, -, rfl⟩ := hcov q hq
  have hab : a ≠ b := by rintro rfl; rw [C51_reflexive] at hpq; cases hpq
  have hne : s.start.x ≠ s.stop.x ∨ s.start.y ≠ s.stop.y := by
    by_contra hc
    push Not at hc
    have : at_ s a = at_ s b := by unfold at_ pt; ext <;> simp [hc.1, hc.2]
    rw [this, C51_reflexive] at hpq; cases hpq
  obtain ⟨-, ⟨-, h⟩ | ⟨k, -⟩ | ⟨k, -⟩⟩ := split_cases h
  swap
  · rw [hk] at k; cases k
  swap
  · rw [hk] at k; cases k
  have hsub : ∀ x ∈ [at_ s a, at_ s b].filter fun p => !(PointMatches p s.start 1e-8 || PointMatches p s.stop 1e-8),
      PointMatches x s.stop 1e-8 = false := by
    intro x hx
    have := (List.mem_filter.1 hx).2
    simp only [Bool.not_eq_true', Bool.or_eq_false_iff] at this
    exact this.2
  have hw : ([at_ s a, at_ s b].filter fun p => !(PointMatches p s.start 1e-8 || PointMatches p s.stop 1e-8)) =
      [at_ s a, at_ s b] := by
    apply List.Sublist.eq_of_length_le (List.filter_sublist)
    generalize ([at_ s a, at_ s b].filter fun p => !(PointMatches p s.start 1e-8 || PointMatches p s.stop 1e-8)) = w at h
    match w, h with
    | [], h => simp [splitLine] at h
    | [_], h => simp only [splitLine] at h; split at h <;> simp at h
    | _ :: _ :: _ :: _, h => simp [splitLine] at h
    | [u, v], h => simp
  rw [hw] at h hsub
  have st : ∀ x ∈ [at_ s a, at_ s b], (setLine x s.stop).1.start = x := by
    intro x hx
    have b := hsub x hx
    have zx : x.z = 0 := by
      simp only [List.mem_cons, List.not_mem_nil, or_false] at hx; rcases hx with rfl | rfl <;> rfl
    rcases setLine_cases x s.stop with h | ⟨-, -, -, h⟩
    · unfold setLine at h; simp [zx, hz2, b] at h
    · rw [h]
  simp only [splitLine] at h
  split at h
  swap
  · cases h
  simp only [lineParam_at hne, Option.some.injEq, Prod.mk.injEq, List.cons.injEq, and_true] at h
  obtain ⟨rfl, -, rfl⟩ := h
  by_cases hlt : a < b
  · refine ⟨b - a, by linarith, Or.inl ⟨by simp [hlt], by simp only [hlt, if_true]; exact st _ (by simp), ?_, ?_⟩⟩ <;>
      simp only [at_, pt] <;> ring
  · have hlt' : b < a := lt_of_le_of_ne (not_lt.1 hlt) (Ne.symm hab)
    refine ⟨a - b, by linarith, Or.inr ⟨by simp [hlt], by simp only [hlt, if_false]; exact st _ (by simp), ?_, ?_⟩⟩ <;>
      simp only [at_, pt] <;> ring

/-- what an operation that succeeded did, in terms of the two points -/
theorem op_points {o : Outline} {c : Seg} {opsub : Bool} (h : (opCircle o (some c) opsub).ret = true) :
    ∃ p q : Point ℝ × ℕ, ∃ pEnd qEnd s t, c.kind = .circle ∧ o.closed = true ∧ PointMatches p.1 q.1 1e-8 = false ∧
      o.segs[p.2]? = some s ∧ p.1 ∈ (intersections s c).pts ∧ o.segs[q.2]? = some t ∧ q.1 ∈ (intersections t c).pts ∧
      p.1.z = 0 ∧ q.1.z = 0 ∧
      ((isInside o (pointAt c (midAngle c.center q.1 p.1)) = some true ∧
        isInside o (pointAt c (midAngle c.center q.1 p.1 + π)) = some false) ∨
       (isInside o (pointAt c (midAngle c.center p.1 q.1)) = some false ∧
        isInside o (pointAt c (midAngle c.center p.1 q.1 + π)) = some true)) ∧
      opCircle o (some c) opsub = changeOutline { o with boxOk := false } c opsub p q pEnd qEnd := by
  obtain ⟨c', hits, p, q, hc, hk, hcl, hh, hpq, hin, he⟩ := opCircle_true h
  obtain rfl := Option.some.inj hc
  have hmem : p ∈ hits ∧ q ∈ hits := by
    rcases hin with ⟨hd, -⟩ | ⟨hd, -⟩
    · constructor
      · have := distinct_sub [] hits p (by rw [hd]; simp); simpa using this
      · have := distinct_sub [] hits q (by rw [hd]; simp); simpa using this
    · constructor
      · have := distinct_sub [] hits p (by rw [hd]; simp); simpa using this
      · have := distinct_sub [] hits q (by rw [hd]; simp); simpa using this
  obtain ⟨n, s, hn, h1, h2, -, h3⟩ := circleHits_spec hh p hmem.1
  obtain ⟨n', t, hn', h1', h2', -, h3'⟩ := circleHits_spec hh q hmem.2
  refine ⟨p, q, _, _, s, t, hk, hcl, hpq, by rw [hn, zero_add]; exact h1, h2, by rw [hn', zero_add]; exact h1', h2',
    hit_flat hk h3 _ h2, hit_flat hk h3' _ h2', ?_, he⟩
  rcases hin with ⟨-, hin⟩ | ⟨-, hin⟩
  · exact Or.inl hin
  · exact Or.inr hin

/-- C82. A circle cut out of or joined to a contiguous outline, successfully: the outline is contiguous again.  Asked for:
an arc of the outline meets the circle in one point at most; a line that meets it twice has the inside of the outline on
its left, as `IsInside` finds it for the point of the circle farthest to the left.  What is missing: arcs that meet the
circle twice, for which it is not true (`C82_gap`). -/
theorem C82_contiguous_partial {o : Outline} {c : Seg} {opsub : Bool} (hb : Bordered o) (hm : ∀ s ∈ o.segs, Made s)
    (hc : Made c) (hcont : isContiguous o = true)
    (hone : ∀ s ∈ o.segs, s.kind ≠ .circle → OneHit c s ∨
      (s.kind = .line ∧ Exact c s ∧ isInside o (leftmost c s) ≠ some false))
    (h : (opCircle o (some c) opsub).ret = true) :
    isContiguous (opCircle o (some c) opsub).out = true ∧ (opCircle o (some c) opsub).error = false := by
  obtain ⟨p, q, pEnd, qEnd, s, t, hk, hcl, hpq, hs1, hs2, ht1, ht2, zp, zq, hin, he⟩ := op_points h
  obtain ⟨sp, -, -, -, -, -, -, herr, hcl', -, hring⟩ := changeOutline_true (o := { o with boxOk := false }) (c := c) (opsub := opsub)
    (pEnd := pEnd) (qEnd := qEnd) (by rw [← he]; exact h) hpq hb
  rw [← he] at herr hcl' hring
  refine ⟨ring_contiguous (by rw [hcl']; exact hcl) (hring ?_ ?_ ?_), herr⟩
  · rcases hb with hb | hb
    · exact Or.inr hb
    · left
      refine (contiguous_ring ?_ hcont).2
      cases ho : o.segs with
      | nil => simp
      | cons u r =>
        simp only [List.head?_cons, Option.map_some, ne_eq, Option.some.injEq]
        rcases hb u (by rw [ho]; simp) with e | e <;> rw [e] <;> simp
  · intro u hu ku
    exact ((made_ok (hm u hu)).line ku).2.2
  · intro u s' m t' hidx ku hu hsplit
    simp only at hu
    rw [hs1] at hu
    obtain rfl := Option.some.inj hu
    rw [← hidx, hs1] at ht1
    obtain rfl := Option.some.inj ht1
    have hmem : s ∈ o.segs := List.mem_of_getElem? hs1
    rcases hone s hmem ku with hone | ⟨kl, hex, hleft⟩
    · have := hone _ hs2 _ ht2
      rw [this, C51_reflexive] at hpq; cases hpq
    have onc : ∀ {x}, Covers c x → OnCircle c.center c.radius x := by
      intro x hx; unfold Covers at hx; rw [hk] at hx; exact hx
    have hr := ((made_ok hc).circle hk).1
    have op := onc (hex _ hs2).2
    have oq := onc (hex _ ht2).2
    have hne : p.1 ≠ q.1 := by intro e; rw [e, C51_reflexive] at hpq; cases hpq
    obtain ⟨τ, hτ, ⟨a1, a2, a3, a4⟩ | ⟨a1, a2, a3, a4⟩⟩ := split_line_order (hm s hmem) kl (hex _ hs2).1 (hex _ ht2).1 hpq hsplit
    · exact ⟨a1, a2⟩
    · exfalso
      obtain ⟨m1, m2⟩ := mid_leftmost hr oq op hτ a3 a4 (Ne.symm hne)
      rcases hin with ⟨-, hin⟩ | ⟨hin, -⟩
      · rw [m1] at hin; exact hleft hin
      · rw [m2] at hin; exact hleft hin

/-- two points of a circle in the same direction are the same -/
theorem same_on_circle {c : Point ℝ} {r : ℝ} (hr : 0 < r) {p q : Point ℝ} (hp : OnCircle c r p) (hq : OnCircle c r q)
    (h : SameDirection c p q) : p = q := by
  obtain ⟨k, hk, h1, h2⟩ := h
  obtain ⟨p1, p2⟩ := hp
  obtain ⟨q1, q2⟩ := hq
  unfold planar2 at p1 q1
  rw [h1, h2] at q1
  have : k ^ 2 = 1 := by
    have h3 : k ^ 2 * r ^ 2 = r ^ 2 := by linear_combination q1 - k ^ 2 * p1
    have h4 : 0 < r ^ 2 := by positivity
    nlinarith
  have hk1 : k = 1 := by nlinarith
  subst hk1
  ext
  · linarith
  · linarith
  · rw [p2, q2]

/-- a point of a segment is in the direction of a point of it -/
theorem covers_facing {s : Seg} (hm : Made s) {x : Point ℝ} (h : Covers s x) : Facing s x := by
  unfold Facing
  unfold Covers at h
  cases hk : s.kind with
  | none => trivial
  | line => trivial
  | circle =>
    rw [hk] at h
    have hr := ((made_ok hm).circle hk).1
    simp only
    by_contra hc
    push Not at hc
    have h1 := h.1
    unfold planar2 at h1
    rw [hc.1, hc.2] at h1
    have : 0 < s.radius ^ 2 := by positivity
    linarith
  | arc =>
    rw [hk] at h
    obtain ⟨a, h1, h2, h3⟩ := h
    exact ⟨a, s.radius, h1, h2, ((made_ok hm).arc hk).pos, h3⟩

/-- C82. A circle cut out of or joined to an outline, successfully, where `GetIntersections` is exact: the new border has
only points of the old border and of the circle, and is made of lines and arcs that can be operated on again. -/
theorem C82_border {o : Outline} {c : Seg} {opsub : Bool} (hb : Bordered o) (hm : ∀ s ∈ o.segs, Made s)
    (hc : Made c) (hex : ∀ s ∈ o.segs, Exact c s) (h : (opCircle o (some c) opsub).ret = true) :
    (∀ t ∈ (opCircle o (some c) opsub).out.segs, Made t ∧ (∀ x, Covers t x → (∃ s ∈ o.segs, Covers s x) ∨ Covers c x)) ∧
    ((∀ s ∈ o.segs, s.kind = .line ∨ s.kind = .arc) → Bordered (opCircle o (some c) opsub).out) := by
  obtain ⟨p, q, pEnd, qEnd, s, t, hk, hcl, hpq, hs1, hs2, ht1, ht2, zp, zq, -, he⟩ := op_points h
  obtain ⟨sp, hsp, ksp, -, -, ec, er, -, -, hpieces, -⟩ := changeOutline_true (o := { o with boxOk := false }) (c := c) (opsub := opsub)
    (pEnd := pEnd) (qEnd := qEnd) (by rw [← he]; exact h) hpq hb
  rw [← he] at hpieces
  have onc : ∀ {x}, Covers c x → OnCircle c.center c.radius x := by
    intro x hx; unfold Covers at hx; rw [hk] at hx; exact hx
  have hr := ((made_ok hc).circle hk).1
  have ep := hex s (List.mem_of_getElem? hs1) _ hs2
  have eq := hex t (List.mem_of_getElem? ht1) _ ht2
  have hrad : sp.radius = c.radius := by
    rw [er]
    have h1 := hyp_sq (p.1.x - c.center.x) (p.1.y - c.center.y)
    have h2 := (onc ep.2).1
    unfold planar2 at h2
    have h3 := hyp_nonneg (p.1.x - c.center.x) (p.1.y - c.center.y)
    nlinarith
  have hsp_cov : ∀ x, Covers sp x → Covers c x := by
    intro x hx
    unfold Covers at hx ⊢
    rw [ksp] at hx
    rw [hk]
    obtain ⟨a, -, -, hx⟩ := hx
    simp only
    refine ⟨?_, by rw [hx]; rfl⟩
    rw [hx, ec, hrad]
    unfold planar2 polar pt
    simp only
    linear_combination c.radius ^ 2 * sin_sq_add_cos_sq a
  have each : ∀ t ∈ (opCircle o (some c) opsub).out.segs, Made t ∧
      (∀ x, Covers t x → (∃ s ∈ o.segs, Covers s x) ∨ Covers c x) ∧
      (t ∈ o.segs ∨ t.kind = .line ∨ t.kind = .arc) := by
    intro u hu
    rcases hpieces u hu with hu | rfl | ⟨v, pts, v', l, hv, hsplit, hul, hpts⟩
    · exact ⟨hm u hu, fun x hx => Or.inl ⟨u, hu, hx⟩, Or.inl hu⟩
    · exact ⟨.arc hsp, fun x hx => Or.inr (hsp_cov x hx), Or.inr (Or.inr ksp)⟩
    · have hcov : ∀ x ∈ pts, x.z = 0 ∧ Covers v x := by
        simp only at hpts
        rw [hs1, ht1] at hpts
        rcases hpts with ⟨rfl, h1⟩ | ⟨rfl, h1⟩ | ⟨rfl, h1, h2⟩
        · obtain rfl := Option.some.inj h1
          intro x hx; simp only [List.mem_singleton] at hx; subst hx; exact ⟨zp, ep.1⟩
        · obtain rfl := Option.some.inj h1
          intro x hx; simp only [List.mem_singleton] at hx; subst hx; exact ⟨zq, eq.1⟩
        · obtain rfl := Option.some.inj h1
          have : t = s := by
            rcases h2 with h2 | h2
            · exact Option.some.inj h2
            · rcases hb with ⟨w, hw, -⟩ | hb
              · have m1 := List.mem_of_getElem? hs1
                have m2 := List.mem_of_getElem? ht1
                rw [hw] at m1 m2
                simp only [List.mem_singleton] at m1 m2
                rw [m1, m2]
              · rcases hb s hv with e | e <;> rw [e] at h2 <;> cases h2
          subst this
          intro x hx
          simp only [List.mem_cons, List.not_mem_nil, or_false] at hx
          rcases hx with rfl | rfl
          · exact ⟨zp, ep.1⟩
          · exact ⟨zq, eq.1⟩
      have hface : ∀ x ∈ pts, x.z = 0 ∧ Facing v x := fun x hx => ⟨(hcov x hx).1, covers_facing (hm v hv) (hcov x hx).2⟩
      have hd : pts.Pairwise fun p q => PointMatches p q 1e-8 = false := by
        rcases hpts with ⟨rfl, -⟩ | ⟨rfl, -⟩ | ⟨rfl, -⟩
        · simp
        · simp
        · simpa using hpq
      refine ⟨.split (hm v hv) hsplit hface hul, ?_, ?_⟩
      · intro x hx
        refine Or.inl ⟨v, hv, ?_⟩
        cases kv : v.kind with
        | none => unfold Seg.split at hsplit; simp [kv] at hsplit
        | line => exact ((C65_line (hm v hv) kv (fun x hx => (hcov x hx).2) hd hsplit).1.1 x).2 ⟨u, hul, hx⟩
        | arc => exact ((C65_arc (hm v hv) kv (fun x hx => (hface x hx).2) hsplit).1.1 x).2 ⟨u, hul, hx⟩
        | circle =>
          have hrv := ((made_ok (hm v hv)).circle kv).1
          have onv : ∀ {x}, Covers v x → OnCircle v.center v.radius x := by
            intro x hx; unfold Covers at hx; rw [kv] at hx; exact hx
          obtain ⟨a, b, w, -, rfl, hdiv, -⟩ := C65_circle (hm v hv) kv hface
            (fun a ha b hb hab => same_on_circle hrv (onv (hcov a ha).2) (onv (hcov b hb).2) hab) hsplit
          exact (hdiv.1 x).2 ⟨u, hul, hx⟩
      · right
        cases kv : v.kind with
        | none => unfold Seg.split at hsplit; simp [kv] at hsplit
        | line => exact Or.inl ((C65_line (hm v hv) kv (fun x hx => (hcov x hx).2) hd hsplit).2.2.1 u hul)
        | arc => exact Or.inr ((C65_arc (hm v hv) kv (fun x hx => (hface x hx).2) hsplit).2.2.1 u hul).1
        | circle =>
          have hrv := ((made_ok (hm v hv)).circle kv).1
          have onv : ∀ {x}, Covers v x → OnCircle v.center v.radius x := by
            intro x hx; unfold Covers at hx; rw [kv] at hx; exact hx
          obtain ⟨a, b, w, -, rfl, -, -, -, -, -, hall⟩ := C65_circle (hm v hv) kv hface
            (fun a ha b hb hab => same_on_circle hrv (onv (hcov a ha).2) (onv (hcov b hb).2) hab) hsplit
          exact Or.inr (hall u hul).1
  refine ⟨fun t ht => ⟨(each t ht).1, (each t ht).2.1⟩, fun hpc => Or.inr fun t ht => ?_⟩
  rcases (each t ht).2.2 with h1 | h1
  · exact hpc t h1
  · exact h1

end Iges.Props
