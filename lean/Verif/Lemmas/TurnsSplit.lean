import Verif.Lemmas.TurnsSeg
import Verif.Lemmas.OutlineOp
import Verif.Props.SegSplit
/- What splitting a segment does to its curve, and curves that meet a circle at their ends only. -/
namespace Iges.Turn
open Iges.Geo Iges.Spec Iges.Props Real Filter Topology

/-! ### Splitting -/

theorem covers_facing {s : Seg} (hm : Made s) (hk : s.kind = .line ∨ s.kind = .arc) {p : Point ℝ} (hp : Covers s p) :
    p.z = 0 ∧ Facing s p := by
  refine ⟨covers_flat hp, ?_⟩
  unfold Facing
  rcases hk with k | k
  · rw [k]; trivial
  · rw [k]
    obtain ⟨a, h1, h2, e⟩ := (covers_arc k p).1 hp
    exact ⟨a, s.radius, h1, h2, ((made_ok hm).arc k).pos, e⟩

theorem covers_circle {s : Seg} (k : s.kind = .arc) {p : Point ℝ} (hp : Covers s p) :
    planar2 p s.center = s.radius ^ 2 := by
  obtain ⟨a, -, -, e⟩ := (covers_arc k p).1 hp
  rw [e]
  simp only [planar2, polar, pt]
  linear_combination s.radius ^ 2 * sin_sq_add_cos_sq a

/-- what splitting gives: pieces end to end, all of the kind of the segment, together with its points and its crossings -/
structure Pieced (s : Seg) (l : List Seg) : Prop where
  fit : ∀ t ∈ l, Fit t
  joined : Joined s.start l s.stop
  covers : ∀ x, Covers s x ↔ ∃ t ∈ l, Covers t x
  wind : ∀ x, turns (l.map curve) x = (curve s).wind x

theorem rim_angle {c : ℝ × ℝ} {r a b : ℝ} (hr : 0 < r) (h : rim c r a = rim c r b) : ∃ n : ℤ, a = b + n * (2 * π) := by
  unfold rim at h
  injection h with h1 h2
  have h1 : cos a = cos b := by simpa [hr.ne'] using h1
  have h2 : sin a = sin b := by simpa [hr.ne'] using h2
  have hc : cos (a - b) = 1 := by rw [cos_sub, h1, h2]; linarith [sin_sq_add_cos_sq b]
  obtain ⟨n, hn⟩ := (cos_eq_one_iff (a - b)).1 hc
  exact ⟨n, by linarith⟩

theorem swept_turns (c : ℝ × ℝ) (r : ℝ) (x : ℝ × ℝ) (θ : ℝ) (n : ℤ) :
    swept c r x (θ + n * (2 * π)) = swept c r x θ + n * whole c r x := by
  induction n using Int.induction_on with
  | zero => simp
  | succ n ih =>
    have := swept_turn (c := c) (r := r) x (θ + n * (2 * π))
    push_cast at ih ⊢
    rw [show θ + (n + 1) * (2 * π) = θ + n * (2 * π) + 2 * π by ring, this, ih]
    ring
  | pred n ih =>
    have := swept_turn (c := c) (r := r) x (θ + (-n - 1) * (2 * π))
    push_cast at ih ⊢
    rw [show θ + (-n - 1) * (2 * π) + 2 * π = θ + -n * (2 * π) by ring, ih] at this
    linarith

/-- an arc that starts in the direction `α` -/
theorem arc_from {c : ℝ × ℝ} {r α a b : ℝ} (hr : 0 < r) (h : rim c r a = rim c r α) (x : ℝ × ℝ) :
    (Curve.arc c r a b).wind x = swept c r x (α + (b - a)) - swept c r x α := by
  obtain ⟨n, e⟩ := rim_angle hr h
  show swept c r x b - swept c r x a = _
  have e1 := swept_turns c r x (α + (b - a)) n
  have e2 := swept_turns c r x α n
  rw [show α + (b - a) + n * (2 * π) = b by rw [e]; ring] at e1
  rw [← e] at e2
  rw [e1, e2]
  ring

theorem arcs_wind {c : Point ℝ} {r : ℝ} (hr : 0 < r) (x : ℝ × ℝ) {l : List Seg} (hf : ∀ t ∈ l, Fit t)
    (hk : ∀ t ∈ l, t.kind = .arc ∧ t.center = c ∧ t.radius = r) {a b : Point ℝ} (hj : Joined a l b) {α : ℝ}
    (ha : plane a = rim (plane c) r α) :
    turns (l.map curve) x =
      swept (plane c) r x (α + (l.map fun t => t.eang - t.sang).sum) - swept (plane c) r x α := by
  induction l generalizing a α with
  | nil => simp
  | cons t l ih =>
    obtain ⟨e, hj⟩ := hj
    obtain ⟨k, kc, kr⟩ := hk t (by simp)
    obtain ⟨e1, e2⟩ := (hf t (by simp)).arc_ends k
    have f1 : rim (plane c) r t.sang = rim (plane c) r α := by
      rw [← ha, ← e, e1, plane_polar, kc, kr]
    have f2 : plane t.stop = rim (plane c) r (α + (t.eang - t.sang)) := by
      obtain ⟨n, hn⟩ := rim_angle hr f1
      rw [e2, plane_polar, kc, kr, hn, show α + (t.eang - (α + n * (2 * π))) = t.eang - n * (2 * π) by ring]
      unfold rim
      rw [cos_sub_int_mul_two_pi, sin_sub_int_mul_two_pi]
    have := ih (fun t ht => hf t (by simp [ht])) (fun t ht => hk t (by simp [ht])) hj f2
    simp only [List.map_cons, turns_cons, List.sum_cons]
    rw [this, curve_arc k, kc, kr, arc_from hr f1, add_assoc]
    ring

theorem line_step {a b u v : ℝ × ℝ} (hu : u ∈ segment ℝ a b) (hv : v ∈ segment ℝ a b) (x : ℝ × ℝ) :
    (Curve.line u v).wind x =
      ind (a.2 ≠ b.2 ∧ lineX a b x.2 < x.1) * ind (v.2 ≤ x.2) - ind (a.2 ≠ b.2 ∧ lineX a b x.2 < x.1) * ind (u.2 ≤ x.2) := by
  rw [segment_eq_image'] at hu hv
  obtain ⟨t, -, rfl⟩ := hu
  obtain ⟨w, -, rfl⟩ := hv
  show step _ _ _ _ = _
  unfold step
  by_cases hab : a.2 = b.2
  · rw [ind_false (p := a.2 ≠ b.2 ∧ _) (fun h => h.1 hab)]
    have : ∀ t : ℝ, (a + t • (b - a)).2 = a.2 := by intro t; simp [hab]
    rw [this, this]
    ring
  · have hd : b.2 - a.2 ≠ 0 := fun e => hab (by linarith)
    by_cases hwt : t = w
    · subst hwt; ring
    · have hX : lineX (a + t • (b - a)) (a + w • (b - a)) x.2 = lineX a b x.2 := by
        have hwt : w - t ≠ 0 := fun e => hwt (by linarith)
        unfold lineX
        simp only [Prod.fst_add, Prod.snd_add, Prod.smul_fst, Prod.smul_snd, Prod.fst_sub, Prod.snd_sub, smul_eq_mul]
        rw [show a.2 + w * (b.2 - a.2) - (a.2 + t * (b.2 - a.2)) = (w - t) * (b.2 - a.2) by ring]
        field_simp
        ring
      rw [hX, ind_congr (p := a.2 ≠ b.2 ∧ _) (q := lineX a b x.2 < x.1) ⟨fun h => h.2, fun h => ⟨hab, h⟩⟩]
      ring

theorem lines_wind {s : Seg} (hs : Fit s) (k : s.kind = .line) (x : ℝ × ℝ) {l : List Seg} (hf : ∀ t ∈ l, Fit t)
    (hk : ∀ t ∈ l, t.kind = .line) (hc : ∀ t ∈ l, ∀ y, Covers t y → Covers s y) {a b : Point ℝ} (hj : Joined a l b) :
    turns (l.map curve) x =
      ind ((plane s.start).2 ≠ (plane s.stop).2 ∧ lineX (plane s.start) (plane s.stop) x.2 < x.1) * ind ((plane b).2 ≤ x.2) -
      ind ((plane s.start).2 ≠ (plane s.stop).2 ∧ lineX (plane s.start) (plane s.stop) x.2 < x.1) * ind ((plane a).2 ≤ x.2) := by
  induction l generalizing a with
  | nil => have : a = b := hj; rw [this]; simp
  | cons t l ih =>
    obtain ⟨e, hj⟩ := hj
    have := ih (fun t ht => hf t (by simp [ht])) (fun t ht => hk t (by simp [ht])) (fun t ht => hc t (by simp [ht])) hj
    simp only [List.map_cons, turns_cons]
    have ft := hf t (by simp)
    have kt := hk t (by simp)
    have hm : ∀ y ∈ (curve t).trace, y ∈ segment ℝ (plane s.start) (plane s.stop) := by
      intro y hy
      have := (hs.trace y).2 (hc t (by simp) _ ((ft.trace y).1 hy))
      rwa [curve_line k] at this
    rw [curve_line kt] at hm ⊢
    rw [this, line_step (hm _ (left_mem_segment ℝ _ _)) (hm _ (right_mem_segment ℝ _ _)), ← e]
    ring

/-- pieces that divide a segment have its crossings -/
theorem pieced {s : Seg} (hs : Fit s) {l : List Seg} (hf : ∀ t ∈ l, Fit t) (hd : Divides s l)
    (hj : Joined s.start l s.stop)
    (hk : ∀ t ∈ l, t.kind = s.kind ∧ (s.kind = .arc → t.center = s.center ∧ t.radius = s.radius ∧ t.cw = s.cw)) : Pieced s l := by
  refine ⟨hf, hj, hd.1, fun x => ?_⟩
  rcases hs.kind with k | k
  · rw [lines_wind hs k x hf (fun t ht => (hk t ht).1.trans k) (fun t ht y hy => (hd.1 y).2 ⟨t, ht, hy⟩) hj, curve_line k,
      line_step (left_mem_segment ℝ (plane s.start) (plane s.stop)) (right_mem_segment ℝ _ _)]
  · have ha := (made_ok hs.made).arc k
    have e := hs.arc_ends k
    rw [arcs_wind (c := s.center) ha.pos x hf (fun t ht => ⟨(hk t ht).1.trans k, ((hk t ht).2 k).1, ((hk t ht).2 k).2.1⟩) hj
      (α := s.sang) (by rw [e.1]; rfl), curve_arc k]
    have hlen := hd.2.1
    have key : (l.map fun t => t.eang - t.sang).sum = s.eang - s.sang := by
      have h1 : ∀ t ∈ l, (t.eang - t.sang) = (if s.cw then -1 else 1) * (t.length / s.radius) := by
        intro t ht
        obtain ⟨h1, h2⟩ := hk t ht
        obtain ⟨-, h3, h4⟩ := h2 k
        unfold Seg.length Seg.startAngle Seg.endAngle
        rw [h1, k, h3, h4]
        simp only
        rw [mul_div_cancel_right₀ _ ha.pos.ne']
        cases s.cw <;> simp
      have h2 : s.eang - s.sang = (if s.cw then -1 else 1) * (s.length / s.radius) := by
        unfold Seg.length Seg.startAngle Seg.endAngle
        rw [k]
        simp only
        rw [mul_div_cancel_right₀ _ ha.pos.ne']
        cases s.cw <;> simp
      rw [List.map_congr_left h1, h2, ← hlen, List.sum_map_mul_left]
      congr 1
      clear h1 h2 hlen hd hj hk hf
      induction l with
      | nil => simp
      | cons t l ih => simp only [List.map_cons, List.sum_cons, ih, add_div]
    rw [key, add_sub_cancel]
    rfl

theorem split_pieced {s s' : Seg} {l : List Seg} {pts : List (Point ℝ)} (hs : Fit s) (hp : ∀ p ∈ pts, Covers s p)
    (hd : pts.Pairwise fun p q => PointMatches p q 1e-8 = false) (h : s.split pts = some (s', l))
    (hends : ∀ t ∈ s' :: l, (t.start = s.start ∨ t.start ∈ pts) ∧ (t.stop = s.stop ∨ t.stop ∈ pts)) : Pieced s (s' :: l) := by
  have hface := fun p hp' => covers_facing hs.made hs.kind (hp p hp')
  have made : ∀ t ∈ s' :: l, Made t := fun t ht => .split hs.made h hface ht
  rcases hs.kind with k | k
  · obtain ⟨h1, h2, h3, -⟩ := C65_line hs.made k hp hd h
    refine pieced hs (fun t ht => ⟨Or.inl (h3 t ht), made t ht, ?_⟩) h1 h2
      (fun t ht => ⟨(h3 t ht).trans k.symm, fun e => by rw [k] at e; cases e⟩)
    intro e
    rw [h3 t ht] at e
    cases e
  · obtain ⟨h1, h2, h3, -⟩ := C65_arc hs.made k (fun p hp' => (hface p hp').2) h
    refine pieced hs (fun t ht => ⟨Or.inr (h3 t ht).1, made t ht, ?_⟩) h1 h2
      (fun t ht => ⟨(h3 t ht).1.trans k.symm, fun _ => (h3 t ht).2⟩)
    intro _
    obtain ⟨-, kc, kr, -⟩ := h3 t ht
    obtain ⟨e1, e2⟩ := hends t ht
    rw [kc, kr]
    constructor
    · rcases e1 with e1 | e1
      · rw [e1]; exact (hs.sharp k).1
      · exact covers_circle k (hp _ e1)
    · rcases e2 with e2 | e2
      · rw [e2]; exact (hs.sharp k).2
      · exact covers_circle k (hp _ e2)

/-- split at one point -/
theorem split_one {s s' : Seg} {l : List Seg} {p : Point ℝ} (hs : Fit s) (hp : Covers s p) (h : s.split [p] = some (s', l)) :
    ∃ t, l = [t] ∧ s'.start = s.start ∧ s'.stop = p ∧ t.start = p ∧ t.stop = s.stop ∧ Pieced s [s', t] := by
  obtain ⟨t, rfl, h1, h2, h3, h4, -, -⟩ := split_ends hs.kind (fun _ => ⟨covers_flat hp, hs.zs.2⟩) h
  refine ⟨t, rfl, h1, h2, h3, h4, split_pieced hs (pts := [p]) (by simpa using hp) (by simp) h ?_⟩
  intro u hu
  simp at hu
  rcases hu with rfl | rfl
  · exact ⟨Or.inl h1, Or.inr (by simp [h2])⟩
  · exact ⟨Or.inr (by simp [h3]), Or.inl h4⟩

theorem setLine_ends {a b : Point ℝ} (ha : a.z = 0) (hb : b.z = 0) (h : PointMatches a b 1e-8 = false) :
    (setLine a b).1.start = a ∧ (setLine a b).1.stop = b := by
  rcases setLine_cases a b with e | ⟨-, -, -, e⟩
  · unfold setLine at e; simp [ha, hb, h] at e
  · rw [e]; exact ⟨rfl, rfl⟩

/-- split at two points -/
theorem split_two {s s' m t : Seg} {p q : Point ℝ} (hs : Fit s) (hp : Covers s p) (hq : Covers s q)
    (hpq : PointMatches p q 1e-8 = false) (h : s.split [p, q] = some (s', [m, t])) :
    s'.start = s.start ∧ t.stop = s.stop ∧ Pieced s [s', m, t] ∧
    (s'.stop = p ∧ m.start = p ∧ m.stop = q ∧ t.start = q ∨ s'.stop = q ∧ m.start = q ∧ m.stop = p ∧ t.start = p) := by
  have zp := covers_flat hp
  have zq := covers_flat hq
  have key : s'.start = s.start ∧ t.stop = s.stop ∧
    (s'.stop = p ∧ m.start = p ∧ m.stop = q ∧ t.start = q ∨ s'.stop = q ∧ m.start = q ∧ m.stop = p ∧ t.start = p) := by
    have hall : ∀ x ∈ [p, q].filter fun p => !(PointMatches p s.start 1e-8 || PointMatches p s.stop 1e-8),
        x.z = 0 ∧ PointMatches x s.stop 1e-8 = false := by
      intro x hx
      obtain ⟨hx1, hx2⟩ := List.mem_filter.1 hx
      simp only [Bool.not_eq_true', Bool.or_eq_false_iff] at hx2
      refine ⟨?_, hx2.2⟩
      simp only [List.mem_cons, List.not_mem_nil, or_false] at hx1
      rcases hx1 with rfl | rfl <;> assumption
    have hsub := List.filter_sublist (p := fun p => !(PointMatches p s.start 1e-8 || PointMatches p s.stop 1e-8)) (l := [p, q])
    have hcases := (split_cases h).2
    clear h
    obtain ⟨k, h⟩ | ⟨k, h⟩ | ⟨k, -⟩ := hcases
    · generalize ([p, q].filter fun p => !(PointMatches p s.start 1e-8 || PointMatches p s.stop 1e-8)) = w at *
      match w, h, hall, hsub with
      | [], h, _, _ => simp [splitLine] at h
      | [_], h, _, _ => simp only [splitLine] at h; split at h <;> simp at h
      | _ :: _ :: _ :: _, h, _, _ => simp [splitLine] at h
      | [u, v], h, hall, hsub =>
        simp only [splitLine] at h
        split at h
        swap
        · cases h
        simp only [Option.some.injEq, Prod.mk.injEq, List.cons.injEq, and_true] at h
        obtain ⟨rfl, rfl⟩ : u = p ∧ v = q := by
          have := hsub.eq_of_length rfl
          simpa using this
        have hqp : PointMatches v u 1e-8 = false := by rw [C51_symmetric]; exact hpq
        obtain ⟨rfl, rfl, rfl⟩ := h
        by_cases hlt : lineParam s u < lineParam s v
        · simp only [if_pos hlt]
          have a1 := setLine_ends zp zq hpq
          have a2 := setLine_ends zq hs.zs.2 (hall v (by simp)).2
          exact ⟨trivial, a2.2, Or.inl ⟨trivial, a1.1, a1.2, a2.1⟩⟩
        · simp only [if_neg hlt]
          have a1 := setLine_ends zq zp hqp
          have a2 := setLine_ends zp hs.zs.2 (hall u (by simp)).2
          exact ⟨trivial, a2.2, Or.inr ⟨trivial, a1.1, a1.2, a2.1⟩⟩
    · generalize ([p, q].filter fun p => !(PointMatches p s.start 1e-8 || PointMatches p s.stop 1e-8)) = w at *
      match w, h, hsub with
      | [], h, _ => simp [splitArc] at h
      | [_], h, _ => simp only [splitArc] at h; split at h <;> simp at h
      | _ :: _ :: _ :: _, h, _ => simp [splitArc] at h
      | [u, v], h, hsub =>
        simp only [splitArc] at h
        split at h
        swap
        · cases h
        simp only [Option.some.injEq, Prod.mk.injEq, List.cons.injEq, and_true] at h
        obtain ⟨rfl, rfl⟩ : u = p ∧ v = q := by
          have := hsub.eq_of_length rfl
          simpa using this
        obtain ⟨rfl, rfl, rfl⟩ := h
        refine ⟨rfl, rfl, ?_⟩
        split
        · exact Or.inr ⟨rfl, rfl, rfl, rfl⟩
        · exact Or.inl ⟨rfl, rfl, rfl, rfl⟩
    · rcases hs.kind with e | e <;> rw [k] at e <;> cases e
  refine ⟨key.1, key.2.1, split_pieced hs (pts := [p, q]) (by simpa using ⟨hp, hq⟩) (by simpa using hpq) h ?_, key.2.2⟩
  obtain ⟨k1, k2, k3⟩ := key
  intro u hu
  simp at hu
  rcases k3 with ⟨e1, e2, e3, e4⟩ | ⟨e1, e2, e3, e4⟩ <;> rcases hu with rfl | rfl | rfl <;> simp [*]

/-- of two points at which a segment was split the first piece does not have the second one, and the last piece not the
first one -/
theorem split_two_order {s s' m t : Seg} {p q : Point ℝ} (hs : Fit s) (hp : Covers s p) (hq : Covers s q)
    (hpq : PointMatches p q 1e-8 = false) (h : s.split [p, q] = some (s', [m, t])) :
    ¬ Covers s' t.start ∧ ¬ Covers t s'.stop := by
  obtain ⟨k1, k2, hP, k3⟩ := split_two hs hp hq hpq h
  have hne : p ≠ q := by rintro rfl; rw [C51_reflexive] at hpq; cases hpq
  have hsub := List.filter_sublist (p := fun p => !(PointMatches p s.start 1e-8 || PointMatches p s.stop 1e-8)) (l := [p, q])
  have hcases := (split_cases h).2
  have hkinds := hs.kind
  rcases hs.kind with k | k
  · have hl : splitLine s [p, q] = some (s', [m, t]) := by
      obtain ⟨-, h⟩ | ⟨k', -⟩ | ⟨k', -⟩ := hcases
      · generalize ([p, q].filter fun p => !(PointMatches p s.start 1e-8 || PointMatches p s.stop 1e-8)) = w at *
        have hw : w.length = 2 := by
          match w, h with
          | [], h => simp [splitLine] at h
          | [_], h => simp only [splitLine] at h; split at h <;> simp at h
          | [_, _], _ => rfl
          | _ :: _ :: _ :: _, h => simp [splitLine] at h
        rwa [hsub.eq_of_length hw] at h
      · rw [k] at k'; cases k'
      · rw [k] at k'; cases k'
    obtain ⟨gs, ge, z1, z2, cs⟩ := line_ends hs.made k
    have hcov : ∀ x, Covers s x ↔ ∃ t, 0 ≤ t ∧ t ≤ 1 ∧ x = at_ s t := cs
    have hd : s.start.x ≠ s.stop.x ∨ s.start.y ≠ s.stop.y := by
      by_contra hc
      push Not at hc
      obtain ⟨a, -, -, e1⟩ := (hcov p).1 hp
      obtain ⟨b, -, -, e2⟩ := (hcov q).1 hq
      apply hne
      rw [e1, e2]
      unfold at_
      rw [hc.1, hc.2]
      simp
    have hle : lineParam s s'.stop ≤ lineParam s t.start := by
      simp only [splitLine] at hl
      split at hl
      swap
      · cases hl
      simp only [Option.some.injEq, Prod.mk.injEq, List.cons.injEq, and_true] at hl
      obtain ⟨e1, -, e3⟩ := hl
      by_cases hlt : lineParam s p < lineParam s q
      · rw [if_pos hlt] at e1 e3
        have f1 : s'.stop = p := by rw [← e1]
        have f2 : t.start = q := by
          rcases k3 with ⟨-, -, -, f⟩ | ⟨f, -, -, -⟩
          · exact f
          · exact absurd (f1.symm.trans f) hne
        rw [f1, f2]; exact hlt.le
      · rw [if_neg hlt] at e1 e3
        have f1 : s'.stop = q := by rw [← e1]
        have f2 : t.start = p := by
          rcases k3 with ⟨f, -, -, -⟩ | ⟨-, -, -, f⟩
          · exact absurd (f.symm.trans f1) hne
          · exact f
        rw [f1, f2]; exact not_lt.1 hlt
    have hX : Covers s s'.stop ∧ Covers s t.start ∧ s'.stop ≠ t.start := by
      rcases k3 with ⟨e1, -, -, e4⟩ | ⟨e1, -, -, e4⟩ <;> rw [e1, e4]
      · exact ⟨hp, hq, hne⟩
      · exact ⟨hq, hp, hne.symm⟩
    obtain ⟨c1, c2, c3⟩ := hX
    obtain ⟨v, v0, v1, ev⟩ := (hcov _).1 c1
    obtain ⟨w, w0, w1, ew⟩ := (hcov _).1 c2
    have hvw : v < w := by
      rw [ev, ew, lineParam_at hd, lineParam_at hd] at hle
      refine lt_of_le_of_ne hle ?_
      rintro rfl
      exact c3 (ev.trans ew.symm)
    have inj : ∀ {a b : ℝ}, at_ s a = at_ s b → a = b := by
      intro a b e
      rw [← lineParam_at hd a, ← lineParam_at hd b, e]
    have hk' : ∀ u ∈ [s', m, t], u.kind = .line := by
      intro u hu
      exact (C65_line hs.made k (pts := [p, q]) (by simpa using ⟨hp, hq⟩) (by simpa using hpq) h).2.2.1 u hu
    have f1 := line_ends (hP.fit s' (by simp)).made (hk' s' (by simp))
    have f2 := line_ends (hP.fit t (by simp)).made (hk' t (by simp))
    constructor
    · intro hc
      obtain ⟨a, a0, a1, e⟩ := (f1.2.2.2.2 _).1 hc
      rw [ew, k1, ev] at e
      have : at_ s w = at_ s (a * v) := by
        rw [e]; unfold at_; simp only [pt]; congr 1 <;> ring
      have := inj this
      nlinarith
    · intro hc
      obtain ⟨a, a0, a1, e⟩ := (f2.2.2.2.2 _).1 hc
      rw [ew, k2, ev] at e
      have : at_ s v = at_ s (w + a * (1 - w)) := by
        rw [e]; unfold at_; simp only [pt]; congr 1 <;> ring
      have := inj this
      nlinarith
  · have hl : splitArc s [p, q] = some (s', [m, t]) := by
      obtain ⟨k', -⟩ | ⟨-, h⟩ | ⟨k', -⟩ := hcases
      · rw [k] at k'; cases k'
      · generalize ([p, q].filter fun p => !(PointMatches p s.start 1e-8 || PointMatches p s.stop 1e-8)) = w at *
        have hw : w.length = 2 := by
          match w, h with
          | [], h => simp [splitArc] at h
          | [_], h => simp only [splitArc] at h; split at h <;> simp at h
          | [_, _], _ => rfl
          | _ :: _ :: _ :: _, h => simp [splitArc] at h
        rwa [hsub.eq_of_length hw] at h
      · rw [k] at k'; cases k'
    have ha := (made_ok hs.made).arc k
    clear h hsub hcases hP k1 k2 k3
    simp only [splitArc] at hl
    split at hl
    swap
    · cases hl
    rename_i ht
    have key : ∀ {x : Point ℝ}, Covers s x → EndAt s.center s.radius x (arcParam s x) ∧ s.startAngle ≤ arcParam s x ∧
        arcParam s x ≤ s.endAngle ∧ x = polar s.center s.radius (arcParam s x) := by
      intro x hx
      obtain ⟨a, a1, a2, rfl⟩ := (covers_arc k x).1 hx
      rw [arcParam_eq ha ha.pos a1 a2]
      exact ⟨⟨s.radius, ha.pos, by simpa using (slack_pos s.radius).le, rfl⟩, a1, a2, rfl⟩
    obtain ⟨u, v, hu, hv, huv, hab, e1, e3⟩ : ∃ u v, Covers s u ∧ Covers s v ∧ u ≠ v ∧
        (if s.cw then arcParam s v ≤ arcParam s u else arcParam s u ≤ arcParam s v) ∧
        s' = { s with stop := u, eang := arcParam s u } ∧ t = subArc s v s.stop (arcParam s v) s.eang := by
      split at hl
      · rename_i hc
        simp only [Option.some.injEq, Prod.mk.injEq, List.cons.injEq, and_true] at hl
        refine ⟨q, p, hq, hp, hne.symm, ?_, hl.1.symm, hl.2.2.symm⟩
        rcases hc with ⟨e, hc⟩ | ⟨e, hc⟩ <;> simp [e] <;> linarith
      · rename_i hc
        simp only [Option.some.injEq, Prod.mk.injEq, List.cons.injEq, and_true] at hl
        refine ⟨p, q, hp, hq, hne, ?_, hl.1.symm, hl.2.2.symm⟩
        push Not at hc
        cases hw : s.cw
        · simpa using hc.2 hw
        · simpa using hc.1 hw
    obtain ⟨u1, u2, u3, u4⟩ := key hu
    obtain ⟨v1, v2, v3, v4⟩ := key hv
    have hle := ha.le
    have hr := restArc_ok ha u1 ⟨u2, u3⟩
    have hz := subArc_ok ha v1 ha.last (by
          clear u4 v4 hr key e1 e3
          unfold Seg.startAngle Seg.endAngle at *; cases hc : s.cw <;> simp_all) ⟨v2, v3⟩ (by
          clear u4 v4 hr key e1 e3
          unfold Seg.startAngle Seg.endAngle at *; cases hc : s.cw <;> simp_all)
    have hd : arcParam s u ≠ arcParam s v := fun e => huv (by rw [u4, v4, e])
    have g1 : t.start = v := by rw [e3]; rfl
    have g2 : s'.stop = u := by rw [e1]
    rw [g1, g2]
    constructor
    · rw [e1, hr.2]
      rintro ⟨a, a1, a2, e⟩
      have hlo : s.startAngle ≤ a := by cases hw : s.cw <;> simp [hw] at a1 <;> linarith
      have hhi : a ≤ s.endAngle := by cases hw : s.cw <;> simp [hw] at a2 <;> linarith
      have : arcParam s v = a := by rw [e]; exact arcParam_eq ha ha.pos hlo hhi
      cases hw : s.cw
      · simp [hw] at a2 hab; exact hd (by linarith)
      · simp [hw] at a1 hab; exact hd (by linarith)
    · rw [e3, hz.2]
      rintro ⟨a, a1, a2, e⟩
      have hlo : s.startAngle ≤ a := by
        cases hw : s.cw <;> simp [hw] at a1
        · linarith
        · simp [Seg.startAngle, hw]; linarith
      have hhi : a ≤ s.endAngle := by
        cases hw : s.cw <;> simp [hw] at a2
        · simp [Seg.endAngle, hw]; linarith
        · linarith
      have : arcParam s u = a := by rw [e]; exact arcParam_eq ha ha.pos hlo hhi
      cases hw : s.cw
      · simp [hw] at a1 hab; exact hd (by linarith)
      · simp [hw] at a2 hab; exact hd (by linarith)

/-! ### Curves that meet a circle at their ends only -/

/-- where a curve is at the time `t` -/
noncomputable def Curve.at : Curve → ℝ → ℝ × ℝ
  | .line p q, t => p + t • (q - p)
  | .arc c r a b, t => rim c r (a + t * (b - a))

theorem at_cont (k : Curve) : Continuous k.at := by
  cases k with
  | line p q => unfold Curve.at; fun_prop
  | arc c r a b => unfold Curve.at rim; fun_prop

theorem at_trace (k : Curve) : k.trace = k.at '' Set.Icc 0 1 := by
  cases k with
  | line p q => exact segment_eq_image' ℝ p q
  | arc c r a b =>
    show rim c r '' _ = _
    have : Set.uIcc a b = (fun t => a + t * (b - a)) '' Set.Icc 0 1 := by
      rw [← segment_eq_uIcc, segment_eq_image']; rfl
    rw [this, Set.image_image]
    rfl

theorem at_zero (k : Curve) : k.at 0 = k.first := by
  cases k <;> simp [Curve.at, Curve.first]

theorem at_one (k : Curve) : k.at 1 = k.last := by
  cases k <;> simp [Curve.at, Curve.last]

theorem first_mem (k : Curve) : k.first ∈ k.trace := by
  rw [at_trace, ← at_zero]; exact ⟨0, by simp, rfl⟩

theorem last_mem (k : Curve) : k.last ∈ k.trace := by
  rw [at_trace, ← at_one]; exact ⟨1, by simp, rfl⟩

/-- on one side of a circle -/
def Sided (c : ℝ × ℝ) (r : ℝ) (k : Curve) : Prop := (∀ x ∈ k.trace, d2 c x ≤ r ^ 2) ∨ ∀ x ∈ k.trace, r ^ 2 ≤ d2 c x

theorem sided {c : ℝ × ℝ} {r : ℝ} {k : Curve} (h : ∀ t ∈ Set.Ioo (0 : ℝ) 1, d2 c (k.at t) ≠ r ^ 2) : Sided c r k := by
  have hc : Continuous fun t => d2 c (k.at t) := by
    have := at_cont k; unfold d2; fun_prop
  by_contra hn
  unfold Sided at hn
  push Not at hn
  obtain ⟨⟨x, hx, h1⟩, y, hy, h2⟩ := hn
  rw [at_trace] at hx hy
  obtain ⟨t, ht, rfl⟩ := hx
  obtain ⟨u, hu, rfl⟩ := hy
  rw [← closure_Ioo (zero_ne_one' ℝ)] at ht hu
  obtain ⟨t', h1', ht'⟩ := mem_closure_iff.1 ht _ (isOpen_lt continuous_const hc) h1
  obtain ⟨u', h2', hu'⟩ := mem_closure_iff.1 hu _ (isOpen_lt hc continuous_const) h2
  have := (isPreconnected_Ioo (a := (0 : ℝ)) (b := 1)).intermediate_value hu' ht' hc.continuousOn
  obtain ⟨w, hw, e⟩ := this ⟨le_of_lt h2', le_of_lt h1'⟩
  exact h w hw e

theorem Fit.at_ne {s : Seg} (h : Fit s) (hne : s.start ≠ s.stop) {t : ℝ} (ht : t ∈ Set.Ioo (0 : ℝ) 1) :
    (curve s).at t ≠ plane s.start ∧ (curve s).at t ≠ plane s.stop := by
  have hne' : plane s.start ≠ plane s.stop := fun e => hne (plane_inj h.zs.1 h.zs.2 e)
  rcases h.kind with k | k
  · rw [curve_line k]
    show _ + t • (_ - _) ≠ _ ∧ _ + t • (_ - _) ≠ _
    constructor
    · intro e
      rw [add_eq_left, smul_eq_zero] at e
      rcases e with e | e
      · exact ht.1.ne' e
      · exact hne' (sub_eq_zero.1 e).symm
    · intro e
      have e' : (1 - t) • (plane s.stop - plane s.start) = 0 := by
        rw [sub_smul, one_smul, sub_eq_zero]; nth_rw 1 [← e]; simp
      rw [smul_eq_zero] at e'
      rcases e' with e' | e'
      · exact ht.2.ne (by linarith)
      · exact hne' (sub_eq_zero.1 e').symm
  · have ha := (made_ok h.made).arc k
    obtain ⟨e1, e2⟩ := h.arc_ends k
    have hab : s.sang ≠ s.eang := by
      intro e; apply hne; rw [e1, e2, e]
    have hl := ha.le
    have hu := ha.turn
    have hpi := pi_pos
    rw [curve_arc k]
    show rim _ _ (_ + t * (_ - _)) ≠ _ ∧ rim _ _ (_ + t * (_ - _)) ≠ _
    rw [e1, e2, plane_polar, plane_polar]
    obtain ⟨t0, t1⟩ := ht
    unfold Seg.startAngle Seg.endAngle at hl hu
    cases hc : s.cw
    · rw [hc] at hl hu
      simp only [Bool.false_eq_true, if_false] at hl hu
      have hl : s.sang < s.eang := lt_of_le_of_ne hl hab
      constructor
      · refine (rim_ne ha.pos ?_ ?_).symm <;> nlinarith
      · refine rim_ne ha.pos ?_ ?_ <;> nlinarith
    · rw [hc] at hl hu
      simp only [if_true] at hl hu
      have hl : s.eang < s.sang := lt_of_le_of_ne hl (Ne.symm hab)
      constructor
      · refine rim_ne ha.pos ?_ ?_ <;> nlinarith
      · refine (rim_ne ha.pos ?_ ?_).symm <;> nlinarith

theorem Fit.at_covers {s : Seg} (h : Fit s) {t : ℝ} (ht : t ∈ Set.Ioo (0 : ℝ) 1) :
    Covers s (pt ((curve s).at t).1 ((curve s).at t).2) := by
  rw [← h.trace, at_trace]
  exact ⟨t, ⟨ht.1.le, ht.2.le⟩, rfl⟩

theorem linked_side {c : ℝ × ℝ} {r : ℝ} {l : List Curve} {a b : ℝ × ℝ} (hl : Linked a l b) (hs : ∀ k ∈ l, Sided c r k)
    (hj : ∀ k ∈ l.tail, d2 c k.first ≠ r ^ 2) : InDisc c r l ∨ OutDisc c r l := by
  induction l generalizing a with
  | nil => left; intro k hk; simp at hk
  | cons k l ih =>
    obtain ⟨-, hl⟩ := hl
    have hk := hs k (by simp)
    cases l with
    | nil =>
      rcases hk with h | h
      · left; intro k' hk'; simp at hk'; subst hk'; exact h
      · right; intro k' hk'; simp at hk'; subst hk'; exact h
    | cons m l =>
      have i := ih hl (fun k' hk' => hs k' (by simp at hk' ⊢; tauto)) (fun k' hk' => hj k' (by simp at hk' ⊢; tauto))
      have e : m.first = k.last := hl.1
      have hne := hj m (by simp)
      have mk : m.first ∈ k.trace := by rw [e]; exact last_mem k
      have mm : m.first ∈ m.trace := first_mem m
      rcases hk with h | h <;> rcases i with i | i
      · left
        intro k' hk'
        rcases List.mem_cons.1 hk' with rfl | hk'
        · exact h
        · exact i k' hk'
      · exact absurd (le_antisymm (h _ mk) (i m (by simp) _ mm)) hne
      · exact absurd (le_antisymm (i m (by simp) _ mm) (h _ mk)) hne
      · right
        intro k' hk'
        rcases List.mem_cons.1 hk' with rfl | hk'
        · exact h
        · exact i k' hk'

end Iges.Turn
