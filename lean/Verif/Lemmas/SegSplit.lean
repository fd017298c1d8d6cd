import Verif.Lemmas.Segment
/- Splitting keeps the invariant of segments, and the parts cover the whole. -/
namespace Iges.Geo
open Real Spec

/-- the invariant of every kind of segment -/
structure SegOk (s : Seg) : Prop where
  line : s.kind = .line → s.cw = false ∧ s.start.z = 0 ∧ s.stop.z = 0
  circle : s.kind = .circle → 0 < s.radius ∧ s.center.z = 0 ∧ s.cw = false
  arc : s.kind = .arc → ArcOk s

theorem ArcOk.seg {s : Seg} (h : ArcOk s) : SegOk s :=
  ⟨fun e => by simp [h.kind] at e, fun e => by simp [h.kind] at e, fun _ => h⟩

theorem setLine_cases (a b : Point ℝ) :
    (setLine a b = (Seg.init, false)) ∨
    (a.z = 0 ∧ b.z = 0 ∧ PointMatches a b 1e-8 = false ∧
      setLine a b = ({ Seg.init with start := a, stop := b, kind := .line }, true)) := by
  unfold setLine
  split
  · exact Or.inl rfl
  · rename_i hz
    push Not at hz
    split
    · exact Or.inl rfl
    · rename_i hm
      exact Or.inr ⟨hz.1, hz.2, by simpa using hm, rfl⟩

theorem init_ok : SegOk Seg.init := by
  constructor <;> intro h <;> simp [Seg.init] at h

theorem setLine_ok (a b : Point ℝ) : SegOk (setLine a b).1 := by
  rcases setLine_cases a b with h | ⟨h1, h2, -, h⟩
  · rw [h]; exact init_ok
  · rw [h]
    exact ⟨fun _ => ⟨rfl, h1, h2⟩, fun e => by simp at e, fun e => by simp at e⟩

theorem setArc_segOk {c a b : Point ℝ} {cw : Bool} {s : Seg} (h : setArc c a b cw = (s, true)) : SegOk s := by
  have hc := setArc_cases h
  refine ⟨fun e => ?_, fun e => ?_, fun e => setArc_ok h e⟩
  · rcases hc.2.2.2.2.2.2.2 with ⟨h, -⟩ | ⟨h, -⟩ <;> rw [h] at e <;> cases e
  · refine ⟨by rw [hc.2.2.2.2.2.2.1]; exact hc.2.2.2.1, by rw [hc.2.2.2.2.2.1]; exact hc.1, ?_⟩
    have hk := e
    unfold setArc at h
    split at h
    · simp at h
    split at h
    · simp at h
    simp only at h
    split at h
    · have := (Prod.mk.inj h).1
      subst this; rfl
    · split at h
      · simp at h
      · have := (Prod.mk.inj h).1
        subst this; simp at hk

theorem reverse_segOk {s : Seg} (h : SegOk s) : SegOk s.reverse := by
  cases hk : s.kind
  · have : s.reverse = s := by unfold Seg.reverse; rw [hk]
    rw [this]; exact h
  · obtain ⟨h1, h2, h3⟩ := h.line hk
    have e : s.reverse = { s with start := s.stop, stop := s.start } := by unfold Seg.reverse; rw [hk]
    rw [e]
    exact ⟨fun _ => ⟨h1, h3, h2⟩, fun e => by simp [hk] at e, fun e => by simp [hk] at e⟩
  · exact (reverse_ok (h.arc hk)).seg
  · have : s.reverse = s := by unfold Seg.reverse; rw [hk]
    rw [this]; exact h

theorem polar_add (c : Point ℝ) (r a : ℝ) : polar c r (a + 2 * π) = polar c r a := by
  unfold polar; rw [Real.cos_add_two_pi, Real.sin_add_two_pi]

theorem polar_sub (c : Point ℝ) (r a : ℝ) : polar c r (a - 2 * π) = polar c r a := by
  unfold polar; rw [Real.cos_sub_two_pi, Real.sin_sub_two_pi]

/-- the direction of a point given by radius and angle -/
theorem atan2_of_polar {c : Point ℝ} {ρ a : ℝ} (hρ : 0 < ρ) (h1 : -π < a) (h2 : a < 3 * π) :
    atan2 ((polar c ρ a).y - c.y) ((polar c ρ a).x - c.x) = if a ≤ π then a else a - 2 * π := by
  split
  · rename_i h
    have : atan2 (ρ * sin a) (ρ * cos a) = a := atan2_polar hρ h1 h
    unfold polar pt
    simpa using this
  · rename_i h
    have : atan2 (ρ * sin (a - 2 * π)) (ρ * cos (a - 2 * π)) = a - 2 * π :=
      atan2_polar hρ (by linarith) (by linarith)
    rw [Real.sin_sub_two_pi, Real.cos_sub_two_pi] at this
    unfold polar pt
    simpa using this

/-- a point that faces the arc gets the parameter of its direction -/
theorem arcParam_eq {s : Seg} (h : ArcOk s) {ρ a : ℝ} (hρ : 0 < ρ) (h1 : s.startAngle ≤ a) (h2 : a ≤ s.endAngle) :
    arcParam s (polar s.center ρ a) = a := by
  unfold arcParam
  simp only
  have hl := h.low
  have hh := h.high
  have ht := h.turn
  rw [atan2_of_polar hρ (by linarith) (by linarith)]
  by_cases ha : a ≤ π
  · rw [if_pos ha, if_neg (by linarith)]
  · rw [if_neg ha, if_pos (by linarith)]; ring

/-- a point that passes the test on the radius is nearly on the circle -/
theorem endAt_of_onCircle {s : Seg} (hr : 0 < s.radius) {ρ a : ℝ} (hρ : 0 < ρ)
    (h : onCircle s (polar s.center ρ a)) : EndAt s.center s.radius (polar s.center ρ a) a := by
  refine ⟨ρ, hρ, ?_, rfl⟩
  unfold onCircle polar pt at h
  simp only [not_lt] at h
  have e : (s.center.x + ρ * cos a - s.center.x) * (s.center.x + ρ * cos a - s.center.x) +
      (s.center.y + ρ * sin a - s.center.y) * (s.center.y + ρ * sin a - s.center.y) - s.radius * s.radius
      = (ρ - s.radius) * (ρ + s.radius) := by
    have := Real.sin_sq_add_cos_sq a
    linear_combination ρ ^ 2 * this
  rw [e, abs_mul, abs_of_pos (show 0 < ρ + s.radius by linarith)] at h
  refine le_trans ?_ (le_max_right _ _)
  rw [le_div_iff₀ hr]
  nlinarith [abs_nonneg (ρ - s.radius)]

theorem normDown_eq {a b : ℝ} (h : a > π ∧ b > π) : normDown a b = normDown (a - 2 * π) (b - 2 * π) := by
  rw [normDown, dif_pos h]

theorem normDown_stop {a b : ℝ} (h : ¬ (a > π ∧ b > π)) : normDown a b = (a, b) := by
  rw [normDown, dif_neg h]

theorem normUp_stop {a b : ℝ} (h : ¬ (a ≤ -π ∧ b ≤ -π)) : normUp a b = (a, b) := by
  rw [normUp, dif_neg h]

/-- normalizing angles between -π and 3π takes off one full turn or none -/
theorem normalize_eq {a b : ℝ} (ha : -π < a) (ha' : a < 3 * π) (_hb : -π < b) (_hb' : b < 3 * π) :
    normalize a b = if a > π ∧ b > π then (a - 2 * π, b - 2 * π) else (a, b) := by
  unfold normalize
  simp only
  split
  · rename_i h
    rw [normDown_eq h, normDown_stop (by rintro ⟨h1, -⟩; linarith), normUp_stop]
    rintro ⟨h1, -⟩
    simp only at h1
    linarith [h.1]
  · rename_i h
    rw [normDown_stop h, normUp_stop]
    rintro ⟨h1, -⟩
    simp only at h1
    linarith

/-- a part of an arc: `lo ≤ hi` within the range of the arc -/
theorem subArc_ok {s : Seg} (h : ArcOk s) {p q : Point ℝ} {a b : ℝ} (hp : EndAt s.center s.radius p a)
    (hq : EndAt s.center s.radius q b) (hab : if s.cw then b ≤ a else a ≤ b)
    (ha : s.startAngle ≤ a ∧ a ≤ s.endAngle) (hb : s.startAngle ≤ b ∧ b ≤ s.endAngle) :
    ArcOk (subArc s p q a b) ∧
    ∀ x, Covers (subArc s p q a b) x ↔
      ∃ t, (if s.cw then b else a) ≤ t ∧ t ≤ (if s.cw then a else b) ∧ x = polar s.center s.radius t := by
  have hl := h.low
  have hh := h.high
  have ht := h.turn
  have hpos := Real.pi_pos
  have en := normalize_eq (a := a) (b := b) (by linarith) (by linarith) (by linarith) (by linarith)
  by_cases hs : a > π ∧ b > π
  · rw [if_pos hs] at en
    have ek : subArc s p q a b = ⟨.arc, s.center, p, q, s.radius, a - 2 * π, b - 2 * π, s.cw⟩ := by
      unfold subArc; simp only [en]
    rw [ek]
    refine ⟨?_, ?_⟩
    · obtain ⟨ρ, r1, r2, r3⟩ := hp
      obtain ⟨ρ', r1', r2', r3'⟩ := hq
      constructor
      · rfl
      · exact h.pos
      · unfold Seg.startAngle; cases hc : s.cw <;> simp <;> linarith
      · unfold Seg.startAngle Seg.endAngle; cases hc : s.cw <;> simp_all
      · unfold Seg.endAngle; cases hc : s.cw <;> simp <;> linarith
      · unfold Seg.startAngle Seg.endAngle
        cases hc : s.cw <;> simp <;> linarith
      · exact h.flat
      · exact ⟨ρ, r1, r2, by rw [r3]; exact (polar_sub _ _ _).symm⟩
      · exact ⟨ρ', r1', r2', by rw [r3']; exact (polar_sub _ _ _).symm⟩
    · intro x
      unfold Covers Seg.startAngle Seg.endAngle
      simp only
      constructor
      · rintro ⟨t, t1, t2, rfl⟩
        refine ⟨t + 2 * π, ?_, ?_, (polar_add _ _ _).symm⟩
        · cases hc : s.cw <;> simp [hc] at t1 t2 ⊢ <;> linarith
        · cases hc : s.cw <;> simp [hc] at t1 t2 ⊢ <;> linarith
      · rintro ⟨t, t1, t2, rfl⟩
        refine ⟨t - 2 * π, ?_, ?_, (polar_sub _ _ _).symm⟩
        · cases hc : s.cw <;> simp [hc] at t1 t2 ⊢ <;> linarith
        · cases hc : s.cw <;> simp [hc] at t1 t2 ⊢ <;> linarith
  · rw [if_neg hs] at en
    have ek : subArc s p q a b = ⟨.arc, s.center, p, q, s.radius, a, b, s.cw⟩ := by
      unfold subArc; simp only [en]
    rw [ek]
    refine ⟨?_, ?_⟩
    · constructor
      · rfl
      · exact h.pos
      · unfold Seg.startAngle; cases hc : s.cw <;> simp <;> linarith
      · unfold Seg.startAngle Seg.endAngle; cases hc : s.cw <;> simp_all
      · unfold Seg.endAngle; cases hc : s.cw <;> simp <;> linarith
      · unfold Seg.startAngle Seg.endAngle
        cases hc : s.cw <;> simp <;> linarith
      · exact h.flat
      · exact hp
      · exact hq
    · intro x
      unfold Covers Seg.startAngle Seg.endAngle
      rfl

/-- what remains of an arc after splitting it at the direction `a` -/
theorem restArc_ok {s : Seg} (h : ArcOk s) {p : Point ℝ} {a : ℝ} (hp : EndAt s.center s.radius p a)
    (ha : s.startAngle ≤ a ∧ a ≤ s.endAngle) :
    ArcOk { s with stop := p, eang := a } ∧
    ∀ x, Covers { s with stop := p, eang := a } x ↔
      ∃ t, (if s.cw then a else s.startAngle) ≤ t ∧ t ≤ (if s.cw then s.endAngle else a) ∧
        x = polar s.center s.radius t := by
  obtain ⟨hk, h1, h2, h3, h4, h5, h6, h7, h8⟩ := h
  refine ⟨?_, ?_⟩
  · constructor
    · exact hk
    · exact h1
    · unfold Seg.startAngle at *; cases hc : s.cw <;> simp_all; linarith
    · unfold Seg.startAngle Seg.endAngle at *; cases hc : s.cw <;> simp_all
    · unfold Seg.endAngle at *; cases hc : s.cw <;> simp_all; linarith
    · unfold Seg.startAngle Seg.endAngle at *; cases hc : s.cw <;> simp_all <;> linarith
    · exact h6
    · exact h7
    · exact hp
  · intro x
    unfold Covers Seg.startAngle Seg.endAngle
    simp only [hk]
    cases hc : s.cw <;> simp

/-- a point that faces the arc and passes the tests of `splitArc` -/
theorem taken {s : Seg} (h : ArcOk s) {p : Point ℝ} (hf : Facing s p) (ht : arcTakes s p) :
    EndAt s.center s.radius p (arcParam s p) ∧ s.startAngle ≤ arcParam s p ∧ arcParam s p ≤ s.endAngle := by
  unfold Facing at hf
  rw [h.kind] at hf
  obtain ⟨a, ρ, h1, h2, hρ, rfl⟩ := hf
  rw [arcParam_eq h hρ h1 h2]
  exact ⟨endAt_of_onCircle h.pos hρ ht.1, h1, h2⟩

theorem covers_arc {s : Seg} (hk : s.kind = .arc) (x : Point ℝ) :
    Covers s x ↔ ∃ t, s.startAngle ≤ t ∧ t ≤ s.endAngle ∧ x = polar s.center s.radius t := by
  unfold Covers; rw [hk]

/-- the parts of an arc that is split -/
theorem splitArc_ok {s : Seg} (h : ArcOk s) {pts : List (Point ℝ)} {s' : Seg} {l : List Seg}
    (hf : ∀ p ∈ pts, Facing s p) (hs : splitArc s pts = some (s', l)) :
    (∀ t ∈ s' :: l, ArcOk t ∧ t.center = s.center ∧ t.radius = s.radius ∧ t.cw = s.cw) ∧
    Joined s.start (s' :: l) s.stop ∧ l.length = pts.length ∧
    ∀ x, Covers s x ↔ ∃ t ∈ s' :: l, Covers t x := by
  match pts, hs with
  | [], hs => simp [splitArc] at hs
  | [p], hs =>
    simp only [splitArc] at hs
    split at hs
    · rename_i ht
      obtain ⟨he, h1, h2⟩ := taken h (hf p (by simp)) ht
      obtain ⟨rfl, rfl⟩ := Prod.mk.inj (Option.some.inj hs)
      have hr := restArc_ok h he ⟨h1, h2⟩
      have hle := h.le
      have hu := subArc_ok h he h.last (by
          unfold Seg.startAngle Seg.endAngle at *; cases hc : s.cw <;> simp_all) ⟨h1, h2⟩ (by
          unfold Seg.startAngle Seg.endAngle at *; cases hc : s.cw <;> simp_all)
      refine ⟨?_, ?_, rfl, ?_⟩
      · intro t ht
        rcases List.mem_cons.1 ht with rfl | ht
        · exact ⟨hr.1, rfl, rfl, rfl⟩
        · rw [List.mem_singleton.1 ht]; exact ⟨hu.1, rfl, rfl, rfl⟩
      · exact ⟨rfl, rfl, rfl⟩
      · intro x
        rw [covers_arc h.kind]
        simp only [List.mem_cons, List.not_mem_nil, or_false, exists_eq_or_imp, exists_eq_left]
        rw [hr.2, hu.2]
        constructor
        · rintro ⟨t, t1, t2, rfl⟩
          by_cases hc : t ≤ arcParam s p
          · cases hw : s.cw
            · left; exact ⟨t, by simpa using t1, by simpa using hc, rfl⟩
            · right
              refine ⟨t, ?_, by simpa using hc, rfl⟩
              simp [Seg.startAngle, hw] at t1 ⊢; exact t1
          · cases hw : s.cw
            · right
              refine ⟨t, by simpa using (not_le.1 hc).le, ?_, rfl⟩
              simp [Seg.endAngle, hw] at t2 ⊢; exact t2
            · left; exact ⟨t, by simpa using (not_le.1 hc).le, by simpa using t2, rfl⟩
        · rintro (⟨t, t1, t2, rfl⟩ | ⟨t, t1, t2, rfl⟩)
          · refine ⟨t, ?_, ?_, rfl⟩ <;> cases hw : s.cw <;> simp [hw] at t1 t2 <;> linarith
          · refine ⟨t, ?_, ?_, rfl⟩ <;> cases hw : s.cw <;>
              simp [hw, Seg.startAngle, Seg.endAngle] at t1 t2 h1 h2 ⊢ <;> linarith
    · simp at hs
  | [p, q], hs =>
    simp only [splitArc] at hs
    split at hs
    · rename_i ht
      obtain ⟨he, h1, h2⟩ := taken h (hf p (by simp)) ht.1
      obtain ⟨he', h1', h2'⟩ := taken h (hf q (by simp)) ht.2
      -- the two points in the order of the segment
      obtain ⟨u, v, a, b, hu, hv, ha, hb, hab, hs⟩ : ∃ u v a b, EndAt s.center s.radius u a ∧
          EndAt s.center s.radius v b ∧ (s.startAngle ≤ a ∧ a ≤ s.endAngle) ∧ (s.startAngle ≤ b ∧ b ≤ s.endAngle) ∧
          (if s.cw then b ≤ a else a ≤ b) ∧
          some ({ s with stop := u, eang := a }, [subArc s u v a b, subArc s v s.stop b s.eang]) = some (s', l) := by
        split at hs
        · rename_i hc
          refine ⟨q, p, _, _, he', he, ⟨h1', h2'⟩, ⟨h1, h2⟩, ?_, hs⟩
          rcases hc with ⟨e, hc⟩ | ⟨e, hc⟩ <;> simp [e] <;> linarith
        · rename_i hc
          refine ⟨p, q, _, _, he, he', ⟨h1, h2⟩, ⟨h1', h2'⟩, ?_, hs⟩
          push Not at hc
          cases hw : s.cw
          · simpa using hc.2 hw
          · simpa using hc.1 hw
      obtain ⟨rfl, rfl⟩ := Prod.mk.inj (Option.some.inj hs)
      have hle := h.le
      have hr := restArc_ok h hu ha
      have hm := subArc_ok h hu hv hab ha hb
      have hl := subArc_ok h hv h.last (by
          unfold Seg.startAngle Seg.endAngle at *; cases hc : s.cw <;> simp_all) hb (by
          unfold Seg.startAngle Seg.endAngle at *; cases hc : s.cw <;> simp_all)
      refine ⟨?_, ?_, rfl, ?_⟩
      · intro t ht
        simp only [List.mem_cons, List.not_mem_nil, or_false] at ht
        rcases ht with rfl | rfl | rfl
        · exact ⟨hr.1, rfl, rfl, rfl⟩
        · exact ⟨hm.1, rfl, rfl, rfl⟩
        · exact ⟨hl.1, rfl, rfl, rfl⟩
      · exact ⟨rfl, rfl, rfl, rfl⟩
      · intro x
        rw [covers_arc h.kind]
        simp only [List.mem_cons, List.not_mem_nil, or_false, exists_eq_or_imp, exists_eq_left]
        rw [hr.2, hm.2, hl.2]
        cases hw : s.cw
        · simp only [hw, Seg.startAngle, Seg.endAngle, Bool.false_eq_true, if_false] at *
          constructor
          · rintro ⟨t, t1, t2, rfl⟩
            by_cases c1 : t ≤ a
            · exact Or.inl ⟨t, t1, c1, rfl⟩
            · by_cases c2 : t ≤ b
              · exact Or.inr (Or.inl ⟨t, (not_le.1 c1).le, c2, rfl⟩)
              · exact Or.inr (Or.inr ⟨t, (not_le.1 c2).le, t2, rfl⟩)
          · rintro (⟨t, t1, t2, rfl⟩ | ⟨t, t1, t2, rfl⟩ | ⟨t, t1, t2, rfl⟩)
            · exact ⟨t, t1, by linarith, rfl⟩
            · exact ⟨t, by linarith, by linarith, rfl⟩
            · exact ⟨t, by linarith, t2, rfl⟩
        · simp only [hw, Seg.startAngle, Seg.endAngle, if_true] at *
          constructor
          · rintro ⟨t, t1, t2, rfl⟩
            by_cases c1 : a ≤ t
            · exact Or.inl ⟨t, c1, t2, rfl⟩
            · by_cases c2 : b ≤ t
              · exact Or.inr (Or.inl ⟨t, c2, (not_le.1 c1).le, rfl⟩)
              · exact Or.inr (Or.inr ⟨t, t1, (not_le.1 c2).le, rfl⟩)
          · rintro (⟨t, t1, t2, rfl⟩ | ⟨t, t1, t2, rfl⟩ | ⟨t, t1, t2, rfl⟩)
            · exact ⟨t, by linarith, t2, rfl⟩
            · exact ⟨t, by linarith, by linarith, rfl⟩
            · exact ⟨t, t1, by linarith, rfl⟩
    · simp at hs
  | _ :: _ :: _ :: _, hs => simp [splitArc] at hs

/-- the direction of a point and of another one in the same direction -/
theorem sameDirection_of_atan2 {c p q : Point ℝ} (hp : p.x ≠ c.x ∨ p.y ≠ c.y) (hq : q.x ≠ c.x ∨ q.y ≠ c.y)
    (h : atan2 (p.y - c.y) (p.x - c.x) = atan2 (q.y - c.y) (q.x - c.x)) : SameDirection c p q := by
  have pos : ∀ {u : Point ℝ}, (u.x ≠ c.x ∨ u.y ≠ c.y) → 0 < hyp (u.x - c.x) (u.y - c.y) := by
    intro u hu
    rcases (hyp_nonneg (u.x - c.x) (u.y - c.y)).lt_or_eq with h0 | h0
    · exact h0
    · exfalso
      have h1 := hyp_sq (u.x - c.x) (u.y - c.y)
      rw [← h0] at h1
      have hx : u.x - c.x = 0 := by nlinarith [sq_nonneg (u.x - c.x), sq_nonneg (u.y - c.y)]
      have hy : u.y - c.y = 0 := by nlinarith [sq_nonneg (u.x - c.x), sq_nonneg (u.y - c.y)]
      rcases hu with hu | hu
      · exact hu (by linarith)
      · exact hu (by linarith)
  have p0 := pos hp
  have q0 := pos hq
  refine ⟨hyp (q.x - c.x) (q.y - c.y) / hyp (p.x - c.x) (p.y - c.y), div_pos q0 p0, ?_, ?_⟩
  · have e1 := hyp_cos (q.x - c.x) (q.y - c.y)
    have e2 := hyp_cos (p.x - c.x) (p.y - c.y)
    rw [← h] at e1
    rw [div_mul_eq_mul_div, eq_div_iff p0.ne']
    nlinarith
  · have e1 := hyp_sin (q.x - c.x) (q.y - c.y)
    have e2 := hyp_sin (p.x - c.x) (p.y - c.y)
    rw [← h] at e1
    rw [div_mul_eq_mul_div, eq_div_iff p0.ne']
    nlinarith

/-- a split point of a circle is not its centre (unless the circle is tiny), and it is nearly on the circle -/
theorem endAt_circle {s : Seg} (hr : 0 < s.radius) {p : Point ℝ} (hz : p.z = 0) (h : onCircle s p)
    (hne : p.x ≠ s.center.x ∨ p.y ≠ s.center.y) :
    EndAt s.center s.radius p (atan2 (p.y - s.center.y) (p.x - s.center.x)) := by
  have hp := polar_of s.center p hz
  have h0 : 0 < hyp (p.x - s.center.x) (p.y - s.center.y) := by
    rcases (hyp_nonneg (p.x - s.center.x) (p.y - s.center.y)).lt_or_eq with h0 | h0
    · exact h0
    · exfalso
      have h1 := hyp_sq (p.x - s.center.x) (p.y - s.center.y)
      rw [← h0] at h1
      rcases hne with hu | hu
      · exact hu (by nlinarith [sq_nonneg (p.x - s.center.x), sq_nonneg (p.y - s.center.y)])
      · exact hu (by nlinarith [sq_nonneg (p.x - s.center.x), sq_nonneg (p.y - s.center.y)])
  generalize hyp (p.x - s.center.x) (p.y - s.center.y) = ρ at *
  generalize ha : atan2 (p.y - s.center.y) (p.x - s.center.x) = a at *
  rw [hp] at h ⊢
  exact endAt_of_onCircle hr h0 h

/-- the arc of a circle from `p` to `q` -/
theorem circleArc_eq (s : Seg) (p q : Point ℝ) :
    circleArc s p q =
      let a := atan2 (p.y - s.center.y) (p.x - s.center.x)
      let b := atan2 (q.y - s.center.y) (q.x - s.center.x)
      ⟨.arc, s.center, p, q, s.radius, a, if a > b then b + 2 * π else b, false⟩ := by
  have p1 := atan2_gt (p.y - s.center.y) (p.x - s.center.x)
  have p2 := atan2_le (p.y - s.center.y) (p.x - s.center.x)
  have p3 := atan2_gt (q.y - s.center.y) (q.x - s.center.x)
  have p4 := atan2_le (q.y - s.center.y) (q.x - s.center.x)
  have hpi := Real.pi_pos
  unfold circleArc
  simp only
  rw [normalize_eq p1 (by linarith) (by split <;> linarith) (by split <;> linarith), if_neg]
  rintro ⟨h, -⟩
  linarith

theorem circleArc_ok {s : Seg} (hr : 0 < s.radius) (hc : s.center.z = 0) {p q : Point ℝ}
    (hp : EndAt s.center s.radius p (atan2 (p.y - s.center.y) (p.x - s.center.x)))
    (hq : EndAt s.center s.radius q (atan2 (q.y - s.center.y) (q.x - s.center.x))) : ArcOk (circleArc s p q) := by
  have p1 := atan2_gt (p.y - s.center.y) (p.x - s.center.x)
  have p2 := atan2_le (p.y - s.center.y) (p.x - s.center.x)
  have p3 := atan2_gt (q.y - s.center.y) (q.x - s.center.x)
  have p4 := atan2_le (q.y - s.center.y) (q.x - s.center.x)
  have hpi := Real.pi_pos
  rw [circleArc_eq]
  constructor
  · rfl
  · exact hr
  · exact p1
  · show atan2 _ _ ≤ _; simp only [Seg.endAngle, Bool.false_eq_true, if_false]; split <;> linarith
  · simp only [Seg.endAngle, Bool.false_eq_true, if_false]; split <;> linarith
  · simp only [Seg.startAngle, Seg.endAngle, Bool.false_eq_true, if_false]; split <;> linarith
  · exact hc
  · exact hp
  · simp only
    split
    · obtain ⟨ρ, h1, h2, h3⟩ := hq
      exact ⟨ρ, h1, h2, by rw [polar_add]; exact h3⟩
    · exact hq

/-- every point of the circle has a direction -/
theorem onCircle_polar {c : Point ℝ} {r : ℝ} (hr : 0 < r) {x : Point ℝ} :
    OnCircle c r x ↔ ∃ a, -π < a ∧ a ≤ π ∧ x = polar c r a := by
  constructor
  · rintro ⟨h, hz⟩
    refine ⟨atan2 (x.y - c.y) (x.x - c.x), atan2_gt _ _, atan2_le _ _, ?_⟩
    have e : hyp (x.x - c.x) (x.y - c.y) = r := by
      have h1 := hyp_sq (x.x - c.x) (x.y - c.y)
      have h2 := hyp_nonneg (x.x - c.x) (x.y - c.y)
      unfold planar2 at h
      rw [← h1] at h
      nlinarith
    have := polar_of c x hz
    rwa [e] at this
  · rintro ⟨a, -, -, rfl⟩
    refine ⟨?_, rfl⟩
    unfold planar2 polar pt
    have := Real.sin_sq_add_cos_sq a
    linear_combination r ^ 2 * this

/-- the two arcs of a circle cover it -/
theorem circleArcs_cover {s : Seg} (hr : 0 < s.radius) (hk : s.kind = .circle) {p q : Point ℝ}
    (hne : atan2 (p.y - s.center.y) (p.x - s.center.x) ≠ atan2 (q.y - s.center.y) (q.x - s.center.x)) (x : Point ℝ) :
    Covers s x ↔ Covers (circleArc s q p) x ∨ Covers (circleArc s p q) x := by
  have p1 := atan2_gt (p.y - s.center.y) (p.x - s.center.x)
  have p2 := atan2_le (p.y - s.center.y) (p.x - s.center.x)
  have p3 := atan2_gt (q.y - s.center.y) (q.x - s.center.x)
  have p4 := atan2_le (q.y - s.center.y) (q.x - s.center.x)
  have hpi := Real.pi_pos
  have e0 : Covers s x ↔ OnCircle s.center s.radius x := by unfold Covers; rw [hk]
  rw [e0, circleArc_eq, circleArc_eq, onCircle_polar hr]
  simp only
  generalize atan2 (p.y - s.center.y) (p.x - s.center.x) = α at *
  generalize atan2 (q.y - s.center.y) (q.x - s.center.x) = β at *
  have cov : ∀ (u v : Point ℝ) (lo hi : ℝ), Covers ⟨.arc, s.center, u, v, s.radius, lo, hi, false⟩ x ↔
      ∃ t, lo ≤ t ∧ t ≤ hi ∧ x = polar s.center s.radius t := by
    intro u v lo hi
    unfold Covers Seg.startAngle Seg.endAngle
    simp
  rw [cov, cov]
  constructor
  · rintro ⟨t, t1, t2, rfl⟩
    rcases lt_or_gt_of_ne hne with hlt | hgt
    · rw [if_pos hlt, if_neg (by linarith)]
      by_cases c1 : t < α
      · left; exact ⟨t + 2 * π, by linarith, by linarith, (polar_add _ _ _).symm⟩
      · by_cases c2 : t ≤ β
        · right; exact ⟨t, by linarith, c2, rfl⟩
        · left; exact ⟨t, by linarith, by linarith, rfl⟩
    · rw [if_neg (by linarith), if_pos hgt]
      by_cases c1 : t < β
      · right; exact ⟨t + 2 * π, by linarith, by linarith, (polar_add _ _ _).symm⟩
      · by_cases c2 : t ≤ α
        · left; exact ⟨t, by linarith, c2, rfl⟩
        · right; exact ⟨t, by linarith, by linarith, rfl⟩
  · have fin : ∀ t, -π < t → t < 3 * π → ∃ a, -π < a ∧ a ≤ π ∧ polar s.center s.radius t = polar s.center s.radius a := by
      intro t t1 t2
      by_cases c : t ≤ π
      · exact ⟨t, t1, c, rfl⟩
      · exact ⟨t - 2 * π, by linarith, by linarith, (polar_sub _ _ _).symm⟩
    rintro (⟨t, t1, t2, rfl⟩ | ⟨t, t1, t2, rfl⟩)
    · apply fin
      · linarith
      · split at t2 <;> linarith
    · apply fin
      · linarith
      · split at t2 <;> linarith

/-- the centre is not taken as a split point of a circle of more than a tenth of a micron -/
theorem not_center {s : Seg} (hr : 1e-4 < s.radius) {p : Point ℝ} (h : onCircle s p) :
    p.x ≠ s.center.x ∨ p.y ≠ s.center.y := by
  by_contra hc
  push Not at hc
  unfold onCircle at h
  rw [hc.1, hc.2] at h
  simp only [sub_self, mul_zero, add_zero, zero_sub, abs_neg, not_lt] at h
  rw [abs_of_nonneg (by nlinarith)] at h
  nlinarith

/-- `Split` in terms of the three cases -/
theorem split_cases {s : Seg} {pts : List (Point ℝ)} {r : Seg × List Seg} (h : s.split pts = some r) :
    (pts.length = 1 ∨ pts.length = 2) ∧
    ((s.kind = .line ∧ splitLine s (pts.filter fun p => !(PointMatches p s.start 1e-8 || PointMatches p s.stop 1e-8)) =
        some r) ∨
     (s.kind = .arc ∧ splitArc s (pts.filter fun p => !(PointMatches p s.start 1e-8 || PointMatches p s.stop 1e-8)) =
        some r) ∨
     (s.kind = .circle ∧ splitCircle s pts = some r)) := by
  unfold Seg.split at h
  split at h
  · simp at h
  split at h
  · simp at h
  rename_i hl
  refine ⟨by omega, ?_⟩
  simp only at h
  cases hk : s.kind
  · simp [hk] at h
  · simp only [hk] at h
    split at h
    · simp at h
    · exact Or.inl ⟨rfl, h⟩
  · simp only [hk] at h
    split at h
    · simp at h
    · exact Or.inr (Or.inl ⟨rfl, h⟩)
  · simp only [hk] at h
    exact Or.inr (Or.inr ⟨rfl, h⟩)

theorem splitLine_ok {s : Seg} (hk : s.kind = .line) (h : SegOk s) {pts : List (Point ℝ)} {s' : Seg} {l : List Seg}
    (hz : ∀ p ∈ pts, p.z = 0) (hs : splitLine s pts = some (s', l)) : ∀ t ∈ s' :: l, SegOk t := by
  have hl := h.line hk
  have mk : ∀ u : Point ℝ, u.z = 0 → SegOk { s with stop := u } := by
    intro u hu
    exact ⟨fun _ => ⟨hl.1, hl.2.1, hu⟩, fun e => by simp [hk] at e, fun e => by simp [hk] at e⟩
  match pts, hs with
  | [], hs => simp [splitLine] at hs
  | [p], hs =>
    simp only [splitLine] at hs
    split at hs
    · obtain ⟨rfl, rfl⟩ := Prod.mk.inj (Option.some.inj hs)
      intro t ht
      simp only [List.mem_cons, List.not_mem_nil, or_false] at ht
      rcases ht with rfl | rfl
      · exact mk p (hz p (by simp))
      · exact setLine_ok _ _
    · simp at hs
  | [p, q], hs =>
    simp only [splitLine] at hs
    split at hs
    · obtain ⟨rfl, rfl⟩ := Prod.mk.inj (Option.some.inj hs)
      intro t ht
      simp only [List.mem_cons, List.not_mem_nil, or_false] at ht
      rcases ht with rfl | rfl | rfl
      · apply mk
        split
        · exact hz p (by simp)
        · exact hz q (by simp)
      · exact setLine_ok _ _
      · exact setLine_ok _ _
    · simp at hs
  | _ :: _ :: _ :: _, hs => simp [splitLine] at hs

theorem splitCircle_cases {s : Seg} {pts : List (Point ℝ)} {s' : Seg} {l : List Seg}
    (hs : splitCircle s pts = some (s', l)) :
    ∃ p q, pts = [p, q] ∧ ¬ (|p.x - q.x| < 1e-8 ∧ |p.y - q.y| < 1e-8) ∧ onCircle s p ∧ onCircle s q ∧
      s' = circleArc s q p ∧ l = [circleArc s p q] := by
  match pts, hs with
  | [], hs => simp [splitCircle] at hs
  | [p], hs => simp [splitCircle] at hs
  | [p, q], hs =>
    simp only [splitCircle] at hs
    split at hs
    · simp at hs
    · rename_i h1
      split at hs
      · rename_i h2
        obtain ⟨rfl, rfl⟩ := Prod.mk.inj (Option.some.inj hs)
        exact ⟨p, q, rfl, h1, h2.1, h2.2, rfl, rfl⟩
      · simp at hs
  | _ :: _ :: _ :: _, hs => simp [splitCircle] at hs

/-- every segment a program can have meets the invariant -/
theorem made_ok {s : Seg} (h : Made s) : SegOk s := by
  induction h with
  | line h => have := setLine_ok; rename_i a b s; have := this a b; rw [h] at this; exact this
  | arc h => exact setArc_segOk h
  | reverse _ ih => exact reverse_segOk ih
  | split _ hs hf ht ih =>
    obtain ⟨-, h⟩ := split_cases hs
    rcases h with ⟨hk, h⟩ | ⟨hk, h⟩ | ⟨hk, h⟩
    · exact splitLine_ok hk ih (fun p hp => (hf p (List.mem_filter.1 hp).1).1) h _ ht
    · exact ((splitArc_ok (ih.arc hk) (fun p hp => (hf p (List.mem_filter.1 hp).1).2) h).1 _ ht).1.seg
    · obtain ⟨p, q, rfl, h1, h2, h3, rfl, rfl⟩ := splitCircle_cases h
      obtain ⟨hr, hc, -⟩ := ih.circle hk
      have fp := hf p (by simp)
      have fq := hf q (by simp)
      unfold Facing at fp fq
      rw [hk] at fp fq
      have ep := endAt_circle hr fp.1 h2 fp.2
      have eq := endAt_circle hr fq.1 h3 fq.2
      simp only [List.mem_cons, List.not_mem_nil, or_false] at ht
      rcases ht with rfl | rfl
      · exact (circleArc_ok hr hc eq ep).seg
      · exact (circleArc_ok hr hc ep eq).seg

end Iges.Geo
