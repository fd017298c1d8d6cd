import Verif.Props.Segment
/-
C65: splitting a segment.
-/
namespace Iges.Props
open Iges.Geo Iges.Spec Real

theorem normDown_diff (a b : ℝ) : (normDown a b).2 - (normDown a b).1 = b - a := by
  induction a, b using normDown.induct with
  | case1 a b h ih => rw [normDown_eq h, ih]; ring
  | case2 a b h => rw [normDown_stop h]

theorem normUp_diff (a b : ℝ) : (normUp a b).2 - (normUp a b).1 = b - a := by
  induction a, b using normUp.induct with
  | case1 a b h ih => rw [normUp, dif_pos h, ih]; ring
  | case2 a b h => rw [normUp_stop h]

theorem normalize_diff (a b : ℝ) : (Geo.normalize a b).2 - (Geo.normalize a b).1 = b - a := by
  unfold Geo.normalize
  simp only
  rw [normUp_diff, normDown_diff]

theorem length_subArc (s : Seg) (p q : Point ℝ) (a b : ℝ) :
    (subArc s p q a b).length = (if s.cw then a - b else b - a) * s.radius := by
  have := normalize_diff a b
  unfold subArc Seg.length Seg.startAngle Seg.endAngle
  simp only
  cases s.cw <;> simp only [if_true, if_false, Bool.false_eq_true] <;> congr 1; linarith

theorem length_restArc {s : Seg} (hk : s.kind = .arc) (p : Point ℝ) (a : ℝ) :
    ({ s with stop := p, eang := a } : Seg).length = (if s.cw then s.sang - a else a - s.sang) * s.radius := by
  unfold Seg.length Seg.startAngle Seg.endAngle
  simp only [hk]
  cases s.cw <;> simp

theorem length_arc {s : Seg} (hk : s.kind = .arc) :
    s.length = (if s.cw then s.sang - s.eang else s.eang - s.sang) * s.radius := by
  unfold Seg.length Seg.startAngle Seg.endAngle
  simp only [hk]
  cases s.cw <;> simp

theorem splitArc_length {s : Seg} (hk : s.kind = .arc) {pts : List (Point ℝ)} {s' : Seg} {l : List Seg}
    (hs : splitArc s pts = some (s', l)) : ((s' :: l).map Seg.length).sum = s.length := by
  match pts, hs with
  | [], hs => simp [splitArc] at hs
  | [p], hs =>
    simp only [splitArc] at hs
    split at hs
    · obtain ⟨rfl, rfl⟩ := Prod.mk.inj (Option.some.inj hs)
      simp only [List.map_cons, List.map_nil, List.sum_cons, List.sum_nil]
      rw [length_restArc hk, length_subArc, length_arc hk]
      cases s.cw <;> simp <;> ring
    · simp at hs
  | [p, q], hs =>
    simp only [splitArc] at hs
    split at hs
    · split at hs <;>
      · obtain ⟨rfl, rfl⟩ := Prod.mk.inj (Option.some.inj hs)
        simp only [List.map_cons, List.map_nil, List.sum_cons, List.sum_nil]
        rw [length_restArc hk, length_subArc, length_subArc, length_arc hk]
        cases s.cw <;> simp <;> ring
    · simp at hs
  | _ :: _ :: _ :: _, hs => simp [splitArc] at hs

/-- C65. Splitting an arc at one or two points in directions of the arc gives arcs of the same circle and the same sense
that run end to end from its start to its end, have exactly its points and together its length; there is one arc more
than points that do not match its ends. -/
theorem C65_arc {s s' : Seg} {l : List Seg} {pts : List (Point ℝ)} (h : Made s) (hk : s.kind = .arc)
    (hf : ∀ p ∈ pts, Facing s p) (hs : s.split pts = some (s', l)) :
    Divides s (s' :: l) ∧ Joined s.start (s' :: l) s.stop ∧
    (∀ t ∈ s' :: l, t.kind = .arc ∧ t.center = s.center ∧ t.radius = s.radius ∧ t.cw = s.cw) ∧
    l.length = (pts.filter fun p => !(PointMatches p s.start 1e-8 || PointMatches p s.stop 1e-8)).length := by
  have hok := (made_ok h).arc hk
  obtain ⟨-, ⟨e, -⟩ | ⟨-, h⟩ | ⟨e, -⟩⟩ := split_cases hs
  · rw [hk] at e; cases e
  · have hl := splitArc_length hk h
    obtain ⟨h1, h2, h3, h4⟩ := splitArc_ok hok (fun p hp => hf p (List.mem_filter.1 hp).1) h
    exact ⟨⟨h4, hl, fun t ht => by simp [(h1 t ht).1.kind]⟩, h2,
      fun t ht => ⟨(h1 t ht).1.kind, (h1 t ht).2⟩, h3⟩
  · rw [hk] at e; cases e

/-- C65. On an arc whose start angle is at most π — every counterclockwise arc, and every clockwise arc that is not what
splitting left over — the points that `Split` takes are in directions of the arc. -/
theorem C65_arc_taken {s s' : Seg} {l : List Seg} {pts : List (Point ℝ)} (hk : s.kind = .arc) (hlow : s.startAngle ≤ π)
    (hs : s.split pts = some (s', l)) {p : Point ℝ} (hp : p ∈ pts) (hz : p.z = 0)
    (hc : p.x ≠ s.center.x ∨ p.y ≠ s.center.y)
    (hin : PointMatches p s.start 1e-8 = false) (hout : PointMatches p s.stop 1e-8 = false) : Facing s p := by
  have key : arcTakes s p → Facing s p := by
    intro ht
    have e := polar_of s.center p hz
    have hpos : 0 < hyp (p.x - s.center.x) (p.y - s.center.y) := by
      rcases (hyp_nonneg (p.x - s.center.x) (p.y - s.center.y)).lt_or_eq with h0 | h0
      · exact h0
      · exfalso
        have h2 := hyp_sq (p.x - s.center.x) (p.y - s.center.y)
        rw [← h0] at h2
        rcases hc with hc | hc
        · have : 0 < (p.x - s.center.x) ^ 2 := by have := sub_ne_zero.2 hc; positivity
          nlinarith [sq_nonneg (p.y - s.center.y)]
        · have : 0 < (p.y - s.center.y) ^ 2 := by have := sub_ne_zero.2 hc; positivity
          nlinarith [sq_nonneg (p.x - s.center.x)]
    have hp1 := atan2_gt (p.y - s.center.y) (p.x - s.center.x)
    have h2 := not_lt.1 ht.2
    unfold arcParam at h2
    simp only at h2
    unfold Facing
    rw [hk]
    simp only
    split at h2
    · refine ⟨atan2 (p.y - s.center.y) (p.x - s.center.x) + 2 * π, _, by linarith, h2, hpos, ?_⟩
      rw [polar_add]; exact e
    · rename_i hn
      exact ⟨_, _, not_lt.1 hn, h2, hpos, e⟩
  apply key
  obtain ⟨-, ⟨e, -⟩ | ⟨-, h⟩ | ⟨e, -⟩⟩ := split_cases hs
  · rw [hk] at e; cases e
  · have hm : p ∈ pts.filter fun p => !(PointMatches p s.start 1e-8 || PointMatches p s.stop 1e-8) :=
      List.mem_filter.2 ⟨hp, by simp [hin, hout]⟩
    match hq : (pts.filter fun p => !(PointMatches p s.start 1e-8 || PointMatches p s.stop 1e-8)), h with
    | [], h => simp [splitArc] at h
    | [u], h =>
      rw [hq] at hm
      simp only [splitArc] at h
      split at h
      · rename_i ht; rw [List.mem_singleton.1 hm]; exact ht
      · simp at h
    | [u, v], h =>
      rw [hq] at hm
      simp only [splitArc] at h
      split at h
      · rename_i ht
        simp only [List.mem_cons, List.not_mem_nil, or_false] at hm
        rcases hm with rfl | rfl
        · exact ht.1
        · exact ht.2
      · simp at h
    | _ :: _ :: _ :: _, h => simp [splitArc] at h
  · rw [hk] at e; cases e

/-- C65. An arc can be split at any one or two of its points, unless they match its ends. -/
theorem C65_arc_accepts {s : Seg} {pts : List (Point ℝ)} (h : Made s) (hk : s.kind = .arc)
    (hn : pts.length = 1 ∨ pts.length = 2) (hp : ∀ p ∈ pts, Covers s p)
    (hin : ∃ p ∈ pts, PointMatches p s.start 1e-8 = false ∧ PointMatches p s.stop 1e-8 = false) :
    ∃ r, s.split pts = some r := by
  have hok := (made_ok h).arc hk
  have key : ∀ p ∈ pts, arcTakes s p := by
    intro p hpp
    obtain ⟨a, h1, h2, rfl⟩ := (covers_arc hk p).1 (hp p hpp)
    refine ⟨?_, by rw [arcParam_eq hok hok.pos h1 h2]; exact not_lt.2 h2⟩
    unfold onCircle polar pt
    simp only [add_sub_cancel_left]
    have := Real.sin_sq_add_cos_sq a
    rw [show s.radius * cos a * (s.radius * cos a) + s.radius * sin a * (s.radius * sin a) - s.radius * s.radius = 0 by
      linear_combination s.radius ^ 2 * this]
    norm_num
  obtain ⟨p, hpp, h1, h2⟩ := hin
  have hm : p ∈ pts.filter fun p => !(PointMatches p s.start 1e-8 || PointMatches p s.stop 1e-8) :=
    List.mem_filter.2 ⟨hpp, by simp [h1, h2]⟩
  have hsub : ∀ q ∈ pts.filter fun p => !(PointMatches p s.start 1e-8 || PointMatches p s.stop 1e-8), arcTakes s q :=
    fun q hq => key q (List.mem_filter.1 hq).1
  have hlen := List.length_filter_le (fun p => !(PointMatches p s.start 1e-8 || PointMatches p s.stop 1e-8)) pts
  unfold Seg.split
  rw [if_neg (by rw [hk]; simp), if_neg (by omega)]
  simp only [hk]
  generalize (pts.filter fun p => !(PointMatches p s.start 1e-8 || PointMatches p s.stop 1e-8)) = w at *
  match w, hm, hsub, hlen with
  | [u], hm, hsub, _ =>
    simp only [splitArc, if_neg (List.cons_ne_nil _ _)]
    rw [if_pos (hsub u (by simp))]
    exact ⟨_, rfl⟩
  | [u, v], hm, hsub, _ =>
    simp only [splitArc, if_neg (List.cons_ne_nil _ _)]
    rw [if_pos ⟨hsub u (by simp), hsub v (by simp)⟩]
    exact ⟨_, rfl⟩
  | _ :: _ :: _ :: _, _, _, hlen => simp only [List.length_cons] at hlen; omega

/-- C65. Splitting a circle at two points in different directions gives two counterclockwise arcs, from each point to
the other, that have exactly its points and together its length. -/
theorem C65_circle {s s' : Seg} {l : List Seg} {pts : List (Point ℝ)} (h : Made s) (hk : s.kind = .circle)
    (hf : ∀ p ∈ pts, p.z = 0 ∧ Facing s p) (hd : ∀ p ∈ pts, ∀ q ∈ pts, SameDirection s.center p q → p = q)
    (hs : s.split pts = some (s', l)) :
    ∃ p q t, pts = [p, q] ∧ l = [t] ∧ Divides s [s', t] ∧ s'.start = q ∧ s'.stop = p ∧ t.start = p ∧ t.stop = q ∧
      ∀ u ∈ [s', t], u.kind = .arc ∧ u.center = s.center ∧ u.radius = s.radius ∧ u.cw = false := by
  have hok := made_ok h
  obtain ⟨-, ⟨e, -⟩ | ⟨e, -⟩ | ⟨-, h⟩⟩ := split_cases hs
  · rw [hk] at e; cases e
  · rw [hk] at e; cases e
  obtain ⟨p, q, rfl, h1, h2, h3, rfl, rfl⟩ := splitCircle_cases h
  obtain ⟨hr, hc, -⟩ := hok.circle hk
  have fp := hf p (by simp)
  have fq := hf q (by simp)
  unfold Facing at fp fq
  rw [hk] at fp fq
  have hne : atan2 (p.y - s.center.y) (p.x - s.center.x) ≠ atan2 (q.y - s.center.y) (q.x - s.center.x) := by
    intro e
    have := hd p (by simp) q (by simp) (sameDirection_of_atan2 fp.2 fq.2 e)
    apply h1
    rw [this]; norm_num
  refine ⟨p, q, circleArc s p q, rfl, rfl, ⟨?_, ?_, ?_⟩, rfl, rfl, rfl, rfl, ?_⟩
  · intro x
    rw [circleArcs_cover hr hk hne]
    simp
  · simp only [List.map_cons, List.map_nil, List.sum_cons, List.sum_nil]
    rw [circleArc_eq, circleArc_eq]
    unfold Seg.length Seg.startAngle Seg.endAngle
    simp only [hk, Bool.false_eq_true, if_false]
    rcases lt_or_gt_of_ne hne with h | h
    · rw [if_pos h, if_neg (not_lt.2 h.le)]; ring
    · rw [if_pos h, if_neg (not_lt.2 h.le)]; ring
  · intro t ht
    simp only [List.mem_cons, List.not_mem_nil, or_false] at ht
    rcases ht with rfl | rfl <;> simp [circleArc]
  · intro t ht
    simp only [List.mem_cons, List.not_mem_nil, or_false] at ht
    rcases ht with rfl | rfl <;> simp [circleArc]

/-- the point of a line at a parameter -/
def at_ (s : Seg) (t : ℝ) : Point ℝ :=
  pt (s.start.x + t * (s.stop.x - s.start.x)) (s.start.y + t * (s.stop.y - s.start.y))

theorem lineParam_at {s : Seg} (hne : s.start.x ≠ s.stop.x ∨ s.start.y ≠ s.stop.y) (t : ℝ) :
    lineParam s (at_ s t) = t := by
  unfold lineParam at_ pt
  split
  · rename_i h
    have : s.stop.y - s.start.y ≠ 0 := by
      intro e; rw [e, abs_zero] at h; exact absurd h (not_lt.2 (abs_nonneg _))
    simp only
    field_simp
    ring
  · rename_i h
    have : s.stop.x - s.start.x ≠ 0 := by
      intro e
      rw [e, abs_zero, not_lt] at h
      have h0 := abs_nonpos_iff.1 h
      rcases hne with hne | hne
      · exact hne (by linarith)
      · exact hne (by linarith)
    simp only
    field_simp
    ring

theorem hyp_scale {k x y : ℝ} (hk : 0 ≤ k) : hyp (k * x) (k * y) = k * hyp x y := by
  unfold hyp
  rw [show k * x * (k * x) + k * y * (k * y) = k ^ 2 * (x * x + y * y) by ring, Real.sqrt_mul (sq_nonneg k),
    Real.sqrt_sq hk]

/-- one piece of a line -/
theorem piece_points (s : Seg) {u v : ℝ} (huv : u < v) (x : Point ℝ) :
    OnLine (at_ s u) (at_ s v) x ↔ ∃ t, u ≤ t ∧ t ≤ v ∧ x = at_ s t := by
  unfold OnLine
  constructor
  · rintro ⟨t, t1, t2, rfl⟩
    refine ⟨u + t * (v - u), by nlinarith, by nlinarith, ?_⟩
    unfold at_ pt
    ext <;> simp only <;> ring
  · rintro ⟨t, t1, t2, rfl⟩
    have hvu : 0 < v - u := by linarith
    refine ⟨(t - u) / (v - u), div_nonneg (by linarith) hvu.le, by rw [div_le_one hvu]; linarith, ?_⟩
    unfold at_ pt
    ext
    · simp only; field_simp; ring
    · simp only; field_simp; ring
    · rfl

theorem piece_length (s : Seg) {u v : ℝ} (huv : u ≤ v) :
    hyp ((at_ s v).x - (at_ s u).x) ((at_ s v).y - (at_ s u).y) =
      (v - u) * hyp (s.stop.x - s.start.x) (s.stop.y - s.start.y) := by
  rw [← hyp_scale (by linarith)]
  unfold at_ pt
  congr 1 <;> simp only <;> ring

/-- C65. Splitting a line at one or two of its points that do not match each other gives lines that run end to end from
its start to its end, have exactly its points and together its length; there is one line more than points that do not
match its ends. -/
theorem C65_line {s s' : Seg} {l : List Seg} {pts : List (Point ℝ)} (h : Made s) (hk : s.kind = .line)
    (hp : ∀ p ∈ pts, Covers s p) (hd : pts.Pairwise fun p q => PointMatches p q 1e-8 = false)
    (hs : s.split pts = some (s', l)) :
    Divides s (s' :: l) ∧ Joined s.start (s' :: l) s.stop ∧ (∀ t ∈ s' :: l, t.kind = .line) ∧
    l.length = (pts.filter fun p => !(PointMatches p s.start 1e-8 || PointMatches p s.stop 1e-8)).length := by
  obtain ⟨hcw, hz1, hz2⟩ := (made_ok h).line hk
  have gs : s.getStart = s.start := by unfold Seg.getStart; rw [hcw]; rfl
  have ge : s.getEnd = s.stop := by unfold Seg.getEnd; rw [hcw]; rfl
  have hcov : ∀ x, Covers s x ↔ ∃ t, 0 ≤ t ∧ t ≤ 1 ∧ x = at_ s t := by
    intro x; unfold Covers; rw [hk]; simp only [gs, ge]; rfl
  have a0 : at_ s 0 = s.start := by unfold at_ pt; ext <;> simp [hz1]
  have a1 : at_ s 1 = s.stop := by unfold at_ pt; ext <;> simp [hz2]
  obtain ⟨-, ⟨-, h⟩ | ⟨e, -⟩ | ⟨e, -⟩⟩ := split_cases hs
  swap
  · rw [hk] at e; cases e
  swap
  · rw [hk] at e; cases e
  have hp' : ∀ p ∈ pts.filter fun p => !(PointMatches p s.start 1e-8 || PointMatches p s.stop 1e-8),
      (∃ t, 0 < t ∧ t < 1 ∧ p = at_ s t) ∧ PointMatches p s.stop 1e-8 = false := by
    intro p hpp
    obtain ⟨h1, h2⟩ := List.mem_filter.1 hpp
    simp only [Bool.not_eq_true', Bool.or_eq_false_iff] at h2
    obtain ⟨t, t1, t2, rfl⟩ := (hcov p).1 (hp p h1)
    refine ⟨⟨t, lt_of_le_of_ne t1 ?_, lt_of_le_of_ne t2 ?_, rfl⟩, h2.2⟩
    · rintro rfl
      rw [a0, C51_reflexive] at h2
      simp at h2
    · rintro rfl
      rw [a1, C51_reflexive] at h2
      simp at h2
  have hd' := hd.sublist (List.filter_sublist (p := fun p => !(PointMatches p s.start 1e-8 || PointMatches p s.stop 1e-8)))
  clear hp hd hs
  generalize (pts.filter fun p => !(PointMatches p s.start 1e-8 || PointMatches p s.stop 1e-8)) = w at *
  have hne : ∀ {t : ℝ}, PointMatches (at_ s t) s.stop 1e-8 = false → s.start.x ≠ s.stop.x ∨ s.start.y ≠ s.stop.y := by
    intro t ht
    by_contra hc
    push Not at hc
    have : at_ s t = s.stop := by unfold at_ pt; ext <;> simp [hc.1, hc.2, hz2]
    rw [this, C51_reflexive] at ht
    cases ht
  -- the pieces
  have rest : ∀ {t : ℝ}, 0 < t → (∀ x, Covers { s with stop := at_ s t } x ↔ ∃ k, 0 ≤ k ∧ k ≤ t ∧ x = at_ s k) ∧
      ({ s with stop := at_ s t } : Seg).length = t * hyp (s.stop.x - s.start.x) (s.stop.y - s.start.y) := by
    intro t ht
    constructor
    · intro x
      rw [← piece_points s ht x, a0]
      unfold Covers Seg.getStart Seg.getEnd
      simp [hk, hcw]
    · have := piece_length s (u := 0) (v := t) ht.le
      rw [a0, sub_zero] at this
      rw [← this]
      unfold Seg.length
      simp [hk]
  have mid : ∀ {u v : ℝ}, u < v → PointMatches (at_ s u) (at_ s v) 1e-8 = false →
      (setLine (at_ s u) (at_ s v)).1.kind = .line ∧ (setLine (at_ s u) (at_ s v)).1.start = at_ s u ∧
      (setLine (at_ s u) (at_ s v)).1.stop = at_ s v ∧
      (∀ x, Covers (setLine (at_ s u) (at_ s v)).1 x ↔ ∃ k, u ≤ k ∧ k ≤ v ∧ x = at_ s k) ∧
      (setLine (at_ s u) (at_ s v)).1.length = (v - u) * hyp (s.stop.x - s.start.x) (s.stop.y - s.start.y) := by
    intro u v huv hm
    have : setLine (at_ s u) (at_ s v) = ({ Seg.init with start := at_ s u, stop := at_ s v, kind := .line }, true) := by
      unfold setLine
      rw [if_neg (by simp [at_, pt]), if_neg (by simp [hm])]
    rw [this]
    refine ⟨rfl, rfl, rfl, ?_, ?_⟩
    · intro x
      rw [← piece_points s huv x]
      unfold Covers Seg.getStart Seg.getEnd Seg.init
      simp
    · rw [← piece_length s huv.le]
      rfl
  match w, h, hp', hd' with
  | [], h, _, _ => simp [splitLine] at h
  | [p], h, hp', _ =>
    simp only [splitLine] at h
    split at h
    · obtain ⟨rfl, rfl⟩ := Prod.mk.inj (Option.some.inj h)
      obtain ⟨⟨t, t1, t2, rfl⟩, hm⟩ := hp' p (by simp)
      obtain ⟨r1, r2⟩ := rest t1
      have := mid t2 (by rw [a1]; exact hm)
      rw [a1] at this
      obtain ⟨m1, m2, m3, m4, m5⟩ := this
      refine ⟨⟨?_, ?_, ?_⟩, ⟨rfl, m2, m3⟩, ?_, rfl⟩
      · intro x
        rw [hcov]
        simp only [List.mem_cons, List.not_mem_nil, or_false, exists_eq_or_imp, exists_eq_left]
        rw [r1, m4]
        constructor
        · rintro ⟨k, k1, k2, rfl⟩
          by_cases hc : k ≤ t
          · exact Or.inl ⟨k, k1, hc, rfl⟩
          · exact Or.inr ⟨k, (not_le.1 hc).le, k2, rfl⟩
        · rintro (⟨k, k1, k2, rfl⟩ | ⟨k, k1, k2, rfl⟩)
          · exact ⟨k, k1, by linarith, rfl⟩
          · exact ⟨k, by linarith, k2, rfl⟩
      · simp only [List.map_cons, List.map_nil, List.sum_cons, List.sum_nil]
        rw [r2, m5]
        have : s.length = hyp (s.stop.x - s.start.x) (s.stop.y - s.start.y) := by unfold Seg.length; simp [hk]
        rw [this]; ring
      · intro x hx
        simp only [List.mem_cons, List.not_mem_nil, or_false] at hx
        rcases hx with rfl | rfl
        · simp [hk]
        · simp [m1]
      · intro x hx
        simp only [List.mem_cons, List.not_mem_nil, or_false] at hx
        rcases hx with rfl | rfl
        · exact hk
        · exact m1
    · simp at h
  | [p, q], h, hp', hd' =>
    simp only [splitLine] at h
    split at h
    · obtain ⟨⟨t, t1, t2, rfl⟩, hm⟩ := hp' p (by simp)
      obtain ⟨⟨u, u1, u2, rfl⟩, hm'⟩ := hp' q (by simp)
      have hpq : PointMatches (at_ s t) (at_ s u) 1e-8 = false := by
        have := (List.pairwise_cons.1 hd').1 (at_ s u) (by simp)
        exact this
      have htu : t ≠ u := by rintro rfl; rw [C51_reflexive] at hpq; cases hpq
      rw [lineParam_at (hne hm), lineParam_at (hne hm)] at h
      obtain ⟨v, w, v1, v2, w2, hvm, hwm, h⟩ : ∃ v w, 0 < v ∧ v < w ∧ w < 1 ∧
          PointMatches (at_ s v) (at_ s w) 1e-8 = false ∧ PointMatches (at_ s w) s.stop 1e-8 = false ∧
          some ({ s with stop := at_ s v }, [(setLine (at_ s v) (at_ s w)).1, (setLine (at_ s w) s.stop).1]) =
            some (s', l) := by
        rcases lt_or_gt_of_ne htu with hc | hc
        · rw [if_pos hc] at h
          exact ⟨t, u, t1, hc, u2, hpq, hm', h⟩
        · rw [if_neg (not_lt.2 hc.le)] at h
          exact ⟨u, t, u1, hc, t2, by rw [C51_symmetric]; exact hpq, hm, h⟩
      obtain ⟨rfl, rfl⟩ := Prod.mk.inj (Option.some.inj h)
      obtain ⟨r1, r2⟩ := rest v1
      obtain ⟨m1, m2, m3, m4, m5⟩ := mid v2 hvm
      have := mid w2 (by rw [a1]; exact hwm)
      rw [a1] at this
      obtain ⟨n1, n2, n3, n4, n5⟩ := this
      refine ⟨⟨?_, ?_, ?_⟩, ⟨rfl, m2, by rw [m3]; exact n2, n3⟩, ?_, rfl⟩
      · intro x
        rw [hcov]
        simp only [List.mem_cons, List.not_mem_nil, or_false, exists_eq_or_imp, exists_eq_left]
        rw [r1, m4, n4]
        constructor
        · rintro ⟨k, k1, k2, rfl⟩
          by_cases hc : k ≤ v
          · exact Or.inl ⟨k, k1, hc, rfl⟩
          · by_cases hc' : k ≤ w
            · exact Or.inr (Or.inl ⟨k, (not_le.1 hc).le, hc', rfl⟩)
            · exact Or.inr (Or.inr ⟨k, (not_le.1 hc').le, k2, rfl⟩)
        · rintro (⟨k, k1, k2, rfl⟩ | ⟨k, k1, k2, rfl⟩ | ⟨k, k1, k2, rfl⟩)
          · exact ⟨k, k1, by linarith, rfl⟩
          · exact ⟨k, by linarith, by linarith, rfl⟩
          · exact ⟨k, by linarith, k2, rfl⟩
      · simp only [List.map_cons, List.map_nil, List.sum_cons, List.sum_nil]
        rw [r2, m5, n5]
        have : s.length = hyp (s.stop.x - s.start.x) (s.stop.y - s.start.y) := by unfold Seg.length; simp [hk]
        rw [this]; ring
      · intro x hx
        simp only [List.mem_cons, List.not_mem_nil, or_false] at hx
        rcases hx with rfl | rfl | rfl
        · simp [hk]
        · simp [m1]
        · simp [n1]
      · intro x hx
        simp only [List.mem_cons, List.not_mem_nil, or_false] at hx
        rcases hx with rfl | rfl | rfl
        · exact hk
        · exact m1
        · exact n1
    · simp at h
  | _ :: _ :: _ :: _, h, _, _ => simp [splitLine] at h

/-- C65. A line can be split at any one or two of its points, unless they match its ends. -/
theorem C65_line_accepts {s : Seg} {pts : List (Point ℝ)} (h : Made s) (hk : s.kind = .line)
    (hn : pts.length = 1 ∨ pts.length = 2) (hp : ∀ p ∈ pts, Covers s p)
    (hin : ∃ p ∈ pts, PointMatches p s.start 1e-8 = false ∧ PointMatches p s.stop 1e-8 = false) :
    ∃ r, s.split pts = some r := by
  obtain ⟨hcw, hz1, hz2⟩ := (made_ok h).line hk
  have gs : s.getStart = s.start := by unfold Seg.getStart; rw [hcw]; rfl
  have ge : s.getEnd = s.stop := by unfold Seg.getEnd; rw [hcw]; rfl
  have hcov : ∀ x, Covers s x → ∃ t, 0 ≤ t ∧ t ≤ 1 ∧ x = at_ s t := by
    intro x hx; unfold Covers at hx; rw [hk] at hx; simp only [gs, ge] at hx; exact hx
  obtain ⟨p, hpp, h1, h2⟩ := hin
  have hne : s.start.x ≠ s.stop.x ∨ s.start.y ≠ s.stop.y := by
    by_contra hc
    push Not at hc
    obtain ⟨t, -, -, rfl⟩ := hcov p (hp p hpp)
    have : at_ s t = s.stop := by unfold at_ pt; ext <;> simp [hc.1, hc.2, hz2]
    rw [this, C51_reflexive] at h2
    cases h2
  have key : ∀ p ∈ pts, lineTakes s p := by
    intro p hpp
    obtain ⟨t, t1, t2, rfl⟩ := hcov p (hp p hpp)
    unfold lineTakes
    rw [lineParam_at hne]
    refine ⟨by push Not; exact ⟨t1, t2⟩, ?_⟩
    have e : ∀ u v : ℝ, |t * u + v - (v + t * u)| = 0 := by intro u v; rw [abs_eq_zero]; ring
    unfold at_ pt
    simp only [e]
    split <;> norm_num
  have hm : p ∈ pts.filter fun p => !(PointMatches p s.start 1e-8 || PointMatches p s.stop 1e-8) :=
    List.mem_filter.2 ⟨hpp, by simp [h1, h2]⟩
  have hsub : ∀ q ∈ pts.filter fun p => !(PointMatches p s.start 1e-8 || PointMatches p s.stop 1e-8), lineTakes s q :=
    fun q hq => key q (List.mem_filter.1 hq).1
  have hlen := List.length_filter_le (fun p => !(PointMatches p s.start 1e-8 || PointMatches p s.stop 1e-8)) pts
  unfold Seg.split
  rw [if_neg (by rw [hk]; simp), if_neg (by omega)]
  simp only [hk]
  generalize (pts.filter fun p => !(PointMatches p s.start 1e-8 || PointMatches p s.stop 1e-8)) = w at *
  match w, hm, hsub, hlen with
  | [u], hm, hsub, _ =>
    simp only [splitLine, if_neg (List.cons_ne_nil _ _)]
    rw [if_pos (hsub u (by simp))]
    exact ⟨_, rfl⟩
  | [u, v], hm, hsub, _ =>
    simp only [splitLine, if_neg (List.cons_ne_nil _ _)]
    rw [if_pos ⟨hsub u (by simp), hsub v (by simp)⟩]
    exact ⟨_, rfl⟩
  | _ :: _ :: _ :: _, _, _, hlen => simp only [List.length_cons] at hlen; omega

/-- C65. A circle can be split at any two of its points that differ by 1e-8 in a coordinate. -/
theorem C65_circle_accepts {s : Seg} {p q : Point ℝ} (hk : s.kind = .circle) (hp : Covers s p) (hq : Covers s q)
    (hd : 1e-8 ≤ |p.x - q.x| ∨ 1e-8 ≤ |p.y - q.y|) : ∃ r, s.split [p, q] = some r := by
  have key : ∀ {p : Point ℝ}, Covers s p → onCircle s p := by
    intro p hp
    unfold Covers at hp
    rw [hk] at hp
    obtain ⟨hp, -⟩ := hp
    unfold planar2 at hp
    unfold onCircle
    rw [show (p.x - s.center.x) * (p.x - s.center.x) + (p.y - s.center.y) * (p.y - s.center.y) - s.radius * s.radius = 0 by
      linear_combination hp]
    norm_num
  unfold Seg.split
  rw [if_neg (by rw [hk]; simp), if_neg (by simp)]
  simp only [hk, splitCircle]
  rw [if_neg, if_pos ⟨key hp, key hq⟩]
  · exact ⟨_, rfl⟩
  · rintro ⟨h1, h2⟩
    rcases hd with h | h
    · exact absurd h1 (not_lt.2 h)
    · exact absurd h2 (not_lt.2 h)

/-- C65. A segment that is not set, no points and more than two points are refused. -/
theorem C65_refused (s : Seg) (pts : List (Point ℝ)) (h : s.kind = .none ∨ pts = [] ∨ 2 < pts.length) :
    s.split pts = none := by
  unfold Seg.split
  rcases h with h | h | h
  · rw [if_pos h]
  · split
    · rfl
    · rw [if_pos (by simp [h])]
  · split
    · rfl
    · rw [if_pos (Or.inr h)]

end Iges.Props
