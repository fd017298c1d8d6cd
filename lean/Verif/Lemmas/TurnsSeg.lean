import Verif.Lemmas.TurnsCount
import Verif.Lemmas.Inside
import Verif.Spec.Turns
/- Segments as curves: how often an outline goes round a point (Spec/Turns.lean), by the crossings of Lemmas/Turns.lean. -/
namespace Iges.Turn
open Iges.Geo Iges.Spec Iges.Props Real Filter Topology Classical

/-- the place of a point in the plane -/
def plane (p : Point ℝ) : ℝ × ℝ := (p.x, p.y)

theorem pt_plane {p : Point ℝ} (h : p.z = 0) : pt (plane p).1 (plane p).2 = p := by
  obtain ⟨x, y, z⟩ := p; simp only at h; subst h; rfl

theorem plane_pt (x y : ℝ) : plane (pt x y) = (x, y) := rfl

theorem plane_polar (c : Point ℝ) (r a : ℝ) : plane (polar c r a) = rim (plane c) r a := rfl

theorem plane_inj {p q : Point ℝ} (hp : p.z = 0) (hq : q.z = 0) (h : plane p = plane q) : p = q := by
  rw [← pt_plane hp, ← pt_plane hq, h]

theorem d2_plane (p c : Point ℝ) : d2 (plane c) (plane p) = planar2 p c := rfl

/-- the curve of a segment -/
noncomputable def curve (s : Seg) : Curve :=
  if s.kind = .arc then .arc (plane s.center) s.radius s.sang s.eang else .line (plane s.start) (plane s.stop)

/-- a line or an arc of an outline; the ends of an arc are exactly on the circle -/
structure Fit (s : Seg) : Prop where
  kind : s.kind = .line ∨ s.kind = .arc
  made : Made s
  sharp : Sharp s

theorem Fit.zs {s : Seg} (h : Fit s) : s.start.z = 0 ∧ s.stop.z = 0 := by
  rcases h.kind with k | k
  · exact ⟨(line_ends h.made k).2.2.1, (line_ends h.made k).2.2.2.1⟩
  · have ha := (made_ok h.made).arc k
    obtain ⟨ρ, -, -, e⟩ := ha.first
    obtain ⟨ρ', -, -, e'⟩ := ha.last
    exact ⟨by rw [e]; rfl, by rw [e']; rfl⟩

theorem sharp_end {c p : Point ℝ} {r a : ℝ} (hr : 0 < r) (h : EndAt c r p a) (hp : planar2 p c = r ^ 2) : p = polar c r a := by
  obtain ⟨ρ, h1, -, e⟩ := h
  have : ρ = r := by
    rw [e] at hp
    have : ρ ^ 2 = r ^ 2 := by
      rw [← hp]
      simp only [planar2, polar, pt]
      linear_combination -ρ ^ 2 * sin_sq_add_cos_sq a
    exact (sq_eq_sq₀ h1.le hr.le).1 this
  rw [e, this]

theorem Fit.arc_ends {s : Seg} (h : Fit s) (k : s.kind = .arc) :
    s.start = polar s.center s.radius s.sang ∧ s.stop = polar s.center s.radius s.eang := by
  have ha := (made_ok h.made).arc k
  exact ⟨sharp_end ha.pos ha.first (h.sharp k).1, sharp_end ha.pos ha.last (h.sharp k).2⟩

theorem curve_line {s : Seg} (k : s.kind = .line) : curve s = .line (plane s.start) (plane s.stop) := by
  unfold curve; rw [if_neg (by rw [k]; simp)]

theorem curve_arc {s : Seg} (k : s.kind = .arc) : curve s = .arc (plane s.center) s.radius s.sang s.eang := by
  unfold curve; rw [if_pos k]

theorem Fit.first {s : Seg} (h : Fit s) : (curve s).first = plane s.start := by
  rcases h.kind with k | k
  · rw [curve_line k]; rfl
  · rw [curve_arc k, (h.arc_ends k).1]; rfl

theorem Fit.last {s : Seg} (h : Fit s) : (curve s).last = plane s.stop := by
  rcases h.kind with k | k
  · rw [curve_line k]; rfl
  · rw [curve_arc k, (h.arc_ends k).2]; rfl

theorem Fit.ok {s : Seg} (h : Fit s) : (curve s).Ok := by
  rcases h.kind with k | k
  · rw [curve_line k]; trivial
  · rw [curve_arc k]; exact ((made_ok h.made).arc k).pos.le

theorem angles {s : Seg} (h : ArcOk s) : Set.uIcc s.sang s.eang = Set.Icc s.startAngle s.endAngle := by
  have hl := h.le
  unfold Seg.startAngle Seg.endAngle at *
  cases hc : s.cw
  · rw [hc] at hl; simp only [Bool.false_eq_true, if_false] at hl ⊢; exact Set.uIcc_of_le hl
  · rw [hc] at hl; simp only [if_true] at hl ⊢; rw [Set.uIcc_comm]; exact Set.uIcc_of_le hl

theorem Fit.trace {s : Seg} (h : Fit s) (x : ℝ × ℝ) : x ∈ (curve s).trace ↔ Covers s (pt x.1 x.2) := by
  rcases h.kind with k | k
  · rw [curve_line k, (line_ends h.made k).2.2.2.2]
    show x ∈ segment ℝ _ _ ↔ _
    rw [segment_eq_image']
    constructor
    · rintro ⟨t, ⟨h0, h1⟩, rfl⟩
      exact ⟨t, h0, h1, rfl⟩
    · rintro ⟨t, h0, h1, e⟩
      refine ⟨t, ⟨h0, h1⟩, ?_⟩
      have e1 := congrArg Point.x e
      have e2 := congrArg Point.y e
      exact Prod.ext e1.symm e2.symm
  · have ha := (made_ok h.made).arc k
    rw [curve_arc k, covers_arc k]
    show x ∈ rim _ _ '' _ ↔ _
    rw [angles ha]
    constructor
    · rintro ⟨t, ⟨h0, h1⟩, rfl⟩
      exact ⟨t, h0, h1, rfl⟩
    · rintro ⟨t, h0, h1, e⟩
      refine ⟨t, ⟨h0, h1⟩, ?_⟩
      have e1 := congrArg Point.x e
      have e2 := congrArg Point.y e
      exact Prod.ext e1.symm e2.symm

theorem Fit.trace' {s : Seg} (h : Fit s) {p : Point ℝ} (hz : p.z = 0) : plane p ∈ (curve s).trace ↔ Covers s p := by
  rw [h.trace, pt_plane hz]

theorem leftOf_image {s : Seg} (h : Fit s) (p : Point ℝ) : leftOf p s = (fun q : ℝ × ℝ => pt q.1 q.2) '' hits (curve s) (plane p) := by
  ext q
  constructor
  · rintro ⟨h1, h2, h3⟩
    have hz : q.z = 0 := covers_flat h1
    exact ⟨plane q, ⟨(h.trace' hz).2 h1, h2, h3⟩, pt_plane hz⟩
  · rintro ⟨y, ⟨h1, h2, h3⟩, rfl⟩
    exact ⟨(h.trace y).1 h1, h2, h3⟩

theorem pt_injective : Function.Injective fun q : ℝ × ℝ => pt q.1 q.2 := by
  intro a b e
  have e1 := congrArg Point.x e
  have e2 := congrArg Point.y e
  exact Prod.ext e1 e2

/-- the crossings of a segment, point by point -/
theorem Fit.count {s : Seg} (h : Fit s) {p : Point ℝ} (hp : Plain s p) :
    (leftOf p s).Finite ∧ ∑ᶠ q ∈ leftOf p s, heading s q = (curve s).wind (plane p) := by
  rw [leftOf_image h, finsum_mem_image pt_injective.injOn]
  obtain ⟨h1, h2, h3⟩ := hp
  rcases h.kind with k | k
  · have hh := hits_line (p := plane s.start) (q := plane s.stop) (x := plane p) h1 h2
    rw [curve_line k]
    refine ⟨hh.1.image _, ?_⟩
    rw [← hh.2]
    unfold heading
    rw [k]
    rfl
  · have ha := (made_ok h.made).arc k
    obtain ⟨e1, e2⟩ := h.arc_ends k
    have h3 := h3 k
    have hl := ha.le
    have ht := ha.turn
    rw [curve_arc k]
    have d1 : (plane s.center).2 + s.radius * sin s.sang ≠ (plane p).2 := by
      intro e; apply h1; rw [e1]; exact e.symm
    have d2 : (plane s.center).2 + s.radius * sin s.eang ≠ (plane p).2 := by
      intro e; apply h2; rw [e2]; exact e.symm
    unfold heading
    rw [k]
    unfold Seg.startAngle Seg.endAngle at hl ht
    cases hc : s.cw
    · rw [hc] at hl ht
      simp only [Bool.false_eq_true, if_false] at hl ht
      obtain ⟨f, e⟩ := hits_arc (c := plane s.center) ha.pos (x := plane p) h3 hl ht d1 d2
      refine ⟨f.image _, ?_⟩
      rw [← e]
      simp only [iff_true]
      rfl
    · rw [hc] at hl ht
      simp only [if_true] at hl ht
      obtain ⟨f, e⟩ := hits_arc (c := plane s.center) ha.pos (x := plane p) h3 hl ht d2 d1
      have eh : hits (.arc (plane s.center) s.radius s.sang s.eang) (plane p) =
          hits (.arc (plane s.center) s.radius s.eang s.sang) (plane p) := by
        unfold hits Curve.trace; simp only [Set.uIcc_comm]
      rw [eh]
      refine ⟨f.image _, ?_⟩
      have eb : (Curve.arc (plane s.center) s.radius s.sang s.eang).wind (plane p) =
          -(Curve.arc (plane s.center) s.radius s.eang s.sang).wind (plane p) := by
        show swept _ _ _ _ - swept _ _ _ _ = -(swept _ _ _ _ - swept _ _ _ _)
        ring
      rw [eb, ← e, ← finsum_mem_neg_distrib _ f]
      refine finsum_mem_congr rfl fun q _ => ?_
      unfold down
      simp only [Bool.true_eq_false, iff_false]
      by_cases hq : q.1 < (plane s.center).1
      · rw [if_pos hq]; exact if_neg (not_not.2 hq)
      · rw [if_neg hq, neg_neg]; exact if_pos hq

theorem Fit.odd {s : Seg} (h : Fit s) (q : Point ℝ) : Odd (heading s q) := by
  unfold heading
  rcases h.kind with k | k <;> rw [k] <;> simp only <;> split <;> decide

theorem rounds_eq {l : List Seg} (h : ∀ s ∈ l, Fit s) {p : Point ℝ} (hp : ∀ s ∈ l, Plain s p) :
    rounds l p = turns (l.map curve) (plane p) := by
  unfold rounds turns
  rw [List.map_map]
  congr 1
  refine List.map_congr_left fun s hs => ?_
  exact ((h s hs).count (hp s hs)).2

theorem evenOdd_eq {l : List Seg} (h : ∀ s ∈ l, Fit s) {p : Point ℝ} (hp : ∀ s ∈ l, Plain s p) :
    EvenOdd l p ↔ Odd (rounds l p) := by
  unfold EvenOdd rounds
  induction l with
  | nil => simp
  | cons s l ih =>
    have i := ih (fun t ht => h t (by simp [ht])) (fun t ht => hp t (by simp [ht]))
    have c := odd_sum ((h s (by simp)).count (hp s (by simp))).1 (f := heading s) (fun q _ => (h s (by simp)).odd q)
    simp only [List.map_cons, List.sum_cons]
    rw [Nat.odd_add, Int.odd_add, ← Nat.not_odd_iff_even, ← Int.not_odd_iff_even, i, c]

theorem linked_of_joined {l : List Seg} (h : ∀ s ∈ l, Fit s) {a b : Point ℝ} (hj : Joined a l b) :
    Linked (plane a) (l.map curve) (plane b) := by
  induction l generalizing a with
  | nil => exact congrArg plane hj
  | cons s l ih =>
    obtain ⟨e, hj⟩ := hj
    refine ⟨by rw [(h s (by simp)).first, e], ?_⟩
    rw [(h s (by simp)).last]
    exact ih (fun t ht => h t (by simp [ht])) hj

theorem ok_map {l : List Seg} (h : ∀ s ∈ l, Fit s) : ∀ k ∈ l.map curve, k.Ok := by
  intro k hk
  obtain ⟨s, hs, rfl⟩ := List.mem_map.1 hk
  exact (h s hs).ok

theorem off_map {l : List Seg} (h : ∀ s ∈ l, Fit s) {p : Point ℝ} (hz : p.z = 0) : Off (l.map curve) (plane p) ↔ OffBorder l p := by
  unfold Off OffBorder
  constructor
  · intro ho
    exact ⟨hz, fun s hs hc => ho _ (List.mem_map_of_mem hs) (((h s hs).trace' hz).2 hc)⟩
  · rintro ⟨-, ho⟩ k hk hm
    obtain ⟨s, hs, rfl⟩ := List.mem_map.1 hk
    exact ho s hs (((h s hs).trace' hz).1 hm)

/-- the heights that are not plain are finitely many -/
theorem plain_near (l : List Seg) (x : ℝ × ℝ) {P : ℝ × ℝ → Prop} (h : ∀ᶠ y in 𝓝 x, P y) :
    ∃ y, P y ∧ ∀ s ∈ l, Plain s (pt y.1 y.2) := by
  have hc : Continuous fun t : ℝ => (x.1, t) := by fun_prop
  have h1 : ∀ᶠ t in 𝓝 x.2, P (x.1, t) := hc.continuousAt.eventually h
  let bad : Set ℝ := {t | ∃ s ∈ l, t = s.start.y ∨ t = s.stop.y ∨ t = s.center.y + s.radius ∨ t = s.center.y - s.radius}
  have hb : bad.Finite := by
    have : bad ⊆ ⋃ s ∈ {s | s ∈ l}, {s.start.y, s.stop.y, s.center.y + s.radius, s.center.y - s.radius} := by
      rintro t ⟨s, hs, ht⟩
      simp only [Set.mem_iUnion]
      exact ⟨s, hs, by simpa using ht⟩
    exact ((List.finite_toSet l).biUnion fun s _ => Set.toFinite _).subset this
  have h2 : ∀ᶠ t in 𝓝[>] x.2, P (x.1, t) := h1.filter_mono nhdsWithin_le_nhds
  have h3 : ∃ᶠ t in 𝓝[>] x.2, t ∉ bad := by
    intro hn
    simp only [not_not] at hn
    obtain ⟨u, hu, hs⟩ := mem_nhdsGT_iff_exists_Ioo_subset.1 hn
    exact (Set.Ioo_infinite hu) (hb.subset hs)
  obtain ⟨t, ht, hP⟩ := (h3.and_eventually h2).exists
  refine ⟨(x.1, t), hP, ?_⟩
  intro s hs
  refine ⟨fun e => ht ⟨s, hs, Or.inl e⟩, fun e => ht ⟨s, hs, Or.inr (Or.inl e)⟩, fun _ e => ?_⟩
  have e : (t - s.center.y) ^ 2 = s.radius ^ 2 := e
  rcases sq_eq_sq_iff_eq_or_eq_neg.1 e with e | e
  · exact ht ⟨s, hs, Or.inr (Or.inr (Or.inl (by linarith)))⟩
  · exact ht ⟨s, hs, Or.inr (Or.inr (Or.inr (by linarith)))⟩

theorem off_near {l : List Curve} {x : ℝ × ℝ} (h : Off l x) : ∀ᶠ y in 𝓝 x, Off l y := by
  induction l with
  | nil => exact Eventually.of_forall fun y k hk => by simp at hk
  | cons k l ih =>
    have hc : IsClosed k.trace := by
      cases k with
      | line p q => exact (segment_eq_image' ℝ p q ▸ (isCompact_Icc.image (by fun_prop))).isClosed
      | arc c r a b =>
        have : Continuous (rim c r) := by unfold rim; fun_prop
        exact (isCompact_uIcc.image this).isClosed
    have h1 : ∀ᶠ y in 𝓝 x, y ∉ k.trace := hc.isOpen_compl.mem_nhds (h k (by simp))
    filter_upwards [h1, ih fun k hk => h k (by simp [hk])] with y hy1 hy2 k' hk'
    rcases List.mem_cons.1 hk' with rfl | hk'
    · exact hy1
    · exact hy2 k' hk'

section
variable {l : List Seg} (h : ∀ s ∈ l, Fit s) (hr : Round l)
include h hr

theorem round_local {p : Point ℝ} (ho : OffBorder l p) :
    ∀ᶠ y in 𝓝 (plane p), Off (l.map curve) y ∧ turns (l.map curve) y = turns (l.map curve) (plane p) := by
  obtain ⟨a, hj⟩ := hr
  have ho' := (off_map h ho.1).2 ho
  exact (off_near ho').and (turns_local (linked_of_joined h hj) (ok_map h) ho')

theorem proper_iff : Proper l ↔
    ∀ p, OffBorder l p → turns (l.map curve) (plane p) = 0 ∨ turns (l.map curve) (plane p) = 1 := by
  constructor
  · intro hp p ho
    obtain ⟨y, ⟨h1, h2⟩, h3⟩ := plain_near l _ (round_local h hr ho)
    rw [← h2]
    have := hp (pt y.1 y.2) ((off_map h rfl).1 h1) h3
    rwa [rounds_eq h h3] at this
  · intro hp p ho hpl
    rw [rounds_eq h hpl]
    exact hp p ho

theorem inside_odd {p : Point ℝ} (ho : OffBorder l p) : Inside l p ↔ Odd (turns (l.map curve) (plane p)) := by
  have hl := round_local h hr ho
  constructor
  · rintro ⟨δ, hδ, hi⟩
    have hc : Continuous fun y : ℝ × ℝ => d2 (plane p) y := by unfold d2; fun_prop
    have hn : ∀ᶠ y in 𝓝 (plane p), d2 (plane p) y < δ :=
      hc.continuousAt.eventually (gt_mem_nhds (show d2 (plane p) (plane p) < δ by unfold d2; simpa using hδ))
    obtain ⟨y, ⟨⟨h1, h2⟩, h4⟩, h3⟩ := plain_near l _ (hl.and hn)
    have := hi (pt y.1 y.2) rfl h4 h3
    rw [evenOdd_eq h h3, rounds_eq h h3, plane_pt, h2] at this
    exact this
  · intro hodd
    obtain ⟨ε, hε, hb⟩ := Metric.eventually_nhds_iff.1 hl
    refine ⟨ε ^ 2, by positivity, ?_⟩
    intro q hz hq hpl
    rw [evenOdd_eq h hpl, rounds_eq h hpl, (hb (y := plane q) ?_).2]
    · exact hodd
    · rw [Prod.dist_eq, Real.dist_eq, Real.dist_eq, max_lt_iff]
      unfold planar2 at hq
      exact ⟨abs_lt_of_sq_lt_sq (by show (q.x - p.x) ^ 2 < _; nlinarith [sq_nonneg (q.y - p.y)]) hε.le,
        abs_lt_of_sq_lt_sq (by show (q.y - p.y) ^ 2 < _; nlinarith [sq_nonneg (q.x - p.x)]) hε.le⟩

theorem inside_one (hp : Proper l) {p : Point ℝ} (ho : OffBorder l p) : Inside l p ↔ turns (l.map curve) (plane p) = 1 := by
  rw [inside_odd h hr ho]
  rcases (proper_iff h hr).1 hp p ho with e | e <;> rw [e] <;> simp

end
end Iges.Turn
