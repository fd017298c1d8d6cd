import Verif.Lemmas.RegionCut
import Verif.Props.SegSplit
/-
C83 for outlines that are one circle: the circle is taken as two arcs that run from one to the other of the points in which the other circle meets it.
-/
namespace Iges.Turn
open Iges.Geo Iges.Spec Iges.Props Real

theorem whole_outside {c : ℝ × ℝ} {r : ℝ} (hr : 0 < r) {x : ℝ × ℝ} (hx : r ^ 2 < d2 c x) : whole c r x = 0 := by
  have h1 : Linked (rim c r 0) [.arc c r 0 (0 + 2 * π)] (rim c r 0) := by
    refine ⟨rfl, ?_⟩
    show rim c r (0 + 2 * π) = rim c r 0
    exact rim_turn ..
  have := turns_outside h1 (by intro k hk; simp at hk; subst hk; exact hr.le) (arc_inDisc (c := c) (r := r) 0 (0 + 2 * π)) hx.le (by
    intro k hk hxk
    simp at hk
    subst hk
    obtain ⟨θ, -, rfl⟩ := hxk
    rw [d2_rim] at hx
    exact lt_irrefl _ hx)
  rw [turns_cons, turns_nil, add_zero] at this
  have e : (Curve.arc c r 0 (0 + 2 * π)).wind x = swept c r x (0 + 2 * π) - swept c r x 0 := rfl
  rw [e, swept_turn] at this
  linarith

/-- two arcs of a circle, each from the end of the other one -/
structure DiscHalves (b s t : Seg) : Prop where
  fs : Fit s
  ft : Fit t
  join : s.stop = t.start ∧ t.stop = s.start
  ne : s.start ≠ s.stop
  ks : s.kind = .arc ∧ s.center = b.center ∧ s.radius = b.radius ∧ s.cw = false
  kt : t.kind = .arc ∧ t.center = b.center ∧ t.radius = b.radius ∧ t.cw = false
  covers : ∀ x, Covers b x ↔ Covers s x ∨ Covers t x

variable {b s t : Seg}

theorem DiscHalves.round (h : DiscHalves b s t) : Round [t, s] := by
  refine ⟨t.start, rfl, ?_⟩
  exact ⟨h.join.2.symm, h.join.1⟩

theorem DiscHalves.winding (h : DiscHalves b s t) (hr : 0 < b.radius) (x : ℝ × ℝ) :
    turns ([t, s].map curve) x = whole (plane b.center) b.radius x := by
  obtain ⟨k1, k2, k3, k4⟩ := h.ks
  obtain ⟨m1, m2, m3, m4⟩ := h.kt
  obtain ⟨e1, e2⟩ := h.fs.arc_ends k1
  obtain ⟨g1, g2⟩ := h.ft.arc_ends m1
  have os := (made_ok h.fs.made).arc k1
  have ot := (made_ok h.ft.made).arc m1
  have l1 := os.le
  have l2 := os.turn
  have l3 := ot.le
  have l4 := ot.turn
  unfold Seg.startAngle Seg.endAngle at l1 l2 l3 l4
  rw [k4] at l1 l2
  rw [m4] at l3 l4
  simp only [Bool.false_eq_true, if_false] at l1 l2 l3 l4
  rw [k2, k3] at e1 e2
  rw [m2, m3] at g1 g2
  have r1 : rim (plane b.center) b.radius s.eang = rim (plane b.center) b.radius t.sang := by
    rw [← plane_polar, ← plane_polar, ← e2, ← g1, h.join.1]
  have r2 : rim (plane b.center) b.radius t.eang = rim (plane b.center) b.radius s.sang := by
    rw [← plane_polar, ← plane_polar, ← e1, ← g2, h.join.2]
  have n1 : s.sang ≠ s.eang := by
    intro e
    rw [e] at e1
    exact h.ne (e1.trans e2.symm)
  have n2 : t.sang ≠ t.eang := by
    intro e
    rw [e] at g1
    exact h.ne (by rw [h.join.1, ← h.join.2, g1, g2])
  have l1 := lt_of_le_of_ne l1 n1
  have l3 := lt_of_le_of_ne l3 n2
  simp only [List.map_cons, List.map_nil, turns_cons, turns_nil, add_zero]
  rw [curve_arc k1, curve_arc m1, k2, k3, m2, m3, arc_from hr r1.symm]
  show _ + (swept (plane b.center) b.radius x s.eang - swept (plane b.center) b.radius x s.sang) = _
  obtain ⟨n, hn⟩ := rim_angle hr r1
  obtain ⟨m, hm⟩ := rim_angle hr r2
  have hpi := pi_pos
  -- the two arcs together make one turn
  have key : s.eang + (t.eang - t.sang) = s.sang + 2 * π := by
    have d : ((m + n - 1 : ℤ) : ℝ) * (2 * π) = (s.eang - s.sang) + (t.eang - t.sang) - 2 * π := by push_cast; rw [hm]; linear_combination (-1) * hn
    have d1 : ((m + n - 1 : ℤ) : ℝ) < 1 := by by_contra hc; push Not at hc; nlinarith
    have d2 : (-1 : ℝ) < ((m + n - 1 : ℤ) : ℝ) := by by_contra hc; push Not at hc; nlinarith
    have d1' : m + n - 1 < 1 := by exact_mod_cast d1
    have d2' : -1 < m + n - 1 := by exact_mod_cast d2
    have : m + n - 1 = 0 := by omega
    rw [this] at d
    push_cast at d
    linarith
  rw [key, swept_turn]
  ring

theorem DiscHalves.fit (h : DiscHalves b s t) : ∀ u ∈ [t, s], Fit u := by
  intro u hu
  simp only [List.mem_cons, List.not_mem_nil, or_false] at hu
  rcases hu with rfl | rfl
  · exact h.ft
  · exact h.fs

theorem DiscHalves.off (h : DiscHalves b s t) (hk : b.kind = .circle) {x : Point ℝ} (hx : OffBorder [t, s] x) : planar2 x b.center ≠ b.radius ^ 2 := by
  intro e
  have : Covers b x := (covers_on hk).2 ⟨e, hx.1⟩
  rcases (h.covers x).1 this with e | e
  · exact hx.2 s (by simp) e
  · exact hx.2 t (by simp) e

theorem DiscHalves.value (h : DiscHalves b s t) (hr : 0 < b.radius) (hk : b.kind = .circle) {x : Point ℝ} (hx : OffBorder [t, s] x) :
    turns ([t, s].map curve) (plane x) = if planar2 x b.center < b.radius ^ 2 then 1 else 0 := by
  rw [h.winding hr]
  split
  · rename_i e
    exact whole_inside hr (by rw [d2_plane]; exact e)
  · rename_i e
    refine whole_outside hr ?_
    rw [d2_plane]
    exact lt_of_le_of_ne (not_lt.1 e) (h.off hk hx).symm

theorem DiscHalves.proper (h : DiscHalves b s t) (hr : 0 < b.radius) (hk : b.kind = .circle) : Proper [t, s] := by
  rw [proper_iff h.fit h.round]
  intro x hx
  rw [h.value hr hk hx]
  split <;> simp

theorem DiscHalves.inside (h : DiscHalves b s t) (hr : 0 < b.radius) (hk : b.kind = .circle) {x : Point ℝ} (hx : OffBorder [t, s] x) :
    Inside [t, s] x ↔ planar2 x b.center < b.radius ^ 2 := by
  rw [inside_one h.fit h.round (h.proper hr hk) hx, h.value hr hk hx]
  split <;> simp_all

/-- the halves between the two points in which another circle meets the circle -/
theorem halves_of {b : Seg} (hb : Made b) (kb : b.kind = .circle) {p q : Point ℝ} (hp : Covers b p) (hq : Covers b q)
    (hne : p ≠ q) {s' : Seg} {l : List Seg} (hs : b.split [p, q] = some (s', l)) :
    ∃ t, l = [t] ∧ DiscHalves b s' t ∧ s'.start = q ∧ s'.stop = p := by
  have hr := ((made_ok hb).circle kb).1
  have hp' := (covers_on kb).1 hp
  have hq' := (covers_on kb).1 hq
  have face : ∀ x, OnCircle b.center b.radius x → x.z = 0 ∧ Facing b x := by
    intro x hx
    refine ⟨hx.2, ?_⟩
    unfold Facing
    rw [kb]
    by_contra hc
    simp only [not_or, not_not] at hc
    have := hx.1
    unfold planar2 at this
    rw [hc.1, hc.2] at this
    nlinarith [pow_pos hr 2]
  have hf : ∀ x ∈ [p, q], x.z = 0 ∧ Facing b x := by
    intro x hx
    simp only [List.mem_cons, List.not_mem_nil, or_false] at hx
    rcases hx with rfl | rfl
    · exact face _ hp'
    · exact face _ hq'
  have same : ∀ x y, OnCircle b.center b.radius x → OnCircle b.center b.radius y → SameDirection b.center x y → x = y := by
    rintro ⟨x1, x2, x3⟩ ⟨y1, y2, y3⟩ ⟨hx, zx⟩ ⟨hy, zy⟩ ⟨k, k0, e1, e2⟩
    simp only [planar2] at hx hy e1 e2 zx zy
    rw [e1, e2] at hy
    have : (k - 1) * ((k + 1) * b.radius ^ 2) = 0 := by linear_combination hy - k ^ 2 * hx
    have k1 : k = 1 := by
      rcases mul_eq_zero.1 this with e | e
      · linarith
      · have : 0 < (k + 1) * b.radius ^ 2 := by positivity
        linarith
    rw [k1] at e1 e2
    congr 1 <;> linarith
  obtain ⟨p', q', t, e1, e2, e3, e4, e5, e6, e7, e8⟩ := C65_circle hb kb hf (by
    intro x hx y hy hd
    simp only [List.mem_cons, List.not_mem_nil, or_false] at hx hy
    rcases hx with rfl | rfl <;> rcases hy with rfl | rfl
    · rfl
    · exact same _ _ hp' hq' hd
    · exact same _ _ hq' hp' hd
    · rfl) hs
  injection e1 with e1 e1'
  injection e1' with e1' _
  subst e1 e1'
  have k1 := e8 s' (by simp)
  have k2 := e8 t (by simp)
  refine ⟨t, e2, ⟨⟨Or.inr k1.1, .split hb hs hf (by simp), fun _ => ?_⟩, ⟨Or.inr k2.1, .split hb hs hf (by simp [e2]), fun _ => ?_⟩, ⟨by rw [e5, e6], by rw [e7, e4]⟩,
    by rw [e4, e5]; exact hne.symm, k1, k2, ?_⟩, e4, e5⟩
  · rw [e4, e5, k1.2.1, k1.2.2.1]; exact ⟨hq'.1, hp'.1⟩
  · rw [e6, e7, k2.2.1, k2.2.2.1]; exact ⟨hp'.1, hq'.1⟩
  · intro x
    rw [e3.1 x]
    simp

end Iges.Turn
