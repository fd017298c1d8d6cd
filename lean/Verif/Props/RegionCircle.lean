import Verif.Lemmas.RegionCircle
/-
C83 for outlines that are one circle.
-/
namespace Iges.Props
open Iges.Geo Iges.Spec Iges.Turn Real

namespace TwoCircles

/-- the points of the circle halfway between the two common points have the same distance from both -/
theorem even {c : Seg} {p q : Point ℝ} {a b φ : ℝ} (ep : plane p = rim (plane c.center) c.radius a)
    (eq : plane q = rim (plane c.center) c.radius b) (hφ : φ = (a + b) / 2 ∨ φ = (a + b) / 2 + π) :
    planar2 (pointAt c φ) p = planar2 (pointAt c φ) q := by
  rw [← d2_plane, ← d2_plane, plane_pointAt, ep, eq, Turn.chord, Turn.chord]
  congr 2
  rcases hφ with rfl | rfl
  · rw [← cos_neg]; congr 1; ring
  · rw [show a - ((a + b) / 2 + π) = (a - b) / 2 - π by ring, show b - ((a + b) / 2 + π) = -((a - b) / 2) - π by ring,
      cos_sub_pi, cos_sub_pi, cos_neg]

theorem judge {o : Outline} {b c : Seg} (hk : c.kind = .circle) (hj : JudgedDisc o b c) {p q : Point ℝ}
    (hcom : ∀ x, Common [b] c x → x = p ∨ x = q) {α β φ : ℝ} (ep : plane p = rim (plane c.center) c.radius α)
    (eq : plane q = rim (plane c.center) c.radius β) (hφ : φ = (α + β) / 2 ∨ φ = (α + β) / 2 + π) :
    ∀ i, isInside o (pointAt c φ) = some i → (i = true ↔ planar2 (pointAt c φ) b.center < b.radius ^ 2) := by
  refine hj _ ?_ ?_
  · rw [covers_on hk]
    refine ⟨?_, rfl⟩
    rw [← d2_plane, plane_pointAt, d2_rim]
  · have key := even ep eq hφ
    intro x x' hx hx'
    rcases hcom x hx with rfl | rfl <;> rcases hcom x' hx' with rfl | rfl <;> simp [key]

/-- the points halfway between the common points are on the line through the centres -/
theorem along {b c : Seg} (hr : 0 < c.radius) {p q : Point ℝ} {α β : ℝ}
    (ep : plane p = rim (plane c.center) c.radius α) (eq : plane q = rim (plane c.center) c.radius β) (h1 : α < β)
    (h2 : β < α + 2 * π) (hp : planar2 p b.center = b.radius ^ 2) (hq : planar2 q b.center = b.radius ^ 2) :
    (c.center.y - b.center.y) * cos ((α + β) / 2) = (c.center.x - b.center.x) * sin ((α + β) / 2) := by
  set m := (α + β) / 2 with hm
  set δ := (β - α) / 2 with hδ
  have eα : α = m - δ := by rw [hm, hδ]; ring
  have eβ : β = m + δ := by rw [hm, hδ]; ring
  have f : ∀ θ, d2 (plane b.center) (rim (plane c.center) c.radius θ) =
      (c.center.x - b.center.x) ^ 2 + (c.center.y - b.center.y) ^ 2 + c.radius ^ 2 +
        2 * c.radius * ((c.center.x - b.center.x) * cos θ + (c.center.y - b.center.y) * sin θ) := by
    intro θ
    simp only [d2, rim, plane]
    linear_combination c.radius ^ 2 * sin_sq_add_cos_sq θ
  have fp := f α
  have fq := f β
  rw [← ep, d2_plane, hp, eα, cos_sub, sin_sub] at fp
  rw [← eq, d2_plane, hq, eβ, cos_add, sin_add] at fq
  have hs := sin_pos_of_pos_of_lt_pi (show 0 < δ by rw [hδ]; linarith) (show δ < π by rw [hδ]; linarith)
  have : (2 * (2 * c.radius) * sin δ) * ((c.center.y - b.center.y) * cos m - (c.center.x - b.center.x) * sin m) = 0 := by
    linear_combination fp - fq
  rcases mul_eq_zero.1 this with e | e
  · exfalso
    have : 0 < 2 * (2 * c.radius) * sin δ := by positivity
    linarith
  · linarith

/-- one of the points halfway between the common points is in the disc, the other one is not -/
theorem opposite {b c : Seg} (hr : 0 < c.radius) (hd : 0 < planar2 b.center c.center) {p q : Point ℝ} {α β : ℝ}
    (ep : plane p = rim (plane c.center) c.radius α) (eq : plane q = rim (plane c.center) c.radius β) (h1 : α < β)
    (h2 : β < α + 2 * π) (hp : planar2 p b.center = b.radius ^ 2) (hq : planar2 q b.center = b.radius ^ 2) :
    planar2 (pointAt c ((α + β) / 2 + π)) b.center < b.radius ^ 2 ↔ ¬ planar2 (pointAt c ((α + β) / 2)) b.center < b.radius ^ 2 := by
  set m := (α + β) / 2 with hm
  set δ := (β - α) / 2 with hδ
  have eα : α = m - δ := by rw [hm, hδ]; ring
  have eβ : β = m + δ := by rw [hm, hδ]; ring
  set x := c.center.x - b.center.x with hx
  set y := c.center.y - b.center.y with hy
  have f : ∀ θ, d2 (plane b.center) (rim (plane c.center) c.radius θ) =
      x ^ 2 + y ^ 2 + c.radius ^ 2 + 2 * c.radius * (x * cos θ + y * sin θ) := by
    intro θ
    simp only [d2, rim, plane]
    rw [hx, hy]
    linear_combination c.radius ^ 2 * sin_sq_add_cos_sq θ
  have fp : x ^ 2 + y ^ 2 + c.radius ^ 2 + 2 * c.radius * (x * cos α + y * sin α) = b.radius ^ 2 := by
    rw [← f, ← ep, d2_plane, hp]
  have fq : x ^ 2 + y ^ 2 + c.radius ^ 2 + 2 * c.radius * (x * cos β + y * sin β) = b.radius ^ 2 := by
    rw [← f, ← eq, d2_plane, hq]
  have fm : ∀ θ, planar2 (pointAt c θ) b.center = x ^ 2 + y ^ 2 + c.radius ^ 2 + 2 * c.radius * (x * cos θ + y * sin θ) := by
    intro θ; rw [← f, ← plane_pointAt, d2_plane]
  rw [fm, fm, cos_add_pi, sin_add_pi]
  rw [eα, cos_sub, sin_sub] at fp
  rw [eβ, cos_add, sin_add] at fq
  have hδ0 : 0 < δ := by rw [hδ]; linarith
  have hδ1 : δ < π := by rw [hδ]; linarith
  have hs := sin_pos_of_pos_of_lt_pi hδ0 hδ1
  have hcs := sin_sq_add_cos_sq δ
  have c1 : cos δ < 1 := by nlinarith
  have c2 : -1 < cos δ := by nlinarith
  have hG' : y * cos m - x * sin m = 0 := by
    have : (2 * (2 * c.radius) * sin δ) * (y * cos m - x * sin m) = 0 := by linear_combination fq - fp
    rcases mul_eq_zero.1 this with e | e
    · exfalso
      have : 0 < 2 * (2 * c.radius) * sin δ := by positivity
      linarith
    · exact e
  have hG : (x * cos m + y * sin m) ^ 2 = x ^ 2 + y ^ 2 := by
    linear_combination (x ^ 2 + y ^ 2) * sin_sq_add_cos_sq m - (y * cos m - x * sin m) * hG'
  have hR : b.radius ^ 2 = x ^ 2 + y ^ 2 + c.radius ^ 2 + 2 * c.radius * (x * cos m + y * sin m) * cos δ := by
    linear_combination -(1 / 2 : ℝ) * fp - (1 / 2 : ℝ) * fq
  have hpos : 0 < x ^ 2 + y ^ 2 := by
    have : planar2 b.center c.center = x ^ 2 + y ^ 2 := by rw [hx, hy]; unfold planar2; ring
    linarith
  generalize hGG : x * cos m + y * sin m = G at *
  have hG0 : G ≠ 0 := by rintro rfl; rw [← hG] at hpos; norm_num at hpos
  rw [hR]
  have e1 : x ^ 2 + y ^ 2 + c.radius ^ 2 + 2 * c.radius * (x * -cos m + y * -sin m) = x ^ 2 + y ^ 2 + c.radius ^ 2 - 2 * c.radius * G := by
    rw [← hGG]; ring
  rw [e1, mul_assoc 2 c.radius G]
  generalize x ^ 2 + y ^ 2 + c.radius ^ 2 = K
  generalize cos δ = κ at c1 c2 ⊢
  rcases lt_or_gt_of_ne hG0 with g | g
  · have a0 : c.radius * G < 0 := mul_neg_of_pos_of_neg hr g
    generalize c.radius * G = H at a0 ⊢
    clear * - a0 c1 c2
    constructor
    · intro h; exfalso; nlinarith
    · intro h; exfalso; apply h; nlinarith
  · have a0 : 0 < c.radius * G := mul_pos hr g
    generalize c.radius * G = H at a0 ⊢
    clear * - a0 c1 c2
    constructor
    · intro _; nlinarith
    · intro _; nlinarith

/-- the last step succeeds -/
theorem change {o : Outline} {b c : Seg} (opsub : Bool) (ho : o.segs = [b]) (kb : b.kind = .circle) (kc : c.kind = .circle)
    (hc : Made c) {p q : Point ℝ} (hp : Covers c p) (hq : Covers c q) (hp' : Covers b p) (hq' : Covers b q)
    (hne : PointMatches p q 1e-8 = false) (fp : PointMatches c.center p 1e-8 = false)
    (fq : PointMatches c.center q 1e-8 = false) (e1 e2 : Bool) :
    (changeOutline o c opsub (p, 0) (q, 0) e1 e2).ret = true ∧ (changeOutline o c opsub (p, 0) (q, 0) e1 e2).error = false ∧
      (changeOutline o c opsub (p, 0) (q, 0) e1 e2).out.closed = o.closed := by
  have h0 := (covers_on kc).1 hp
  have h1 := (covers_on kc).1 hq
  have hz := ((made_ok hc).circle kc)
  have hrad : ∀ x, OnCircle c.center c.radius x → hyp (x.x - c.center.x) (x.y - c.center.y) = c.radius := by
    intro x hx
    have h1 := hyp_sq (x.x - c.center.x) (x.y - c.center.y)
    have h2 := hx.1
    unfold planar2 at h2
    have h3 := hyp_nonneg (x.x - c.center.x) (x.y - c.center.y)
    nlinarith [hz.1]
  have hsp : (setArc c.center p q opsub).2 = true := by
    unfold setArc
    rw [if_neg (by rw [hz.2.1, h0.2, h1.2]; simp), if_neg (by rw [fp, fq]; simp)]
    simp only [hne, hrad _ h0, hrad _ h1, sub_self, abs_zero]
    norm_num
  obtain ⟨r, hr⟩ := C65_circle_accepts kb hp' hq' (by
    by_contra hcon
    push Not at hcon
    have : PointMatches p q 1e-8 = true := by
      have key : Spec.dist2 p q ≤ 3.0001 * 1e-8 ^ 2 := by
        unfold Spec.dist2
        rw [h0.2, h1.2]
        have a1 := abs_lt.1 hcon.1
        have a2 := abs_lt.1 hcon.2
        norm_num at a1 a2 ⊢
        nlinarith
      rcases far_or_near p q with h | h
      · rw [C51_match_iff p q _ h.1 h.2]; exact le_max_of_le_left key
      · rw [C51_match_far_iff p q _ h]; exact le_max_of_le_left key
    rw [hne] at this; cases this)
  unfold changeOutline
  simp only [ho, List.head?_cons, Option.map_some, kb, if_true, List.getElem?_cons_zero, Option.bind_some, hr, hsp, Bool.true_eq_false, if_false]
  simp

end TwoCircles

/-- C83. A circle is cut out of an outline that is one circle, or joined to it, successfully, and `IsInside` is right about
the two points of the circle halfway between the common points.  Then the new outline runs round its region once,
counterclockwise, and its region is the disc without the other disc, or both discs. -/
theorem C83_circles {o : Outline} {b c : Seg} {opsub : Bool} (ho : o.segs = [b]) (hb : Made b) (kb : b.kind = .circle)
    (hc : Made c) (hj : JudgedDisc o b c) (h : (opCircle o (some c) opsub).ret = true) :
    Round (opCircle o (some c) opsub).out.segs ∧ Proper (opCircle o (some c) opsub).out.segs ∧
    (∀ s ∈ (opCircle o (some c) opsub).out.segs, s.kind = .arc ∧ Made s ∧ Sharp s) ∧
    ∀ x, OffBorder (opCircle o (some c) opsub).out.segs x → planar2 x c.center ≠ c.radius ^ 2 →
      (Inside (opCircle o (some c) opsub).out.segs x ↔
        if opsub then planar2 x b.center < b.radius ^ 2 ∧ c.radius ^ 2 < planar2 x c.center
        else planar2 x b.center < b.radius ^ 2 ∨ planar2 x c.center < c.radius ^ 2) := by
  obtain ⟨c', hits, p, q, hcc, hkc, hcl, hh, hpq, hin, he⟩ := opCircle_true h
  obtain rfl := Option.some.inj hcc
  have hr := ((made_ok hc).circle hkc).1
  have hrb := ((made_ok hb).circle kb).1
  have hd : ∀ y, y ∈ distinct [] hits ↔ y = p ∨ y = q := by
    rcases hin with ⟨hd, -⟩ | ⟨hd, -⟩ <;> intro y <;> rw [hd] <;> simp
    tauto
  have mp : p ∈ hits := by simpa using distinct_sub [] hits p ((hd p).2 (Or.inl rfl))
  have mq : q ∈ hits := by simpa using distinct_sub [] hits q ((hd q).2 (Or.inr rfl))
  obtain ⟨i, s, hi, h1, h3, h2, -⟩ := circleHits_spec hh p mp
  obtain ⟨j, u, hj', h1', h3', h2', -⟩ := circleHits_spec hh q mq
  rw [zero_add] at hi hj'
  rw [ho] at h1 h1'
  obtain ⟨rfl, rfl⟩ : i = 0 ∧ b = s := by
    cases i with
    | zero => exact ⟨rfl, by simpa using h1⟩
    | succ i => simp at h1
  obtain ⟨rfl, rfl⟩ : j = 0 ∧ b = u := by
    cases j with
    | zero => exact ⟨rfl, by simpa using h1'⟩
    | succ j => simp at h1'
  obtain ⟨a1, a2, ha, hane, -, hall⟩ := C62_meet hb hc kb hkc h2
  rw [ha] at h3 h3'
  have hne : p.1 ≠ q.1 := by intro e; rw [e, C51_reflexive] at hpq; cases hpq
  obtain ⟨cs, cp⟩ := (hall p.1).2 (by simpa using h3)
  obtain ⟨cu, cq⟩ := (hall q.1).2 (by simpa using h3')
  have hp := (covers_on hkc).1 cp
  have hq := (covers_on hkc).1 cq
  have hcom : ∀ x, Common [b] c x → x = p.1 ∨ x = q.1 := by
    rintro x ⟨hcx, t, ht, htx⟩
    obtain rfl : t = b := by simpa using ht
    have e := (hall x).1 ⟨htx, hcx⟩
    simp only [List.mem_cons, List.not_mem_nil, or_false] at h3 h3'
    rcases h3 with e1 | e1 <;> rcases h3' with e2 | e2
    · exact absurd (e1.trans e2.symm) hne
    · rw [e1, e2]; exact e
    · rw [e1, e2]; exact e.symm
    · exact absurd (e1.trans e2.symm) hne
  rw [he] at h ⊢
  unfold changeOutline at h ⊢
  simp only [ho, List.head?_cons, Option.map_some, kb, if_true, hi, List.getElem?_cons_zero, Option.bind_some] at h ⊢
  cases hsp : setArc c.center p.1 q.1 opsub with
  | mk sp ok =>
  rw [hsp] at h
  cases ok with
  | false => simp at h
  | true =>
  simp only [Bool.true_eq_false, if_false] at h ⊢
  cases hs : b.split [p.1, q.1] with
  | none => rw [hs] at h; simp at h
  | some w =>
  obtain ⟨s', l⟩ := w
  rw [hs] at h
  simp only [List.set_cons_zero, List.cons_append, List.nil_append] at h ⊢
  obtain ⟨t, rfl, H, es, et⟩ := halves_of hb kb cs cu hne hs
  have cov : ∀ y, (∃ v ∈ [t, s'], Covers v y) ↔ Covers b y := by
    intro y; rw [H.covers]; simp; tauto
  have hcom' : ∀ x, Common [t, s'] c x → x = p.1 ∨ x = q.1 := by
    rintro x ⟨hcx, ht⟩
    exact hcom x ⟨hcx, b, by simp, (cov x).1 ht⟩
  have only : ∀ v ∈ [t, s'], ∀ x, Covers v x → planar2 x c.center = c.radius ^ 2 → x = p.1 ∨ x = q.1 := fun v hv x hx hxc =>
    hcom' x ⟨(covers_on hkc).2 ⟨hxc, covers_flat hx⟩, v, hv, hx⟩
  have ts : t.start = p.1 := by rw [← H.join.1, et]
  have te : t.stop = q.1 := by rw [H.join.2, es]
  have hP : Parts [t, s'] c.center c.radius p.1 q.1 [t] [s'] := by
    refine ⟨H.fit, ⟨ts, te⟩, ⟨es, et⟩, fun _ => rfl, fun _ => Iff.rfl, ?_, by simp, by simp⟩
    intro v hv
    refine piece_side (H.fit v hv) ?_ fun x hx hxc => ?_
    · simp only [List.cons_append, List.nil_append, List.mem_cons, List.not_mem_nil, or_false] at hv
      rcases hv with rfl | rfl
      · rw [ts, te]; exact hne
      · exact H.ne
    · have e := only v hv x hx hxc
      simp only [List.cons_append, List.nil_append, List.mem_cons, List.not_mem_nil, or_false] at hv
      rcases hv with rfl | rfl
      · rw [ts, te]; exact e
      · rw [es, et]; exact e.symm
  have hin' : (Inside [t, s'] (pointAt c (midAngle c.center q.1 p.1)) ∧ ¬ Inside [t, s'] (pointAt c (midAngle c.center q.1 p.1 + π))) ∨
       (¬ Inside [t, s'] (pointAt c (midAngle c.center p.1 q.1)) ∧ Inside [t, s'] (pointAt c (midAngle c.center p.1 q.1 + π))) := by
    rcases hin with ⟨-, g1, g2⟩ | ⟨-, g1, g2⟩
    · obtain ⟨α, β, ea, eb, hab, hba, hm⟩ := mid_angle hr hq hp hne.symm
      have hc1 : ∀ x, Common [b] c x → x = q.1 ∨ x = p.1 := fun x hx => (hcom x hx).symm
      have hc2 : ∀ x, Common [t, s'] c x → x = q.1 ∨ x = p.1 := fun x hx => (hcom' x hx).symm
      rw [hm] at g1 g2 ⊢
      left
      rw [H.inside hrb kb (halfway_off hkc hr hc2 ea eb hab hba (Or.inl rfl)),
        H.inside hrb kb (halfway_off hkc hr hc2 ea eb hab hba (Or.inr rfl)),
        ← TwoCircles.judge hkc hj hc1 ea eb (Or.inl rfl) _ g1, ← TwoCircles.judge hkc hj hc1 ea eb (Or.inr rfl) _ g2]
      simp
    · obtain ⟨α, β, ea, eb, hab, hba, hm⟩ := mid_angle hr hp hq hne
      rw [hm] at g1 g2 ⊢
      right
      rw [H.inside hrb kb (halfway_off hkc hr hcom' ea eb hab hba (Or.inl rfl)),
        H.inside hrb kb (halfway_off hkc hr hcom' ea eb hab hba (Or.inr rfl)),
        ← TwoCircles.judge hkc hj hcom ea eb (Or.inl rfl) _ g1, ← TwoCircles.judge hkc hj hcom ea eb (Or.inr rfl) _ g2]
      simp
  obtain ⟨θP, θQ, eP, eQ, hcut⟩ := parts_cut_of hkc hr H.fit H.round (H.proper hrb kb) hcom' hp hq hne hP hin'
  obtain ⟨fsp, s1, s2, -, hw⟩ := new_arc hkc hr hp hq hpq hsp eP eQ hcut.less hcut.turn
  obtain ⟨a1, a2, a3, a4⟩ := region_cut (o := { o with segs := [t, s'] }) (out := [s', sp]) hkc H.fit H.round (H.proper hrb kb) hP hcut fsp s1 s2
    ⟨[], [s', sp], rfl, rfl⟩ hw
  have ksp : sp.kind = .arc := by
    obtain ⟨-, -, -, -, -, -, -, hk⟩ := setArc_cases hsp
    rcases hk with ⟨-, hk⟩ | ⟨hk, -⟩
    · rw [hpq] at hk; cases hk
    · exact hk
  refine ⟨a1, a3, fun s hs => ⟨?_, (a2 s hs).made, (a2 s hs).sharp⟩, fun x hx hxc => ?_⟩
  · simp only [List.mem_cons, List.not_mem_nil, or_false] at hs
    rcases hs with rfl | rfl
    · exact H.ks.1
    · exact ksp
  · rw [a4 x hx hxc]
    rcases lt_or_gt_of_ne hxc with hd | hd
    · cases opsub
      · simp [hd]
      · simp [hd.not_gt]
    · have hoff : OffBorder [t, s'] x := by
        refine ⟨hx.1, fun v hv hvx => ?_⟩
        simp only [List.mem_cons, List.not_mem_nil, or_false] at hv
        rcases hv with rfl | rfl
        · have := hcut.sides.1 (curve v) (by simp) (plane x) ((H.ft.trace' hx.1).2 hvx)
          rw [d2_plane] at this
          linarith
        · exact hx.2 v (by simp) hvx
      simp only [H.inside hrb kb hoff]

/-- C83. A circle is cut out of a closed outline that is one circle, or joined to it.  When `GetIntersections` finds that they
meet, the points are apart by more than the tolerance from each other and from the centre of the circle, and `IsInside` is right
about the two points halfway between them, it succeeds. -/
theorem C83_circles_done {o : Outline} {b c : Seg} (opsub : Bool) (ho : o.segs = [b]) (hcl : o.closed = true) (hb : Made b)
    (kb : b.kind = .circle) (hc : Made c) (kc : c.kind = .circle)
    (hm : (intersections b c).ret = true) (hap : ∀ x y, Common [b] c x → Common [b] c y → PointMatches x y 1e-8 = true → x = y)
    (hfar : ∀ x, Common [b] c x → PointMatches c.center x 1e-8 = false) (hj : JudgedDisc o b c) :
    (opCircle o (some c) opsub).ret = true ∧ (opCircle o (some c) opsub).error = false ∧
      (opCircle o (some c) opsub).out.closed = true := by
  have hr := ((made_ok hc).circle kc).1
  have hrb := ((made_ok hb).circle kb).1
  obtain ⟨p, q, ha, hne, hf, hall⟩ := C62_meet hb hc kb kc hm
  have hd : 0 < planar2 b.center c.center := by
    have := ((C62_meet_iff kb kc hrb hr).1 hm).1
    exact Real.sqrt_pos.1 (lt_of_le_of_lt (abs_nonneg _) this)
  obtain ⟨p1, p2⟩ := (hall p).2 (Or.inl rfl)
  obtain ⟨q1, q2⟩ := (hall q).2 (Or.inr rfl)
  have hpq : PointMatches p q 1e-8 = false := by
    cases e : PointMatches p q 1e-8 with
    | false => rfl
    | true => exact absurd (hap p q ⟨p2, b, by simp, p1⟩ ⟨q2, b, by simp, q1⟩ e) hne
  have fp := hfar p ⟨p2, b, by simp, p1⟩
  have fq := hfar q ⟨q2, b, by simp, q1⟩
  have hcom : ∀ x, Common [b] c x → x = p ∨ x = q := by
    rintro x ⟨hcx, t, ht, htx⟩
    obtain rfl : t = b := by simpa using ht
    exact (hall x).1 ⟨htx, hcx⟩
  have hh : circleHits c opsub 0 [b] = .points [(p, 0), (q, 0)] := by
    simp [circleHits, hm, hf, ha, Flag.fine]
  have hdis : distinct [] [(p, 0), (q, 0)] = [(p, 0), (q, (0 : ℕ))] := by
    simp [distinct, hpq]
  obtain ⟨α, β, ea, eb, hab, hba, hmid⟩ := mid_angle hr ((covers_on kc).1 p2) ((covers_on kc).1 q2) hne
  have hopp := TwoCircles.opposite hr hd ea eb hab hba ((covers_on kb).1 p1).1 ((covers_on kb).1 q1).1
  have hsome : ∀ y, ∃ i, isInside { o with boxOk := false } y = some i := by
    intro y
    unfold isInside
    simp [hcl, ho]
  obtain ⟨i, hi⟩ := hsome (pointAt c ((α + β) / 2))
  obtain ⟨i', hi'⟩ := hsome (pointAt c ((α + β) / 2 + π))
  have j1 := TwoCircles.judge kc hj hcom ea eb (Or.inl rfl) i hi
  have j2 := TwoCircles.judge kc hj hcom ea eb (Or.inr rfl) i' hi'
  have hii : i' = !i := by
    rw [← j1, ← j2] at hopp
    revert hopp
    cases i <;> cases i' <;> simp
  subst hii
  unfold opCircle
  simp only [hcl, Bool.true_eq_false, if_false, kc, ne_eq, not_true_eq_false, ho, hh, hdis, hmid]
  simp only [ho, hcl] at hi hi'
  rw [hi, hi']
  cases i with
  | true =>
    simp only [Bool.not_true, Bool.false_eq_true, if_false, if_true]
    have := TwoCircles.change (o := { o with boxOk := false }) opsub ho kb kc hc q2 p2 q1 p1 (by rw [C51_symmetric]; exact hpq) fq fp
      (isEndOf [b] [(p, 0), (q, 0)] q) (isEndOf [b] [(p, 0), (q, 0)] p)
    simp only [hcl, ho] at this
    exact this
  | false =>
    simp only [Bool.not_false, Bool.true_eq_false, Bool.false_eq_true, if_false]
    have := TwoCircles.change (o := { o with boxOk := false }) opsub ho kb kc hc p2 q2 p1 q1 hpq fp fq
      (isEndOf [b] [(p, 0), (q, 0)] p) (isEndOf [b] [(p, 0), (q, 0)] q)
    simp only [hcl, ho] at this
    exact this

/-- C83. A circle that does not meet an outline that is one circle: the outline stays as it is.  Of two discs that are apart no
error is reported.  When the disc of the circle is within the disc of the outline, cutting it out reports no error, but
joining it does; when it is the other way round, both do. -/
theorem C83_circles_refused {o : Outline} {b c : Seg} (opsub : Bool) (ho : o.segs = [b]) (hcl : o.closed = true)
    (kb : b.kind = .circle) (kc : c.kind = .circle) (hb : 0 < b.radius) (hc : 0 < c.radius) :
    (√(planar2 b.center c.center) > b.radius + c.radius →
      (opCircle o (some c) opsub).ret = false ∧ (opCircle o (some c) opsub).error = false ∧ (opCircle o (some c) opsub).out.segs = [b]) ∧
    (√(planar2 b.center c.center) ≤ b.radius - c.radius → 0.0005 ≤ c.radius →
      ¬ (PointMatches b.center c.center 1e-3 = true ∧ |b.radius - c.radius| < 1e-3) →
      (opCircle o (some c) opsub).ret = false ∧ (opCircle o (some c) opsub).error = !opsub ∧ (opCircle o (some c) opsub).out.segs = [b]) ∧
    (√(planar2 b.center c.center) ≤ c.radius - b.radius → b.radius < c.radius → 0.0005 ≤ b.radius →
      (opCircle o (some c) opsub).ret = false ∧ (opCircle o (some c) opsub).error = true ∧ (opCircle o (some c) opsub).out.segs = [b]) := by
  have hi : intersections b c = checkCircles b c := by unfold intersections; rw [kb, kc]
  have hd := hyp_planar b.center c.center
  have run : ∀ f, intersections b c = ⟨[], f, false⟩ → (opCircle o (some c) opsub).ret = false ∧
      (opCircle o (some c) opsub).error = (if f = .none then false else !(opsub && decide (f = .encircles))) ∧
      (opCircle o (some c) opsub).out.segs = [b] := by
    intro f h
    unfold opCircle
    simp only [hcl, Bool.true_eq_false, if_false, kc, ne_eq, not_true_eq_false, ho]
    unfold circleHits
    rw [h]
    simp only [Bool.false_eq_true, if_false]
    unfold circleHits
    cases f <;> cases opsub <;> simp [distinct]
  rw [← hd]
  have unf : intersections b c = checkCircles b c := hi
  unfold checkCircles at unf
  simp only at unf
  generalize hyp (b.center.x - c.center.x) (b.center.y - c.center.y) = d at *
  have hd0 : 0 ≤ d := by rw [hd]; exact Real.sqrt_nonneg _
  refine ⟨fun h => ?_, fun h h1 h2 => ?_, fun h h0 h1 => ?_⟩
  · rw [if_pos h] at unf
    simpa using run _ unf
  · rw [if_neg (by linarith), if_neg h2, if_neg (by
      rw [not_lt, abs_of_nonpos (by linarith)]; norm_num at h1 ⊢; linarith), if_pos ⟨Or.inl (by linarith), h⟩] at unf
    simpa using run _ unf
  · rw [if_neg (by linarith)] at unf
    split at unf
    · simpa using run _ unf
    rw [if_neg (by
      rw [not_lt, abs_of_nonpos (by linarith)]; norm_num at h1 ⊢; linarith)] at unf
    split at unf
    · rename_i g
      linarith [g.2]
    · rw [if_pos ⟨Or.inr (by linarith), h⟩] at unf
      simpa using run _ unf

end Iges.Props
