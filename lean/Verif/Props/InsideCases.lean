import Verif.Props.Inside
import Verif.Props.OutlineCases
/-
C68: a concrete square and circle, and points for which the answer is wrong.
-/
namespace Iges.Props.Inside
open Iges.Geo Iges.Spec Real Iges.Props.Outlines

theorem line_box {s : Seg} {a b c d : ℝ} (hk : s.kind = .line) (h1 : s.start = pt a b) (h2 : s.stop = pt c d)
    (h : 1 ≤ |a - c| ∨ a = c) :
    s.box = some (pt (min a c) (min b d), pt (max a c) (max b d)) := by
  unfold Seg.box
  rw [hk]
  simp only [h1, h2, pt]
  rcases h with h | rfl
  · rw [if_neg (by norm_num; linarith)]
    unfold endBox
    simp only [Option.some.injEq, Prod.mk.injEq]
    constructor <;> ext <;> simp only [min_def, max_def] <;> split_ifs <;> linarith
  · rw [sub_self, abs_zero, if_pos (by norm_num)]
    split
    · rename_i h; rw [min_self, max_self, min_eq_left h, max_eq_right h]
    · rename_i h; rw [not_le] at h; rw [min_self, max_self, min_eq_right h.le, max_eq_left h.le]

/-- the square from (0,0) to (2,2), drawn counterclockwise -/
theorem ex_square : ∃ b r t l o, Drawn [b, r, t, l] o ∧ (∀ s ∈ [b, r, t, l], Made s ∧ s.kind = .line) ∧ o.closed = true ∧
    o.segs = [b, r, t, l] ∧ o.lo.x = 0 ∧ o.lo.y = 0 ∧ o.hi.x = 2 ∧ o.hi.y = 2 ∧
    b.start = pt 0 0 ∧ b.stop = pt 2 0 ∧ r.start = pt 2 0 ∧ r.stop = pt 2 2 ∧
    t.start = pt 2 2 ∧ t.stop = pt 0 2 ∧ l.start = pt 0 2 ∧ l.stop = pt 0 0 := by
  obtain ⟨b, hb, kb, b1, b2⟩ := ex_seg (a := 0) (b := 0) (c := 2) (d := 0) (by norm_num) (by norm_num) (by norm_num)
  obtain ⟨r, hr, kr, r1, r2⟩ := ex_seg (a := 2) (b := 0) (c := 2) (d := 2) (by norm_num) (by norm_num) (by norm_num)
  obtain ⟨t, ht, kt, t1, t2⟩ := ex_seg (a := 2) (b := 2) (c := 0) (d := 2) (by norm_num) (by norm_num) (by norm_num)
  obtain ⟨l, hl, kl, l1, l2⟩ := ex_seg (a := 0) (b := 2) (c := 0) (d := 0) (by norm_num) (by norm_num) (by norm_num)
  have far1 : PointMatches (pt 2 2) (pt 0 0) 1e-8 = false := by apart
  have far2 : PointMatches (pt 0 2) (pt 0 0) 1e-8 = false := by apart
  have hml : ∀ x ∈ [b, r, t, l], Made x ∧ x.kind = .line := by
    intro x hx
    simp at hx
    rcases hx with rfl | rfl | rfl | rfl
    · exact ⟨.line hb, kb⟩
    · exact ⟨.line hr, kr⟩
    · exact ⟨.line ht, kt⟩
    · exact ⟨.line hl, kl⟩
  obtain ⟨o, hd, hc⟩ := C67_drawable (l := [b, r, t, l]) (fun x hx => Or.inl (hml x hx).2)
    ⟨same_match (by rw [b2, r1]), same_match (by rw [r2, t1]), same_match (by rw [t2, l1]), trivial⟩ (by
      intro k hk hlt
      have : k = 2 ∨ k = 3 := by simp at hlt; omega
      rcases this with rfl | rfl
      · rintro ⟨f, e, hf, he, hm⟩
        simp at hf he
        subst hf he
        rw [r2, b1, far1] at hm
        cases hm
      · rintro ⟨f, e, hf, he, hm⟩
        simp at hf he
        subst hf he
        rw [t2, b1, far2] at hm
        cases hm)
  have hcl : o.closed = true := hc.2 ⟨by simp, b, l, by simp, by simp, same_match (by rw [l2, b1])⟩
  cases drawn_state hd with
  | empty e => cases e
  | circle _ _ e => cases e
  | drawing _ _ _ _ e => rw [hcl] at e; cases e
  | done lo hi h1 _ _ _ h5 _ hh he =>
    have hsegs : o.segs = [b, r, t, l] := by
      rw [h5]
      unfold orient
      rw [if_neg]
      simp only [List.map_cons, List.map_nil, List.sum_cons, List.sum_nil, windingOf, kb, kr, kt, kl, b1, b2, r1, r2, t1,
        t2, l1, l2, pt]
      norm_num
    have xb := line_box kb b1 b2 (by norm_num)
    have xr := line_box kr r1 r2 (by norm_num)
    have xt := line_box kt t1 t2 (by norm_num)
    have xl := line_box kl l1 l2 (by norm_num)
    norm_num at xb xr xt xl
    have ib := hh.inside b (by simp) _ xb
    have ir := hh.inside r (by simp) _ xr
    have it := hh.inside t (by simp) _ xt
    have il := hh.inside l (by simp) _ xl
    simp only [pt] at ib ir it il
    have hlx : lo.x = 0 := by
      obtain ⟨s, hs, v, hv, e⟩ := hh.left
      simp at hs
      rcases hs with rfl | rfl | rfl | rfl
      all_goals
        first | rw [xb] at hv | rw [xr] at hv | rw [xt] at hv | rw [xl] at hv
        injection hv with hv
        rw [← hv] at e
        simp only [pt] at e
        linarith
    have hly : lo.y = 0 := by
      obtain ⟨s, hs, v, hv, e⟩ := hh.bottom
      simp at hs
      rcases hs with rfl | rfl | rfl | rfl
      all_goals
        first | rw [xb] at hv | rw [xr] at hv | rw [xt] at hv | rw [xl] at hv
        injection hv with hv
        rw [← hv] at e
        simp only [pt] at e
        linarith
    have hhx : hi.x = 2 := by
      obtain ⟨s, hs, v, hv, e⟩ := hh.right
      simp at hs
      rcases hs with rfl | rfl | rfl | rfl
      all_goals
        first | rw [xb] at hv | rw [xr] at hv | rw [xt] at hv | rw [xl] at hv
        injection hv with hv
        rw [← hv] at e
        simp only [pt] at e
        linarith
    have hhy : hi.y = 2 := by
      obtain ⟨s, hs, v, hv, e⟩ := hh.top
      simp at hs
      rcases hs with rfl | rfl | rfl | rfl
      all_goals
        first | rw [xb] at hv | rw [xr] at hv | rw [xt] at hv | rw [xl] at hv
        injection hv with hv
        rw [← hv] at e
        simp only [pt] at e
        linarith
    have e1 := congrArg Prod.fst he
    have e2 := congrArg Prod.snd he
    unfold adjustBox at e1 e2
    simp only [hlx, hly, hhx, hhy] at e1 e2
    norm_num at e1 e2
    exact ⟨b, r, t, l, o, hd, hml, hcl, hsegs, by rw [e1], by rw [e1], by rw [e2], by rw [e2], b1, b2, r1, r2, t1, t2, l1, l2⟩

theorem left_horizontal {s : Seg} (hm : Made s) (hk : s.kind = .line) (h : s.start.y = s.stop.y) {p : Point ℝ}
    (hp : p.y ≠ s.start.y) : (leftOf p s).ncard = 0 := by
  obtain ⟨-, -, -, -, cs⟩ := line_ends hm hk
  have : leftOf p s = ∅ := by
    ext q
    simp only [leftOf, Set.mem_ofPred_eq, Set.mem_empty_iff_false, iff_false, cs]
    rintro ⟨⟨t, -, -, rfl⟩, h1, -⟩
    apply hp
    rw [← h1, h]
    simp [pt]
  rw [this, Set.ncard_empty]

theorem left_vertical {s : Seg} (hm : Made s) (hk : s.kind = .line) (h : s.start.x = s.stop.x) {p : Point ℝ}
    (hlt : s.start.y ≠ s.stop.y) : (leftOf p s).ncard =
      open Classical in if s.start.x < p.x ∧ min s.start.y s.stop.y ≤ p.y ∧ p.y ≤ max s.start.y s.stop.y then 1 else 0 := by
  obtain ⟨-, -, -, -, cs⟩ := line_ends hm hk
  have hne : s.stop.y - s.start.y ≠ 0 := sub_ne_zero.2 hlt.symm
  have hmem : ∀ q, q ∈ leftOf p s ↔
      q = pt s.start.x p.y ∧ s.start.x < p.x ∧ min s.start.y s.stop.y ≤ p.y ∧ p.y ≤ max s.start.y s.stop.y := by
    intro q
    simp only [leftOf, Set.mem_ofPred_eq, cs]
    constructor
    · rintro ⟨⟨t, t1, t2, rfl⟩, h1, h2⟩
      simp only [pt] at h1 h2
      rw [← h] at h2
      refine ⟨by rw [← h1, ← h]; simp [pt], by linarith, ?_⟩
      rw [← h1]
      rcases le_total s.start.y s.stop.y with g | g
      · rw [min_eq_left g, max_eq_right g]; constructor <;> nlinarith
      · rw [min_eq_right g, max_eq_left g]; constructor <;> nlinarith
    · rintro ⟨rfl, h1, h2, h3⟩
      refine ⟨⟨(p.y - s.start.y) / (s.stop.y - s.start.y), ?_, ?_, ?_⟩, rfl, h1⟩
      · rcases lt_or_gt_of_ne hlt with g | g
        · rw [min_eq_left g.le] at h2
          exact div_nonneg (by linarith) (by linarith)
        · rw [max_eq_left g.le] at h3
          exact div_nonneg_of_nonpos (by linarith) (by linarith)
      · rcases lt_or_gt_of_ne hlt with g | g
        · rw [max_eq_right g.le] at h3
          rw [div_le_one (by linarith)]; linarith
        · rw [min_eq_right g.le] at h2
          rw [div_le_one_of_neg (by linarith)]; linarith
      · rw [div_mul_cancel₀ _ hne, ← h]; simp [pt]
  classical
  split
  · rename_i hc
    rw [show leftOf p s = {pt s.start.x p.y} by ext q; rw [hmem]; simp [hc], Set.ncard_singleton]
  · rename_i hc
    rw [show leftOf p s = ∅ from Set.eq_empty_of_forall_notMem fun q h => hc ((hmem q).1 h).2, Set.ncard_empty]

/-- C68: the centre of the square meets the conditions of `C68_inside_partial` and is inside; a point of the box of a
circle above the circle is in general position too. -/
example : ∃ l o, Drawn l o ∧ (∀ s ∈ l, Made s) ∧ o.closed = true ∧
    (∀ s ∈ o.segs, Clear (o.hi.x - o.lo.x) (pt 1 1) s) ∧ isInside o (pt 1 1) = some true := by
  obtain ⟨b, r, t, l, o, hd, hm, hc, hs, x0, y0, x1, y1, b1, b2, r1, r2, t1, t2, l1, l2⟩ := ex_square
  have hb := hm b (by simp)
  have hr := hm r (by simp)
  have ht := hm t (by simp)
  have hl := hm l (by simp)
  have hclear : ∀ s ∈ o.segs, Clear (o.hi.x - o.lo.x) (pt 1 1) s := by
    intro s h
    rw [hs] at h
    obtain ⟨-, -, -, -, cs⟩ := line_ends (hm s h).1 (hm s h).2
    unfold Clear
    rw [(hm s h).2, x0, x1]
    simp at h
    rcases h with rfl | rfl | rfl | rfl
    · simp only [b1, b2] at cs ⊢
      refine ⟨?_, by norm_num [pt], by norm_num [pt], Or.inl ⟨rfl, by norm_num [pt]⟩⟩
      intro q hq hy
      obtain ⟨v, -, -, rfl⟩ := (cs q).1 hq
      norm_num [pt] at hy
    · simp only [r1, r2] at cs ⊢
      refine ⟨?_, by norm_num [pt], by norm_num [pt], Or.inr (by norm_num [pt])⟩
      intro q hq hy
      obtain ⟨v, -, -, rfl⟩ := (cs q).1 hq
      norm_num [pt]
    · simp only [t1, t2] at cs ⊢
      refine ⟨?_, by norm_num [pt], by norm_num [pt], Or.inl ⟨rfl, by norm_num [pt]⟩⟩
      intro q hq hy
      obtain ⟨v, -, -, rfl⟩ := (cs q).1 hq
      norm_num [pt] at hy
    · simp only [l1, l2] at cs ⊢
      refine ⟨?_, by norm_num [pt], by norm_num [pt], Or.inr (by norm_num [pt])⟩
      intro q hq hy
      obtain ⟨v, -, -, rfl⟩ := (cs q).1 hq
      norm_num [pt]
  refine ⟨_, o, hd, fun s h => (hm s h).1, hc, hclear, ?_⟩
  rw [C68_inside_partial hd (fun s h => (hm s h).1) hc rfl (by rw [x0, x1]; norm_num [pt]) (by rw [y0, y1]; norm_num [pt])
    (by rw [x0, x1, y0, y1]; norm_num) hclear, hs]
  classical
  congr 1
  apply decide_eq_true
  unfold EvenOdd
  simp only [List.map_cons, List.map_nil, List.sum_cons, List.sum_nil]
  rw [left_horizontal hb.1 hb.2 (by rw [b1, b2]; rfl) (by rw [b1]; norm_num [pt]),
    left_horizontal ht.1 ht.2 (by rw [t1, t2]; rfl) (by rw [t1]; norm_num [pt]),
    left_vertical hr.1 hr.2 (by rw [r1, r2]; rfl) (by rw [r1, r2]; norm_num [pt]),
    left_vertical hl.1 hl.2 (by rw [l1, l2]; rfl) (by rw [l1, l2]; norm_num [pt]),
    if_neg (by rw [r1]; norm_num [pt]), if_pos (by rw [l1, l2]; norm_num [pt])]
  decide

/-- C68 (counterexample). The midpoint of the bottom side of the square is a point of the outline, but `IsInside`, which
promises true for a point "on or inside this outline", reports false. -/
theorem C68_edge_outside : ∃ l o, Drawn l o ∧ (∀ s ∈ l, Made s) ∧ o.closed = true ∧
    (∃ s ∈ o.segs, Covers s (pt 1 0)) ∧ isInside o (pt 1 0) = some false := by
  obtain ⟨b, r, t, l, o, hd, hm, hc, hs, x0, y0, x1, y1, b1, b2, r1, r2, t1, t2, l1, l2⟩ := ex_square
  have hb := hm b (by simp)
  have hr := hm r (by simp)
  have ht := hm t (by simp)
  have hl := hm l (by simp)
  refine ⟨_, o, hd, fun s h => (hm s h).1, hc, ⟨b, by rw [hs]; simp, ?_⟩, ?_⟩
  · obtain ⟨-, -, -, -, cs⟩ := line_ends hb.1 hb.2
    rw [cs, b1, b2]
    exact ⟨1 / 2, by norm_num, by norm_num, by norm_num [pt]⟩
  · have hend : rayEnd o (pt 1 0) = pt (-5) 0 := by
      unfold rayEnd
      rw [x0, x1]
      norm_num [pt]
    obtain ⟨-, hray⟩ := ray_ok (o := o) (p := pt 1 0) rfl (by rw [x0, x1]; norm_num [pt]) (by rw [y0, y1]; norm_num [pt])
      (by rw [x0, x1, y0, y1]; norm_num)
    rw [hend] at hray
    unfold isInside
    rw [hc]
    simp only [Bool.not_true, Bool.false_eq_true, if_false, hs, hend]
    obtain ⟨ray, hry⟩ : ∃ ray, ray = (setLine (pt 1 0) (pt (-5) 0)).1 := ⟨_, rfl⟩
    rw [← hry] at hray ⊢
    obtain ⟨gs, ge, -, -, -⟩ := line_ends hray.made hray.kind
    have e1 := hray.start
    have e2 : ray.stop = pt (-5) 0 := hray.stop
    have hi : ∀ s ∈ [b, r, t, l], intersections s ray = checkLines s ray := by
      intro s h
      unfold intersections
      rw [(hm s h).2, hray.kind]
    have c1 : segCount ray l b r (pt 1 0).y = 0 := by
      unfold segCount
      rw [hi b (by simp)]
      unfold checkLines
      simp only [gs, ge, e1, e2, b1, b2, pt]
      norm_num [abs_div]
    have c2 : segCount ray b r t (pt 1 0).y = 0 := by
      unfold segCount
      rw [hi r (by simp)]
      unfold checkLines
      simp only [gs, ge, e1, e2, r1, r2, pt]
      norm_num [abs_div]
    have c3 : segCount ray r t l (pt 1 0).y = 0 := by
      unfold segCount
      rw [hi t (by simp)]
      unfold checkLines
      simp only [gs, ge, e1, e2, t1, t2, pt]
      norm_num [abs_div]
    have c4 : segCount ray t l b (pt 1 0).y = 0 := by
      have hx : Covers l (pt 0 0) ∧ Covers ray (pt 0 0) := by
        obtain ⟨-, -, -, -, cs⟩ := line_ends hl.1 hl.2
        rw [cs, l1, l2, hray.covers]
        exact ⟨⟨1, by norm_num, by norm_num, by norm_num [pt]⟩, rfl, rfl, Or.inr (by norm_num [pt])⟩
      obtain ⟨h1, h2⟩ := (C63_meet hl.1 hray.made hl.2 hray.kind (by
        unfold across; rw [l1, l2, e1, e2]; norm_num [pt])).1 _ hx.1 hx.2
      unfold segCount
      simp only [h1, h2, if_true, List.map_cons, List.map_nil, List.sum_cons, List.sum_nil]
      unfold nodeCount
      rw [if_neg (by rw [hl.2]; simp), boxOr_eq (line_box hl.2 l1 l2 (by norm_num)), same_match l2.symm]
      simp only [Bool.or_true, if_true, hl.2]
      norm_num [pt]
    simp only [List.getLast?_cons_cons, List.getLast?_singleton]
    unfold countFrom countFrom countFrom countFrom countFrom
    simp only [List.head?_cons, List.head?_nil, Option.getD_some, Option.getD_none, c1, c2, c3, c4]
    rfl

/-- C68 (counterexample). A point beside the top of a circle, further from the centre than the radius: the ray touches the
circle at its top, which counts as one crossing, and `IsInside` reports true. -/
theorem C68_beside_circle : ∃ c o, Drawn [c] o ∧ Made c ∧ c.kind = .circle ∧ o.closed = true ∧
    c.radius ^ 2 < planar2 (pt 0.9 1) c.center ∧ isInside o (pt 0.9 1) = some true := by
  obtain ⟨c, hc, hk, cc, cr⟩ := ex_circle (x := 0.5) (r := 1) (by norm_num) (by norm_num)
  have hbox : c.box = some (pt (-0.5) (-1), pt 1.5 1) := by
    unfold Seg.box
    rw [hk]
    simp only [cc, cr, pt]
    norm_num
  obtain ⟨o, ho⟩ : ∃ o, addSegment Outline.new (some c) = (o, true) := by
    unfold addSegment
    simp [hk, Outline.new]
  have hd : Drawn [c] o := by simpa using Drawn.took .new ho
  have hm : Made c := .arc hc
  refine ⟨c, o, hd, hm, hk, ?_⟩
  cases drawn_state hd with
  | empty e => cases e
  | drawing _ hp => rcases hp c (by simp) with k | k <;> rw [hk] at k <;> cases k
  | done lo hi hp => rcases hp c (by simp) with k | k <;> rw [hk] at k <;> cases k
  | circle s b e _ h1 h2 h3 h4 =>
    injection e with e _
    subst e
    rw [hbox] at h3
    injection h3 with h3
    rw [← h3] at h4
    have fx : ⌊(-0.5 : ℝ)⌋ = -1 := by rw [Int.floor_eq_iff]; norm_num
    have cx : ⌈(1.5 : ℝ)⌉ = 2 := by rw [Int.ceil_eq_iff]; norm_num
    have e1 := congrArg Prod.fst h4
    have e2 := congrArg Prod.snd h4
    unfold adjustBox at e1 e2
    simp only [pt, fx, cx] at e1 e2
    norm_num at e1 e2
    have x0 : o.lo.x = -1 := by rw [e1]
    have y0 : o.lo.y = -1 := by rw [e1]
    have x1 : o.hi.x = 3 := by rw [e2]
    have y1 : o.hi.y = 3 := by rw [e2]
    refine ⟨h2, by rw [cc, cr]; unfold planar2; norm_num [pt], ?_⟩
    have hend : rayEnd o (pt 0.9 1) = pt (-6) 1 := by
      unfold rayEnd
      rw [x0, x1]
      norm_num [pt]
    obtain ⟨-, hray⟩ := ray_ok (o := o) (p := pt 0.9 1) rfl (by rw [x0, x1]; norm_num [pt]) (by rw [y0, y1]; norm_num [pt])
      (by rw [x0, x1, y0, y1]; norm_num)
    rw [hend] at hray
    unfold isInside
    rw [h2]
    simp only [Bool.not_true, Bool.false_eq_true, if_false, h1, hend]
    obtain ⟨ray, hry⟩ : ∃ ray, ray = (setLine (pt 0.9 1) (pt (-6) 1)).1 := ⟨_, rfl⟩
    rw [← hry] at hray ⊢
    obtain ⟨gs, ge, -, -, -⟩ := line_ends hray.made hray.kind
    have e1 := hray.start
    have e2 : ray.stop = pt (-6) 1 := hray.stop
    have hi' : intersections c ray = arcLine c c.start c.stop ray.start ray.stop c.start c.stop := by
      unfold intersections checkArcLine; rw [hk, hray.kind]; simp only [or_true, if_true, gs, ge]
    have ha : arcLine c c.start c.stop ray.start ray.stop c.start c.stop = ⟨[onLine ray.start ray.stop (13 / 13.8)], .tangent, true⟩ := by
      unfold arcLine
      simp only [quad_disc]
      have hD : chord c.center c.radius ray.start ray.stop = 0 := by
        rw [chord_ray hray, cr, cc]; norm_num [pt]
      have hB : -quadB c.center ray.start ray.stop / (2 * quadA ray.start ray.stop) = 13 / 13.8 := by
        unfold quadA quadB
        rw [cc, e1, e2]
        norm_num [pt]
      rw [hD, hB, if_pos (by rw [hk]; norm_num), if_neg (by norm_num)]
    have c1 : segCount ray c c c (pt 0.9 1).y = 1 := by
      unfold segCount
      rw [hi', ha]
      simp only [if_true, List.map_cons, List.map_nil, List.sum_cons, List.sum_nil]
      unfold nodeCount
      rw [if_pos hk, add_zero]
    simp only [List.getLast?_singleton]
    unfold countFrom countFrom
    simp only [List.head?_nil, Option.getD_none, c1]
    rfl

end Iges.Props.Inside
