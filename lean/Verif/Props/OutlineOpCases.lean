import Verif.Props.OutlineOp
import Verif.Props.InsideCases
/-
C82: a hole on the edge of a square, and a hole over the ends of an arc, for which the outline comes apart.
-/
namespace Iges.Props.OutlineOps
open Iges.Geo Iges.Spec Real Iges.Props.Outlines Iges.Props.Inside Classical

/-- a circle -/
theorem ex_hole {x y r : ℝ} (hx : x ^ 2 + y ^ 2 ≤ 100) (hr : 1e-4 < r ∧ r ≤ 100) :
    ∃ s, setArc (pt x y) (pt (x + r) y) (pt (x + r) y) false = (s, true) ∧ s.kind = .circle ∧ s.center = pt x y ∧
      s.radius = r := by
  obtain ⟨hr1, hr2⟩ := hr
  have hr0 : 0 < r := by norm_num at hr1; linarith
  have hm : PointMatches (pt x y) (pt (x + r) y) 1e-8 = false := by
    apply no_match
    · norm_num
    · norm_num [norm2, pt]; nlinarith
    · norm_num [norm2, pt]; nlinarith [sq_nonneg (x - r)]
    · norm_num [dist2, pt]; norm_num at hr1; nlinarith
  obtain ⟨s, h⟩ := (C61_arc_accepted (pt x y) (pt (x + r) y) (pt (x + r) y) false).2 ⟨⟨rfl, rfl, rfl⟩, hm, hm,
    Or.inl (C51_reflexive _ _)⟩
  have hc := setArc_cases h
  refine ⟨s, h, ?_, hc.2.2.2.2.2.1, ?_⟩
  · rcases hc.2.2.2.2.2.2.2 with ⟨e, -⟩ | ⟨-, e, -⟩
    · exact e
    · rw [C51_reflexive] at e; cases e
  · rw [hc.2.2.2.2.2.2.1]
    unfold hyp pt
    simp only [add_sub_cancel_left, sub_self, mul_zero, add_zero]
    exact Real.sqrt_mul_self hr0.le

theorem atan2_down {y : ℝ} (hy : 0 < y) : atan2 (-y) 0 = -(π / 2) := by
  have := atan2_polar (r := y) (a := -(π / 2)) hy (by linarith [pi_pos]) (by linarith [pi_pos])
  simpa using this

theorem atan2_up {y : ℝ} (hy : 0 < y) : atan2 y 0 = π / 2 := by
  have := atan2_polar (r := y) (a := π / 2) hy (by linarith [pi_pos]) (by linarith [pi_pos])
  simpa using this

/-- the meeting of a line with a circle that it misses -/
theorem misses {s c : Seg} (hm : Made s) (hk : s.kind = .line) (kc : c.kind = .circle)
    (hD : quadB c.center s.start s.stop * quadB c.center s.start s.stop -
      4 * quadA s.start s.stop * quadC c.center c.radius s.stop ≤ -1) :
    intersections s c = ⟨[], .none, false⟩ := by
  obtain ⟨gs, ge, -, -, -⟩ := line_ends hm hk
  unfold intersections
  rw [hk, kc]
  simp only
  unfold checkArcLine
  rw [if_neg (by rw [hk]; simp)]
  unfold arcLine
  simp only [gs, ge]
  rw [if_neg, if_pos (by linarith)]
  rintro ⟨h, -⟩
  rw [abs_lt] at h
  norm_num at h
  linarith

/-- `IsInside` for the square and a point at the height of its middle, right of the middle -/
theorem square_inside {b r t l : Seg} {o : Outline} (hm : ∀ s ∈ [b, r, t, l], Made s ∧ s.kind = .line) (hc : o.closed = true)
    (hs : o.segs = [b, r, t, l]) (x0 : o.lo.x = 0) (x1 : o.hi.x = 2)
    (b1 : b.start = pt 0 0) (b2 : b.stop = pt 2 0) (r1 : r.start = pt 2 0) (r2 : r.stop = pt 2 2)
    (t1 : t.start = pt 2 2) (t2 : t.stop = pt 0 2) (l1 : l.start = pt 0 2) (l2 : l.stop = pt 0 0) :
    isInside o (pt 1.5 1) = some true ∧ isInside o (pt 2.5 1) = some false := by
  have hi : ∀ ray : Seg, ray.kind = .line → ∀ s ∈ [b, r, t, l], intersections s ray = checkLines s ray := by
    intro ray hray s h
    unfold intersections
    rw [(hm s h).2, hray]
  have kr := (hm r (by simp)).2
  have g : ∀ x : ℝ, x = 1.5 ∨ x = 2.5 → isInside o (pt x 1) = some (decide (x = 1.5)) := by
    intro x hx
    have hend : rayEnd o (pt x 1) = pt 7 1 := by
      unfold rayEnd
      rw [x0, x1]
      rcases hx with rfl | rfl <;> norm_num [pt]
    obtain ⟨ray, hray, kray, e1, e2⟩ := ex_seg (a := x) (b := 1) (c := 7) (d := 1)
      (by rcases hx with rfl | rfl <;> norm_num) (by rcases hx with rfl | rfl <;> norm_num) (by norm_num)
    obtain ⟨gs, ge, -, -, -⟩ := line_ends (.line hray) kray
    unfold isInside
    rw [hc]
    simp only [Bool.not_true, Bool.false_eq_true, if_false, hs, hend, hray]
    have c1 : segCount ray l b r (pt x 1).y = 0 := by
      unfold segCount
      rw [hi ray kray b (by simp)]
      unfold checkLines
      simp only [gs, ge, e1, e2, b1, b2, pt]
      norm_num [abs_div]
    have c3 : segCount ray r t l (pt x 1).y = 0 := by
      unfold segCount
      rw [hi ray kray t (by simp)]
      unfold checkLines
      simp only [gs, ge, e1, e2, t1, t2, pt]
      norm_num [abs_div]
    have c4 : segCount ray t l b (pt x 1).y = 0 := by
      unfold segCount
      rw [hi ray kray l (by simp)]
      unfold checkLines
      simp only [gs, ge, e1, e2, l1, l2, pt]
      rcases hx with rfl | rfl <;> norm_num [abs_div]
    have c2 : segCount ray b r t (pt x 1).y = if x = 1.5 then 1 else 0 := by
      have n1 : PointMatches (pt 2 1) (pt 2 0) 1e-8 = false := by apart
      have n2 : PointMatches (pt 2 1) (pt 2 2) 1e-8 = false := by apart
      unfold segCount
      rw [hi ray kray r (by simp)]
      unfold checkLines
      simp only [gs, ge, e1, e2, r1, r2, pt]
      rcases hx with rfl | rfl
      · norm_num [abs_div]
        unfold nodeCount
        rw [if_neg (by rw [kr]; simp), r1, r2]
        unfold pt at n1 n2 ⊢
        rw [n1, n2]
        simp
      · norm_num [abs_div]
    simp only [List.getLast?_cons_cons, List.getLast?_singleton]
    unfold countFrom countFrom countFrom countFrom countFrom
    simp only [List.head?_cons, List.head?_nil, Option.getD_some, Option.getD_none, c1, c2, c3, c4]
    rcases hx with rfl | rfl <;> norm_num
  constructor
  · rw [g _ (Or.inl rfl)]; simp
  · rw [g _ (Or.inr rfl)]; norm_num

/-- the right side of the square and the hole about its middle -/
theorem side_meets {r c : Seg} (hm : Made r) (hk : r.kind = .line) (r1 : r.start = pt 2 0) (r2 : r.stop = pt 2 2)
    (kc : c.kind = .circle) (cc : c.center = pt 2 1) (cr : c.radius = 0.5) :
    intersections r c = ⟨[pt 2 1.5, pt 2 0.5], .none, true⟩ := by
  obtain ⟨gs, ge, -, -, -⟩ := line_ends hm hk
  unfold intersections
  rw [hk, kc]
  simp only
  unfold checkArcLine
  rw [if_neg (by rw [hk]; simp)]
  have hA : quadA r.start r.stop = 4 := by rw [r1, r2]; norm_num [quadA, pt]
  have hB : quadB c.center r.start r.stop = -4 := by rw [r1, r2, cc]; norm_num [quadB, pt]
  have hC : quadC c.center c.radius r.stop = 3 / 4 := by rw [r2, cc, cr]; norm_num [quadC, pt]
  have hsq : √(4 : ℝ) = 2 := by rw [show (4 : ℝ) = 2 ^ 2 by norm_num]; exact Real.sqrt_sq (by norm_num)
  have v0 : candidate c.center c.getStart c.getEnd true r.start r.stop (3 / 4) = (pt 2 0.5, .none, -(π / 2)) := by
    unfold candidate onLine
    rw [r1, r2, cc]
    have := atan2_down (y := 1 / 2) (by norm_num)
    norm_num [pt, abs_of_pos]
    rw [← this]
  have v1 : candidate c.center c.getStart c.getEnd true r.start r.stop (1 / 4) = (pt 2 1.5, .none, π / 2) := by
    unfold candidate onLine
    rw [r1, r2, cc]
    have := atan2_up (y := 1 / 2) (by norm_num)
    norm_num [pt, abs_of_pos]
    rw [← this]
  unfold arcLine
  simp only [gs, ge, hA, hB, hC, kc, beq_self_eq_true]
  norm_num [hsq]
  rw [v0, v1]
  unfold pickCircle
  have := pi_pos
  dsimp only
  rw [if_pos]
  · norm_num
    intro h; cases h
  · rw [if_neg (by linarith)]
    left; linarith

/-- an operation whose first point starts the part of the circle inside the outline -/
theorem opCircle_in {o : Outline} {c : Seg} {opsub : Bool} {hits : List (Point ℝ × ℕ)} {p q : Point ℝ × ℕ}
    (hc : o.closed = true) (kc : c.kind = .circle) (hh : circleHits c opsub 0 o.segs = .points hits)
    (hd : distinct [] hits = [p, q]) (h1 : isInside o (pointAt c (midAngle c.center p.1 q.1)) = some true)
    (h2 : isInside o (pointAt c (midAngle c.center p.1 q.1 + π)) = some false) :
    opCircle o (some c) opsub = changeOutline { o with boxOk := false } c opsub q p (isEndOf o.segs hits q.1)
      (isEndOf o.segs hits p.1) := by
  have i1 : isInside { o with boxOk := false } (pointAt c (midAngle c.center p.1 q.1)) = some true := h1
  have i2 : isInside { o with boxOk := false } (pointAt c (midAngle c.center p.1 q.1 + π)) = some false := h2
  unfold opCircle
  dsimp only
  rw [if_neg (by rw [hc]; simp), if_neg (by rw [kc]; simp), hh]
  dsimp only
  rw [hd]
  dsimp only
  rw [i1, i2]
  rfl

/-- C82: a hole about the middle of the right side of the square, cut out or joined: all conditions of
`C82_contiguous_partial` and `C82_border` are met, and the operation succeeds. -/
theorem ex_cut (opsub : Bool) : ∃ b r t l o c, Drawn [b, r, t, l] o ∧ o.segs = [b, r, t, l] ∧ o.closed = true ∧
    (∀ s ∈ [b, r, t, l], Made s ∧ s.kind = .line) ∧ Made c ∧ c.kind = .circle ∧ c.center = pt 2 1 ∧ c.radius = 0.5 ∧
    b.start = pt 0 0 ∧ b.stop = pt 2 0 ∧ r.start = pt 2 0 ∧ r.stop = pt 2 2 ∧
    t.start = pt 2 2 ∧ t.stop = pt 0 2 ∧ l.start = pt 0 2 ∧ l.stop = pt 0 0 ∧
    intersections r c = ⟨[pt 2 1.5, pt 2 0.5], .none, true⟩ ∧
    (∀ s ∈ [b, t, l], intersections s c = ⟨[], .none, false⟩) ∧
    isInside o (pt 1.5 1) = some true ∧ isInside o (pt 2.5 1) = some false ∧
    ∃ sp r' r'', setArc c.center (pt 2 0.5) (pt 2 1.5) opsub = (sp, true) ∧
      (opCircle o (some c) opsub).ret = true ∧ (opCircle o (some c) opsub).out.segs = [b, r', sp, r'', t, l] ∧
      r'.kind = .line ∧ r'.start = pt 2 0 ∧ r'.stop = pt 2 0.5 ∧
      r''.kind = .line ∧ r''.start = pt 2 1.5 ∧ r''.stop = pt 2 2 := by
  obtain ⟨b, r, t, l, o, hd, hm, hc, hs, x0, y0, x1, y1, b1, b2, r1, r2, t1, t2, l1, l2⟩ := ex_square
  obtain ⟨c, hcc, kc, cc, cr⟩ := ex_hole (x := 2) (y := 1) (r := 0.5) (by norm_num) (by norm_num)
  have hr := hm r (by simp)
  obtain ⟨gs, ge, -, -, cs⟩ := line_ends hr.1 hr.2
  have ir := side_meets hr.1 hr.2 r1 r2 kc cc cr
  have im : ∀ s ∈ [b, t, l], intersections s c = ⟨[], .none, false⟩ := by
    intro s h
    have hms := hm s (by simp at h ⊢; tauto)
    refine misses hms.1 hms.2 kc ?_
    rw [cc, cr]
    simp at h
    rcases h with rfl | rfl | rfl
    · rw [b1, b2]; norm_num [quadA, quadB, quadC, pt]
    · rw [t1, t2]; norm_num [quadA, quadB, quadC, pt]
    · rw [l1, l2]; norm_num [quadA, quadB, quadC, pt]
  obtain ⟨in1, in2⟩ := square_inside hm hc hs x0 x1 b1 b2 r1 r2 t1 t2 l1 l2
  have far : PointMatches (pt 2 1.5) (pt 2 0.5) 1e-8 = false := by apart
  have far' : PointMatches (pt 2 0.5) (pt 2 1.5) 1e-8 = false := by apart
  have f1 : PointMatches (pt 2 0.5) (pt 2 0) 1e-8 = false := by apart
  have f2 : PointMatches (pt 2 0.5) (pt 2 2) 1e-8 = false := by apart
  have f3 : PointMatches (pt 2 1.5) (pt 2 0) 1e-8 = false := by apart
  have f4 : PointMatches (pt 2 1.5) (pt 2 2) 1e-8 = false := by apart
  obtain ⟨sp, hsp⟩ : ∃ sp, setArc c.center (pt 2 0.5) (pt 2 1.5) opsub = (sp, true) := by
    apply (C61_arc_accepted c.center (pt 2 0.5) (pt 2 1.5) opsub).2
    rw [cc]
    refine ⟨⟨rfl, rfl, rfl⟩, by apart, by apart, Or.inr ?_⟩
    norm_num [planar2, pt]
  have hits : circleHits c opsub 0 o.segs = .points [(pt 2 1.5, 1), (pt 2 0.5, 1)] := by
    rw [hs]
    simp [circleHits, im b (by simp), im t (by simp), im l (by simp), ir, Flag.fine]
  have hdist : distinct [] [(pt 2 1.5, 1), (pt 2 0.5, 1)] = [(pt 2 1.5, 1), (pt 2 0.5, 1)] := by
    simp [distinct, far]
  have hmid : midAngle c.center (pt 2 1.5) (pt 2 0.5) = π := by
    unfold midAngle
    have e1 := atan2_up (y := 1 / 2) (by norm_num)
    have e2 := atan2_down (y := 1 / 2) (by norm_num)
    have e3 : atan2 ((pt 2 1.5).y - c.center.y) ((pt 2 1.5).x - c.center.x) = π / 2 := by
      rw [← e1, cc]; norm_num [pt]
    have e4 : atan2 ((pt 2 0.5).y - c.center.y) ((pt 2 0.5).x - c.center.x) = -(π / 2) := by
      rw [← e2, cc]; norm_num [pt]
    simp only [e3, e4]
    rw [if_pos (by linarith [pi_pos])]
    ring
  have p1 : pointAt c π = pt 1.5 1 := by
    unfold pointAt; rw [cc, cr, cos_pi, sin_pi]; norm_num [pt]
  have p2 : pointAt c (π + π) = pt 2.5 1 := by
    unfold pointAt; rw [cc, cr, cos_add_pi, sin_add_pi, cos_pi, sin_pi]; norm_num [pt]
  have hend : ∀ p, PointMatches p (pt 2 0) 1e-8 = false → PointMatches p (pt 2 2) 1e-8 = false →
      isEndOf o.segs [(pt 2 1.5, 1), (pt 2 0.5, 1)] p = false := by
    intro p h1 h2
    simp [isEndOf, hs, gs, ge, r1, r2, h1, h2]
  obtain ⟨r', r'', hspl, k1, k2, k3, k4, k5, k6⟩ : ∃ r' r'', (∃ m, r.split [pt 2 0.5, pt 2 1.5] = some (r', [m, r''])) ∧
      r'.kind = .line ∧ r'.start = pt 2 0 ∧ r'.stop = pt 2 0.5 ∧ r''.kind = .line ∧ r''.start = pt 2 1.5 ∧
      r''.stop = pt 2 2 := by
    refine ⟨{ r with stop := pt 2 0.5 }, (setLine (pt 2 1.5) (pt 2 2)).1, ⟨(setLine (pt 2 0.5) (pt 2 1.5)).1, ?_⟩, hr.2, r1, rfl,
      ?_, ?_, ?_⟩
    · unfold Seg.split
      simp only [hr.2, r1, r2, List.filter_cons, f1, f2, f3, f4]
      norm_num [splitLine, lineTakes, lineParam, r1, r2, pt]
      exact ⟨by simp, by simp, hr.2⟩
    all_goals
      unfold setLine
      simp [f4, pt]
    all_goals
      have f4' := f4
      unfold pt at f4'
      simp [f4']
  obtain ⟨m, hspl⟩ := hspl
  have hop : opCircle o (some c) opsub = ⟨{ o with boxOk := false, segs := [b, r', sp, r'', t, l] }, true, false⟩ := by
    rw [opCircle_in hc kc hits hdist (by rw [hmid, p1]; exact in1) (by rw [hmid, p2]; exact in2)]
    rw [hend _ f1 f2, hend _ f3 f4]
    unfold changeOutline
    simp only [hsp, Bool.true_eq_false, if_false, hs, List.head?_cons, Option.map_some, (hm b (by simp)).2]
    simp [hspl]
  exact ⟨b, r, t, l, o, c, hd, hs, hc, hm, .arc hcc, kc, cc, cr, b1, b2, r1, r2, t1, t2, l1, l2, ir, im, in1, in2, sp, r', r'', hsp,
    by rw [hop], by rw [hop], k1, k2, k3, k4, k5, k6⟩

/-- C82: the conditions of `C82_contiguous_partial` and of `C82_border` hold for that hole, and the new outline has six
segments. -/
example (opsub : Bool) : ∃ o c, Bordered o ∧ (∀ s ∈ o.segs, Made s) ∧ Made c ∧ isContiguous o = true ∧
    (∀ s ∈ o.segs, Exact c s) ∧
    (∀ s ∈ o.segs, s.kind ≠ .circle → OneHit c s ∨
      (s.kind = .line ∧ Exact c s ∧ isInside o (leftmost c s) ≠ some false)) ∧
    (opCircle o (some c) opsub).ret = true ∧ (opCircle o (some c) opsub).out.segs.length = 6 ∧
    isContiguous (opCircle o (some c) opsub).out = true := by
  obtain ⟨b, r, t, l, o, c, hd, hs, hc, hm, mc, kc, cc, cr, b1, b2, r1, r2, t1, t2, l1, l2, ir, im, in1, in2, sp, r', r'', hsp,
    hret, hout, k⟩ := ex_cut opsub
  have hcont : isContiguous o = true := by rw [C67_contiguous hd, hc]
  have hb : Bordered o := Or.inr (by rw [hs]; exact fun s h => Or.inl (hm s h).2)
  have hms : ∀ s ∈ o.segs, Made s := by rw [hs]; exact fun s h => (hm s h).1
  have hex : ∀ s ∈ o.segs, Exact c s := by
    intro s h x hx
    rw [hs] at h
    by_cases hr : s = r
    · subst hr
      rw [ir] at hx
      obtain ⟨-, -, -, -, cs⟩ := line_ends (hm s h).1 (hm s h).2
      have hcov : Covers c x ↔ OnCircle (pt 2 1) 0.5 x := by unfold Covers; rw [kc, cc, cr]
      rw [cs, r1, r2, hcov]
      simp only [List.mem_cons, List.not_mem_nil, or_false] at hx
      rcases hx with rfl | rfl
      · exact ⟨⟨0.75, by norm_num, by norm_num, by norm_num [pt]⟩, by norm_num [planar2, pt], rfl⟩
      · exact ⟨⟨0.25, by norm_num, by norm_num, by norm_num [pt]⟩, by norm_num [planar2, pt], rfl⟩
    · rw [im s (by simp at h ⊢; tauto)] at hx
      simp at hx
  have hone : ∀ s ∈ o.segs, s.kind ≠ .circle → OneHit c s ∨
      (s.kind = .line ∧ Exact c s ∧ isInside o (leftmost c s) ≠ some false) := by
    intro s h _
    have h' := h
    rw [hs] at h
    by_cases hr : s = r
    · right
      subst hr
      refine ⟨(hm s h).2, hex s h', ?_⟩
      have : leftmost c s = pt 1.5 1 := by
        unfold leftmost
        rw [r1, r2, cc, cr]
        have e : planar2 (pt 2 2) (pt 2 0) = 2 ^ 2 := by norm_num [planar2, pt]
        rw [e, Real.sqrt_sq (by norm_num)]
        norm_num [pt]
      rw [this, in1]
      simp
    · left
      intro x hx
      rw [im s (by simp at h ⊢; tauto)] at hx
      simp at hx
  exact ⟨o, c, hb, hms, mc, hcont, hex, hone, hret, by rw [hout]; rfl,
    (C82_contiguous_partial hb hms mc hcont hone hret).1⟩

/-- an angle whose cosine is 4/5 and one whose cosine is 3/5 -/
theorem angles : ∃ α β : ℝ, 0 < α ∧ α < β ∧ β < π / 2 ∧ cos α = 4 / 5 ∧ sin α = 3 / 5 ∧ cos β = 3 / 5 ∧ sin β = 4 / 5 := by
  refine ⟨arccos (4 / 5), arccos (3 / 5), ?_, ?_, ?_, ?_, ?_, ?_, ?_⟩
  · rw [arccos_pos]; norm_num
  · exact arccos_lt_arccos (by norm_num) (by norm_num) (by norm_num)
  · rw [arccos_lt_pi_div_two]; norm_num
  · rw [cos_arccos] <;> norm_num
  · rw [sin_arccos, show (1 - (4 / 5 : ℝ) ^ 2) = (3 / 5) ^ 2 by norm_num, Real.sqrt_sq (by norm_num)]
  · rw [cos_arccos] <;> norm_num
  · rw [sin_arccos, show (1 - (3 / 5 : ℝ) ^ 2) = (4 / 5) ^ 2 by norm_num, Real.sqrt_sq (by norm_num)]

/-- directions to some points -/
theorem directions {α β : ℝ} (hα : 0 < α) (hαβ : α < β) (hβ : β < π / 2) (cα : cos α = 4 / 5) (sα : sin α = 3 / 5)
    (cβ : cos β = 3 / 5) (sβ : sin β = 4 / 5) : atan2 3 4 = α ∧ atan2 (-3) 4 = -α ∧ atan2 4 3 = β ∧ atan2 (-4) 3 = -β ∧
      atan2 4 (-3) = π - β ∧ atan2 (-4) (-3) = β - π := by
  have hpi := pi_pos
  refine ⟨?_, ?_, ?_, ?_, ?_, ?_⟩
  · have := atan2_polar (r := 5) (a := α) (by norm_num) (by linarith) (by linarith)
    rw [cα, sα] at this; norm_num at this; exact this
  · have := atan2_polar (r := 5) (a := -α) (by norm_num) (by linarith) (by linarith)
    rw [cos_neg, sin_neg, cα, sα] at this; norm_num at this; exact this
  · have := atan2_polar (r := 5) (a := β) (by norm_num) (by linarith) (by linarith)
    rw [cβ, sβ] at this; norm_num at this; exact this
  · have := atan2_polar (r := 5) (a := -β) (by norm_num) (by linarith) (by linarith)
    rw [cos_neg, sin_neg, cβ, sβ] at this; norm_num at this; exact this
  · have := atan2_polar (r := 5) (a := π - β) (by norm_num) (by linarith) (by linarith)
    rw [cos_pi_sub, sin_pi_sub, cβ, sβ] at this; norm_num at this; exact this
  · have := atan2_polar (r := 5) (a := β - π) (by norm_num) (by linarith) (by linarith)
    rw [cos_sub_pi, sin_sub_pi, cβ, sβ] at this; norm_num at this; exact this

/-- a disc with a flat side -/
theorem ex_flat {α : ℝ} (hα : 0 < α) (hα' : α < π / 2) (e1 : atan2 3 4 = α) (e2 : atan2 (-3) 4 = -α) : ∃ a l o, Drawn [a, l] o ∧
    Made a ∧ Made l ∧ o.closed = true ∧ o.segs = [a, l] ∧ o.lo.x = -5 ∧ o.hi.x = 5 ∧ a.kind = .arc ∧ a.center = pt 0 0 ∧
    a.radius = 5 ∧ a.start = pt 4 3 ∧ a.stop = pt 4 (-3) ∧ a.cw = false ∧ a.sang = α ∧ a.eang = -α + 2 * π ∧
    l.kind = .line ∧ l.start = pt 4 (-3) ∧ l.stop = pt 4 3 := by
  have hpi := pi_pos
  have hmm : PointMatches (pt 4 3) (pt 4 (-3)) 1e-8 = false := by apart
  obtain ⟨a, ha⟩ := (C61_arc_accepted (pt 0 0) (pt 4 3) (pt 4 (-3)) false).2 ⟨⟨rfl, rfl, rfl⟩, by apart, by apart,
    Or.inr (by norm_num [planar2, pt])⟩
  obtain ⟨-, -, -, -, -, ca, ra, e⟩ := setArc_cases ha
  rcases e with ⟨-, e⟩ | ⟨ka, -, a1, a2, acw, -, g1, g2⟩
  · rw [hmm] at e; cases e
  have ra : a.radius = 5 := by
    rw [ra]; unfold hyp pt
    rw [show ((4 : ℝ) - 0) * (4 - 0) + (3 - 0) * (3 - 0) = 5 ^ 2 by norm_num, Real.sqrt_sq (by norm_num)]
  have g1 : a.sang = α := by rw [g1]; simp [pt, e1]
  have g2 : a.eang = -α + 2 * π := by
    rw [g2]; simp only [pt, sub_zero, e1, e2]; rw [if_pos ⟨trivial, by linarith⟩]
  obtain ⟨l, hl, kl, l1, l2⟩ := ex_seg (a := 4) (b := -3) (c := 4) (d := 3) (by norm_num) (by norm_num) (by norm_num)
  obtain ⟨o, hd, hc⟩ := C67_drawable (l := [a, l]) (by intro x hx; simp at hx; rcases hx with rfl | rfl <;> simp [*])
    ⟨same_match (by rw [a2, l1]), trivial⟩ (by intro k hk hlt; simp at hlt; omega)
  have hcl : o.closed = true := hc.2 ⟨by simp, a, l, by simp, by simp, same_match (by rw [l2, a1])⟩
  have sA : a.startAngle = α := by unfold Seg.startAngle; rw [acw]; exact g1
  have eA : a.endAngle = -α + 2 * π := by unfold Seg.endAngle; rw [acw]; exact g2
  have xl : l.box = some (pt 4 (-3), pt 4 3) := by
    unfold Seg.box
    rw [kl]
    simp only [l1, l2, pt]
    norm_num
  have xa : a.box = some (pt (-5) (-5), pt 4 5) := by
    have hex : a.extrema = [pt 0 5, pt (-5) 0, pt 0 (-5)] := by
      unfold Seg.extrema
      simp only [sA, eA, ca, ra]
      rw [if_neg, if_pos, if_pos, if_pos]
      · norm_num [pt]
      · right; constructor <;> linarith
      · constructor <;> linarith
      · left; constructor <;> linarith
      · rintro (⟨h, -⟩ | ⟨-, h⟩) <;> linarith
    unfold Seg.box
    rw [ka]
    simp only [hex, a1, a2]
    norm_num [grow, endBox, pt]
  cases drawn_state hd with
  | empty e => cases e
  | circle _ _ e => cases e
  | drawing _ _ _ _ e => rw [hcl] at e; cases e
  | done lo hi h1 _ _ _ h5 _ hh he =>
    have hsegs : o.segs = [a, l] := by
      have hmid : a.midpoint = some (pt (-5) 0) := by
        unfold Seg.midpoint
        rw [ka]
        simp only [g1, g2, ra, ca]
        rw [show (α + (-α + 2 * π)) * 0.5 = π by ring]
        norm_num [pt]
      rw [h5]
      unfold orient
      rw [if_neg]
      simp only [List.map_cons, List.map_nil, List.sum_cons, List.sum_nil, windingOf, ka, kl, a1, a2, l1, l2, hmid,
        Option.getD_some, pt]
      norm_num
    have ia := hh.inside a (by simp) _ xa
    have il := hh.inside l (by simp) _ xl
    simp only [pt] at ia il
    have hlx : lo.x = -5 := by
      obtain ⟨s, hs, v, hv, e⟩ := hh.left
      simp at hs
      rcases hs with rfl | rfl
      all_goals
        first | rw [xa] at hv | rw [xl] at hv
        injection hv with hv
        rw [← hv] at e
        simp only [pt] at e
        linarith
    have hly : lo.y = -5 := by
      obtain ⟨s, hs, v, hv, e⟩ := hh.bottom
      simp at hs
      rcases hs with rfl | rfl
      all_goals
        first | rw [xa] at hv | rw [xl] at hv
        injection hv with hv
        rw [← hv] at e
        simp only [pt] at e
        linarith
    have hhx : hi.x = 4 := by
      obtain ⟨s, hs, v, hv, e⟩ := hh.right
      simp at hs
      rcases hs with rfl | rfl
      all_goals
        first | rw [xa] at hv | rw [xl] at hv
        injection hv with hv
        rw [← hv] at e
        simp only [pt] at e
        linarith
    have hhy : hi.y = 5 := by
      obtain ⟨s, hs, v, hv, e⟩ := hh.top
      simp at hs
      rcases hs with rfl | rfl
      all_goals
        first | rw [xa] at hv | rw [xl] at hv
        injection hv with hv
        rw [← hv] at e
        simp only [pt] at e
        linarith
    have eb : adjustBox lo hi = (⟨-5, -5, lo.z⟩, ⟨5, 5, hi.z⟩) := by
      unfold adjustBox
      rw [hlx, hly, hhx, hhy]
      have f1 : ⌊(-5 : ℝ)⌋ = -5 := by rw [Int.floor_eq_iff]; norm_num
      have f2 : ⌈(4 : ℝ)⌉ = 4 := by rw [Int.ceil_eq_iff]; norm_num
      have f3 : ⌈(5 : ℝ)⌉ = 5 := by rw [Int.ceil_eq_iff]; norm_num
      rw [f1, f2, f3]
      norm_num
    rw [eb] at he
    injection he with he1 he2
    exact ⟨a, l, o, hd, .arc ha, .line hl, hcl, hsegs, by rw [he1], by rw [he2], ka, ca, ra, a1, a2, acw, g1, g2, kl, l1, l2⟩

/-- `IsInside` for the two points of the hole -/
theorem flat_inside {α : ℝ} (hα : 0 < α) (hα' : α < π / 2) {a l : Seg} {o : Outline} (hc : o.closed = true)
    (hs : o.segs = [a, l]) (x0 : o.lo.x = -5) (x1 : o.hi.x = 5) (ml : Made l) (ka : a.kind = .arc) (ca : a.center = pt 0 0)
    (ra : a.radius = 5) (a1 : a.start = pt 4 3) (a2 : a.stop = pt 4 (-3)) (acw : a.cw = false) (g1 : a.sang = α)
    (g2 : a.eang = -α + 2 * π) (kl : l.kind = .line) (l1 : l.start = pt 4 (-3)) (l2 : l.stop = pt 4 3) :
    isInside o (pt 1 0) = some true ∧ isInside o (pt 11 0) = some false := by
  have hpi := pi_pos
  have sA : a.startAngle = α := by unfold Seg.startAngle; rw [acw]; exact g1
  have eA : a.endAngle = -α + 2 * π := by unfold Seg.endAngle; rw [acw]; exact g2
  have i1 : ∀ ray : Seg, ray.kind = .line → intersections a ray = arcLine a a.start a.stop ray.getStart ray.getEnd a.start a.stop := by
    intro ray hray
    unfold intersections
    rw [ka, hray]
    simp only
    unfold checkArcLine
    rw [if_pos (Or.inl ka)]
  have i2 : ∀ ray : Seg, ray.kind = .line → intersections l ray = checkLines l ray := by
    intro ray hray
    unfold intersections
    rw [kl, hray]
  have hfull : (a.kind == .circle) = false := by rw [ka]; rfl
  constructor
  · have hend : rayEnd o (pt 1 0) = pt 10 0 := by
      unfold rayEnd
      rw [x0, x1]
      norm_num [pt]
    obtain ⟨ray, hray, kray, e1, e2⟩ := ex_seg (a := 1) (b := 0) (c := 10) (d := 0) (by norm_num) (by norm_num) (by norm_num)
    obtain ⟨gs, ge, -, -, -⟩ := line_ends (.line hray) kray
    have c1 : segCount ray l a l 0 = 0 := by
      have : intersections a ray = ⟨[], .none, false⟩ := by
        rw [i1 ray kray]
        have hA : quadA ray.getStart ray.getEnd = 81 := by rw [gs, ge, e1, e2]; norm_num [quadA, pt]
        have hB : quadB a.center ray.getStart ray.getEnd = -180 := by rw [gs, ge, e1, e2, ca]; norm_num [quadB, pt]
        have hC : quadC a.center a.radius ray.getEnd = 75 := by rw [ge, e2, ca, ra]; norm_num [quadC, pt]
        have hsq : √(8100 : ℝ) = 90 := by rw [show (8100 : ℝ) = 90 ^ 2 by norm_num]; exact Real.sqrt_sq (by norm_num)
        have v : candidate a.center a.start a.stop false ray.getStart ray.getEnd (5 / 9) = (pt 5 0, .none, 0) := by
          have := atan2_polar (r := 5) (a := 0) (by norm_num) (by linarith) (by linarith)
          have m1 : PointMatches (pt 5 0) (pt 4 3) 1e-8 = false := by apart
          have m2 : PointMatches (pt 5 0) (pt 4 (-3)) 1e-8 = false := by apart
          rw [cos_zero, sin_zero] at this
          norm_num at this
          unfold candidate onLine
          unfold pt at m1 m2
          norm_num at m1 m2
          rw [gs, ge, e1, e2, ca, a1, a2]
          norm_num [pt, abs_of_pos, this, m1, m2]
        have hon : ¬ onArc α (-α + 2 * π) (pt 4 3) (pt 4 (-3)) (pt 5 0, .none, 0) := by
          unfold onArc
          simp only [pt]
          rintro (⟨h, -⟩ | ⟨-, h⟩ | ⟨h, -⟩ | ⟨h, -⟩)
          · linarith
          · linarith
          · norm_num at h
          · norm_num at h
        unfold arcLine
        simp only [hA, hB, hC, hfull, sA, eA]
        norm_num [hsq]
        rw [v, a1, a2]
        simp [hon, pickArc]
      unfold segCount
      rw [this]
      simp
    have c2 : segCount ray a l a 0 = 1 := by
      have n1 : PointMatches (pt 4 0) (pt 4 (-3)) 1e-8 = false := by apart
      have n2 : PointMatches (pt 4 0) (pt 4 3) 1e-8 = false := by apart
      unfold segCount
      rw [i2 ray kray]
      unfold checkLines
      simp only [gs, ge, e1, e2, l1, l2, pt]
      norm_num [abs_div]
      unfold nodeCount
      rw [if_neg (by rw [kl]; simp), l1, l2]
      unfold pt at n1 n2 ⊢
      rw [n1, n2]
      simp
    unfold isInside
    rw [hc]
    simp only [Bool.not_true, Bool.false_eq_true, if_false, hs, hend, hray]
    simp only [List.getLast?_cons_cons, List.getLast?_singleton]
    unfold countFrom countFrom countFrom
    simp only [List.head?_cons, List.head?_nil, Option.getD_some, Option.getD_none]
    rw [show (pt 1 0).y = 0 from rfl, c1, c2]
    rfl
  · have hend : rayEnd o (pt 11 0) = pt 10 0 := by
      unfold rayEnd
      rw [x0, x1]
      norm_num [pt]
    obtain ⟨ray, hray, kray, e1, e2⟩ : ∃ s, setLine (pt 11 0) (pt 10 0) = (s, true) ∧ s.kind = .line ∧ s.start = pt 11 0 ∧
        s.stop = pt 10 0 := by
      have hm : PointMatches (pt 11 0) (pt 10 0) 1e-8 = false := by apart
      refine ⟨{ Seg.init with start := pt 11 0, stop := pt 10 0, kind := .line }, ?_, rfl, rfl, rfl⟩
      unfold setLine
      rw [if_neg (by simp [pt]), if_neg (by simp [hm])]
    obtain ⟨gs, ge, -, -, -⟩ := line_ends (.line hray) kray
    have c1 : segCount ray l a l 0 = 0 := by
      have : intersections a ray = ⟨[], .none, false⟩ := by
        rw [i1 ray kray]
        have hA : quadA ray.getStart ray.getEnd = 1 := by rw [gs, ge, e1, e2]; norm_num [quadA, pt]
        have hB : quadB a.center ray.getStart ray.getEnd = 2 * (110 - 100) := by rw [gs, ge, e1, e2, ca]; norm_num [quadB, pt]
        have hC : quadC a.center a.radius ray.getEnd = 75 := by rw [ge, e2, ca, ra]; norm_num [quadC, pt]
        have hsq : √(100 : ℝ) = 10 := by rw [show (100 : ℝ) = 10 ^ 2 by norm_num]; exact Real.sqrt_sq (by norm_num)
        unfold arcLine
        simp only [hA, hB, hC, hfull, sA, eA]
        norm_num [hsq]
      unfold segCount
      rw [this]
      simp
    have c2 : segCount ray a l a 0 = 0 := by
      unfold segCount
      rw [i2 ray kray]
      unfold checkLines
      simp only [gs, ge, e1, e2, l1, l2, pt]
      norm_num [abs_div]
    unfold isInside
    rw [hc]
    simp only [Bool.not_true, Bool.false_eq_true, if_false, hs, hend, hray]
    simp only [List.getLast?_cons_cons, List.getLast?_singleton]
    unfold countFrom countFrom countFrom
    simp only [List.head?_cons, List.head?_nil, Option.getD_some, Option.getD_none]
    rw [show (pt 11 0).y = 0 from rfl, c1, c2]
    rfl

/-- where the hole meets the disc -/
theorem flat_hits {α β : ℝ} (hα : 0 < α) (hαβ : α < β) (hβ : β < π / 2) (e3 : atan2 4 3 = β) (e4 : atan2 (-4) 3 = -β) {a l c : Seg}
    (ml : Made l) (ka : a.kind = .arc) (ca : a.center = pt 0 0)
    (ra : a.radius = 5) (acw : a.cw = false) (g1 : a.sang = α)
    (g2 : a.eang = -α + 2 * π) (kl : l.kind = .line) (l1 : l.start = pt 4 (-3)) (l2 : l.stop = pt 4 3)
    (kc : c.kind = .circle) (cc : c.center = pt 6 0) (cr : c.radius = 5) :
    intersections a c = ⟨[pt 3 4, pt 3 (-4)], .none, true⟩ ∧ intersections l c = ⟨[], .none, false⟩ := by
  have hpi := pi_pos
  have sA : a.startAngle = α := by unfold Seg.startAngle; rw [acw]; exact g1
  have eA : a.endAngle = -α + 2 * π := by unfold Seg.endAngle; rw [acw]; exact g2
  constructor
  · have hd : hyp ((pt 0 0).x - (pt 6 0).x) ((pt 0 0).y - (pt 6 0).y) = 6 := by
      unfold hyp pt
      rw [show ((0 : ℝ) - 6) * (0 - 6) + (0 - 0) * (0 - 0) = 6 ^ 2 by norm_num, Real.sqrt_sq (by norm_num)]
    have hi : intercepts (pt 0 0) 5 (pt 6 0) 5 6 = (pt 3 4, pt 3 (-4)) := by
      have h0 := atan2_polar (r := 6) (a := 0) (by norm_num) (by linarith) (by linarith)
      rw [cos_zero, sin_zero] at h0
      norm_num at h0
      have hsq : √(16 : ℝ) = 4 := by rw [show (16 : ℝ) = 4 ^ 2 by norm_num]; exact Real.sqrt_sq (by norm_num)
      unfold intercepts
      simp only [pt]
      norm_num [h0, hsq, cos_add_pi, sin_add_pi, e3, e4]
      constructor <;> intro h <;> linarith
    have n1 : PointMatches (pt 0 0) (pt 6 0) 1e-3 = false := by apart
    have r1 : reaches β α (-α + 2 * π) := (reaches_iff (by linarith) (by linarith) (by linarith) (by linarith) (by linarith)).2
      (Or.inl ⟨by linarith, by linarith⟩)
    have r2 : reaches (-β) α (-α + 2 * π) := (reaches_iff (by linarith) (by linarith) (by linarith) (by linarith) (by linarith)).2
      (Or.inr ⟨by linarith, by linarith⟩)
    unfold intersections
    rw [ka, kc]
    simp only
    unfold checkArcs
    simp only [ca, ra, cc, cr, sA, eA, hd, hi, n1, ka, kc]
    rw [if_neg (by norm_num), if_neg (by norm_num [abs_of_neg]), if_neg (by simp), if_neg (by simp)]
    simp only [pt, sub_zero, e3, e4, true_or, r1, r2, or_true, and_self, if_true]
    rw [if_neg]
    rw [if_neg (show ¬ β < α by linarith), if_pos (show -β < α by linarith), if_neg (show ¬ β < α by linarith),
      if_neg (by linarith), if_neg (by linarith), if_neg (by linarith)]
    linarith
  · obtain ⟨gs, ge, -, -, -⟩ := line_ends ml kl
    unfold intersections
    rw [kl, kc]
    simp only
    unfold checkArcLine
    rw [if_neg (by rw [kl]; simp)]
    have hA : quadA l.start l.stop = 36 := by rw [l1, l2]; norm_num [quadA, pt]
    have hB : quadB c.center l.start l.stop = -36 := by rw [l1, l2, cc]; norm_num [quadB, pt]
    have hC : quadC c.center c.radius l.stop = -12 := by rw [l2, cc, cr]; norm_num [quadC, pt]
    have hsq : 36 < √(3024 : ℝ) := Real.lt_sqrt_of_sq_lt (by norm_num)
    unfold arcLine
    simp only [gs, ge, hA, hB, hC, kc, beq_self_eq_true]
    norm_num
    rw [if_neg, if_neg]
    · simp
    · rintro ⟨h, -⟩; linarith
    · rintro ⟨-, h⟩
      rw [div_le_iff₀ (by norm_num)] at h
      linarith

/-- C82 (counterexample). A disc with a flat side: an arc of radius 5 about (0,0), counterclockwise from (4,3) to (4,-3),
and a line back.  The hole of radius 5 about (6,0) contains the flat side and crosses the arc at (3,4) and (3,-4).  Cutting
it out, or joining it, is reported as done, but it is the middle of the arc that is taken out, not its ends with the flat
side, and the border is not contiguous any more. -/
theorem C82_gap (opsub : Bool) : ∃ a l o c, Drawn [a, l] o ∧ Made a ∧ Made l ∧ Made c ∧ isContiguous o = true ∧
    (∀ s ∈ o.segs, Exact c s) ∧
    (opCircle o (some c) opsub).ret = true ∧ (opCircle o (some c) opsub).error = false ∧
    isContiguous (opCircle o (some c) opsub).out = false ∧
    Covers a (pt (-5) 0) ∧ (∀ s ∈ (opCircle o (some c) opsub).out.segs, ¬ Covers s (pt (-5) 0)) := by
  obtain ⟨α, β, hα, hαβ, hβ, cα, sα, cβ, sβ⟩ := angles
  have hpi := pi_pos
  obtain ⟨e1, e2, e3, e4, e5, e6⟩ := directions hα hαβ hβ cα sα cβ sβ
  obtain ⟨a, l, o, hd, ma, ml, hcl, hs, x0, x1, ka, ca, ra, a1, a2, acw, g1, g2, kl, l1, l2⟩ := ex_flat hα (by linarith) e1 e2
  obtain ⟨c, hcc, kc, cc, cr⟩ := ex_hole (x := 6) (y := 0) (r := 5) (by norm_num) (by norm_num)
  obtain ⟨in1, in2⟩ := flat_inside hα (by linarith) hcl hs x0 x1 ml ka ca ra a1 a2 acw g1 g2 kl l1 l2
  obtain ⟨i1, i2⟩ := flat_hits hα hαβ hβ e3 e4 ml ka ca ra acw g1 g2 kl l1 l2 kc cc cr
  have sA : a.startAngle = α := by unfold Seg.startAngle; rw [acw]; exact g1
  have eA : a.endAngle = -α + 2 * π := by unfold Seg.endAngle; rw [acw]; exact g2
  obtain ⟨gs, ge, -, -, cs⟩ := line_ends ml kl
  have far : PointMatches (pt 3 4) (pt 3 (-4)) 1e-8 = false := by apart
  have far' : PointMatches (pt 3 (-4)) (pt 3 4) 1e-8 = false := by apart
  have f1 : PointMatches (pt 3 4) (pt 4 3) 1e-8 = false := by apart
  have f2 : PointMatches (pt 3 4) (pt 4 (-3)) 1e-8 = false := by apart
  have f3 : PointMatches (pt 3 (-4)) (pt 4 3) 1e-8 = false := by apart
  have f4 : PointMatches (pt 3 (-4)) (pt 4 (-3)) 1e-8 = false := by apart
  have hits : circleHits c opsub 0 o.segs = .points [(pt 3 4, 0), (pt 3 (-4), 0)] := by
    rw [hs]
    simp [circleHits, i1, i2, Flag.fine]
  have hdist : distinct [] [(pt 3 4, 0), (pt 3 (-4), 0)] = [(pt 3 4, 0), (pt 3 (-4), 0)] := by
    simp [distinct, far]
  have hmid : midAngle c.center (pt 3 4) (pt 3 (-4)) = π := by
    unfold midAngle
    have w1 : atan2 ((pt 3 4).y - c.center.y) ((pt 3 4).x - c.center.x) = π - β := by
      rw [← e5, cc]; norm_num [pt]
    have w2 : atan2 ((pt 3 (-4)).y - c.center.y) ((pt 3 (-4)).x - c.center.x) = β - π := by
      rw [← e6, cc]; norm_num [pt]
    simp only [w1, w2]
    rw [if_pos (by linarith)]
    ring
  have p1 : pointAt c π = pt 1 0 := by
    unfold pointAt; rw [cc, cr, cos_pi, sin_pi]; norm_num [pt]
  have p2 : pointAt c (π + π) = pt 11 0 := by
    unfold pointAt; rw [cc, cr, cos_add_pi, sin_add_pi, cos_pi, sin_pi]; norm_num [pt]
  have hend : ∀ p, PointMatches p (pt 4 3) 1e-8 = false → PointMatches p (pt 4 (-3)) 1e-8 = false →
      isEndOf o.segs [(pt 3 4, 0), (pt 3 (-4), 0)] p = false := by
    intro p h1 h2
    simp [isEndOf, hs, Seg.getStart, Seg.getEnd, acw, a1, a2, h1, h2]
  obtain ⟨sp, hsp⟩ : ∃ sp, setArc c.center (pt 3 (-4)) (pt 3 4) opsub = (sp, true) := by
    apply (C61_arc_accepted c.center (pt 3 (-4)) (pt 3 4) opsub).2
    rw [cc]
    refine ⟨⟨rfl, rfl, rfl⟩, by apart, by apart, Or.inr ?_⟩
    norm_num [planar2, pt]
  obtain ⟨-, -, -, -, -, spc, spr, esp⟩ := setArc_cases hsp
  rcases esp with ⟨-, esp⟩ | ⟨ksp, -, sp1, sp2, -⟩
  · rw [far'] at esp; cases esp
  have spr : sp.radius = 5 := by
    rw [spr, cc]; unfold hyp pt
    rw [show ((3 : ℝ) - 6) * (3 - 6) + (-4 - 0) * (-4 - 0) = 5 ^ 2 by norm_num, Real.sqrt_sq (by norm_num)]
  have hspl : ∃ m, a.split [pt 3 (-4), pt 3 4] = some ({ a with stop := pt 3 4, eang := β },
      [m, subArc a (pt 3 (-4)) (pt 4 (-3)) (-β + 2 * π) (-α + 2 * π)]) := by
    have q1 : arcParam a (pt 3 (-4)) = -β + 2 * π := by
      unfold arcParam; rw [ca, sA]; simp only [pt, sub_zero, e4]; rw [if_pos (by linarith)]
    have q2 : arcParam a (pt 3 4) = β := by
      unfold arcParam; rw [ca, sA]; simp only [pt, sub_zero, e3]; rw [if_neg (by linarith)]
    have t1 : arcTakes a (pt 3 (-4)) := by
      refine ⟨?_, by rw [q1, eA]; linarith⟩
      unfold onCircle; rw [ca, ra]; norm_num [pt]
    have t2 : arcTakes a (pt 3 4) := by
      refine ⟨?_, by rw [q2, eA]; linarith⟩
      unfold onCircle; rw [ca, ra]; norm_num [pt]
    refine ⟨subArc a (pt 3 4) (pt 3 (-4)) β (-β + 2 * π), ?_⟩
    unfold Seg.split
    simp only [ka, a1, a2, List.filter_cons, f1, f2, f3, f4]
    simp [splitArc, t1, t2, q1, q2, acw, a1, a2, g2, ka, (show β < -β + 2 * π by linarith)]
  obtain ⟨m, hspl⟩ := hspl
  set s' : Seg := { a with stop := pt 3 4, eang := β } with hs'
  set t : Seg := subArc a (pt 3 (-4)) (pt 4 (-3)) (-β + 2 * π) (-α + 2 * π) with ht
  have hop : opCircle o (some c) opsub = ⟨{ o with boxOk := false, segs := [s', sp, t, l] }, true, false⟩ := by
    rw [opCircle_in hcl kc hits hdist (by rw [hmid, p1]; exact in1) (by rw [hmid, p2]; exact in2)]
    rw [hend _ f1 f2, hend _ f3 f4]
    unfold changeOutline
    simp only [hsp, Bool.true_eq_false, if_false, hs, List.head?_cons, Option.map_some, ka]
    simp [hspl]
  have polar_ne : ∀ {c : Point ℝ} {r x : ℝ}, 0 < r → 0 ≤ c.x → c.x + r * cos x ≠ -5 → pt (-5) 0 ≠ polar c r x := by
    intro c r x _ _ h e
    apply h
    rw [polar, pt, pt] at e
    injection e with e _
    exact e.symm
  refine ⟨a, l, o, c, hd, ma, ml, .arc hcc, by rw [C67_contiguous hd, hcl], ?_, by rw [hop], by rw [hop], ?_, ?_, ?_⟩
  · intro s h x hx
    rw [hs] at h
    simp at h
    rcases h with rfl | rfl
    · rw [i1] at hx
      simp only [List.mem_cons, List.not_mem_nil, or_false] at hx
      have hcov : Covers c x ↔ OnCircle (pt 6 0) 5 x := by unfold Covers; rw [kc, cc, cr]
      rw [hcov]
      unfold Covers
      rw [ka]
      simp only [sA, eA, ca, ra]
      rcases hx with rfl | rfl
      · exact ⟨⟨β, by linarith, by linarith, by unfold polar; rw [cβ, sβ]; norm_num [pt]⟩, by norm_num [planar2, pt], rfl⟩
      · exact ⟨⟨-β + 2 * π, by linarith, by linarith, by
          unfold polar; rw [cos_add_two_pi, sin_add_two_pi, cos_neg, sin_neg, cβ, sβ]; norm_num [pt]⟩,
          by norm_num [planar2, pt], rfl⟩
    · rw [i2] at hx
      simp at hx
  · rw [hop]
    have ks' : s'.kind = .arc := ka
    have ss' : s'.stop = pt 3 4 := rfl
    simp [isContiguous, hcl, ks', contiguousFrom, sp1, ss', far']
  · unfold Covers
    rw [ka]
    simp only [sA, eA, ca, ra]
    exact ⟨π, by linarith, by linarith, by unfold polar; rw [cos_pi, sin_pi]; norm_num [pt]⟩
  · rw [hop]
    intro s h
    simp only [List.mem_cons, List.not_mem_nil, or_false] at h
    rcases h with rfl | rfl | rfl | rfl
    · have k : s'.kind = .arc := ka
      unfold Covers
      rw [k]
      rintro ⟨x, hx1, hx2, e⟩
      have b1 : s'.startAngle = α := by rw [hs']; unfold Seg.startAngle; rw [acw]; exact g1
      have b2 : s'.endAngle = β := by rw [hs']; unfold Seg.endAngle; rw [acw]; rfl
      rw [b1] at hx1
      rw [b2] at hx2
      refine polar_ne (c := s'.center) (r := s'.radius) (x := x) ?_ ?_ ?_ e
      · show 0 < a.radius; rw [ra]; norm_num
      · show 0 ≤ a.center.x; rw [ca]; rfl
      · show a.center.x + a.radius * cos x ≠ -5
        have := cos_nonneg_of_neg_pi_div_two_le_of_le (x := x) (by linarith) (by linarith)
        rw [ca, ra]; simp only [pt]; intro h; linarith
    · unfold Covers
      rw [ksp]
      rintro ⟨x, -, -, e⟩
      refine polar_ne ?_ ?_ ?_ e
      · rw [spr]; norm_num
      · rw [spc, cc]; norm_num [pt]
      · rw [spc, cc, spr]; simp only [pt]; intro h; linarith [neg_one_le_cos x]
    · have hn : t = ⟨.arc, a.center, pt 3 (-4), pt 4 (-3), a.radius, -β, -α, a.cw⟩ := by
        rw [ht]; unfold subArc
        rw [normalize_eq (by linarith) (by linarith) (by linarith) (by linarith), if_pos ⟨by linarith, by linarith⟩]
        simp
      rw [hn]
      unfold Covers
      simp only [Seg.startAngle, Seg.endAngle, acw]
      rintro ⟨x, hx1, hx2, e⟩
      simp only [Bool.false_eq_true, if_false] at hx1 hx2
      refine polar_ne ?_ ?_ ?_ e
      · rw [ra]; norm_num
      · rw [ca]; rfl
      · have := cos_nonneg_of_neg_pi_div_two_le_of_le (x := x) (by linarith) (by linarith)
        rw [ca, ra]; simp only [pt]; intro h; linarith
    · rw [cs, l1, l2]
      rintro ⟨u, -, -, e⟩
      norm_num [pt] at e

end Iges.Props.OutlineOps
