import Verif.Props.RegionCircle
import Verif.Props.InsideCircle
import Verif.Props.InsideCases
import Verif.Props.OutlineOpCases
/-
C83 for outlines that are one circle: drawn outlines, two circles, and a circle that is not joined.
-/
namespace Iges.Props
open Iges.Geo Iges.Spec Iges.Turn Real Iges.Props.Outlines

theorem TwoCircles.judged {o : Outline} {b c : Seg} (hd : Drawn [b] o) (hb : Made b) (kb : b.kind = .circle) (hc : Made c)
    (kc : c.kind = .circle) (hm : (intersections b c).ret = true)
    (hs : -10 ^ 7 ≤ o.lo.x ∧ o.hi.x ≤ 10 ^ 7) (hy : ∀ y, Covers c y → |y.y| ≤ 10 ^ 7)
    (hlevel : ∀ y, Covers c y → (∀ x x', Common [b] c x → Common [b] c x' → planar2 y x = planar2 y x') →
      y.x < o.lo.x ∨ o.hi.x < y.x ∨ 1e-8 ≤ |b.radius ^ 2 - (y.y - b.center.y) ^ 2|) :
    o.closed = true ∧ o.segs = [b] ∧ JudgedDisc o b c := by
  classical
  have hcl : o.closed = true ∧ o.segs = [b] := by
    cases drawn_state hd with
    | empty e => cases e
    | circle s b e k h1 h2 => injection e with e _; subst e; exact ⟨h2, h1⟩
    | drawing _ hp => rcases hp b (by simp) with k | k <;> rw [kb] at k <;> cases k
    | done lo hi hp => rcases hp b (by simp) with k | k <;> rw [kb] at k <;> cases k
  have hrb := (made_ok hb).circle kb
  obtain ⟨-, hbox, -⟩ := C67_box hd (by simpa using hb) hcl.1
  have hside : ∀ x : ℝ, x ^ 2 = b.radius ^ 2 → o.lo.x ≤ b.center.x + x ∧ b.center.x + x ≤ o.hi.x := by
    intro x hx
    have := hbox b (by simp) ⟨b.center.x + x, b.center.y, 0⟩ ((covers_on kb).2 ⟨by unfold planar2; simp only; linear_combination hx, rfl⟩)
    unfold boxTol at this
    rw [kb] at this
    obtain ⟨h1, h2, -, -⟩ := this
    simp only at h1 h2
    constructor <;> linarith
  refine ⟨hcl.1, hcl.2, ?_⟩
  intro y hcy heq β hβ
  have hon : planar2 y b.center ≠ b.radius ^ 2 := by
    intro e
    obtain ⟨p, q, -, hne, -, hall⟩ := C62_meet hb hc kb kc hm
    have hyc : Common [b] c y := ⟨hcy, b, by simp, (covers_on kb).2 ⟨e, covers_flat hcy⟩⟩
    have key : ∀ z, Common [b] c z → z = y := by
      intro z hz
      have h0 := heq y z hyc hz
      have hzz := covers_flat hz.1
      have hyz := covers_flat hcy
      unfold planar2 at h0
      have e1 : y.x - z.x = 0 := by nlinarith [sq_nonneg (y.x - z.x), sq_nonneg (y.y - z.y)]
      have e2 : y.y - z.y = 0 := by nlinarith [sq_nonneg (y.x - z.x), sq_nonneg (y.y - z.y)]
      ext
      · linarith
      · linarith
      · rw [hzz, hyz]
    obtain ⟨p1, p2⟩ := (hall p).2 (Or.inl rfl)
    obtain ⟨q1, q2⟩ := (hall q).2 (Or.inr rfl)
    exact hne ((key p ⟨p2, b, by simp, p1⟩).trans (key q ⟨q2, b, by simp, q1⟩).symm)
  rw [Inside.C68_circle hcl.2 hcl.1 kb hrb.1 (by have := (hside (-b.radius) (by ring)).1; linarith)
    (hside b.radius rfl).2 hs (covers_flat hcy) (hy y hcy) hon (hlevel y hcy heq)] at hβ
  rw [← Option.some.inj hβ, decide_eq_true_iff]

/-- C83. A circle is cut out of an outline drawn as one circle, or joined to it.  `GetIntersections` finds that they meet, the
points in which they meet match neither each other nor the centre of the second circle, and neither of the points of the
second circle halfway between them is at the height of the top or the bottom of the first circle.  Then it succeeds, the new
outline runs round its region once, counterclockwise, and its region is the disc without the other disc, or both discs. -/
theorem C83_two_circles {o : Outline} {b c : Seg} (opsub : Bool) (hd : Drawn [b] o) (hb : Made b)
    (kb : b.kind = .circle) (hc : Made c) (kc : c.kind = .circle)
    (hm : (intersections b c).ret = true) (hap : ∀ x y, Common [b] c x → Common [b] c y → PointMatches x y 1e-8 = true → x = y)
    (hfar : ∀ x, Common [b] c x → PointMatches c.center x 1e-8 = false)
    (hs : -10 ^ 7 ≤ o.lo.x ∧ o.hi.x ≤ 10 ^ 7) (hy : ∀ y, Covers c y → |y.y| ≤ 10 ^ 7)
    (hlevel : ∀ y, Covers c y → (∀ x x', Common [b] c x → Common [b] c x' → planar2 y x = planar2 y x') →
      y.x < o.lo.x ∨ o.hi.x < y.x ∨ 1e-8 ≤ |b.radius ^ 2 - (y.y - b.center.y) ^ 2|) :
    (opCircle o (some c) opsub).ret = true ∧ (opCircle o (some c) opsub).error = false ∧
    (opCircle o (some c) opsub).out.closed = true ∧
    Round (opCircle o (some c) opsub).out.segs ∧ Proper (opCircle o (some c) opsub).out.segs ∧
    (∀ s ∈ (opCircle o (some c) opsub).out.segs, s.kind = .arc ∧ Made s ∧ Sharp s) ∧
    ∀ x, OffBorder (opCircle o (some c) opsub).out.segs x → planar2 x c.center ≠ c.radius ^ 2 →
      (Inside (opCircle o (some c) opsub).out.segs x ↔
        if opsub then planar2 x b.center < b.radius ^ 2 ∧ c.radius ^ 2 < planar2 x c.center
        else planar2 x b.center < b.radius ^ 2 ∨ planar2 x c.center < c.radius ^ 2) := by
  obtain ⟨hcl, hs', hj⟩ := TwoCircles.judged hd hb kb hc kc hm hs hy hlevel
  obtain ⟨h1, h2, h3⟩ := C83_circles_done opsub hs' hcl hb kb hc kc hm hap hfar hj
  exact ⟨h1, h2, h3, C83_circles hs' hb kb hc hj h1⟩

namespace TwoCircles

/-- an outline drawn as one circle -/
theorem circle_drawn {c : Seg} {o : Outline} (hd : Drawn [c] o) (hk : c.kind = .circle) :
    o.segs = [c] ∧ o.closed = true ∧ (o.lo, o.hi) = adjustBox (pt (c.center.x - c.radius) (c.center.y - c.radius))
      (pt (c.center.x + c.radius) (c.center.y + c.radius)) := by
  cases drawn_state hd with
  | empty e => cases e
  | drawing _ hp => rcases hp c (by simp) with k | k <;> rw [hk] at k <;> cases k
  | done lo hi hp => rcases hp c (by simp) with k | k <;> rw [hk] at k <;> cases k
  | circle s b e _ h1 h2 h3 h4 =>
    injection e with e _
    subst e
    refine ⟨h1, h2, ?_⟩
    unfold Seg.box at h3
    rw [hk] at h3
    injection h3 with h3
    rw [← h3] at h4
    exact h4

/-- the outline of the circle about (0.5,0) of radius 1, and the points beside its top -/
theorem beside {c : Seg} {o : Outline} (hd : Drawn [c] o) (hk : c.kind = .circle) (cc : c.center = pt 0.5 0) (cr : c.radius = 1)
    {x : ℝ} (h1 : 0.5 ≤ x) (h2 : x ≤ 1) : isInside o (pt x 1) = some true := by
  obtain ⟨hs, hcl, hbox⟩ := circle_drawn hd hk
  rw [cc, cr] at hbox
  have fx : ⌊(0.5 - 1 : ℝ)⌋ = -1 := by rw [Int.floor_eq_iff]; norm_num
  have cx : ⌈(0.5 + 1 : ℝ)⌉ = 2 := by rw [Int.ceil_eq_iff]; norm_num
  have e1 := congrArg Prod.fst hbox
  have e2 := congrArg Prod.snd hbox
  unfold adjustBox at e1 e2
  simp only [pt, fx, cx] at e1 e2
  norm_num at e1 e2
  have x0 : o.lo.x = -1 := by rw [e1]
  have y0 : o.lo.y = -1 := by rw [e1]
  have x1 : o.hi.x = 3 := by rw [e2]
  have y1 : o.hi.y = 3 := by rw [e2]
  have hend : rayEnd o (pt x 1) = pt (-6) 1 := by
    unfold rayEnd
    rw [x0, x1]
    rw [if_pos (by simp only [pt]; linarith)]
    norm_num [pt]
  obtain ⟨-, hray⟩ := Inside.ray_ok (o := o) (p := pt x 1) rfl (by rw [x0, x1]; simp only [pt]; norm_num at h1; constructor <;> linarith)
    (by rw [y0, y1]; norm_num [pt]) (by rw [x0, x1, y0, y1]; norm_num)
  rw [hend] at hray
  unfold isInside
  rw [hcl]
  simp only [Bool.not_true, Bool.false_eq_true, if_false, hs, hend]
  obtain ⟨ray, hry⟩ : ∃ ray, ray = (setLine (pt x 1) (pt (-6) 1)).1 := ⟨_, rfl⟩
  rw [← hry] at hray ⊢
  obtain ⟨gs, ge, -, -, -⟩ := line_ends hray.made hray.kind
  have e1 := hray.start
  have e2 : ray.stop = pt (-6) 1 := hray.stop
  have hi' : intersections c ray = arcLine c c.start c.stop ray.start ray.stop c.start c.stop := by
    unfold intersections checkArcLine; rw [hk, hray.kind]; simp only [or_true, if_true, gs, ge]
  have ha : arcLine c c.start c.stop ray.start ray.stop c.start c.stop = ⟨[onLine ray.start ray.stop (6.5 / (x + 6))], .tangent, true⟩ := by
    unfold arcLine
    simp only [quad_disc]
    have hD : chord c.center c.radius ray.start ray.stop = 0 := by
      rw [chord_ray hray, cr, cc]; norm_num [pt]
    have hx : x + 6 ≠ 0 := by intro h; norm_num at h1; linarith
    have hB : -quadB c.center ray.start ray.stop / (2 * quadA ray.start ray.stop) = 6.5 / (x + 6) := by
      unfold quadA quadB
      rw [cc, e1, e2]
      simp only [pt]
      have : 0 < (x + 6) ^ 2 := by positivity
      rw [div_eq_div_iff (by intro h; nlinarith) hx]
      ring
    rw [hD, hB, if_pos (by rw [hk]; norm_num), if_neg]
    have h6 : 0 < x + 6 := by norm_num at h1; linarith
    rintro (h | h)
    · have : 0 < 6.5 / (x + 6) := by positivity
      linarith
    · rw [gt_iff_lt, one_lt_div h6] at h
      norm_num at h h1
      linarith
  have c1 : segCount ray c c c (pt x 1).y = 1 := by
    unfold segCount
    rw [hi', ha]
    simp only [if_true, List.map_cons, List.map_nil, List.sum_cons, List.sum_nil]
    unfold nodeCount
    rw [if_pos hk, add_zero]
  simp only [List.getLast?_singleton]
  unfold countFrom countFrom
  simp only [List.head?_nil, Option.getD_none, c1]
  rfl

theorem two {o : Outline} {b c : Seg} (hd : Drawn [b] o) (kb : b.kind = .circle) (cb : b.center = pt 0 0) (rb : b.radius = 1)
    (kc : c.kind = .circle) (cc : c.center = pt 1 0) (rc : c.radius = 1) :
    (intersections b c).ret = true ∧ (∀ x y, Common [b] c x → Common [b] c y → PointMatches x y 1e-8 = true → x = y) ∧
    (∀ x, Common [b] c x → PointMatches c.center x 1e-8 = false) ∧
    (-10 ^ 7 ≤ o.lo.x ∧ o.hi.x ≤ 10 ^ 7) ∧ (∀ y, Covers c y → |y.y| ≤ 10 ^ 7) ∧
    (∀ y, Covers c y → (∀ x x', Common [b] c x → Common [b] c x' → planar2 y x = planar2 y x') →
      y.x < o.lo.x ∨ o.hi.x < y.x ∨ 1e-8 ≤ |b.radius ^ 2 - (y.y - b.center.y) ^ 2|) := by
  have com : ∀ x, Common [b] c x ↔ x.x = 1 / 2 ∧ x.y ^ 2 = 3 / 4 ∧ x.z = 0 := by
    intro x
    unfold Common
    simp only [List.mem_singleton, exists_eq_left]
    rw [covers_on kb, covers_on kc, cb, rb, cc, rc]
    unfold OnCircle planar2
    simp only [pt]
    constructor
    · rintro ⟨⟨h1, h2⟩, h3, -⟩
      have e : x.x = 1 / 2 := by linarith
      refine ⟨e, ?_, h2⟩
      rw [e] at h3
      linarith
    · rintro ⟨h1, h2, h3⟩
      rw [h1]
      exact ⟨⟨by linarith, h3⟩, by linarith, h3⟩
  have small : ∀ x, Common [b] c x → norm2 x ≤ 10 ^ 15 := by
    intro x hx
    obtain ⟨h1, h2, h3⟩ := (com x).1 hx
    unfold norm2
    rw [h1, h2, h3]
    norm_num
  refine ⟨?_, ?_, ?_, ?_, ?_, ?_⟩
  · rw [C62_meet_iff kb kc (by rw [rb]; norm_num) (by rw [rc]; norm_num), cb, cc, rb, rc]
    have e : planar2 (pt 0 0) (pt 1 0) = 1 := by norm_num [planar2, pt]
    have far : PointMatches (pt 0 0) (pt 1 0) 1e-3 = false := by apart
    rw [e, Real.sqrt_one, far]
    norm_num
  · intro x y hx hy hm
    obtain ⟨x1, x2, x3⟩ := (com x).1 hx
    obtain ⟨y1, y2, y3⟩ := (com y).1 hy
    rcases sq_eq_sq_iff_eq_or_eq_neg.1 (x2.trans y2.symm) with e | e
    · ext
      · rw [x1, y1]
      · exact e
      · rw [x3, y3]
    · exfalso
      rw [no_match (by norm_num) (small x hx) (small y hy)] at hm
      · cases hm
      · unfold dist2
        rw [x1, y1, x3, y3, e, show (-y.y - y.y) ^ 2 = 4 * y.y ^ 2 by ring, y2]
        norm_num
  · intro x hx
    obtain ⟨x1, x2, x3⟩ := (com x).1 hx
    refine no_match (by norm_num) ?_ (small x hx) ?_
    · rw [cc]; norm_num [norm2, pt]
    · rw [cc]
      unfold dist2
      simp only [pt]
      rw [x1, x3, show (0 - x.y) ^ 2 = x.y ^ 2 by ring, x2]
      norm_num
  · obtain ⟨-, -, hbox⟩ := circle_drawn hd kb
    rw [cb, rb] at hbox
    have e1 := congrArg Prod.fst hbox
    have e2 := congrArg Prod.snd hbox
    unfold adjustBox at e1 e2
    norm_num [pt] at e1 e2
    rw [e1, e2]
    norm_num
  · intro y hy
    have h1 := ((covers_on kc).1 hy).1
    rw [cc, rc] at h1
    unfold planar2 at h1
    simp only [pt] at h1
    have : y.y ^ 2 ≤ 1 := by nlinarith [sq_nonneg (y.x - 1)]
    rw [abs_le]; constructor <;> nlinarith
  · intro y hy heq
    right; right
    have s3 : √(3 / 4 : ℝ) ^ 2 = 3 / 4 := Real.sq_sqrt (by norm_num)
    have := heq ⟨1 / 2, √(3 / 4), 0⟩ ⟨1 / 2, -√(3 / 4), 0⟩ ((com _).2 ⟨rfl, s3, rfl⟩) ((com _).2 ⟨rfl, by simp only; rw [neg_sq, s3], rfl⟩)
    unfold planar2 at this
    simp only at this
    have s0 : 0 < √(3 / 4 : ℝ) := Real.sqrt_pos.2 (by norm_num)
    have : √(3 / 4 : ℝ) * y.y = 0 := by linarith
    have hy0 : y.y = 0 := by
      rcases mul_eq_zero.1 this with e | e
      · exact absurd e s0.ne'
      · exact e
    rw [rb, cb, hy0]
    norm_num [pt]

/-- the circle about (0,0) of radius 1 and the circle about (1,0) of radius 1 -/
theorem ex_two : ∃ o b c, Drawn [b] o ∧ Made b ∧ b.kind = .circle ∧ Made c ∧ c.kind = .circle ∧
    (intersections b c).ret = true ∧ (∀ x y, Common [b] c x → Common [b] c y → PointMatches x y 1e-8 = true → x = y) ∧
    (∀ x, Common [b] c x → PointMatches c.center x 1e-8 = false) ∧
    (-10 ^ 7 ≤ o.lo.x ∧ o.hi.x ≤ 10 ^ 7) ∧ (∀ y, Covers c y → |y.y| ≤ 10 ^ 7) ∧
    (∀ y, Covers c y → (∀ x x', Common [b] c x → Common [b] c x' → planar2 y x = planar2 y x') →
      y.x < o.lo.x ∨ o.hi.x < y.x ∨ 1e-8 ≤ |b.radius ^ 2 - (y.y - b.center.y) ^ 2|) := by
  obtain ⟨b, hb, kb, cb, rb⟩ := ex_circle (x := 0) (r := 1) (by norm_num) (by norm_num)
  obtain ⟨c, hc, kc, cc, rc⟩ := ex_circle (x := 1) (r := 1) (by norm_num) (by norm_num)
  obtain ⟨o, ho⟩ : ∃ o, addSegment Outline.new (some b) = (o, true) := by
    unfold addSegment
    simp [kb, Outline.new]
  have hd : Drawn [b] o := by simpa using Drawn.took .new ho
  have hmb : Made b := .arc hb
  exact ⟨o, b, c, hd, hmb, kb, .arc hc, kc, two hd kb cb rb kc cc rc⟩

/-- the two circles of `C83_not_joined` -/
theorem ex_unjoined : ∃ o b c, Drawn [b] o ∧ Made b ∧ b.kind = .circle ∧ b.center = pt 0.5 0 ∧ b.radius = 1 ∧ Made c ∧ c.kind = .circle ∧
    c.center = pt (17 / 24) (1 / 2) ∧ c.radius = 13 / 24 ∧ (intersections b c).ret = true := by
  obtain ⟨b, hb, kb, cb, rb⟩ := ex_circle (x := 0.5) (r := 1) (by norm_num) (by norm_num)
  obtain ⟨c, hc, kc, cc, rc⟩ := OutlineOps.ex_hole (x := 17 / 24) (y := 1 / 2) (r := 13 / 24) (by norm_num) (by norm_num)
  obtain ⟨o, ho⟩ : ∃ o, addSegment Outline.new (some b) = (o, true) := by
    unfold addSegment
    simp [kb, Outline.new]
  have hd : Drawn [b] o := by simpa using Drawn.took .new ho
  refine ⟨o, b, c, hd, .arc hb, kb, cb, rb, .arc hc, kc, cc, rc, ?_⟩
  rw [C62_meet_iff kb kc (by rw [rb]; norm_num) (by rw [rc]; norm_num), cb, cc, rb, rc]
  have e : planar2 (pt 0.5 0) (pt (17 / 24) (1 / 2)) = (13 / 24) ^ 2 := by norm_num [planar2, pt]
  have far : PointMatches (pt 0.5 0) (pt (17 / 24) (1 / 2)) 1e-3 = false := by apart
  rw [e, Real.sqrt_sq (by norm_num), far, abs_of_nonneg (by norm_num)]
  norm_num

end TwoCircles

theorem TwoCircles.unjoined (opsub : Bool) {o : Outline} {b c : Seg} (hd : Drawn [b] o) (hb : Made b) (kb : b.kind = .circle) (cb : b.center = pt 0.5 0)
    (rb : b.radius = 1) (hc : Made c) (kc : c.kind = .circle) (cc : c.center = pt (17 / 24) (1 / 2)) (rc : c.radius = 13 / 24)
    (hm : (intersections b c).ret = true) :
    (∃ x y, Common [b] c x ∧ Common [b] c y ∧ 0.5 < planar2 x y) ∧
    (∃ x, x.z = 0 ∧ planar2 x b.center < b.radius ^ 2 ∧ planar2 x c.center < c.radius ^ 2) ∧
    (opCircle o (some c) opsub).ret = false ∧ (opCircle o (some c) opsub).error = false ∧
    (opCircle o (some c) opsub).out.segs = [b] := by
  obtain ⟨hs, hcl, hbox⟩ := TwoCircles.circle_drawn hd kb
  have com : ∀ x, Covers b x ∧ Covers c x ↔ x = pt 0.5 1 ∨ x = pt (0.5 + 120 / 169) (119 / 169) := by
    intro x
    rw [covers_on kb, covers_on kc, cb, rb, cc, rc]
    unfold OnCircle planar2
    simp only [pt]
    constructor
    · rintro ⟨⟨h1, h2⟩, h3, -⟩
      have e : x.y = 1 - 5 / 12 * (x.x - 0.5) := by linarith
      rw [e] at h1
      have : (x.x - 0.5) * (x.x - 0.5 - 120 / 169) = 0 := by linear_combination (144 / 169) * h1
      rcases mul_eq_zero.1 this with g | g
      · left; ext
        · simp only; linarith
        · simp only; rw [e]; linarith
        · exact h2
      · right; ext
        · simp only; linarith
        · simp only; rw [e]; linarith
        · exact h2
    · rintro (rfl | rfl) <;> norm_num
  obtain ⟨p, q, ha, hne, hf, hall⟩ := C62_meet hb hc kb kc hm
  have hr : 0 < c.radius := by rw [rc]; norm_num
  obtain ⟨p1, p2⟩ := (hall p).2 (Or.inl rfl)
  obtain ⟨q1, q2⟩ := (hall q).2 (Or.inr rfl)
  have far : PointMatches (pt 0.5 1) (pt (0.5 + 120 / 169) (119 / 169)) 1e-8 = false := by apart
  have hpq : PointMatches p q 1e-8 = false := by
    rcases (com p).1 ⟨p1, p2⟩ with rfl | rfl <;> rcases (com q).1 ⟨q1, q2⟩ with rfl | rfl
    · exact absurd rfl hne
    · exact far
    · rw [C51_symmetric]; exact far
    · exact absurd rfl hne
  have hh : circleHits c opsub 0 [b] = .points [(p, 0), (q, 0)] := by
    simp [circleHits, hm, hf, ha, Flag.fine]
  have hdis : distinct [] [(p, 0), (q, 0)] = [(p, 0), (q, (0 : ℕ))] := by
    simp [distinct, hpq]
  obtain ⟨α, β, ea, eb, hab, hba, hmid⟩ := mid_angle hr ((covers_on kc).1 p2) ((covers_on kc).1 q2) hne
  have hal := TwoCircles.along hr ea eb hab hba ((covers_on kb).1 p1).1 ((covers_on kb).1 q1).1
  rw [cb, cc] at hal
  have hcos : cos ((α + β) / 2) = 5 / 13 ∧ sin ((α + β) / 2) = 12 / 13 ∨ cos ((α + β) / 2) = -5 / 13 ∧ sin ((α + β) / 2) = -12 / 13 := by
    have h1 := sin_sq_add_cos_sq ((α + β) / 2)
    norm_num [pt] at hal
    have e : sin ((α + β) / 2) = 12 / 5 * cos ((α + β) / 2) := by linarith
    rw [e] at h1 ⊢
    have : (cos ((α + β) / 2) - 5 / 13) * (cos ((α + β) / 2) + 5 / 13) = 0 := by linear_combination (25 / 169) * h1
    rcases mul_eq_zero.1 this with g | g
    · left; constructor <;> linarith
    · right; constructor <;> linarith
  have at1 : isInside o (pt (11 / 12) 1) = some true := TwoCircles.beside hd kb cb rb (by norm_num) (by norm_num)
  have at2 : isInside o (pt 0.5 0) = some true := by
    classical
    rw [cb, rb] at hbox
    have fx : ⌊(0.5 - 1 : ℝ)⌋ = -1 := by rw [Int.floor_eq_iff]; norm_num
    have cx : ⌈(0.5 + 1 : ℝ)⌉ = 2 := by rw [Int.ceil_eq_iff]; norm_num
    have e1 := congrArg Prod.fst hbox
    have e2 := congrArg Prod.snd hbox
    unfold adjustBox at e1 e2
    simp only [pt, fx, cx] at e1 e2
    norm_num at e1 e2
    rw [Inside.C68_circle hs hcl kb (by rw [rb]; norm_num) (by rw [e1, cb, rb]; norm_num [pt]) (by rw [e2, cb, rb]; norm_num [pt])
      (by rw [e1, e2]; norm_num) rfl (by norm_num [pt]) (by rw [cb, rb]; norm_num [planar2, pt]) (Or.inr (Or.inr (by rw [cb, rb]; norm_num [pt])))]
    rw [cb, rb]
    norm_num [planar2, pt]
  have hin : isInside { o with boxOk := false } (pointAt c ((α + β) / 2)) = some true ∧
      isInside { o with boxOk := false } (pointAt c ((α + β) / 2 + π)) = some true := by
    have hin0 : ∀ x, isInside { o with boxOk := false } x = isInside o x := fun x => rfl
    rw [hin0, hin0]
    unfold pointAt
    rw [cos_add_pi, sin_add_pi, cc, rc]
    rcases hcos with ⟨g1, g2⟩ | ⟨g1, g2⟩
    · rw [g1, g2]
      norm_num [pt] at at1 at2 ⊢
      exact ⟨at1, at2⟩
    · rw [g1, g2]
      norm_num [pt] at at1 at2 ⊢
      exact ⟨at2, at1⟩
  refine ⟨?_, ⟨pt 0.5 0.5, rfl, ?_, ?_⟩, ?_⟩
  · obtain ⟨a1, a2⟩ := (com _).2 (Or.inl rfl)
    obtain ⟨b1, b2⟩ := (com _).2 (Or.inr rfl)
    refine ⟨_, _, ⟨a2, b, by simp, a1⟩, ⟨b2, b, by simp, b1⟩, ?_⟩
    norm_num [planar2, pt]
  · rw [cb, rb]; norm_num [planar2, pt]
  · rw [cc, rc]; norm_num [planar2, pt]
  · unfold opCircle
    simp only [hcl, Bool.true_eq_false, if_false, kc, ne_eq, not_true_eq_false, hs, hh, hdis, hmid]
    simp only [hs, hcl] at hin
    rw [hin.1, hin.2]
    simp

/-- C83 (counterexample). Two discs overlap, the circles meet in two points that are three quarters of a unit apart, and the
first one is an outline.  Neither joining the second circle to it nor cutting the second circle out of it changes anything,
and no error is reported: the call tells the caller that the circle does not touch the outline. -/
theorem C83_not_joined (opsub : Bool) : ∃ o b c, Drawn [b] o ∧ Made b ∧ b.kind = .circle ∧ Made c ∧ c.kind = .circle ∧
    (∃ x y, Common [b] c x ∧ Common [b] c y ∧ 0.5 < planar2 x y) ∧
    (∃ x, x.z = 0 ∧ planar2 x b.center < b.radius ^ 2 ∧ planar2 x c.center < c.radius ^ 2) ∧
    (opCircle o (some c) opsub).ret = false ∧ (opCircle o (some c) opsub).error = false ∧
    (opCircle o (some c) opsub).out.segs = [b] := by
  obtain ⟨o, b, c, hd, hb, kb, cb, rb, hc, kc, cc, rc, hm⟩ := TwoCircles.ex_unjoined
  exact ⟨o, b, c, hd, hb, kb, hc, kc, TwoCircles.unjoined opsub hd hb kb cb rb hc kc cc rc hm⟩

end Iges.Props
