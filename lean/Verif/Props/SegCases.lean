import Verif.Props.SegSplit
/-
C61, C65: concrete cases, and the inputs for which the property fails.
-/
namespace Iges.Props
open Iges.Geo Iges.Spec Real

theorem no_match {p q : Point ℝ} {r : ℝ} (hr : 1 / 10 ^ 15 ≤ r) (hp : norm2 p ≤ 10 ^ 15) (hq : norm2 q ≤ 10 ^ 15)
    (h : dist2 p q > (2 * r) ^ 2) : PointMatches p q r = false := (C51_tolerance p q r hr hp hq).2 h

/-- two points of the plane with small coordinates that do not match -/
macro "apart" : tactic => `(tactic| (apply no_match <;> norm_num [norm2, dist2, pt, origin]))

/-- a line -/
theorem ex_line : ∃ s, setLine (pt 0 0) (pt 2 0) = (s, true) ∧ s.kind = .line ∧ s.start = pt 0 0 ∧ s.stop = pt 2 0 := by
  refine ⟨{ Seg.init with start := pt 0 0, stop := pt 2 0, kind := .line }, ?_, rfl, rfl, rfl⟩
  unfold setLine
  rw [if_neg (by simp [pt]), if_neg]
  rw [Bool.not_eq_true]
  apart

/-- a half circle and a three quarter circle -/
theorem ex_arc {x y u v : ℝ} (h1 : x ^ 2 + y ^ 2 = 1) (h2 : u ^ 2 + v ^ 2 = 1) (h : 1e-4 < (x - u) ^ 2 + (y - v) ^ 2)
    (cw : Bool) : ∃ s, setArc (pt 0 0) (pt x y) (pt u v) cw = (s, true) ∧ s.kind = .arc ∧ s.radius = 1 := by
  obtain ⟨s, hs⟩ := (C61_arc_accepted (pt 0 0) (pt x y) (pt u v) cw).2 ⟨⟨rfl, rfl, rfl⟩,
    by apply no_match <;> norm_num [norm2, dist2, pt] <;> linarith,
    by apply no_match <;> norm_num [norm2, dist2, pt] <;> linarith, Or.inr (by
      have e1 : planar2 (pt u v) (pt 0 0) = 1 := by unfold planar2 pt; linear_combination h2
      have e2 : planar2 (pt x y) (pt 0 0) = 1 := by unfold planar2 pt; linear_combination h1
      rw [e1, e2]; norm_num)⟩
  have hm : PointMatches (pt x y) (pt u v) 1e-8 = false := by
    apply no_match <;> norm_num [norm2, dist2, pt] <;> norm_num at h <;> linarith
  have hc := setArc_cases hs
  refine ⟨s, hs, ?_, ?_⟩
  · rcases hc.2.2.2.2.2.2.2 with ⟨-, e⟩ | ⟨e, -⟩
    · rw [hm] at e; cases e
    · exact e
  · rw [hc.2.2.2.2.2.2.1]
    unfold hyp pt
    rw [show (x - 0) * (x - 0) + (y - 0) * (y - 0) = 1 by linear_combination h1]
    exact Real.sqrt_one

/-- C61: a line, an arc in either sense and a circle meet the hypotheses of the theorems. -/
example : ∃ s, setLine (pt 0 0) (pt 2 0) = (s, true) ∧ Made s ∧ s.kind ≠ .none :=
  let ⟨s, h, k, _⟩ := ex_line
  ⟨s, h, .line h, by simp [k]⟩

example (cw : Bool) : ∃ s, setArc (pt 0 0) (pt 1 0) (pt (-1) 0) cw = (s, true) ∧ Made s ∧ s.kind = .arc :=
  let ⟨s, h, k, _⟩ := ex_arc (x := 1) (y := 0) (u := -1) (v := 0) (by norm_num) (by norm_num) (by norm_num) cw
  ⟨s, h, .arc h, k⟩

/-- C61: on the upper half circle the box is that of the half disc: the point at the top is inside, whatever the
tolerance. -/
example : ∃ s b, setArc (pt 0 0) (pt 1 0) (pt (-1) 0) false = (s, true) ∧ s.box = some b ∧ InBox 1e-8 b (pt 0 1) := by
  obtain ⟨s, h, k, hr⟩ := ex_arc (x := 1) (y := 0) (u := -1) (v := 0) (by norm_num) (by norm_num) (by norm_num) false
  obtain ⟨b, hb, hin, -⟩ := C61_box (.arc h) (by simp [k])
  refine ⟨s, b, h, hb, ?_⟩
  have := hin (pt 0 1) ((C61_arc_points h k _).2 ⟨π, ⟨pi_pos, by linarith [pi_pos], ?_⟩, π / 2, by linarith [pi_pos],
    by linarith [pi_pos], ?_⟩)
  · unfold boxTol at this
    rw [k, hr] at this
    simpa using this
  · refine ⟨1, one_pos, ?_, ?_⟩ <;> simp [turn, pt]
  · unfold turn pt; simp

/-- C61: a line that is vertical up to 1e-8 but not exactly gets a box whose lower left corner is to the right of its
upper right corner. -/
theorem C61_box_inverted : ∃ s b, Made s ∧ s.box = some b ∧ b.2.x < b.1.x := by
  have hm : PointMatches (pt 5e-9 0) (pt 0 1) 1e-8 = false := by apart
  refine ⟨{ Seg.init with start := pt 5e-9 0, stop := pt 0 1, kind := .line }, (pt 5e-9 0, pt 0 1),
    .line (a := pt 5e-9 0) (b := pt 0 1) ?_, ?_, by norm_num [pt]⟩
  · unfold setLine
    rw [if_neg (by simp [pt]), if_neg (by simp [hm])]
  · unfold Seg.box
    simp only
    rw [if_pos (by unfold pt; norm_num [abs_of_pos]), if_pos (by norm_num [pt])]

/-- C65: a line split at two points given in the wrong order. -/
example : ∃ s s' l, setLine (pt 0 0) (pt 2 0) = (s, true) ∧ s.split [pt 1.5 0, pt 0.5 0] = some (s', l) ∧
    Divides s (s' :: l) ∧ l.length = 2 := by
  obtain ⟨s, h, k, hs, he⟩ := ex_line
  have c1 : Covers s (pt 1.5 0) := (C61_line_points h _).2 ⟨0.75, by norm_num, by norm_num, by norm_num [pt]⟩
  have c2 : Covers s (pt 0.5 0) := (C61_line_points h _).2 ⟨0.25, by norm_num, by norm_num, by norm_num [pt]⟩
  have m1 : PointMatches (pt 1.5 0) s.start 1e-8 = false := by rw [hs]; apart
  have m2 : PointMatches (pt 1.5 0) s.stop 1e-8 = false := by rw [he]; apart
  have m3 : PointMatches (pt 0.5 0) s.start 1e-8 = false := by rw [hs]; apart
  have m4 : PointMatches (pt 0.5 0) s.stop 1e-8 = false := by rw [he]; apart
  have m5 : PointMatches (pt 1.5 0) (pt 0.5 0) 1e-8 = false := by apart
  have hc : ∀ p ∈ [pt 1.5 0, pt 0.5 0], Covers s p := by
    intro p hp
    simp only [List.mem_cons, List.not_mem_nil, or_false] at hp
    rcases hp with rfl | rfl
    · exact c1
    · exact c2
  obtain ⟨⟨s', l⟩, hr⟩ := C65_line_accepts (.line h) k (Or.inr rfl) hc ⟨_, List.mem_cons_self, m1, m2⟩
  obtain ⟨d, -, -, n⟩ := C65_line (.line h) k hc (by simp [m5]) hr
  exact ⟨s, s', l, h, hr, d, by simpa [m1, m2, m3, m4] using n⟩

/-- C65: an arc split at its top. -/
example : ∃ s s' l, setArc (pt 0 0) (pt 1 0) (pt (-1) 0) false = (s, true) ∧ s.split [pt 0 1] = some (s', l) ∧
    Divides s (s' :: l) ∧ l.length = 1 := by
  obtain ⟨s, h, k, hr⟩ := ex_arc (x := 1) (y := 0) (u := -1) (v := 0) (by norm_num) (by norm_num) (by norm_num) false
  have hcov : Covers s (pt 0 1) := (C61_arc_points h k _).2 ⟨π, ⟨pi_pos, by linarith [pi_pos],
    ⟨1, one_pos, by simp [turn, pt], by simp [turn, pt]⟩⟩, π / 2, by linarith [pi_pos], by linarith [pi_pos],
    by unfold turn pt; simp⟩
  have hc := setArc_cases h
  rcases hc.2.2.2.2.2.2.2 with ⟨e, -⟩ | ⟨-, -, hs, he, -⟩
  · rw [k] at e; cases e
  have m1 : PointMatches (pt 0 1) s.start 1e-8 = false := by rw [hs]; apart
  have m2 : PointMatches (pt 0 1) s.stop 1e-8 = false := by rw [he]; apart
  obtain ⟨⟨s', l⟩, hr⟩ := C65_arc_accepts (.arc h) k (Or.inl rfl) (pts := [pt 0 1]) (by simpa using hcov)
    ⟨_, List.mem_cons_self, m1, m2⟩
  obtain ⟨a, h1, h2, e⟩ := (covers_arc k _).1 hcov
  obtain ⟨d, -, -, n⟩ := C65_arc (.arc h) k (by
    intro p hp
    rw [List.mem_singleton.1 hp]
    unfold Facing
    rw [k]
    exact ⟨a, s.radius, h1, h2, by rw [hc.2.2.2.2.2.2.1]; exact hc.2.2.2.1, e⟩) hr
  exact ⟨s, s', l, h, hr, d, by simpa [m1, m2] using n⟩

/-- C65: a circle split at its top and its bottom. -/
example : ∃ s s' l, setArc (pt 0 0) (pt 1 0) (pt 1 0) false = (s, true) ∧ s.split [pt 0 1, pt 0 (-1)] = some (s', l) ∧
    Divides s (s' :: l) := by
  obtain ⟨s, h⟩ := (C61_arc_accepted (pt 0 0) (pt 1 0) (pt 1 0) false).2 ⟨⟨rfl, rfl, rfl⟩, by apart, by apart,
    Or.inl (C51_reflexive _ _)⟩
  have hc := setArc_cases h
  have k : s.kind = .circle := by
    rcases hc.2.2.2.2.2.2.2 with ⟨e, -⟩ | ⟨-, e, -⟩
    · exact e
    · rw [C51_reflexive] at e; cases e
  have c1 : Covers s (pt 0 1) := (C61_circle_points h k _).2 ⟨rfl, by norm_num [planar2, pt]⟩
  have c2 : Covers s (pt 0 (-1)) := (C61_circle_points h k _).2 ⟨rfl, by norm_num [planar2, pt]⟩
  obtain ⟨⟨s', l⟩, hr⟩ := C65_circle_accepts k c1 c2 (Or.inr (by norm_num [pt]))
  obtain ⟨p, q, t, -, rfl, d, -⟩ := C65_circle (.arc h) k (by
    intro p hp
    unfold Facing
    rw [k, hc.2.2.2.2.2.1]
    simp only [List.mem_cons, List.not_mem_nil, or_false] at hp
    rcases hp with rfl | rfl <;> simp [pt]) (by
    intro p hp q hq
    rw [hc.2.2.2.2.2.1]
    simp only [List.mem_cons, List.not_mem_nil, or_false] at hp hq
    rintro ⟨a, ha, h1, h2⟩
    rcases hp with rfl | rfl <;> rcases hq with rfl | rfl
    · rfl
    · simp only [pt] at h2; linarith
    · simp only [pt] at h2; linarith
    · rfl) hr
  exact ⟨s, s', _, h, hr, d⟩

/-- C65: a line split at the same point twice gets a piece that is not set although `Split` reports success. -/
theorem C65_line_empty_piece : ∃ s s' l, Made s ∧ s.kind = .line ∧ s.split [pt 1 0, pt 1 0] = some (s', l) ∧
    ∃ t ∈ l, t.kind = .none := by
  obtain ⟨s, h, k, hs, he⟩ := ex_line
  have c1 : Covers s (pt 1 0) := (C61_line_points h _).2 ⟨0.5, by norm_num, by norm_num, by norm_num [pt]⟩
  have m1 : PointMatches (pt 1 0) s.start 1e-8 = false := by rw [hs]; apart
  have m2 : PointMatches (pt 1 0) s.stop 1e-8 = false := by rw [he]; apart
  obtain ⟨⟨s', l⟩, hr⟩ := C65_line_accepts (.line h) k (Or.inr rfl) (pts := [pt 1 0, pt 1 0]) (by simpa using c1)
    ⟨_, List.mem_cons_self, m1, m2⟩
  refine ⟨s, s', l, .line h, k, hr, ?_⟩
  obtain ⟨-, ⟨-, e⟩ | ⟨e, -⟩ | ⟨e, -⟩⟩ := split_cases hr
  · simp only [List.filter_cons, m1, m2, List.filter_nil, splitLine] at e
    simp only [Bool.or_self, Bool.not_false, if_true] at e
    split at e
    · rw [if_neg (lt_irrefl _)] at e
      obtain ⟨rfl, rfl⟩ := Prod.mk.inj (Option.some.inj e)
      refine ⟨_, List.mem_cons_self, ?_⟩
      unfold setLine
      rw [if_neg (by simp [pt]), if_pos (C51_reflexive _ _)]
      rfl
    · simp at e
  · rw [k] at e; cases e
  · rw [k] at e; cases e

theorem atan2_up : atan2 1 0 = π / 2 := by
  have := atan2_polar (r := 1) (a := π / 2) one_pos (by linarith [pi_pos]) (by linarith [pi_pos])
  simpa using this

theorem atan2_back : atan2 0 (-1) = π := by
  have := atan2_polar (r := 1) (a := π) one_pos (by linarith [pi_pos]) (by linarith [pi_pos])
  simpa using this

theorem atan2_down : atan2 (-1) 0 = -(π / 2) := by
  have := atan2_polar (r := 1) (a := -(π / 2)) one_pos (by linarith [pi_pos]) (by linarith [pi_pos])
  simpa using this

/-- C65: what is left of a clockwise arc that was split may be split at a point outside of it, and then has points that
it did not have before. -/
theorem C65_arc_outside : ∃ s s' l p, Made s ∧ s.kind = .arc ∧ s.split [p] = some (s', l) ∧ Covers s' p ∧ ¬ Covers s p := by
  obtain ⟨s, h, k, hr⟩ := ex_arc (x := 0) (y := 1) (u := -1) (v := 0) (by norm_num) (by norm_num) (by norm_num) true
  have hpi := pi_pos
  obtain ⟨-, -, -, -, -, hcen, -, e⟩ := setArc_cases h
  rcases e with ⟨e, -⟩ | ⟨-, -, hs, he, hcw, -, h1, h2⟩
  · rw [k] at e; cases e
  have e1 : s.sang = 5 * π / 2 := by
    rw [h1]
    simp only [pt, sub_zero]
    rw [atan2_up, atan2_back, if_pos ⟨trivial, by linarith⟩]; ring
  have e2 : s.eang = π := by
    rw [h2]
    simp only [pt, sub_zero]
    rw [if_neg (by simp), atan2_back]
  -- the first split, at the bottom of the circle
  have m1 : PointMatches (pt 0 (-1)) s.start 1e-8 = false := by rw [hs]; apart
  have m2 : PointMatches (pt 0 (-1)) s.stop 1e-8 = false := by rw [he]; apart
  have hp1 : arcParam s (pt 0 (-1)) = 3 * π / 2 := by
    unfold arcParam Seg.startAngle
    rw [hcen, hcw, e2]
    simp only [pt, sub_zero, if_true]
    rw [atan2_down, if_pos (by linarith)]; ring
  have t1 : arcTakes s (pt 0 (-1)) := by
    refine ⟨?_, ?_⟩
    · unfold onCircle
      rw [hcen, hr]
      norm_num [pt]
    · rw [hp1]
      unfold Seg.endAngle
      rw [hcw, e1]
      simp
      linarith
  have sp1 : s.split [pt 0 (-1)] = some ({ s with stop := pt 0 (-1), eang := 3 * π / 2 },
      [subArc s (pt 0 (-1)) s.stop (3 * π / 2) s.eang]) := by
    unfold Seg.split
    simp only [k, List.filter_cons, m1, m2, List.filter_nil]
    simp only [Bool.or_self, Bool.not_false, if_true, splitArc, hp1, if_pos t1]
    simp [k]
  have made : Made { s with stop := pt 0 (-1), eang := 3 * π / 2 } := by
    refine .split (.arc h) sp1 ?_ List.mem_cons_self
    intro p hp
    rw [List.mem_singleton.1 hp]
    refine ⟨rfl, ?_⟩
    unfold Facing Seg.startAngle Seg.endAngle
    rw [k, hcw, e1, e2, hcen]
    refine ⟨3 * π / 2, 1, by simp; linarith, by simp; linarith, one_pos, ?_⟩
    unfold polar
    rw [show 3 * π / 2 = -(π / 2) + 2 * π by ring, Real.cos_add_two_pi, Real.sin_add_two_pi]
    simp [pt]
  -- the second split, at a point that is not on what is left
  set α := atan2 (-4 / 5) (-3 / 5) with hα
  have hneg : α < 0 := by
    rw [hα]; unfold atan2
    exact Complex.arg_neg_iff.2 (by norm_num)
  have hgt : -π < α := atan2_gt _ _
  have hp2 : arcParam { s with stop := pt 0 (-1), eang := 3 * π / 2 } (pt (-3 / 5) (-4 / 5)) = α + 2 * π := by
    unfold arcParam Seg.startAngle
    simp only [hcen, hcw, pt, sub_zero, if_true]
    rw [← hα, if_pos (by linarith)]
  have t2 : arcTakes { s with stop := pt 0 (-1), eang := 3 * π / 2 } (pt (-3 / 5) (-4 / 5)) := by
    refine ⟨?_, ?_⟩
    · unfold onCircle
      simp only [hcen, hr]
      norm_num [pt]
    · rw [hp2]
      unfold Seg.endAngle
      simp only [hcw, e1, if_true, not_lt]
      linarith
  rw [k] at hp2 t2 made
  have m3 : PointMatches (pt (-3 / 5) (-4 / 5)) s.start 1e-8 = false := by rw [hs]; apart
  have m4 : PointMatches (pt (-3 / 5) (-4 / 5)) (pt 0 (-1)) 1e-8 = false := by apart
  refine ⟨{ s with kind := .arc, stop := pt 0 (-1), eang := 3 * π / 2 },
    { s with kind := .arc, stop := pt (-3 / 5) (-4 / 5), eang := α + 2 * π },
    [subArc { s with kind := .arc, stop := pt 0 (-1), eang := 3 * π / 2 } (pt (-3 / 5) (-4 / 5)) (pt 0 (-1)) (α + 2 * π) (3 * π / 2)],
    pt (-3 / 5) (-4 / 5), made, rfl, ?_, ?_, ?_⟩
  · unfold Seg.split
    simp only [List.filter_cons, m3, m4, List.filter_nil]
    simp only [Bool.or_self, Bool.not_false, if_true, splitArc, hp2, if_pos t2]
    simp
  · rw [covers_arc rfl]
    unfold Seg.startAngle Seg.endAngle
    simp only [hcw, if_true, hcen, hr, e1]
    refine ⟨α + 2 * π, le_refl _, by linarith, ?_⟩
    rw [polar_add]
    have := polar_of (pt 0 0) (pt (-3 / 5) (-4 / 5)) rfl
    have e : hyp ((pt (-3 / 5) (-4 / 5)).x - (pt 0 0).x) ((pt (-3 / 5) (-4 / 5)).y - (pt 0 0).y) = 1 := by
      unfold hyp pt
      norm_num
    rw [e] at this
    simp only [pt, sub_zero] at this
    rw [← hα] at this
    exact this
  · rw [covers_arc rfl]
    unfold Seg.startAngle Seg.endAngle
    simp only [hcw, if_true, hcen, hr, e1]
    rintro ⟨a, a1, a2, e⟩
    have hx := congrArg Point.x e
    simp only [polar, pt, one_mul, zero_add] at hx
    have := Real.cos_nonneg_of_mem_Icc (x := a - 2 * π) ⟨by linarith, by linarith⟩
    rw [Real.cos_sub_two_pi] at this
    linarith

/-- C65: a circle of radius 1e-5 split at two points in the same direction, both of which pass for points of it, is
reduced to a single point. -/
theorem C65_circle_lost : ∃ s s' l, Made s ∧ s.kind = .circle ∧ s.split [pt 1e-5 0, pt 2e-5 0] = some (s', l) ∧
    Covers s (pt (-1e-5) 0) ∧ ∀ t ∈ s' :: l, ¬ Covers t (pt (-1e-5) 0) := by
  obtain ⟨s, h⟩ := (C61_arc_accepted (pt 0 0) (pt 1e-5 0) (pt 1e-5 0) false).2 ⟨⟨rfl, rfl, rfl⟩, by apart, by apart,
    Or.inl (C51_reflexive _ _)⟩
  have hc := setArc_cases h
  have k : s.kind = .circle := by
    rcases hc.2.2.2.2.2.2.2 with ⟨e, -⟩ | ⟨-, e, -⟩
    · exact e
    · rw [C51_reflexive] at e; cases e
  have hcen := hc.2.2.2.2.2.1
  have hr : s.radius = 1e-5 := by
    rw [hc.2.2.2.2.2.2.1]
    unfold hyp pt
    simp only [sub_zero, mul_zero, add_zero]
    exact Real.sqrt_mul_self (by norm_num)
  have zero : ∀ x : ℝ, 0 < x → atan2 0 x = 0 := by
    intro x hx
    have := atan2_polar (r := x) (a := 0) hx (by linarith [pi_pos]) (by linarith [pi_pos])
    simpa using this
  have hs : s.split [pt 1e-5 0, pt 2e-5 0] =
      some (circleArc s (pt 2e-5 0) (pt 1e-5 0), [circleArc s (pt 1e-5 0) (pt 2e-5 0)]) := by
    unfold Seg.split
    simp only [k, splitCircle]
    rw [if_neg (by simp), if_neg (by simp), if_neg, if_pos]
    · unfold onCircle
      rw [hcen, hr]
      constructor <;> norm_num [pt, abs_of_pos]
    · norm_num [pt, abs_of_neg]
  refine ⟨s, _, _, .arc h, k, hs, (C61_circle_points h k _).2 ⟨rfl, by norm_num [planar2, pt]⟩, ?_⟩
  have key : ∀ x y : ℝ, 0 < x → 0 < y → ¬ Covers (circleArc s (pt x 0) (pt y 0)) (pt (-1e-5) 0) := by
    intro x y hx hy
    rw [circleArc_eq, hcen, hr]
    simp only [pt, sub_zero, zero x hx, zero y hy, gt_iff_lt, lt_irrefl, if_false]
    rw [covers_arc rfl]
    unfold Seg.startAngle Seg.endAngle
    simp only [Bool.false_eq_true, if_false]
    rintro ⟨t, t1, t2, e⟩
    have hx := congrArg Point.x e
    rw [le_antisymm t2 t1] at hx
    simp only [polar, pt, Real.cos_zero] at hx
    norm_num at hx
  intro t ht
  simp only [List.mem_cons, List.not_mem_nil, or_false] at ht
  rcases ht with rfl | rfl
  · exact key _ _ (by norm_num) (by norm_num)
  · exact key _ _ (by norm_num) (by norm_num)

end Iges.Props
