import Verif.Props.ArcLine
/-
C64: concrete cases, and the inputs for which the property fails.
-/
namespace Iges.Props
open Iges.Geo Iges.Spec Real Classical

/-- a counterclockwise arc of radius 1 about a point of the X axis -/
theorem ex_arc_at {c x y u v : ℝ} (h1 : (x - c) ^ 2 + y ^ 2 = 1) (h2 : (u - c) ^ 2 + v ^ 2 = 1)
    (h : 1e-4 < (x - u) ^ 2 + (y - v) ^ 2) (hc : 0 ≤ c ∧ c ≤ 10) :
    ∃ s, setArc (pt c 0) (pt x y) (pt u v) false = (s, true) ∧ s.kind = .arc ∧ s.radius = 1 ∧ s.center = pt c 0 ∧
      s.start = pt x y ∧ s.stop = pt u v ∧ s.startAngle = atan2 y (x - c) ∧
      s.endAngle = (if atan2 v (u - c) < atan2 y (x - c) then atan2 v (u - c) + 2 * π else atan2 v (u - c)) := by
  have b1 : x ^ 2 + y ^ 2 ≤ 1000 := by nlinarith [sq_nonneg (x - c), sq_nonneg (x - 2 * c)]
  have b2 : u ^ 2 + v ^ 2 ≤ 1000 := by nlinarith [sq_nonneg (u - c), sq_nonneg (u - 2 * c)]
  have b3 : c ^ 2 ≤ 100 := by nlinarith
  obtain ⟨s, hs⟩ := (C61_arc_accepted (pt c 0) (pt x y) (pt u v) false).2 ⟨⟨rfl, rfl, rfl⟩,
    by apply no_match <;> norm_num [norm2, dist2, pt] <;> nlinarith,
    by apply no_match <;> norm_num [norm2, dist2, pt] <;> nlinarith, Or.inr (by
      have e1 : planar2 (pt u v) (pt c 0) = 1 := by unfold planar2 pt; linear_combination h2
      have e2 : planar2 (pt x y) (pt c 0) = 1 := by unfold planar2 pt; linear_combination h1
      rw [e1, e2]; norm_num)⟩
  have hm : PointMatches (pt x y) (pt u v) 1e-8 = false := by
    apply no_match <;> norm_num [norm2, dist2, pt] <;> norm_num at h <;> linarith
  obtain ⟨-, -, -, -, -, hcen, hr, e⟩ := setArc_cases hs
  rcases e with ⟨-, e⟩ | ⟨k, -, hst, hen, hcw, -, e1, e2⟩
  · rw [hm] at e; cases e
  refine ⟨s, hs, k, ?_, hcen, hst, hen, ?_, ?_⟩
  · rw [hr]
    unfold hyp pt
    simp only
    rw [show (x - c) * (x - c) + (y - 0) * (y - 0) = 1 by linear_combination h1]
    exact Real.sqrt_one
  · unfold Seg.startAngle
    rw [hcw, e1]
    simp [pt]
  · unfold Seg.endAngle
    rw [hcw, e2]
    simp [pt]

theorem atan2_fwd : atan2 0 1 = 0 := by
  have := atan2_polar (r := 1) (a := 0) one_pos (by linarith [pi_pos]) (by linarith [pi_pos])
  simpa using this

/-- directions to the right of the centre -/
theorem atan2_right {x y : ℝ} (hx : 0 < x) : -(π / 2) < atan2 y x ∧ atan2 y x < π / 2 := by
  unfold atan2
  rw [← abs_lt]
  exact Complex.abs_arg_lt_pi_div_two_iff.2 (Or.inl hx)

/-- C64: a circle and a line through its centre. -/
example : ∃ s o, Made s ∧ Made o ∧ s.kind = .circle ∧ o.kind = .line ∧
    (∀ x, x ∈ (intersections s o).pts ↔ x = pt 1 0 ∨ x = pt (-1) 0) ∧ (intersections o s).ret = true := by
  obtain ⟨s, hs, ks, cs, rs⟩ := ex_circle (x := 0) (r := 1) (by norm_num) (by norm_num)
  obtain ⟨o, ho, ko, o1, o2⟩ := ex_seg (a := -2) (b := 0) (c := 2) (d := 0) (by norm_num) (by norm_num) (by norm_num)
  have hne : o.start.x ≠ o.stop.x ∨ o.start.y ≠ o.stop.y := by rw [o1, o2]; left; norm_num [pt]
  have hD : 1e-6 ≤ |chord s.center s.radius o.start o.stop| := by
    rw [o1, o2, cs, rs]; unfold chord planar2 across pt; norm_num
  have hl := (line_ends (.line ho) ko).2.2.2.2
  have key : ∀ x, (Covers s x ∧ Covers o x) ↔ x = pt 1 0 ∨ x = pt (-1) 0 := by
    intro x
    rw [hl, o1, o2]
    have hc : Covers s x ↔ OnCircle (pt 0 0) 1 x := by unfold Covers; rw [ks, cs, rs]
    rw [hc]
    constructor
    · rintro ⟨⟨h, -⟩, t, t1, t2, rfl⟩
      simp only [planar2, pt] at h
      have : (t - 3 / 4) * (t - 1 / 4) = 0 := by linarith
      rcases mul_eq_zero.1 this with e | e
      · left; unfold pt; ext <;> simp only <;> linarith
      · right; unfold pt; ext <;> simp only <;> linarith
    · rintro (rfl | rfl)
      · exact ⟨⟨by norm_num [planar2, pt], rfl⟩, 3 / 4, by norm_num, by norm_num, by norm_num [pt]⟩
      · exact ⟨⟨by norm_num [planar2, pt], rfl⟩, 1 / 4, by norm_num, by norm_num, by norm_num [pt]⟩
  refine ⟨s, o, .arc hs, .line ho, ks, ko, ?_, ?_⟩
  · intro x
    rw [(C64_circle_line (Or.inl ⟨rfl, rfl⟩) (.line ho) ks ko hne hD).1, key]
  · have h := C64_circle_line (s := o) (o := s) (Or.inr ⟨rfl, rfl⟩) (.line ho) ks ko hne hD
    rw [h.2]
    have hk := (key (pt 1 0)).2 (Or.inl rfl)
    exact List.ne_nil_of_mem ((h.1 (pt 1 0)).2 ⟨hk.2, hk.1⟩)

/-- C64: the left half of a circle, and a circle that crosses it at (-1/2, ±√3/2). -/
example : ∃ s o, Made s ∧ Made o ∧ s.kind = .arc ∧ o.kind = .circle ∧ s.startAngle ≤ π ∧
    0.001 ≤ |√(planar2 s.center o.center) - s.radius - o.radius| ∧
    ¬ (PointMatches s.center o.center 1e-3 = true ∧ |s.radius - o.radius| < 1e-3) := by
  obtain ⟨s, hs, ks, rs, cs, -, -, e1, -⟩ := ex_arc_at (c := 1) (x := 1) (y := 1) (u := 1) (v := -1) (by norm_num)
    (by norm_num) (by norm_num) (by norm_num)
  obtain ⟨o, ho, ko, co, ro⟩ := ex_circle (x := 0) (r := 1) (by norm_num) (by norm_num)
  refine ⟨s, o, .arc hs, .arc ho, ks, ko, by rw [e1]; exact atan2_le _ _, ?_, ?_⟩
  · rw [cs, co, rs, ro]
    have e : planar2 (pt 1 0) (pt 0 0) = 1 := by norm_num [planar2, pt]
    rw [e, Real.sqrt_one]; norm_num
  · rintro ⟨h, -⟩
    have : PointMatches (pt 1 0) (pt 0 0) 1e-3 = false := by apart
    rw [cs, co, this] at h
    cases h

/-- C64: a line that ends on the circle of an arc, but not on the arc.  The line reports its end as a common point; the
arc, asked for the same intersection, reports none. -/
theorem C64_line_arc_wrong : ∃ s o, Made s ∧ Made o ∧ s.kind = .line ∧ o.kind = .arc ∧
    (∀ x, ¬ (Covers s x ∧ Covers o x)) ∧ pt 1 0 ∈ (intersections s o).pts ∧ (intersections s o).ret = true ∧
    (intersections o s).pts = [] ∧ (intersections o s).ret = false := by
  have hpi := pi_pos
  obtain ⟨s, hs, ks, s1, s2⟩ := ex_seg (a := 0.5) (b := 0) (c := 1) (d := 0) (by norm_num) (by norm_num) (by norm_num)
  obtain ⟨o, ho, ko, ro, co, o1, o2, e1, e2⟩ := ex_arc_at (c := 0) (x := 0) (y := 1) (u := -1) (v := 0) (by norm_num)
    (by norm_num) (by norm_num) (by norm_num)
  rw [sub_zero, atan2_up] at e1
  rw [sub_zero, sub_zero, atan2_up, atan2_back, if_neg (by linarith)] at e2
  have hne : s.start.x ≠ s.stop.x ∨ s.start.y ≠ s.stop.y := by rw [s1, s2]; left; norm_num [pt]
  have hD : 1e-6 ≤ |chord o.center o.radius s.start s.stop| := by
    rw [s1, s2, co, ro]; unfold chord planar2 across pt; norm_num
  obtain ⟨gs, ge, -, -, cl⟩ := line_ends (.line hs) ks
  have only : ∀ x, Covers s x → OnCircle o.center o.radius x → x = pt 1 0 := by
    intro x h1 h2
    rw [cl, s1, s2] at h1
    obtain ⟨t, t1, t2, rfl⟩ := h1
    rw [co, ro] at h2
    have h3 := h2.1
    simp only [planar2, pt] at h3
    have : t = 1 := by nlinarith
    subst this
    norm_num [pt]
  have out : ¬ Covers o (pt 1 0) := by
    intro h
    obtain ⟨a, h1, h2, e⟩ := (covers_arc ko _).1 h
    have ex := congrArg Point.x e
    simp only [pt, polar, co, ro] at ex
    rw [e1] at h1; rw [e2] at h2
    have := Real.cos_nonpos_of_pi_div_two_le_of_le h1 (by linarith)
    linarith
  obtain ⟨a1, a2, a3⟩ := C64_arc_line (.arc ho) (.line hs) ko ks hne hD
  have none : ∀ x, x ∉ (intersections o s).pts := by
    intro x hx
    obtain ⟨c1, c2, c3⟩ := a2 x hx
    have := only x c1 c2
    subst this
    rcases c3 with c | c | c
    · exact out c
    · rw [o1] at c; unfold Beside pt at c; norm_num at c
    · rw [o2] at c; unfold Beside pt at c; norm_num at c
  have nil := List.eq_nil_iff_forall_not_mem.2 none
  have hin : pt 1 0 ∈ (intersections s o).pts := by
    have hi : intersections s o = arcLine o o.getStart o.getEnd s.start s.stop s.start s.stop := by
      unfold intersections checkArcLine
      rw [ks, ko]
      simp only [reduceCtorEq, or_self, if_false, gs, ge]
    rw [hi, (mem_arcLine (line_positive hne) hD (Or.inr ko) _).1]
    refine ⟨?_, ?_, fun _ => ⟨.none, ?_⟩⟩
    · rw [s1, s2]; exact ⟨1, by norm_num, by norm_num, by norm_num [pt]⟩
    · rw [co, ro]; exact ⟨by norm_num [planar2, pt], rfl⟩
    · right; right; right
      rw [s2]; norm_num
  refine ⟨s, o, .line hs, .arc ho, ks, ko, ?_, hin, ?_, nil, ?_⟩
  · rintro x ⟨h1, h2⟩
    exact none x (a1 x h2 h1)
  · rw [(C64_line_arc_partial (.line hs) (.arc ho) ks ko hne hD).2.2]
    exact List.ne_nil_of_mem hin
  · rw [← Bool.not_eq_true, a3]
    simpa using nil

/-- the points common to the unit circles about the origin and about (1, 0) -/
theorem two_units {x : Point ℝ} (h1 : OnCircle (pt 0 0) 1 x) (h2 : OnCircle (pt 1 0) 1 x) : x.x = 1 / 2 := by
  have a := h1.1
  have b := h2.1
  simp only [planar2, pt] at a b
  linarith

/-- what `checkArcs` does with the unit circle about the origin and an arc of the unit circle about (1, 0) -/
theorem units_reduce {s o : Seg} (ks : s.kind = .circle) (ko : o.kind = .arc) (cs : s.center = pt 0 0)
    (co : o.center = pt 1 0) (rs : s.radius = 1) (ro : o.radius = 1) :
    ∃ w : Point ℝ × Point ℝ, (∀ x, (OnCircle (pt 0 0) 1 x ∧ OnCircle (pt 1 0) 1 x) ↔ x = w.1 ∨ x = w.2) ∧
      ((reaches (atan2 w.1.y w.1.x) o.startAngle o.endAngle → reaches (atan2 w.2.y w.2.x) o.startAngle o.endAngle →
        ∀ x, (OnCircle (pt 0 0) 1 x ∧ OnCircle (pt 1 0) 1 x) → x ∈ (intersections s o).pts) ∧
      (¬ reaches (atan2 w.1.y w.1.x) o.startAngle o.endAngle → ¬ reaches (atan2 w.2.y w.2.x) o.startAngle o.endAngle →
        intersections s o = ⟨[], .none, false⟩)) := by
  have hi : intersections s o = checkArcs s o := by unfold intersections; rw [ks, ko]
  have hm : PointMatches (pt 0 0) (pt 1 0) 1e-3 = false := by apart
  have hd : hyp (s.center.x - o.center.x) (s.center.y - o.center.y) = 1 := by
    rw [cs, co]; unfold hyp pt; norm_num
  have hint := intercepts_iff (c := pt 0 0) (c2 := pt 1 0) (r := 1) (r2 := 1) (d := 1)
    (by rw [← hyp_planar]; unfold hyp pt; norm_num) one_pos one_pos one_pos (by norm_num) (by norm_num) (by norm_num)
  rw [hi]
  unfold checkArcs
  simp only [hd]
  rw [rs, ro, cs, co, if_neg (by norm_num), if_neg (by norm_num), if_neg (by rw [hm]; simp), if_neg (by rw [ks]; simp)]
  refine ⟨intercepts (pt 0 0) 1 (pt 1 0) 1 1, hint, ?_, ?_⟩
  · intro h1 h2 x hx
    rw [if_pos]
    · rw [(either_order _ _ _ _).1]
      exact (hint x).1 hx
    · simp only [ks, true_or, and_true]
      exact ⟨Or.inr (by simpa [pt] using h1), Or.inr (by simpa [pt] using h2)⟩
  · intro h1 h2
    have e1 : ∀ {y x : ℝ}, atan2 (y - (pt 0 0).y) (x - (pt 0 0).x) = atan2 y x := by intro y x; simp [pt]
    simp only [e1, ks, ko, reduceCtorEq, false_or, true_or, and_true]
    rw [if_neg (by tauto), if_neg h1, if_neg h2]

/-- C64: a circle and an arc that cross at (1/2, √3/2) are reported not to meet: the direction of the point is taken from
the centre of the circle and compared with the angles of the arc, which are about its own centre. -/
theorem C64_circle_arc_missed : ∃ s o x, Made s ∧ Made o ∧ s.kind = .circle ∧ o.kind = .arc ∧ Covers s x ∧ Covers o x ∧
    intersections s o = ⟨[], .none, false⟩ := by
  have hpi := pi_pos
  obtain ⟨s, hs, ks, cs, rs⟩ := ex_circle (x := 0) (r := 1) (by norm_num) (by norm_num)
  obtain ⟨o, ho, ko, ro, co, o1, o2, e1, e2⟩ := ex_arc_at (c := 1) (x := 1) (y := 1) (u := 0) (v := 0) (by norm_num)
    (by norm_num) (by norm_num) (by norm_num)
  norm_num at e1 e2
  rw [atan2_up] at e1
  rw [atan2_up, atan2_back, if_neg (by linarith)] at e2
  obtain ⟨w, hw, -, hout⟩ := units_reduce ks ko cs co rs ro
  have not : ∀ x, x = w.1 ∨ x = w.2 → ¬ reaches (atan2 x.y x.x) o.startAngle o.endAngle := by
    intro x hx
    have hx := (hw x).2 hx
    have := atan2_right (y := x.y) (x := x.x) (by rw [two_units hx.1 hx.2]; norm_num)
    rw [e1, e2]
    unfold reaches
    simp only
    rw [if_neg (show ¬ atan2 x.y x.x > π by linarith), if_pos (by linarith)]
    linarith
  refine ⟨s, o, polar (pt 1 0) 1 (2 * π / 3), .arc hs, .arc ho, ks, ko, ?_, ?_, hout (not _ (Or.inl rfl)) (not _ (Or.inr rfl))⟩
  · unfold Covers
    rw [ks, cs, rs]
    have e3 : cos (2 * π / 3) = -(1 / 2) := by
      rw [show 2 * π / 3 = π - π / 3 by ring, cos_pi_sub, cos_pi_div_three]
    have e4 := Real.sin_sq_add_cos_sq (2 * π / 3)
    refine ⟨?_, rfl⟩
    simp only [planar2, polar, pt]
    rw [e3] at e4 ⊢
    linarith
  · rw [covers_arc ko, e1, e2, co, ro]
    exact ⟨_, by linarith, by linarith, rfl⟩

/-- C64: the right half of the circle about (1, 0) does not meet the unit circle about the origin, but two points are
reported, neither of them on the arc. -/
theorem C64_circle_arc_wrong : ∃ s o, Made s ∧ Made o ∧ s.kind = .circle ∧ o.kind = .arc ∧
    (∀ x, ¬ (Covers s x ∧ Covers o x)) ∧ ∃ x, x ∈ (intersections s o).pts := by
  have hpi := pi_pos
  obtain ⟨s, hs, ks, cs, rs⟩ := ex_circle (x := 0) (r := 1) (by norm_num) (by norm_num)
  obtain ⟨o, ho, ko, ro, co, o1, o2, e1, e2⟩ := ex_arc_at (c := 1) (x := 1) (y := -1) (u := 1) (v := 1) (by norm_num)
    (by norm_num) (by norm_num) (by norm_num)
  norm_num at e1 e2
  rw [atan2_down] at e1
  rw [atan2_up, atan2_down, if_neg (by linarith)] at e2
  obtain ⟨w, hw, hin, -⟩ := units_reduce ks ko cs co rs ro
  have is : ∀ x, x = w.1 ∨ x = w.2 → reaches (atan2 x.y x.x) o.startAngle o.endAngle := by
    intro x hx
    have hx := (hw x).2 hx
    have := atan2_right (y := x.y) (x := x.x) (by rw [two_units hx.1 hx.2]; norm_num)
    rw [e1, e2]
    unfold reaches
    simp only
    rw [if_neg (show ¬ atan2 x.y x.x > π / 2 by linarith), if_neg (by linarith)]
    linarith
  refine ⟨s, o, .arc hs, .arc ho, ks, ko, ?_, w.1,
    hin (is _ (Or.inl rfl)) (is _ (Or.inr rfl)) _ ((hw _).2 (Or.inl rfl))⟩
  rintro x ⟨h1, h2⟩
  unfold Covers at h1
  rw [ks, cs, rs] at h1
  rw [covers_arc ko, e1, e2, co, ro] at h2
  obtain ⟨a, a1, a2, rfl⟩ := h2
  have hc := Real.cos_nonneg_of_neg_pi_div_two_le_of_le (by linarith) a2
  have h3 := h1.1
  have h4 := Real.sin_sq_add_cos_sq a
  simp only [planar2, polar, pt] at h3
  nlinarith

end Iges.Props
