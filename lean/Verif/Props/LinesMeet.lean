import Verif.Props.Circles
/-
C63: where two lines meet.
-/
namespace Iges.Props
open Iges.Geo Iges.Spec Real

/-- what a line that is made says about its members -/
theorem line_ends {s : Seg} (h : Made s) (k : s.kind = .line) :
    s.getStart = s.start ∧ s.getEnd = s.stop ∧ s.start.z = 0 ∧ s.stop.z = 0 ∧
    ∀ x, Covers s x ↔ OnLine s.start s.stop x := by
  obtain ⟨hcw, hz1, hz2⟩ := (made_ok h).line k
  have gs : s.getStart = s.start := by unfold Seg.getStart; rw [hcw]; rfl
  have ge : s.getEnd = s.stop := by unfold Seg.getEnd; rw [hcw]; rfl
  exact ⟨gs, ge, hz1, hz2, fun x => by unfold Covers; rw [k]; simp only [gs, ge]⟩

/-- the parameters `t1`, `t2` of `checkLines` when the lines are not parallel: the only solution of the two equations -/
theorem solve_lines {a b c d : Point ℝ} (hden : across a b c d ≠ 0) {t1 t2 : ℝ}
    (h2 : t2 = ((b.x - a.x) * (c.y - a.y) - (b.y - a.y) * (c.x - a.x)) / across a b c d)
    (h1 : t1 = if |b.x - a.x| < |b.y - a.y| then (t2 * (d.y - c.y) + c.y - a.y) / (b.y - a.y)
      else (t2 * (d.x - c.x) + c.x - a.x) / (b.x - a.x)) (u v : ℝ) :
    (a.x + u * (b.x - a.x) = c.x + v * (d.x - c.x) ∧ a.y + u * (b.y - a.y) = c.y + v * (d.y - c.y)) ↔ u = t1 ∧ v = t2 := by
  unfold across at *
  have e2 : t2 * ((d.x - c.x) * (b.y - a.y) - (d.y - c.y) * (b.x - a.x)) =
      (b.x - a.x) * (c.y - a.y) - (b.y - a.y) * (c.x - a.x) := by rw [h2]; exact div_mul_cancel₀ _ hden
  -- the point at `t2` is on the first line, at `t1`
  have ex : a.x + t1 * (b.x - a.x) = c.x + t2 * (d.x - c.x) ∧ a.y + t1 * (b.y - a.y) = c.y + t2 * (d.y - c.y) := by
    split at h1
    · rename_i hc
      have hb : b.y - a.y ≠ 0 := by intro e; rw [e, abs_zero] at hc; exact absurd hc (not_lt.2 (abs_nonneg _))
      have e1 : t1 * (b.y - a.y) = t2 * (d.y - c.y) + c.y - a.y := by rw [h1]; field_simp
      refine ⟨?_, by linarith⟩
      have : (b.y - a.y) * (a.x + t1 * (b.x - a.x)) = (b.y - a.y) * (c.x + t2 * (d.x - c.x)) := by
        linear_combination (b.x - a.x) * e1 - e2
      exact mul_left_cancel₀ hb this
    · rename_i hc
      have hb : b.x - a.x ≠ 0 := by
        intro e
        rw [e, abs_zero, not_lt] at hc
        have h0 := abs_nonpos_iff.1 hc
        rw [e, h0] at hden
        simp at hden
      have e1 : t1 * (b.x - a.x) = t2 * (d.x - c.x) + c.x - a.x := by rw [h1]; field_simp
      refine ⟨by linarith, ?_⟩
      have : (b.x - a.x) * (a.y + t1 * (b.y - a.y)) = (b.x - a.x) * (c.y + t2 * (d.y - c.y)) := by
        linear_combination (b.y - a.y) * e1 + e2
      exact mul_left_cancel₀ hb this
  constructor
  · rintro ⟨q1, q2⟩
    have w1 : (u - t1) * ((d.x - c.x) * (b.y - a.y) - (d.y - c.y) * (b.x - a.x)) = 0 := by
      linear_combination (d.x - c.x) * (q2 - ex.2) - (d.y - c.y) * (q1 - ex.1)
    have w2 : (v - t2) * ((d.x - c.x) * (b.y - a.y) - (d.y - c.y) * (b.x - a.x)) = 0 := by
      linear_combination (b.x - a.x) * (q2 - ex.2) - (b.y - a.y) * (q1 - ex.1)
    exact ⟨sub_eq_zero.1 ((mul_eq_zero.1 w1).resolve_right hden), sub_eq_zero.1 ((mul_eq_zero.1 w2).resolve_right hden)⟩
  · rintro ⟨rfl, rfl⟩; exact ex

/-- C63. Two lines that are clearly not parallel.  A point they share is reported, and it is the only one reported.  The
point reported lies on both lines, beyond their ends by at most the fraction 1e-8 of their lengths.  The flag is that of
an end point just when the point is an end of one of the lines, up to that fraction, and otherwise there is none. -/
theorem C63_meet {s o : Seg} (hs : Made s) (ho : Made o) (ks : s.kind = .line) (ko : o.kind = .line)
    (hden : 1e-6 ≤ |across s.start s.stop o.start o.stop|) :
    (∀ x, Covers s x → Covers o x → (intersections s o).ret = true ∧ (intersections s o).pts = [x]) ∧
    ((intersections s o).ret = false → (intersections s o).pts = [] ∧ (intersections s o).flag = .none) ∧
    ((intersections s o).ret = true → ∃ p t u, (intersections s o).pts = [p] ∧
      AtParam s.start s.stop t p ∧ AtParam o.start o.stop u p ∧ (-1e-8 < t ∧ t < 1 + 1e-8) ∧ (-1e-8 < u ∧ u < 1 + 1e-8) ∧
      (intersections s o).flag =
        open Classical in
        if (|t| < 1e-8 ∨ |t - 1| < 1e-8) ∨ (|u| < 1e-8 ∨ |u - 1| < 1e-8) then Flag.endpoint else .none) := by
  obtain ⟨gs, ge, z1, z2, cs⟩ := line_ends hs ks
  obtain ⟨gs', ge', z1', z2', co⟩ := line_ends ho ko
  have hi : intersections s o = checkLines s o := by unfold intersections; rw [ks, ko]
  have hd0 : across s.start s.stop o.start o.stop ≠ 0 := by
    intro e; rw [e, abs_zero] at hden; norm_num at hden
  rw [hi]
  unfold checkLines
  simp only [gs', ge', cs, co, z1']
  have hden' : ¬ |(o.stop.x - o.start.x) * (s.stop.y - s.start.y) - (o.stop.y - o.start.y) * (s.stop.x - s.start.x)| < 1e-6 := by
    rw [not_lt]; exact hden
  rw [if_neg hden']
  have key := solve_lines hd0 rfl rfl
  unfold across at key
  set t2 := ((s.stop.x - s.start.x) * (o.start.y - s.start.y) - (s.stop.y - s.start.y) * (o.start.x - s.start.x)) /
    ((o.stop.x - o.start.x) * (s.stop.y - s.start.y) - (o.stop.y - o.start.y) * (s.stop.x - s.start.x)) with ht2
  set t1 := (if |s.stop.x - s.start.x| < |s.stop.y - s.start.y| then
      (t2 * (o.stop.y - o.start.y) + o.start.y - s.start.y) / (s.stop.y - s.start.y)
      else (t2 * (o.stop.x - o.start.x) + o.start.x - s.start.x) / (s.stop.x - s.start.x)) with ht1
  have hex := (key t1 t2).2 ⟨rfl, rfl⟩
  refine ⟨?_, ?_, ?_⟩
  · rintro x ⟨u, u1, u2, rfl⟩ ⟨v, v1, v2, e⟩
    have ex := congrArg Point.x e
    have ey := congrArg Point.y e
    simp only [pt] at ex ey
    obtain ⟨rfl, rfl⟩ := (key u v).1 ⟨ex, ey⟩
    have h8 : (0 : ℝ) < 1e-8 := by norm_num
    rw [if_pos ⟨by linarith, by linarith, by linarith, by linarith⟩]
    refine ⟨rfl, ?_⟩
    rw [e]
    unfold pt
    rw [List.cons.injEq, Point.mk.injEq]
    exact ⟨⟨by ring, by ring, rfl⟩, rfl⟩
  · split <;> simp
  · split
    · rename_i h
      intro _
      refine ⟨_, t1, t2, rfl, ?_, ?_, ⟨h.2.2.1, h.2.2.2⟩, ⟨h.1, h.2.1⟩, rfl⟩
      · unfold AtParam pt
        rw [hex.1, hex.2]
        ext <;> simp only <;> ring
      · unfold AtParam pt
        ext <;> simp only <;> ring
    · simp

/-- C63. Parallel lines of moderate size that are not on the same straight line are reported not to meet, and they do not. -/
theorem C63_parallel {s o : Seg} (hs : Made s) (ho : Made o) (ks : s.kind = .line) (ko : o.kind = .line)
    (hpar : across s.start s.stop o.start o.stop = 0) (hoff : 1e-6 < |across s.start s.stop s.start o.start|) :
    (intersections s o).ret = false ∧ (intersections s o).pts = [] ∧ (intersections s o).flag = .none ∧
    ∀ x, ¬ (Covers s x ∧ Covers o x) := by
  obtain ⟨gs, ge, z1, z2, cs⟩ := line_ends hs ks
  obtain ⟨gs', ge', z1', z2', co⟩ := line_ends ho ko
  have hi : intersections s o = checkLines s o := by unfold intersections; rw [ks, ko]
  have : checkLines s o = ⟨[], .none, false⟩ := by
    unfold checkLines
    simp only [gs', ge']
    unfold across at hpar hoff
    rw [if_pos (by rw [hpar]; norm_num), if_pos]
    rw [show (s.stop.x - s.start.x) * (o.start.y - s.start.y) - (s.stop.y - s.start.y) * (o.start.x - s.start.x) =
      -((o.start.x - s.start.x) * (s.stop.y - s.start.y) - (o.start.y - s.start.y) * (s.stop.x - s.start.x)) by ring, abs_neg]
    exact hoff
  rw [hi, this]
  refine ⟨rfl, rfl, rfl, ?_⟩
  rintro x ⟨h1, h2⟩
  obtain ⟨u, -, -, rfl⟩ := (cs x).1 h1
  obtain ⟨v, -, -, e⟩ := (co _).1 h2
  have ex := congrArg Point.x e
  have ey := congrArg Point.y e
  simp only [pt] at ex ey
  have : across s.start s.stop s.start o.start = 0 := by
    unfold across at hpar ⊢
    linear_combination (s.stop.x - s.start.x) * ey - (s.stop.y - s.start.y) * ex - v * hpar
  rw [this, abs_zero] at hoff
  norm_num at hoff

/-- lines between points with small coordinates -/
theorem ex_seg {a b c d : ℝ} (h : (a - c) ^ 2 + (b - d) ^ 2 > (2 * 1e-8) ^ 2) (h1 : a ^ 2 + b ^ 2 ≤ 100)
    (h2 : c ^ 2 + d ^ 2 ≤ 100) :
    ∃ s, setLine (pt a b) (pt c d) = (s, true) ∧ s.kind = .line ∧ s.start = pt a b ∧ s.stop = pt c d := by
  have hm : PointMatches (pt a b) (pt c d) 1e-8 = false := by
    apply no_match
    · norm_num
    · norm_num [norm2, pt]; linarith
    · norm_num [norm2, pt]; linarith
    · norm_num [dist2, pt]; norm_num at h; linarith
  refine ⟨{ Seg.init with start := pt a b, stop := pt c d, kind := .line }, ?_, rfl, rfl, rfl⟩
  unfold setLine
  rw [if_neg (by simp [pt]), if_neg (by simp [hm])]

/-- C63: the diagonals of a square meet. -/
example : ∃ s o, Made s ∧ Made o ∧ s.kind = .line ∧ o.kind = .line ∧
    1e-6 ≤ |across s.start s.stop o.start o.stop| ∧ (intersections s o).pts = [pt 1 1] := by
  obtain ⟨s, hs, ks, s1, s2⟩ := ex_seg (a := 0) (b := 0) (c := 2) (d := 2) (by norm_num) (by norm_num) (by norm_num)
  obtain ⟨o, ho, ko, o1, o2⟩ := ex_seg (a := 0) (b := 2) (c := 2) (d := 0) (by norm_num) (by norm_num) (by norm_num)
  have hd : 1e-6 ≤ |across s.start s.stop o.start o.stop| := by
    rw [s1, s2, o1, o2]; norm_num [across, pt]
  refine ⟨s, o, .line hs, .line ho, ks, ko, hd, ?_⟩
  refine ((C63_meet (.line hs) (.line ho) ks ko hd).1 _ ?_ ?_).2
  · rw [(line_ends (.line hs) ks).2.2.2.2, s1, s2]
    exact ⟨0.5, by norm_num, by norm_num, by norm_num [pt]⟩
  · rw [(line_ends (.line ho) ko).2.2.2.2, o1, o2]
    exact ⟨0.5, by norm_num, by norm_num, by norm_num [pt]⟩

/-- C63: parallel lines. -/
example : ∃ s o, Made s ∧ Made o ∧ s.kind = .line ∧ o.kind = .line ∧ across s.start s.stop o.start o.stop = 0 ∧
    1e-6 < |across s.start s.stop s.start o.start| := by
  obtain ⟨s, hs, ks, s1, s2⟩ := ex_seg (a := 0) (b := 0) (c := 2) (d := 0) (by norm_num) (by norm_num) (by norm_num)
  obtain ⟨o, ho, ko, o1, o2⟩ := ex_seg (a := 0) (b := 2) (c := 2) (d := 2) (by norm_num) (by norm_num) (by norm_num)
  refine ⟨s, o, .line hs, .line ho, ks, ko, ?_, ?_⟩ <;> rw [s1, s2, o1] <;> norm_num [across, pt]
  rw [o2]; norm_num [pt]

/-- C63: a line that lies within another one without sharing an end with it is reported not to meet it. -/
theorem C63_overlap_missed : ∃ s o, Made s ∧ Made o ∧ s.kind = .line ∧ o.kind = .line ∧ (∀ x, Covers o x → Covers s x) ∧
    intersections s o = ⟨[], .none, false⟩ := by
  obtain ⟨s, hs, ks, s1, s2⟩ := ex_seg (a := 0) (b := 0) (c := 3) (d := 0) (by norm_num) (by norm_num) (by norm_num)
  obtain ⟨o, ho, ko, o1, o2⟩ := ex_seg (a := 1) (b := 0) (c := 2) (d := 0) (by norm_num) (by norm_num) (by norm_num)
  obtain ⟨gs, ge, -, -, cs⟩ := line_ends (.line hs) ks
  obtain ⟨gs', ge', -, -, co⟩ := line_ends (.line ho) ko
  refine ⟨s, o, .line hs, .line ho, ks, ko, ?_, ?_⟩
  · intro x
    rw [cs, co, s1, s2, o1, o2]
    rintro ⟨t, t1, t2, rfl⟩
    exact ⟨(1 + t) / 3, by linarith, by linarith, by unfold pt; ext <;> simp only <;> ring⟩
  · have hi : intersections s o = checkLines s o := by unfold intersections; rw [ks, ko]
    rw [hi]
    unfold checkLines
    simp only [gs', ge', s1, s2, o1, o2, pt]
    norm_num [abs_of_pos, abs_of_neg]

/-- C63: two lines of 0.8 thousandths that cross in the middle are taken as parallel and reported not to meet. -/
theorem C63_short_missed : ∃ s o, Made s ∧ Made o ∧ s.kind = .line ∧ o.kind = .line ∧
    Covers s (pt 0 0) ∧ Covers o (pt 0 0) ∧ intersections s o = ⟨[], .none, false⟩ := by
  obtain ⟨s, hs, ks, s1, s2⟩ := ex_seg (a := -4e-4) (b := 0) (c := 4e-4) (d := 0) (by norm_num) (by norm_num) (by norm_num)
  obtain ⟨o, ho, ko, o1, o2⟩ := ex_seg (a := 0) (b := -4e-4) (c := 0) (d := 4e-4) (by norm_num) (by norm_num) (by norm_num)
  obtain ⟨gs, ge, -, -, cs⟩ := line_ends (.line hs) ks
  obtain ⟨gs', ge', -, -, co⟩ := line_ends (.line ho) ko
  refine ⟨s, o, .line hs, .line ho, ks, ko, ?_, ?_, ?_⟩
  · rw [cs, s1, s2]; exact ⟨0.5, by norm_num, by norm_num, by norm_num [pt]⟩
  · rw [co, o1, o2]; exact ⟨0.5, by norm_num, by norm_num, by norm_num [pt]⟩
  · have hi : intersections s o = checkLines s o := by unfold intersections; rw [ks, ko]
    rw [hi]
    unfold checkLines
    simp only [gs', ge', s1, s2, o1, o2, pt]
    norm_num [abs_of_pos, abs_of_neg]

/-- C63: two consecutive lines in one direction, which share one point, are reported to overlap along an edge. -/
theorem C63_consecutive_edge : ∃ s o, Made s ∧ Made o ∧ s.kind = .line ∧ o.kind = .line ∧
    (∀ x, (Covers s x ∧ Covers o x) ↔ x = pt 1 0) ∧ intersections s o = ⟨[pt 1 0, pt 1 0], .edge, true⟩ := by
  obtain ⟨s, hs, ks, s1, s2⟩ := ex_seg (a := 0) (b := 0) (c := 1) (d := 0) (by norm_num) (by norm_num) (by norm_num)
  obtain ⟨o, ho, ko, o1, o2⟩ := ex_seg (a := 1) (b := 0) (c := 2) (d := 0) (by norm_num) (by norm_num) (by norm_num)
  obtain ⟨gs, ge, -, -, cs⟩ := line_ends (.line hs) ks
  obtain ⟨gs', ge', -, -, co⟩ := line_ends (.line ho) ko
  refine ⟨s, o, .line hs, .line ho, ks, ko, ?_, ?_⟩
  · intro x
    rw [cs, co, s1, s2, o1, o2]
    constructor
    · rintro ⟨⟨t, t1, t2, rfl⟩, u, u1, u2, e⟩
      have ex := congrArg Point.x e
      simp only [pt] at ex
      have : t = 1 := by linarith
      subst this
      unfold pt; norm_num
    · rintro rfl
      exact ⟨⟨1, by norm_num, by norm_num, by norm_num [pt]⟩, 0, by norm_num, by norm_num, by norm_num [pt]⟩
  · have hi : intersections s o = checkLines s o := by unfold intersections; rw [ks, ko]
    rw [hi]
    unfold checkLines
    simp only [gs', ge', s1, s2, o1, o2, pt]
    norm_num [abs_of_pos, abs_of_neg]

end Iges.Props
