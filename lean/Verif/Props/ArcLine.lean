import Verif.Props.LinesMeet
/-
C64: where an arc or a circle meets a line, and where an arc meets a circle.
-/
namespace Iges.Props
open Iges.Geo Iges.Spec Real Classical

/-- a point of the circle is on the arc just when its direction, or its direction after a full turn, is in the range -/
theorem covers_arc_iff {s : Seg} (h : ArcOk s) {x : Point ℝ} (hx : OnCircle s.center s.radius x) :
    Covers s x ↔
      (s.startAngle ≤ atan2 (x.y - s.center.y) (x.x - s.center.x) ∧
        atan2 (x.y - s.center.y) (x.x - s.center.x) ≤ s.endAngle) ∨
      (s.startAngle ≤ atan2 (x.y - s.center.y) (x.x - s.center.x) + 2 * π ∧
        atan2 (x.y - s.center.y) (x.x - s.center.x) + 2 * π ≤ s.endAngle) := by
  rw [covers_arc h.kind]
  constructor
  · rintro ⟨a, h1, h2, rfl⟩
    have hl := h.low
    have hh := h.high
    rw [atan2_of_polar h.pos (by linarith) (by linarith)]
    split
    · exact Or.inl ⟨h1, h2⟩
    · right
      rw [sub_add_cancel]
      exact ⟨h1, h2⟩
  · have e := onCircle_atan2 h.pos hx
    rintro (⟨h1, h2⟩ | ⟨h1, h2⟩)
    · exact ⟨_, h1, h2, e⟩
    · exact ⟨_, h1, h2, by rw [polar_add]; exact e⟩

/-- four times the square of the length of the line times the square of half the chord that the circle cuts from its
straight line, negative when the circle does not reach it -/
def chord (c : Point ℝ) (R : ℝ) (a b : Point ℝ) : ℝ := 4 * (planar2 a b * R ^ 2 - across a b a c ^ 2)

theorem quad_disc (c : Point ℝ) (R : ℝ) (a b : Point ℝ) :
    quadB c a b * quadB c a b - 4 * quadA a b * quadC c R b = chord c R a b := by
  unfold quadA quadB quadC chord planar2 across; ring

theorem quadA_eq (a b : Point ℝ) : quadA a b = planar2 a b := by unfold quadA planar2; ring

/-- the points of the line that are on the circle are those at the roots -/
theorem quad_root (c : Point ℝ) (R : ℝ) (a b : Point ℝ) (t : ℝ) :
    OnCircle c R (onLine a b t) ↔ quadA a b * t ^ 2 + quadB c a b * t + quadC c R b = 0 := by
  unfold OnCircle planar2 onLine quadA quadB quadC
  simp only [and_true]
  constructor <;> intro h <;> linear_combination h

theorem onLine_iff {a b x : Point ℝ} : OnLine a b x ↔ ∃ t, 0 ≤ t ∧ t ≤ 1 ∧ x = onLine a b t := by
  unfold OnLine onLine pt
  constructor
  · rintro ⟨t, h1, h2, rfl⟩
    exact ⟨1 - t, by linarith, by linarith, by ext <;> simp only <;> ring⟩
  · rintro ⟨t, h1, h2, rfl⟩
    exact ⟨1 - t, by linarith, by linarith, by ext <;> simp only <;> ring⟩

theorem two_pts (P : Prop) [Decidable P] (a b : Point ℝ) (f : Geo.Flag) (x : Point ℝ) :
    (x ∈ (if P then (⟨[b, a], f, true⟩ : Hits) else ⟨[a, b], f, true⟩).pts ↔ a = x ∨ b = x) ∧
    (if P then (⟨[b, a], f, true⟩ : Hits) else ⟨[a, b], f, true⟩).ret = true := by
  have e : ∀ a b : Point ℝ, (x = a ∨ x = b) ↔ (a = x ∨ b = x) := fun a b => by rw [eq_comm, @eq_comm _ x b]
  split
  · refine ⟨?_, rfl⟩
    simp only [List.mem_cons, List.not_mem_nil, or_false, e]
    exact or_comm
  · refine ⟨?_, rfl⟩
    simp only [List.mem_cons, List.not_mem_nil, or_false, e]

theorem mem_pickCircle (q : Point ℝ × Flag × ℝ) (rest : List (Point ℝ × Flag × ℝ)) (hl : rest.length ≤ 1) (x : Point ℝ) :
    (x ∈ (pickCircle q rest).pts ↔ ∃ e ∈ q :: rest, e.1 = x) ∧ (pickCircle q rest).ret = true := by
  match rest, hl with
  | [], _ => simp [pickCircle, eq_comm]
  | [q'], _ =>
    simp only [pickCircle]
    simp only [List.mem_cons, List.not_mem_nil, or_false, exists_eq_or_imp, exists_eq_left]
    exact two_pts _ _ _ _ _

theorem mem_pickArc (aS : ℝ) (q : Point ℝ × Flag × ℝ) (rest on : List (Point ℝ × Flag × ℝ)) (hl : rest.length ≤ 1)
    (hon : on.length ≤ (q :: rest).length) (x : Point ℝ) :
    (x ∈ (pickArc aS False q rest on).pts ↔ ∃ e ∈ on, e.1 = x) ∧
    ((pickArc aS False q rest on).ret = true ↔ on ≠ []) := by
  match rest, on, hl, hon with
  | _, [], _, _ => simp [pickArc]
  | [], [p], _, _ => simp [pickArc, eq_comm]
  | [q'], [p], _, _ => simp [pickArc, eq_comm]
  | [q'], [p, p'], _, _ =>
    simp only [pickArc, if_false]
    simp only [List.mem_cons, List.not_mem_nil, or_false, exists_eq_or_imp, exists_eq_left]
    have := two_pts (((if q'.2.2 < aS then q'.2.2 + 2 * π else q'.2.2) > if q.2.2 < aS then q.2.2 + 2 * π else q.2.2)) p'.1 p.1
      (if q.2.1 = .endpoint ∨ q'.2.1 = .endpoint then Geo.Flag.endpoint else .none) x
    exact ⟨this.1.trans or_comm, by simp [this.2]⟩
  | [], _ :: _ :: _, _, h => simp at h
  | [_], _ :: _ :: _ :: _, _, h => simp at h

/-- `arcLine` when the circle clearly crosses the straight line, or clearly does not reach it: the points are the points
of the line on the circle for which the direction passes the test -/
theorem mem_arcLine {arc : Seg} {arcS arcE lS lE m0 m1 : Point ℝ} (hne : 0 < planar2 lS lE)
    (hD : 1e-6 ≤ |chord arc.center arc.radius lS lE|) (hk : arc.kind = .circle ∨ arc.kind = .arc) (x : Point ℝ) :
    (x ∈ (arcLine arc arcS arcE lS lE m0 m1).pts ↔
      OnLine lS lE x ∧ OnCircle arc.center arc.radius x ∧
      (arc.kind = .arc → ∃ f, onArc arc.startAngle arc.endAngle m0 m1 (x, f, atan2 (x.y - arc.center.y) (x.x - arc.center.x)))) ∧
    ((arcLine arc arcS arcE lS lE m0 m1).ret = true ↔ (arcLine arc arcS arcE lS lE m0 m1).pts ≠ []) := by
  unfold arcLine
  simp only
  rw [quad_disc]
  have hnt : ¬ |chord arc.center arc.radius lS lE| < 1e-6 := not_lt.2 hD
  have hfl : ∀ (u v : Point ℝ × Flag × ℝ), u.1 = v.1 → u.2.2 = v.2.2 →
      (onArc arc.startAngle arc.endAngle m0 m1 u ↔ onArc arc.startAngle arc.endAngle m0 m1 v) := by
    intro u v h1 h2; unfold onArc; rw [h1, h2]
  rw [if_neg (by rintro ⟨h, -⟩; exact hnt h)]
  have hA : 0 < quadA lS lE := by rw [quadA_eq]; exact hne
  have hdisc := quad_disc arc.center arc.radius lS lE
  have hroot := quad_root arc.center arc.radius lS lE
  generalize chord arc.center arc.radius lS lE = D at *
  by_cases hneg : D < 0
  · rw [if_pos hneg]
    refine ⟨?_, by simp⟩
    simp only [List.not_mem_nil, false_iff]
    rintro ⟨h1, h2, -⟩
    obtain ⟨t, -, -, rfl⟩ := onLine_iff.1 h1
    have := (hroot t).1 h2
    nlinarith [sq_nonneg (2 * quadA lS lE * t + quadB arc.center lS lE)]
  · rw [if_neg hneg]
    simp only [hnt, if_false]
    have hs : √D ^ 2 = D := Real.sq_sqrt (not_lt.1 hneg)
    have roots : ∀ t, OnCircle arc.center arc.radius (onLine lS lE t) ↔
        t = (-quadB arc.center lS lE + √D) / (2 * quadA lS lE) ∨ t = (-quadB arc.center lS lE - √D) / (2 * quadA lS lE) := by
      intro t
      rw [hroot]
      have h2A : 2 * quadA lS lE ≠ 0 := by positivity
      rw [eq_div_iff h2A, eq_div_iff h2A]
      constructor
      · intro h
        have : (t * (2 * quadA lS lE) + quadB arc.center lS lE) ^ 2 = √D ^ 2 := by
          rw [hs, ← hdisc]; linear_combination 4 * quadA lS lE * h
        rcases sq_eq_sq_iff_eq_or_eq_neg.1 this with e | e
        · left; linarith
        · right; linarith
      · intro h
        have : (t * (2 * quadA lS lE) + quadB arc.center lS lE) ^ 2 = D := by
          rw [← hs]
          rcases h with h | h <;> rw [h] <;> ring
        have h4 : 4 * quadA lS lE * (quadA lS lE * t ^ 2 + quadB arc.center lS lE * t + quadC arc.center arc.radius lE) = 0 := by
          linear_combination this - hdisc
        exact (mul_eq_zero.1 h4).resolve_left (by positivity)
    generalize (-quadB arc.center lS lE + √D) / (2 * quadA lS lE) = t0 at *
    generalize (-quadB arc.center lS lE - √D) / (2 * quadA lS lE) = t1 at *
    obtain ⟨cands, hc⟩ : ∃ cands, cands =
      (if t0 ≥ 0 ∧ t0 ≤ 1 then [candidate arc.center arcS arcE (arc.kind == .circle) lS lE t0] else []) ++
        (if ¬ False ∧ t1 ≥ 0 ∧ t1 ≤ 1 then [candidate arc.center arcS arcE (arc.kind == .circle) lS lE t1] else []) := ⟨_, rfl⟩
    rw [← hc]
    have hlen : cands.length ≤ 2 := by
      rw [hc, List.length_append]
      split <;> split <;> simp
    have hmem : ∀ e, e ∈ cands → e.2.2 = atan2 (e.1.y - arc.center.y) (e.1.x - arc.center.x) := by
      intro e he
      rw [hc] at he
      rcases List.mem_append.1 he with h | h <;> split at h <;> simp at h <;> subst h <;> rfl
    have hpts : ∀ x, (∃ e ∈ cands, e.1 = x) ↔ OnLine lS lE x ∧ OnCircle arc.center arc.radius x := by
      intro x
      rw [onLine_iff, hc]
      constructor
      · rintro ⟨e, he, rfl⟩
        rcases List.mem_append.1 he with h | h <;> split at h <;> simp at h
        · rename_i hb
          subst h
          exact ⟨⟨t0, hb.1, hb.2, rfl⟩, (roots t0).2 (Or.inl rfl)⟩
        · rename_i hb
          subst h
          exact ⟨⟨t1, hb.2.1, hb.2.2, rfl⟩, (roots t1).2 (Or.inr rfl)⟩
      · rintro ⟨⟨t, h1, h2, rfl⟩, h3⟩
        rcases (roots t).1 h3 with rfl | rfl
        · exact ⟨candidate arc.center arcS arcE (arc.kind == .circle) lS lE t,
            List.mem_append_left _ (by rw [if_pos ⟨h1, h2⟩]; simp), rfl⟩
        · exact ⟨candidate arc.center arcS arcE (arc.kind == .circle) lS lE t,
            List.mem_append_right _ (by rw [if_pos ⟨not_false, h1, h2⟩]; simp), rfl⟩
    clear hc
    match hcs : cands with
    | [] =>
      have := hpts x
      simp only [List.not_mem_nil, false_and, exists_false, false_iff] at this
      refine ⟨?_, by simp⟩
      simp only [List.not_mem_nil, false_iff]
      rintro ⟨h1, h2, -⟩
      exact this ⟨h1, h2⟩
    | q :: rest =>
      have hrest : rest.length ≤ 1 := by simpa using hlen
      simp only
      rcases hk with hk | hk
      · have e : (arc.kind == Kind.circle) = true := by rw [hk]; rfl
        rw [if_pos e]
        obtain ⟨h1, h2⟩ := mem_pickCircle q rest hrest x
        refine ⟨?_, ?_⟩
        · rw [h1, hpts x, hk]; simp
        · rw [h2]
          refine ⟨fun _ hn => ?_, fun _ => rfl⟩
          have := (mem_pickCircle q rest hrest q.1).1.2 ⟨q, List.mem_cons_self, rfl⟩
          rw [hn] at this
          simp at this
      · have e : ¬ (arc.kind == Kind.circle) = true := by rw [hk]; decide
        rw [if_neg e]
        have hfl' := List.length_filter_le (fun e => decide (onArc arc.startAngle arc.endAngle m0 m1 e)) (q :: rest)
        obtain ⟨h1, h2⟩ := mem_pickArc arc.startAngle q rest _ hrest hfl' x
        refine ⟨?_, ?_⟩
        · rw [h1]
          constructor
          · rintro ⟨e, he, rfl⟩
            obtain ⟨he, hon⟩ := List.mem_filter.1 he
            obtain ⟨o1, o2⟩ := (hpts e.1).1 ⟨e, he, rfl⟩
            refine ⟨o1, o2, fun _ => ⟨e.2.1, ?_⟩⟩
            have : e = (e.1, e.2.1, atan2 (e.1.y - arc.center.y) (e.1.x - arc.center.x)) := by
              rw [← hmem e he]
            rw [← this]
            simpa using hon
          · rintro ⟨o1, o2, o3⟩
            obtain ⟨f, o3⟩ := o3 hk
            obtain ⟨e, he, rfl⟩ := (hpts x).2 ⟨o1, o2⟩
            refine ⟨e, List.mem_filter.2 ⟨he, ?_⟩, rfl⟩
            rw [decide_eq_true_eq]
            exact (hfl e (e.1, f, atan2 (e.1.y - arc.center.y) (e.1.x - arc.center.x)) rfl (hmem e he)).2 o3
        · rw [h2]
          constructor
          · intro hn hp
            match hq : (q :: rest).filter fun e => decide (onArc arc.startAngle arc.endAngle m0 m1 e) with
            | [] => exact hn hq
            | e :: l =>
              have := (mem_pickArc arc.startAngle q rest _ hrest hfl' e.1).1.2 ⟨e, by rw [hq]; exact List.mem_cons_self, rfl⟩
              rw [hp] at this
              simp at this
          · intro hn hq
            rw [hq] at hn
            simp [pickArc] at hn

/-- the ends of a line that is set are different -/
theorem line_positive {s : Seg} (h : s.start.x ≠ s.stop.x ∨ s.start.y ≠ s.stop.y) : 0 < planar2 s.start s.stop := by
  unfold planar2
  rcases h with h | h
  · have := sub_ne_zero.2 h; positivity
  · have := sub_ne_zero.2 h; positivity

/-- C64. A circle and a line, in either order, when the circle clearly crosses the straight line or clearly does not reach
it: exactly the common points are reported, and the result is true just when there is one. -/
theorem C64_circle_line {s o c l : Seg} (hso : (s = c ∧ o = l) ∨ (s = l ∧ o = c)) (hl : Made l)
    (kc : c.kind = .circle) (kl : l.kind = .line) (hne : l.start.x ≠ l.stop.x ∨ l.start.y ≠ l.stop.y)
    (hD : 1e-6 ≤ |chord c.center c.radius l.start l.stop|) :
    (∀ x, x ∈ (intersections s o).pts ↔ Covers s x ∧ Covers o x) ∧
    ((intersections s o).ret = true ↔ (intersections s o).pts ≠ []) := by
  obtain ⟨gs, ge, -, -, cl⟩ := line_ends hl kl
  have cc : ∀ x, Covers c x ↔ OnCircle c.center c.radius x := by intro x; unfold Covers; rw [kc]
  have hp := line_positive hne
  rcases hso with ⟨rfl, rfl⟩ | ⟨rfl, rfl⟩
  · have hi : intersections s o = arcLine s s.start s.stop o.start o.stop s.start s.stop := by
      unfold intersections checkArcLine; rw [kc, kl]; simp only [or_true, if_true, gs, ge]
    rw [hi]
    refine ⟨fun x => ?_, (mem_arcLine hp hD (Or.inl kc) origin).2⟩
    rw [(mem_arcLine hp hD (Or.inl kc) x).1, cc, cl, kc]
    simp [and_comm]
  · have hi : intersections s o = arcLine o o.getStart o.getEnd s.start s.stop s.start s.stop := by
      unfold intersections checkArcLine
      rw [kc, kl]
      simp only [reduceCtorEq, or_self, if_false, gs, ge]
    rw [hi]
    refine ⟨fun x => ?_, (mem_arcLine hp hD (Or.inl kc) origin).2⟩
    rw [(mem_arcLine hp hD (Or.inl kc) x).1, cc, cl, kc]
    simp

/-- `x` is within 1e-14 of `m` in both coordinates. -/
def Beside (x m : Point ℝ) : Prop := |x.x - m.x| < 1e-14 ∧ |x.y - m.y| < 1e-14

/-- C64. An arc asked for its intersections with a line, when its circle clearly crosses the straight line or clearly does
not reach it: the common points are reported; every point reported is on the line and on the circle of the arc, and is
on the arc or beside one of its ends; the result is true just when a point is reported. -/
theorem C64_arc_line {s o : Seg} (hs : Made s) (ho : Made o) (ks : s.kind = .arc) (ko : o.kind = .line)
    (hne : o.start.x ≠ o.stop.x ∨ o.start.y ≠ o.stop.y) (hD : 1e-6 ≤ |chord s.center s.radius o.start o.stop|) :
    (∀ x, Covers s x → Covers o x → x ∈ (intersections s o).pts) ∧
    (∀ x ∈ (intersections s o).pts, Covers o x ∧ OnCircle s.center s.radius x ∧
      (Covers s x ∨ Beside x s.start ∨ Beside x s.stop)) ∧
    ((intersections s o).ret = true ↔ (intersections s o).pts ≠ []) := by
  obtain ⟨gs, ge, -, -, cl⟩ := line_ends ho ko
  have hok := (made_ok hs).arc ks
  have hp := line_positive hne
  have hi : intersections s o = arcLine s s.start s.stop o.start o.stop s.start s.stop := by
    unfold intersections checkArcLine; rw [ks, ko]; simp only [true_or, if_true, gs, ge]
  have circ : ∀ x, Covers s x → OnCircle s.center s.radius x := by
    intro x hx
    obtain ⟨a, -, -, rfl⟩ := (covers_arc ks x).1 hx
    unfold OnCircle planar2 polar pt
    have := Real.sin_sq_add_cos_sq a
    simp only [and_true]
    linear_combination s.radius ^ 2 * this
  rw [hi]
  refine ⟨fun x h1 h2 => ?_, fun x hx => ?_, (mem_arcLine hp hD (Or.inr ks) origin).2⟩
  · rw [(mem_arcLine hp hD (Or.inr ks) x).1]
    refine ⟨(cl x).1 h2, circ x h1, fun _ => ⟨.none, ?_⟩⟩
    unfold onArc
    rcases (covers_arc_iff hok (circ x h1)).1 h1 with h | h
    · exact Or.inl h
    · exact Or.inr (Or.inl h)
  · obtain ⟨h1, h2, h3⟩ := (mem_arcLine hp hD (Or.inr ks) x).1.1 hx
    refine ⟨(cl x).2 h1, h2, ?_⟩
    obtain ⟨f, h3⟩ := h3 ks
    rw [covers_arc_iff hok h2]
    unfold onArc at h3
    rcases h3 with h | h | h | h
    · exact Or.inl (Or.inl h)
    · exact Or.inl (Or.inr h)
    · exact Or.inr (Or.inl h)
    · exact Or.inr (Or.inr h)

/-- C64. A line asked for its intersections with an arc: as above, but a point that is not on the arc may be reported when
it is beside an end of the line. -/
theorem C64_line_arc_partial {s o : Seg} (hs : Made s) (ho : Made o) (ks : s.kind = .line) (ko : o.kind = .arc)
    (hne : s.start.x ≠ s.stop.x ∨ s.start.y ≠ s.stop.y) (hD : 1e-6 ≤ |chord o.center o.radius s.start s.stop|) :
    (∀ x, Covers s x → Covers o x → x ∈ (intersections s o).pts) ∧
    (∀ x ∈ (intersections s o).pts, Covers s x ∧ OnCircle o.center o.radius x ∧
      (Covers o x ∨ Beside x s.start ∨ Beside x s.stop)) ∧
    ((intersections s o).ret = true ↔ (intersections s o).pts ≠ []) := by
  obtain ⟨gs, ge, -, -, cl⟩ := line_ends hs ks
  have hok := (made_ok ho).arc ko
  have hp := line_positive hne
  have hi : intersections s o = arcLine o o.getStart o.getEnd s.start s.stop s.start s.stop := by
    unfold intersections checkArcLine
    rw [ks, ko]
    simp only [reduceCtorEq, or_self, if_false, gs, ge]
  have circ : ∀ x, Covers o x → OnCircle o.center o.radius x := by
    intro x hx
    obtain ⟨a, -, -, rfl⟩ := (covers_arc ko x).1 hx
    unfold OnCircle planar2 polar pt
    have := Real.sin_sq_add_cos_sq a
    simp only [and_true]
    linear_combination o.radius ^ 2 * this
  rw [hi]
  refine ⟨fun x h2 h1 => ?_, fun x hx => ?_, (mem_arcLine hp hD (Or.inr ko) origin).2⟩
  · rw [(mem_arcLine hp hD (Or.inr ko) x).1]
    refine ⟨(cl x).1 h2, circ x h1, fun _ => ⟨.none, ?_⟩⟩
    unfold onArc
    rcases (covers_arc_iff hok (circ x h1)).1 h1 with h | h
    · exact Or.inl h
    · exact Or.inr (Or.inl h)
  · obtain ⟨h1, h2, h3⟩ := (mem_arcLine hp hD (Or.inr ko) x).1.1 hx
    refine ⟨(cl x).2 h1, h2, ?_⟩
    obtain ⟨f, h3⟩ := h3 ko
    rw [covers_arc_iff hok h2]
    unfold onArc at h3
    rcases h3 with h | h | h | h
    · exact Or.inl (Or.inl h)
    · exact Or.inl (Or.inr h)
    · exact Or.inr (Or.inl h)
    · exact Or.inr (Or.inr h)

/-- the triangle inequality for circles: common points need centres at a distance between the difference and the sum of
the radii -/
theorem common_point {c c2 : Point ℝ} {r r2 : ℝ} (hr : 0 < r) (hr2 : 0 < r2) {x : Point ℝ} (h1 : OnCircle c r x)
    (h2 : OnCircle c2 r2 x) :
    √(planar2 c c2) ≤ r + r2 ∧ r ≤ √(planar2 c c2) + r2 ∧ r2 ≤ √(planar2 c c2) + r := by
  obtain ⟨q1, -⟩ := h1
  obtain ⟨q2, -⟩ := h2
  have hd0 := Real.sqrt_nonneg (planar2 c c2)
  have hdd : √(planar2 c c2) ^ 2 = planar2 c c2 := Real.sq_sqrt (planar2_nonneg _ _)
  generalize √(planar2 c c2) = d at *
  unfold planar2 at *
  have tri : ∀ {X Y A B b e : ℝ}, X ^ 2 + Y ^ 2 = b ^ 2 → A ^ 2 + B ^ 2 = e ^ 2 → 0 ≤ b → 0 ≤ e → X * A + Y * B ≤ b * e := by
    intro X Y A B b e e1 e2 hb he
    have : (X * A + Y * B) ^ 2 ≤ (b * e) ^ 2 := by
      rw [mul_pow, ← e1, ← e2]; nlinarith [sq_nonneg (X * B - Y * A)]
    exact le_of_sq_le_sq this (mul_nonneg hb he)
  have t1 := tri (X := c.x - x.x) (Y := c.y - x.y) (A := x.x - c2.x) (B := x.y - c2.y) (by rw [← q1]; ring) q2 hr.le hr2.le
  have t2 := tri (X := c.x - x.x) (Y := c.y - x.y) (A := c.x - c2.x) (B := c.y - c2.y) (by rw [← q1]; ring) hdd.symm hr.le hd0
  have t3 := tri (X := x.x - c2.x) (Y := x.y - c2.y) (A := c.x - c2.x) (B := c.y - c2.y) q2 hdd.symm hr2.le hd0
  refine ⟨?_, ?_, ?_⟩
  · refine le_of_sq_le_sq ?_ (by linarith)
    rw [hdd]; nlinarith
  · by_contra hc
    push Not at hc
    nlinarith
  · by_contra hc
    push Not at hc
    nlinarith

/-- the test of `checkArcs` on a direction, for an arc whose start angle is at most π -/
theorem reaches_iff {a lo hi : ℝ} (ha : -π < a) (ha' : a ≤ π) (hlo : -π < lo) (hlo' : lo ≤ π) (_ht : hi < lo + 2 * π) :
    reaches a lo hi ↔ (lo ≤ a ∧ a ≤ hi) ∨ (lo ≤ a + 2 * π ∧ a + 2 * π ≤ hi) := by
  unfold reaches
  simp only
  by_cases h1 : a > hi
  · rw [if_pos h1, if_pos (by linarith)]
    constructor
    · intro h; linarith
    · rintro (h | h) <;> linarith [Real.pi_pos]
  · rw [if_neg h1]
    by_cases h2 : a < lo
    · rw [if_pos h2]
      constructor
      · intro h; exact Or.inr ⟨by linarith, h⟩
      · rintro (h | h)
        · linarith
        · exact h.2
    · rw [if_neg h2]
      exact ⟨fun h => Or.inl ⟨not_lt.1 h2, h⟩, fun _ => not_lt.1 h1⟩

/-- two points reported in either order -/
theorem either_order (c : Prop) [Decidable c] (a b x : Point ℝ) :
    (x ∈ (if c then (⟨[b, a], .none, true⟩ : Hits) else ⟨[a, b], .none, true⟩).pts ↔ x = a ∨ x = b) ∧
    ((if c then (⟨[b, a], .none, true⟩ : Hits) else ⟨[a, b], .none, true⟩).ret = true ↔
      (if c then (⟨[b, a], .none, true⟩ : Hits) else ⟨[a, b], .none, true⟩).pts ≠ []) := by
  split
  · simp [or_comm]
  · simp

/-- C64. An arc asked for its intersections with a circle, unless the circles nearly touch from outside or are nearly the
same, and unless the arc is what splitting left of a clockwise arc: exactly the common points are reported, and the
result is true just when there is one. -/
theorem C64_arc_circle {s o : Seg} (hs : Made s) (ho : Made o) (ks : s.kind = .arc) (ko : o.kind = .circle)
    (hlow : s.startAngle ≤ π)
    (htan : 0.001 ≤ |√(planar2 s.center o.center) - s.radius - o.radius|)
    (hid : ¬ (PointMatches s.center o.center 1e-3 = true ∧ |s.radius - o.radius| < 1e-3)) :
    (∀ x, x ∈ (intersections s o).pts ↔ Covers s x ∧ Covers o x) ∧
    ((intersections s o).ret = true ↔ (intersections s o).pts ≠ []) := by
  have hok := (made_ok hs).arc ks
  obtain ⟨hr2, -, -⟩ := (made_ok ho).circle ko
  have hr := hok.pos
  have hco : ∀ x, Covers o x ↔ OnCircle o.center o.radius x := by intro x; unfold Covers; rw [ko]
  have circ : ∀ x, Covers s x → OnCircle s.center s.radius x := by
    intro x hx
    obtain ⟨a, -, -, rfl⟩ := (covers_arc ks x).1 hx
    unfold OnCircle planar2 polar pt
    have := Real.sin_sq_add_cos_sq a
    simp only [and_true]
    linear_combination s.radius ^ 2 * this
  have hi : intersections s o = checkArcs s o := by unfold intersections; rw [ks, ko]
  have hd := hyp_planar s.center o.center
  have hd0 := hyp_nonneg (s.center.x - o.center.x) (s.center.y - o.center.y)
  rw [hi]
  unfold checkArcs
  simp only
  rw [← hd] at htan
  have hcom : ∀ x, Covers s x ∧ Covers o x → _ := fun x hx => common_point hr hr2 (circ x hx.1) ((hco x).1 hx.2)
  rw [← hd] at hcom
  generalize hyp (s.center.x - o.center.x) (s.center.y - o.center.y) = d at *
  by_cases c1 : d > s.radius + o.radius ∨ d + o.radius < s.radius ∨ d + s.radius < o.radius
  · rw [if_pos c1]
    refine ⟨fun x => ?_, by simp⟩
    simp only [List.not_mem_nil, false_iff]
    intro hx
    obtain ⟨k1, k2, k3⟩ := hcom x hx
    rcases c1 with c | c | c <;> linarith
  rw [if_neg c1, if_neg (not_lt.2 htan), if_neg hid]
  push Not at c1
  obtain ⟨b3, b1, b2⟩ := c1
  rw [if_neg (by rw [ko]; simp)]
  have hpos : 0 < d := by
    rcases hd0.lt_or_eq with h0 | h0
    · exact h0
    · exfalso
      apply hid
      have hrr : s.radius = o.radius := by linarith
      refine ⟨matches_of_close ?_, by rw [hrr]; norm_num⟩
      have hp : planar2 s.center o.center = 0 := by
        have := Real.sq_sqrt (planar2_nonneg s.center o.center)
        rw [← hd, ← h0] at this
        linarith
      obtain ⟨-, hz, -⟩ := (made_ok ho).circle ko
      have hz' := hok.flat
      unfold planar2 at hp
      unfold dist2
      rw [hz, hz']
      norm_num
      linarith
  have hint := intercepts_iff hd hpos hr hr2 b1 b2 b3
  generalize intercepts s.center s.radius o.center o.radius d = w at *
  have hw1 := (hint w.1).2 (Or.inl rfl)
  have hw2 := (hint w.2).2 (Or.inr rfl)
  have hon : ∀ {x : Point ℝ}, OnCircle s.center s.radius x →
      (((o.kind = .circle ∨ reaches (atan2 (x.y - s.center.y) (x.x - s.center.x)) o.startAngle o.endAngle) ∧
        (s.kind = .circle ∨ reaches (atan2 (x.y - s.center.y) (x.x - s.center.x)) s.startAngle s.endAngle)) ↔ Covers s x) := by
    intro x hx
    rw [covers_arc_iff hok hx, ← reaches_iff (atan2_gt _ _) (atan2_le _ _) hok.low hlow hok.turn]
    simp [ko, ks]
  have h1 := hon hw1.1
  have h2 := hon hw2.1
  have all : ∀ x, (Covers s x ∧ Covers o x) ↔ Covers s x ∧ (x = w.1 ∨ x = w.2) := by
    intro x
    constructor
    · rintro ⟨a, b⟩; exact ⟨a, (hint x).1 ⟨circ x a, (hco x).1 b⟩⟩
    · rintro ⟨a, b⟩; exact ⟨a, (hco x).2 ((hint x).2 b).2⟩
  simp only [h1, h2]
  by_cases k1 : Covers s w.1 <;> by_cases k2 : Covers s w.2
  · rw [if_pos ⟨k1, k2⟩]
    refine ⟨fun x => ?_, ?_⟩
    · rw [all, (either_order _ _ _ _).1]
      constructor
      · rintro (rfl | rfl)
        · exact ⟨k1, Or.inl rfl⟩
        · exact ⟨k2, Or.inr rfl⟩
      · rintro ⟨-, h⟩; exact h
    · exact (either_order _ w.1 w.2 w.1).2
  · rw [if_neg (by tauto), if_pos k1]
    refine ⟨fun x => ?_, by simp⟩
    rw [all]
    simp only [List.mem_cons, List.not_mem_nil, or_false]
    constructor
    · rintro rfl; exact ⟨k1, Or.inl rfl⟩
    · rintro ⟨h, rfl | rfl⟩
      · rfl
      · exact absurd h k2
  · rw [if_neg (by tauto), if_neg k1, if_pos k2]
    refine ⟨fun x => ?_, by simp⟩
    rw [all]
    simp only [List.mem_cons, List.not_mem_nil, or_false]
    constructor
    · rintro rfl; exact ⟨k2, Or.inr rfl⟩
    · rintro ⟨h, rfl | rfl⟩
      · exact absurd h k1
      · rfl
  · rw [if_neg (by tauto), if_neg k1, if_neg k2]
    refine ⟨fun x => ?_, by simp⟩
    rw [all]
    simp only [List.not_mem_nil, false_iff]
    rintro ⟨h, rfl | rfl⟩
    · exact k1 h
    · exact k2 h

end Iges.Props
