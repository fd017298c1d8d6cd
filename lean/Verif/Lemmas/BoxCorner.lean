import Verif.Lemmas.BoxHits
/-
Two boxes, one of which covers a corner of the other, and what `opOutline` makes of them: the case beside C84.
-/
namespace Iges.Props.Boxes
open Iges.Geo Iges.Spec Iges.Turn Real Iges.Props.Outlines Iges.Props.Inside

/-- Two boxes, the one with the corners (0,0) and (2,2), the other one with the corners (-1,-1) and (1,1), as they can be drawn. -/
theorem ex_corner : ∃ b r t l b' r' t' l' o a, Drawn [b, r, t, l] o ∧ Drawn [b', r', t', l'] a ∧
    Box b r t l 0 0 2 2 ∧ Box b' r' t' l' (-1) (-1) 1 1 ∧ o.closed = true ∧ a.closed = true ∧ o.segs = [b, r, t, l] ∧
    a.segs = [b', r', t', l'] ∧ o.lo.x = 0 ∧ o.hi.x = 2 ∧ a.lo.x = -1 ∧ a.hi.x = 1 := by
  obtain ⟨b, r, t, l, o, h1, h2, h3, h4, h5, -, h6, -⟩ := ex_box 0 (by norm_num)
  obtain ⟨b', r', t', l', a, k1, k2, k3, k4, k5, -, k6, -⟩ := ex_box (-1) (by norm_num)
  norm_num at h2 h5 h6 k2 k5 k6
  exact ⟨b, r, t, l, b', r', t', l', o, a, h1, k1, h2, k2, h3, k3, h4, k4, h5, h6, k5, k6⟩

variable {b r t l b' r' t' l' : Seg}

macro "axis" : tactic => `(tactic| (norm_num [across, AtParam, pt]))

/-- where the sides of the two boxes meet -/
theorem corner_hits (h : Box b r t l 0 0 2 2) (k : Box b' r' t' l' (-1) (-1) 1 1) :
    (intersections b r' = ⟨[pt 1 0], .none, true⟩ ∧ intersections l t' = ⟨[pt 0 1], .none, true⟩) ∧
    (intersections b b' = ⟨[], .none, false⟩ ∧ intersections b t' = ⟨[], .none, false⟩ ∧ intersections b l' = ⟨[], .none, false⟩) ∧
    (intersections r b' = ⟨[], .none, false⟩ ∧ intersections r r' = ⟨[], .none, false⟩ ∧ intersections r t' = ⟨[], .none, false⟩ ∧
      intersections r l' = ⟨[], .none, false⟩) ∧
    (intersections t b' = ⟨[], .none, false⟩ ∧ intersections t r' = ⟨[], .none, false⟩ ∧ intersections t t' = ⟨[], .none, false⟩ ∧
      intersections t l' = ⟨[], .none, false⟩) ∧
    (intersections l b' = ⟨[], .none, false⟩ ∧ intersections l r' = ⟨[], .none, false⟩ ∧ intersections l l' = ⟨[], .none, false⟩) := by
  have mb := h.made b (by simp)
  have mr := h.made r (by simp)
  have mt := h.made t (by simp)
  have ml := h.made l (by simp)
  have nb := k.made b' (by simp)
  have nr := k.made r' (by simp)
  have nt := k.made t' (by simp)
  have nl := k.made l' (by simp)
  refine ⟨⟨?_, ?_⟩, ⟨?_, ?_, ?_⟩, ⟨?_, ?_, ?_, ?_⟩, ⟨?_, ?_, ?_, ?_⟩, ?_, ?_, ?_⟩
  · exact meets mb nr h.b1 h.b2 k.r1 k.r2 0.5 0.5 (by axis) (by axis) (by axis) (by norm_num) (by norm_num)
  · exact meets ml nt h.l1 h.l2 k.t1 k.t2 0.5 0.5 (by axis) (by axis) (by axis) (by norm_num) (by norm_num)
  · exact beside mb nb h.b1 h.b2 k.b1 k.b2 (by axis) (by axis)
  · exact beside mb nt h.b1 h.b2 k.t1 k.t2 (by axis) (by axis)
  · exact misses mb nl h.b1 h.b2 k.l1 k.l2 (pt (-1) 0) (-0.5) 0.5 (by axis) (by axis) (by axis) (by norm_num)
  · exact misses mr nb h.r1 h.r2 k.b1 k.b2 (pt 2 (-1)) (-0.5) 1.5 (by axis) (by axis) (by axis) (by norm_num)
  · exact beside mr nr h.r1 h.r2 k.r1 k.r2 (by axis) (by axis)
  · exact misses mr nt h.r1 h.r2 k.t1 k.t2 (pt 2 1) 0.5 (-0.5) (by axis) (by axis) (by axis) (by norm_num)
  · exact beside mr nl h.r1 h.r2 k.l1 k.l2 (by axis) (by axis)
  · exact beside mt nb h.t1 h.t2 k.b1 k.b2 (by axis) (by axis)
  · exact misses mt nr h.t1 h.t2 k.r1 k.r2 (pt 1 2) 0.5 1.5 (by axis) (by axis) (by axis) (by norm_num)
  · exact beside mt nt h.t1 h.t2 k.t1 k.t2 (by axis) (by axis)
  · exact misses mt nl h.t1 h.t2 k.l1 k.l2 (pt (-1) 2) 1.5 (-0.5) (by axis) (by axis) (by axis) (by norm_num)
  · exact misses ml nb h.l1 h.l2 k.b1 k.b2 (pt 0 (-1)) 1.5 0.5 (by axis) (by axis) (by axis) (by norm_num)
  · exact beside ml nr h.l1 h.l2 k.r1 k.r2 (by axis) (by axis)
  · exact beside ml nl h.l1 h.l2 k.l1 k.l2 (by axis) (by axis)

/-- the points that the two borders have in common -/
theorem corner_shared (h : Box b r t l 0 0 2 2) (k : Box b' r' t' l' (-1) (-1) 1 1) (x : Point ℝ) :
    Shared [b, r, t, l] [b', r', t', l'] x ↔ x = pt 1 0 ∨ x = pt 0 1 := by
  obtain ⟨cb, cr, ct, cl⟩ := h.sides x
  obtain ⟨cb', cr', ct', cl'⟩ := k.sides x
  unfold Shared
  simp only [List.mem_cons, List.not_mem_nil, or_false, exists_eq_or_imp, exists_eq_left, cb, cr, ct, cl, cb', cr', ct', cl']
  constructor
  · rintro ⟨h1, h2⟩
    rcases h1 with ⟨e, g1, g2⟩ | ⟨e, g1, g2⟩ | ⟨e, g1, g2⟩ | ⟨e, g1, g2⟩ <;>
      rcases h2 with ⟨f, i1, i2⟩ | ⟨f, i1, i2⟩ | ⟨f, i1, i2⟩ | ⟨f, i1, i2⟩ <;>
      have e1 := congrArg Point.x e <;> have e2 := congrArg Point.y e <;> have f1 := congrArg Point.x f <;>
      have f2 := congrArg Point.y f <;> simp only [pt] at e1 e2 f1 f2 <;>
      first
        | (exfalso; linarith)
        | (left; rw [e]; ext <;> simp only [pt] <;> linarith)
        | (right; rw [e]; ext <;> simp only [pt] <;> linarith)
  · rintro (rfl | rfl)
    · refine ⟨Or.inl ?_, Or.inr (Or.inl ?_)⟩ <;> norm_num [pt]
    · refine ⟨Or.inr (Or.inr (Or.inr ?_)), Or.inr (Or.inr (Or.inl ?_))⟩ <;> norm_num [pt]

theorem corner_crosses (h : Box b r t l 0 0 2 2) (k : Box b' r' t' l' (-1) (-1) 1 1) :
    Crosses [b, r, t, l] [b', r', t', l'] := by
  have hS := corner_shared h k
  have sides := fun x => h.sides x
  have sides' := fun x => k.sides x
  obtain ⟨⟨i1, i2⟩, ⟨j1, j2, j3⟩, ⟨m1, m2, m3, m4⟩, ⟨n1, n2, n3, n4⟩, q1, q2, q3⟩ := corner_hits h k
  have p1 : ∀ x, x = pt 1 0 ∨ x = pt 0 1 → (x = pt 1 0 ∧ Covers b x ∧ Covers r' x ∧ ¬ Covers l x ∧ ¬ Covers t' x ∨
      x = pt 0 1 ∧ Covers l x ∧ Covers t' x ∧ ¬ Covers b x ∧ ¬ Covers r' x) ∧ ¬ Covers r x ∧ ¬ Covers t x ∧ ¬ Covers b' x ∧ ¬ Covers l' x := by
    intro x hx
    rw [(sides x).1, (sides x).2.1, (sides x).2.2.1, (sides x).2.2.2, (sides' x).1, (sides' x).2.1, (sides' x).2.2.1, (sides' x).2.2.2]
    rcases hx with rfl | rfl <;> norm_num [pt]
  refine ⟨?_, ?_, ?_, ?_⟩
  · intro s hs u hu x
    have sh : Covers s x ∧ Covers u x → x = pt 1 0 ∨ x = pt 0 1 := fun g => (hS x).1 ⟨⟨s, hs, g.1⟩, u, hu, g.2⟩
    simp only [List.mem_cons, List.not_mem_nil, or_false] at hs hu
    rcases hs with rfl | rfl | rfl | rfl <;> rcases hu with rfl | rfl | rfl | rfl
    all_goals
      simp only [i1, i2, j1, j2, j3, m1, m2, m3, m4, n1, n2, n3, n4, q1, q2, q3, Bool.false_eq_true, false_and, iff_false,
        true_and, List.mem_singleton]
    all_goals first
      | (intro g; have := p1 x (sh g); tauto)
      | (constructor
         · intro g; have := p1 x (sh g); tauto
         · rintro rfl
           first
            | (have := p1 (pt 1 0) (Or.inl rfl); norm_num [pt] at this ⊢; tauto)
            | (have := p1 (pt 0 1) (Or.inr rfl); norm_num [pt] at this ⊢; tauto))
  · intro x y hx hy hm
    rw [hS] at hx hy
    have f1 : PointMatches (pt 1 0) (pt 0 1) 1e-8 = false := by apart
    have f2 : PointMatches (pt 0 1) (pt 1 0) 1e-8 = false := by apart
    rcases hx with rfl | rfl <;> rcases hy with rfl | rfl
    · rfl
    · rw [f1] at hm; cases hm
    · rw [f2] at hm; cases hm
    · rfl
  · intro s hs x hx
    rw [hS] at hx
    simp only [List.cons_append, List.nil_append, List.mem_cons, List.not_mem_nil, or_false] at hs
    rcases hs with rfl | rfl | rfl | rfl | rfl | rfl | rfl | rfl
    · rw [h.b1]; rcases hx with rfl | rfl <;> apart
    · rw [h.r1]; rcases hx with rfl | rfl <;> apart
    · rw [h.t1]; rcases hx with rfl | rfl <;> apart
    · rw [h.l1]; rcases hx with rfl | rfl <;> apart
    · rw [k.b1]; rcases hx with rfl | rfl <;> apart
    · rw [k.r1]; rcases hx with rfl | rfl <;> apart
    · rw [k.t1]; rcases hx with rfl | rfl <;> apart
    · rw [k.l1]; rcases hx with rfl | rfl <;> apart
  · intro x hx
    have := p1 x ((hS x).1 hx)
    simp only [List.pairwise_cons, List.mem_cons, List.not_mem_nil, or_false, List.Pairwise.nil, forall_eq_or_imp, forall_eq, and_true,
      IsEmpty.forall_iff, implies_true]
    tauto

theorem corner_overlap (h : Box b r t l 0 0 2 2) (k : Box b' r' t' l' (-1) (-1) 1 1) :
    Overlap [b, r, t, l] [b', r', t', l'] := by
  have o1 : ∀ x y : ℝ, (x < 0 ∨ 2 < x ∨ y < 0 ∨ 2 < y) ∨ (0 < x ∧ x < 2 ∧ 0 < y ∧ y < 2) → OffBorder [b, r, t, l] (pt x y) :=
    fun x y g => (h.off _ rfl).2 g
  have o2 : ∀ x y : ℝ, (x < -1 ∨ 1 < x ∨ y < -1 ∨ 1 < y) ∨ (-1 < x ∧ x < 1 ∧ -1 < y ∧ y < 1) → OffBorder [b', r', t', l'] (pt x y) :=
    fun x y g => (k.off _ rfl).2 g
  refine ⟨⟨pt 0.5 0.5, ?_⟩, ⟨pt 1.5 1.5, ?_⟩, pt (-0.5) (-0.5), ?_⟩
  · have a1 := o1 0.5 0.5 (by norm_num)
    have a2 := o2 0.5 0.5 (by norm_num)
    rw [h.inside a1, k.inside a2]
    exact ⟨a1, a2, by norm_num [pt]⟩
  · have a1 := o1 1.5 1.5 (by norm_num)
    have a2 := o2 1.5 1.5 (by norm_num)
    rw [h.inside a1, k.inside a2]
    exact ⟨a1, a2, by norm_num [pt]⟩
  · have a1 := o1 (-0.5) (-0.5) (by norm_num)
    have a2 := o2 (-0.5) (-0.5) (by norm_num)
    rw [h.inside a1, k.inside a2]
    exact ⟨a1, a2, by norm_num [pt]⟩

/-- a segment without common points stays whole -/
theorem pieces_none {l m pcs : List Seg} {s : Seg} (h : Pieces l m s pcs) (hs : ∀ x, Covers s x → ¬ Shared l m x) : pcs = [s] := by
  rcases h with ⟨e, -⟩ | ⟨pts, t, rest, -, hp, hsp, -⟩
  · exact e
  · have : pts = [] := List.eq_nil_iff_forall_not_mem.2 fun x hx => hs x ((hp x).1 hx).1 ((hp x).1 hx).2
    rw [this, C65_refused s [] (Or.inr (Or.inl rfl))] at hsp
    cases hsp

/-- a segment with one common point is split there -/
theorem pieces_one {l m pcs : List Seg} {s s' t : Seg} {p : Point ℝ} (h : Pieces l m s pcs)
    (hs : ∀ x, Covers s x ∧ Shared l m x ↔ x = p) (hsp : s.split [p] = some (s', [t])) : pcs = [s', t] := by
  rcases h with ⟨-, e⟩ | ⟨pts, u, rest, hn, hp, hsp', e⟩
  · exact absurd ((hs p).2 rfl).2 (e p ((hs p).2 rfl).1)
  · have : pts = [p] := by
      have hm : ∀ x, x ∈ pts ↔ x = p := fun x => by rw [hp, hs]
      cases pts with
      | nil => exact absurd ((hm p).2 rfl) (by simp)
      | cons a rest =>
        have ha := (hm a).1 (by simp)
        subst ha
        cases rest with
        | nil => rfl
        | cons c rest =>
          have := (hm c).1 (by simp)
          subst this
          simp at hn
    rw [this, hsp] at hsp'
    cases hsp'
    exact e

/-- the two boxes with their sides split at the common points -/
structure Corner (o a : Outline) (b r t l b' r' t' l' p1 p2 q1 q2 u1 u2 v1 v2 : Seg) : Prop where
  box : Box b r t l 0 0 2 2
  box' : Box b' r' t' l' (-1) (-1) 1 1
  closed : o.closed = true
  closed' : a.closed = true
  segs : o.segs = [b, r, t, l]
  segs' : a.segs = [b', r', t', l']
  lo : o.lo.x = 0
  hi : o.hi.x = 2
  lo' : a.lo.x = -1
  hi' : a.hi.x = 1
  splitB : b.split [pt 1 0] = some (p1, [p2])
  splitL : l.split [pt 0 1] = some (q1, [q2])
  splitR : r'.split [pt 1 0] = some (u1, [u2])
  splitT : t'.split [pt 0 1] = some (v1, [v2])
  made : ∀ s ∈ [p1, p2, q1, q2, u1, u2, v1, v2], Made s ∧ s.kind = .line
  p1s : p1.start = pt 0 0
  p1e : p1.stop = pt 1 0
  p2s : p2.start = pt 1 0
  p2e : p2.stop = pt 2 0
  q1s : q1.start = pt 0 2
  q1e : q1.stop = pt 0 1
  q2s : q2.start = pt 0 1
  q2e : q2.stop = pt 0 0
  u1s : u1.start = pt 1 (-1)
  u1e : u1.stop = pt 1 0
  u2s : u2.start = pt 1 0
  u2e : u2.stop = pt 1 1
  v1s : v1.start = pt 1 1
  v1e : v1.stop = pt 0 1
  v2s : v2.start = pt 0 1
  v2e : v2.stop = pt (-1) 1

theorem corner_exists : ∃ o a b r t l b' r' t' l' p1 p2 q1 q2 u1 u2 v1 v2, Drawn [b, r, t, l] o ∧ Drawn [b', r', t', l'] a ∧
    Corner o a b r t l b' r' t' l' p1 p2 q1 q2 u1 u2 v1 v2 := by
  obtain ⟨b, r, t, l, b', r', t', l', o, a, d1, d2, h, k, c1, c2, s1, s2, e1, e2, e3, e4⟩ := ex_corner
  obtain ⟨p1, p2, P, m1, m2, P1, P2, P3, P4⟩ := line_split (p := pt 1 0) (h.made b (by simp)) h.b1 h.b2
    ((h.sides _).1.2 (by norm_num [pt])) (by apart) (by apart)
  obtain ⟨q1, q2, Q, m3, m4, Q1, Q2, Q3, Q4⟩ := line_split (p := pt 0 1) (h.made l (by simp)) h.l1 h.l2
    ((h.sides _).2.2.2.2 (by norm_num [pt])) (by apart) (by apart)
  obtain ⟨u1, u2, U, m5, m6, U1, U2, U3, U4⟩ := line_split (p := pt 1 0) (k.made r' (by simp)) k.r1 k.r2
    ((k.sides _).2.1.2 (by norm_num [pt])) (by apart) (by apart)
  obtain ⟨v1, v2, V, m7, m8, V1, V2, V3, V4⟩ := line_split (p := pt 0 1) (k.made t' (by simp)) k.t1 k.t2
    ((k.sides _).2.2.1.2 (by norm_num [pt])) (by apart) (by apart)
  exact ⟨o, a, b, r, t, l, b', r', t', l', p1, p2, q1, q2, u1, u2, v1, v2, d1, d2, h, k, c1, c2, s1, s2, e1, e2, e3, e4, P, Q, U, V,
    by
      intro s hs
      simp only [List.mem_cons, List.not_mem_nil, or_false] at hs
      rcases hs with rfl | rfl | rfl | rfl | rfl | rfl | rfl | rfl <;> assumption,
    P1, P2, P3, P4, Q1, Q2, Q3, Q4, U1, U2, U3, U4, V1, V2, V3, V4⟩

variable {o a : Outline} {p1 p2 q1 q2 u1 u2 v1 v2 : Seg}

/-- what `IsInside` says about the midpoints of the pieces that start at a common point -/
theorem Corner.judged (h : Corner o a b r t l b' r' t' l' p1 p2 q1 q2 u1 u2 v1 v2) :
    isInside { a with segs := [b', u1, u2, v1, v2, l'] } (pt 1.5 0) = some false ∧
    isInside { a with segs := [b', u1, u2, v1, v2, l'] } (pt 0 0.5) = some true ∧
    isInside { o with boxOk := false, segs := [p1, p2, r, t, q1, q2] } (pt 1 0.5) = some true ∧
    isInside { o with boxOk := false, segs := [p1, p2, r, t, q1, q2] } (pt (-0.5) 1) = some false := by
  have mr := h.box.made r (by simp)
  have mt := h.box.made t (by simp)
  have mb' := h.box'.made b' (by simp)
  have ml' := h.box'.made l' (by simp)
  have w1 := h.made p1 (by simp)
  have w2 := h.made p2 (by simp)
  have w3 := h.made q1 (by simp)
  have w4 := h.made q2 (by simp)
  have w5 := h.made u1 (by simp)
  have w6 := h.made u2 (by simp)
  have w7 := h.made v1 (by simp)
  have w8 := h.made v2 (by simp)
  refine ⟨?_, ?_, ?_, ?_⟩
  · obtain ⟨ray, hray, kray, e1, e2⟩ := ex_seg (a := 1.5) (b := 0) (c := 6) (d := 0) (by norm_num) (by norm_num) (by norm_num)
    have mray : Made ray ∧ ray.kind = .line := ⟨.line hray, kray⟩
    have hend : rayEnd { a with segs := [b', u1, u2, v1, v2, l'] } (pt 1.5 0) = pt 6 0 := by
      unfold rayEnd; simp only [h.lo', h.hi']; norm_num [pt]
    exact (inside_six (o := { a with segs := [b', u1, u2, v1, v2, l'] }) (n1 := 0) (n2 := 0) (n3 := 0) (n4 := 0) (n5 := 0) (n6 := 0) h.closed' rfl (by rw [hend]; exact hray)
      (count_none (beside mb' mray h.box'.b1 h.box'.b2 e1 e2 (by axis) (by axis)))
      (count_none (misses w5 mray h.u1s h.u1e e1 e2 (pt 1 0) (1) (-1/9) (by axis) (by axis) (by axis) (by norm_num)))
      (count_none (misses w6 mray h.u2s h.u2e e1 e2 (pt 1 0) (0) (-1/9) (by axis) (by axis) (by axis) (by norm_num)))
      (count_none (beside w7 mray h.v1s h.v1e e1 e2 (by axis) (by axis)))
      (count_none (beside w8 mray h.v2s h.v2e e1 e2 (by axis) (by axis)))
      (count_none (misses ml' mray h.box'.l1 h.box'.l2 e1 e2 (pt (-1) 0) (0.5) (-5/9) (by axis) (by axis) (by axis) (by norm_num)))).trans rfl
  · obtain ⟨ray, hray, kray, e1, e2⟩ := ex_seg (a := 0) (b := 0.5) (c := -6) (d := 0.5) (by norm_num) (by norm_num) (by norm_num)
    have mray : Made ray ∧ ray.kind = .line := ⟨.line hray, kray⟩
    have hend : rayEnd { a with segs := [b', u1, u2, v1, v2, l'] } (pt 0 0.5) = pt (-6) 0.5 := by
      unfold rayEnd; simp only [h.lo', h.hi']; norm_num [pt]
    exact (inside_six (o := { a with segs := [b', u1, u2, v1, v2, l'] }) (n1 := 0) (n2 := 0) (n3 := 0) (n4 := 0) (n5 := 0) (n6 := 1) h.closed' rfl (by rw [hend]; exact hray)
      (count_none (beside mb' mray h.box'.b1 h.box'.b2 e1 e2 (by axis) (by axis)))
      (count_none (misses w5 mray h.u1s h.u1e e1 e2 (pt 1 0.5) (1.5) (-1/6) (by axis) (by axis) (by axis) (by norm_num)))
      (count_none (misses w6 mray h.u2s h.u2e e1 e2 (pt 1 0.5) (0.5) (-1/6) (by axis) (by axis) (by axis) (by norm_num)))
      (count_none (beside w7 mray h.v1s h.v1e e1 e2 (by axis) (by axis)))
      (count_none (beside w8 mray h.v2s h.v2e e1 e2 (by axis) (by axis)))
      (count_one (x := pt (-1) 0.5) ml'.2 h.box'.l1 h.box'.l2
        (meets ml' mray h.box'.l1 h.box'.l2 e1 e2 (0.25) (1/6) (by axis) (by axis) (by axis) (by norm_num) (by norm_num)) (by apart) (by apart))).trans rfl
  · obtain ⟨ray, hray, kray, e1, e2⟩ := ex_seg (a := 1) (b := 0.5) (c := -5) (d := 0.5) (by norm_num) (by norm_num) (by norm_num)
    have mray : Made ray ∧ ray.kind = .line := ⟨.line hray, kray⟩
    have hend : rayEnd { o with boxOk := false, segs := [p1, p2, r, t, q1, q2] } (pt 1 0.5) = pt (-5) 0.5 := by
      unfold rayEnd; simp only [h.lo, h.hi]; norm_num [pt]
    exact (inside_six (o := { o with boxOk := false, segs := [p1, p2, r, t, q1, q2] }) (n1 := 0) (n2 := 0) (n3 := 0) (n4 := 0) (n5 := 0) (n6 := 1) h.closed rfl (by rw [hend]; exact hray)
      (count_none (beside w1 mray h.p1s h.p1e e1 e2 (by axis) (by axis)))
      (count_none (beside w2 mray h.p2s h.p2e e1 e2 (by axis) (by axis)))
      (count_none (misses mr mray h.box.r1 h.box.r2 e1 e2 (pt 2 0.5) (0.25) (-1/6) (by axis) (by axis) (by axis) (by norm_num)))
      (count_none (beside mt mray h.box.t1 h.box.t2 e1 e2 (by axis) (by axis)))
      (count_none (misses w3 mray h.q1s h.q1e e1 e2 (pt 0 0.5) (1.5) (1/6) (by axis) (by axis) (by axis) (by norm_num)))
      (count_one (x := pt 0 0.5) w4.2 h.q2s h.q2e
        (meets w4 mray h.q2s h.q2e e1 e2 (0.5) (1/6) (by axis) (by axis) (by axis) (by norm_num) (by norm_num)) (by apart) (by apart))).trans rfl
  · obtain ⟨ray, hray, kray, e1, e2⟩ := ex_seg (a := -0.5) (b := 1) (c := -5) (d := 1) (by norm_num) (by norm_num) (by norm_num)
    have mray : Made ray ∧ ray.kind = .line := ⟨.line hray, kray⟩
    have hend : rayEnd { o with boxOk := false, segs := [p1, p2, r, t, q1, q2] } (pt (-0.5) 1) = pt (-5) 1 := by
      unfold rayEnd; simp only [h.lo, h.hi]; norm_num [pt]
    exact (inside_six (o := { o with boxOk := false, segs := [p1, p2, r, t, q1, q2] }) (n1 := 0) (n2 := 0) (n3 := 0) (n4 := 0) (n5 := 0) (n6 := 0) h.closed rfl (by rw [hend]; exact hray)
      (count_none (beside w1 mray h.p1s h.p1e e1 e2 (by axis) (by axis)))
      (count_none (beside w2 mray h.p2s h.p2e e1 e2 (by axis) (by axis)))
      (count_none (misses mr mray h.box.r1 h.box.r2 e1 e2 (pt 2 1) (0.5) (-5/9) (by axis) (by axis) (by axis) (by norm_num)))
      (count_none (beside mt mray h.box.t1 h.box.t2 e1 e2 (by axis) (by axis)))
      (count_none (misses w3 mray h.q1s h.q1e e1 e2 (pt 0 1) (1) (-1/9) (by axis) (by axis) (by axis) (by norm_num)))
      (count_none (misses w4 mray h.q2s h.q2e e1 e2 (pt 0 1) (0) (-1/9) (by axis) (by axis) (by axis) (by norm_num)))).trans rfl

/-- the sides of the boxes that have a common point -/
theorem Corner.parted (h : Corner o a b r t l b' r' t' l' p1 p2 q1 q2 u1 u2 v1 v2) {l1 l2 : List Seg}
    (g1 : Parted o.segs a.segs l1) (g2 : Parted a.segs o.segs l2) : l1 = [p1, p2, r, t, q1, q2] ∧ l2 = [b', u1, u2, v1, v2, l'] := by
  have hS := corner_shared h.box h.box'
  have hS' : ∀ x, Shared [b', r', t', l'] [b, r, t, l] x ↔ x = pt 1 0 ∨ x = pt 0 1 := fun x => by rw [← hS]; unfold Shared; tauto
  have none : ∀ {s : Seg}, ¬ Covers s (pt 1 0) → ¬ Covers s (pt 0 1) → ∀ x, Covers s x → ¬ (x = pt 1 0 ∨ x = pt 0 1) := by
    rintro s k1 k2 x hc (rfl | rfl)
    · exact k1 hc
    · exact k2 hc
  have one1 : ∀ {s : Seg}, Covers s (pt 1 0) → ¬ Covers s (pt 0 1) → ∀ x, Covers s x ∧ (x = pt 1 0 ∨ x = pt 0 1) ↔ x = pt 1 0 := by
    intro s k1 k2 x
    constructor
    · rintro ⟨hc, rfl | rfl⟩
      · rfl
      · exact absurd hc k2
    · rintro rfl; exact ⟨k1, Or.inl rfl⟩
  have one2 : ∀ {s : Seg}, ¬ Covers s (pt 1 0) → Covers s (pt 0 1) → ∀ x, Covers s x ∧ (x = pt 1 0 ∨ x = pt 0 1) ↔ x = pt 0 1 := by
    intro s k1 k2 x
    constructor
    · rintro ⟨hc, rfl | rfl⟩
      · exact absurd hc k1
      · rfl
    · rintro rfl; exact ⟨k2, Or.inr rfl⟩
  have s1 := h.box.sides (pt 1 0)
  have s2 := h.box.sides (pt 0 1)
  have s3 := h.box'.sides (pt 1 0)
  have s4 := h.box'.sides (pt 0 1)
  norm_num [pt] at s1 s2 s3 s4
  constructor
  · obtain ⟨P, rfl, g1⟩ := g1
    rw [h.segs, h.segs'] at g1
    obtain ⟨P1, R1, f1, g1a, rfl⟩ := List.forall₂_cons_left_iff.1 g1
    obtain ⟨P2, R2, f2, g1b, rfl⟩ := List.forall₂_cons_left_iff.1 g1a
    obtain ⟨P3, R3, f3, g1c, rfl⟩ := List.forall₂_cons_left_iff.1 g1b
    obtain ⟨P4, R4, f4, g1d, rfl⟩ := List.forall₂_cons_left_iff.1 g1c
    obtain rfl := List.forall₂_nil_left_iff.1 g1d
    have e1 := pieces_one f1 (fun x => by rw [hS]; exact one1 s1.1 s2.1 x) h.splitB
    have e2 := pieces_none f2 (fun x => by rw [hS]; exact none s1.2.1 s2.2.1 x)
    have e3 := pieces_none f3 (fun x => by rw [hS]; exact none s1.2.2.1 s2.2.2.1 x)
    have e4 := pieces_one f4 (fun x => by rw [hS]; exact one2 s1.2.2.2 s2.2.2.2 x) h.splitL
    subst e1 e2 e3 e4
    rfl
  · obtain ⟨P, rfl, g2⟩ := g2
    rw [h.segs, h.segs'] at g2
    obtain ⟨P1, R1, f1, g2a, rfl⟩ := List.forall₂_cons_left_iff.1 g2
    obtain ⟨P2, R2, f2, g2b, rfl⟩ := List.forall₂_cons_left_iff.1 g2a
    obtain ⟨P3, R3, f3, g2c, rfl⟩ := List.forall₂_cons_left_iff.1 g2b
    obtain ⟨P4, R4, f4, g2d, rfl⟩ := List.forall₂_cons_left_iff.1 g2c
    obtain rfl := List.forall₂_nil_left_iff.1 g2d
    have e1 := pieces_none f1 (fun x => by rw [hS']; exact none s3.1 s4.1 x)
    have e2 := pieces_one f2 (fun x => by rw [hS']; exact one1 s3.2.1 s4.2.1 x) h.splitR
    have e3 := pieces_one f3 (fun x => by rw [hS']; exact one2 s3.2.2.1 s4.2.2.1 x) h.splitT
    have e4 := pieces_none f4 (fun x => by rw [hS']; exact none s3.2.2.2 s4.2.2.2 x)
    subst e1 e2 e3 e4
    rfl

theorem mid_line {s : Seg} {p q : Point ℝ} (hk : s.kind = .line) (h1 : s.start = p) (h2 : s.stop = q) :
    s.midpoint = some (pt (0.5 * (q.x - p.x) + p.x) (0.5 * (q.y - p.y) + p.y)) := by
  unfold Seg.midpoint
  rw [hk, h1, h2]
  rfl

theorem Corner.both (h : Corner o a b r t l b' r' t' l' p1 p2 q1 q2 u1 u2 v1 v2) : JudgedBoth o a := by
  obtain ⟨i1, i2, i3, i4⟩ := h.judged
  have hS := corner_shared h.box h.box'
  intro l1 l2 g1 g2
  obtain ⟨rfl, rfl⟩ := h.parted g1 g2
  rw [h.segs, h.segs']
  constructor
  · intro u hu hsh y hy β hβ
    rw [hS] at hsh
    simp only [List.mem_cons, List.not_mem_nil, or_false] at hu
    rcases hu with rfl | rfl | rfl | rfl | rfl | rfl
    · rw [h.p1s] at hsh; norm_num [pt] at hsh
    · rw [mid_line (h.made _ (by simp)).2 h.p2s h.p2e] at hy
      obtain rfl : pt 1.5 0 = y := by rw [← Option.some.inj hy]; norm_num [pt]
      rw [i1] at hβ
      obtain rfl := Option.some.inj hβ
      rw [h.box'.inside ((h.box'.off _ rfl).2 (by norm_num [pt]))]
      norm_num [pt]
    · rw [h.box.r1] at hsh; norm_num [pt] at hsh
    · rw [h.box.t1] at hsh; norm_num [pt] at hsh
    · rw [h.q1s] at hsh; norm_num [pt] at hsh
    · rw [mid_line (h.made _ (by simp)).2 h.q2s h.q2e] at hy
      obtain rfl : pt 0 0.5 = y := by rw [← Option.some.inj hy]; norm_num [pt]
      rw [i2] at hβ
      obtain rfl := Option.some.inj hβ
      rw [h.box'.inside ((h.box'.off _ rfl).2 (by norm_num [pt]))]
      norm_num [pt]
  · intro u hu hsh y hy β hβ
    rw [hS] at hsh
    simp only [List.mem_cons, List.not_mem_nil, or_false] at hu
    rcases hu with rfl | rfl | rfl | rfl | rfl | rfl
    · rw [h.box'.b1] at hsh; norm_num [pt] at hsh
    · rw [h.u1s] at hsh; norm_num [pt] at hsh
    · rw [mid_line (h.made _ (by simp)).2 h.u2s h.u2e] at hy
      obtain rfl : pt 1 0.5 = y := by rw [← Option.some.inj hy]; norm_num [pt]
      rw [i3] at hβ
      obtain rfl := Option.some.inj hβ
      rw [h.box.inside ((h.box.off _ rfl).2 (by norm_num [pt]))]
      norm_num [pt]
    · rw [h.v1s] at hsh; norm_num [pt] at hsh
    · rw [mid_line (h.made _ (by simp)).2 h.v2s h.v2e] at hy
      obtain rfl : pt (-0.5) 1 = y := by rw [← Option.some.inj hy]; norm_num [pt]
      rw [i4] at hβ
      obtain rfl := Option.some.inj hβ
      rw [h.box.inside ((h.box.off _ rfl).2 (by norm_num [pt]))]
      norm_num [pt]
    · rw [h.box'.l1] at hsh; norm_num [pt] at hsh

/-- what the operation leaves -/
theorem Corner.result (h : Corner o a b r t l b' r' t' l' p1 p2 q1 q2 u1 u2 v1 v2) (opsub : Bool) :
    ∃ x, opShape o (some a) opsub = .returns x ∧ x.ret = true ∧ x.error = false ∧ x.out.closed = true ∧
      x.out.segs = if opsub then [u2.reverse, v1.reverse, p2, r, t, q1] else [v2, l', b', u1, p2, r, t, q1] := by
  obtain ⟨⟨i1, i2⟩, ⟨j1, j2, j3⟩, ⟨m1, m2, m3, m4⟩, ⟨n1, n2, n3, n4⟩, k1, k2, k3⟩ := corner_hits h.box h.box'
  obtain ⟨w1, w2, w3, w4⟩ := h.judged
  have f1 : PointMatches (pt 1 0) (pt 0 1) 1e-8 = false := by apart
  have hits : shapeHits a.segs opsub 0 o.segs = .points [(pt 1 0, 0, 1), (pt 0 1, 3, 2)] := by
    rw [h.segs, h.segs']
    simp [shapeHits, pairHits, i1, i2, j1, j2, j3, m1, m2, m3, m4, n1, n2, n3, n4, k1, k2, k3, Flag.fine]
  have dist : distinct [] [((pt 1 0 : Point ℝ), 0, 1), (pt 0 1, 3, 2)] = [(pt 1 0, 0, 1), (pt 0 1, 3, 2)] := by
    simp [distinct, f1]
  have c1 : PointMatches (pt 1 0) (pt 0 0) 1e-8 = false := by apart
  have c2 : PointMatches (pt 1 0) (pt 2 0) 1e-8 = false := by apart
  have c3 : PointMatches (pt 0 1) (pt 0 2) 1e-8 = false := by apart
  have c4 : PointMatches (pt 0 1) (pt 0 0) 1e-8 = false := by apart
  have c5 : PointMatches (pt 1 0) (pt 1 (-1)) 1e-8 = false := by apart
  have c6 : PointMatches (pt 1 0) (pt 1 1) 1e-8 = false := by apart
  have c7 : PointMatches (pt 0 1) (pt 1 1) 1e-8 = false := by apart
  have c8 : PointMatches (pt 0 1) (pt (-1) 1) 1e-8 = false := by apart
  have sp1 : splitBoth o.segs 0 3 (pt 1 0) (pt 0 1) = ([p1, p2, r, t, q1, q2], 0, true) := by
    rw [h.segs]
    simp [splitBoth, isEndAt, isEnd, splitAt, splitOne, h.box.b1, h.box.b2, h.box.l1, h.box.l2, c1, c2, c3, c4, h.splitB, h.splitL]
  have sp2 : splitBoth a.segs 1 2 (pt 1 0) (pt 0 1) = ([b', u1, u2, v1, v2, l'], 1, true) := by
    rw [h.segs']
    simp [splitBoth, isEndAt, isEnd, splitAt, splitOne, h.box'.r1, h.box'.r2, h.box'.t1, h.box'.t2, c5, c6, c7, c8, h.splitR, h.splitT]
  have st1 : startingAt [p1, p2, r, t, q1, q2] 0 (pt 1 0) = some 1 := by
    simp [startingAt, after, h.p1s, h.p2s, c1, C51_reflexive]
  have st2 : startingAt [b', u1, u2, v1, v2, l'] 1 (pt 1 0) = some 2 := by
    simp [startingAt, after, h.u1s, h.u2s, c5, C51_reflexive]
  have md1 : p2.midpoint = some (pt 1.5 0) := by
    rw [mid_line (h.made _ (by simp)).2 h.p2s h.p2e]; norm_num [pt]
  have md2 : u2.midpoint = some (pt 1 0.5) := by
    rw [mid_line (h.made _ (by simp)).2 h.u2s h.u2e]; norm_num [pt]
  have d1 : PointMatches (pt 1 0) (pt 0 1) 1e-8 = false := by apart
  have d2 : PointMatches (pt 2 0) (pt 0 1) 1e-8 = false := by apart
  have d3 : PointMatches (pt 2 2) (pt 0 1) 1e-8 = false := by apart
  have d4 : PointMatches (pt 0 2) (pt 0 1) 1e-8 = false := by apart
  have d5 : PointMatches (pt 1 1) (pt 0 1) 1e-8 = false := by apart
  have tr1 : trimThis [p1, p2, r, t, q1, q2] 1 (pt 0 1) false = some ([p2, r, t, q1], 0) := by
    simp [trimThis, keepTo, h.p2s, h.box.r1, h.box.t1, h.q1s, h.q2s, d1, d2, d3, d4, C51_reflexive]
  have tr2 : trimOther [b', u1, u2, v1, v2, l'] 2 (pt 0 1) (if opsub then !true else true) =
      some (if opsub then ([u2, v1], 1) else ([b', u1, v2, l'], 2)) := by
    cases opsub <;> simp [trimOther, keepTo, eraseFrom, h.u2s, h.v1s, h.v2s, d1, d5, C51_reflexive]
  have ge : q1.getEnd = pt 0 1 := by rw [(line_ends (h.made q1 (by simp)).1 (h.made q1 (by simp)).2).2.1, h.q1e]
  have gs : v2.getStart = pt 0 1 := by rw [(line_ends (h.made v2 (by simp)).1 (h.made v2 (by simp)).2).1, h.v2s]
  have main : opShape o (some a) opsub = stitch { o with boxOk := false, segs := [p1, p2, r, t, q1, q2] }
      { a with segs := [b', u1, u2, v1, v2, l'] } opsub ([p2, r, t, q1], 0)
      (if opsub then ([u2, v1], 1) else ([b', u1, v2, l'], 2)) := by
    unfold opShape
    dsimp only
    rw [if_neg (by rw [h.closed]; simp), if_neg (by rw [h.closed']; simp), hits]
    dsimp only
    rw [dist]
    dsimp only
    rw [sp1, sp2]
    simp only [Bool.true_eq_false, if_false]
    unfold overlap
    dsimp only
    rw [st1]
    simp only [List.getElem?_cons_succ, List.getElem?_cons_zero, Option.bind_some, md1, Option.getD_some, w1, st2, md2, w3]
    rw [if_neg (by simp)]
    unfold trim
    dsimp only
    rw [tr1]
    dsimp only
    rw [tr2]
  rw [main]
  cases opsub
  · refine ⟨⟨{ o with boxOk := false, segs := [v2, l', b', u1, p2, r, t, q1] }, { a with segs := [b', u1, u2, v1, v2, l'] }, true, false⟩,
      ?_, rfl, rfl, h.closed, rfl⟩
    simp [stitch, before, startFrom, roundFrom, ge, gs, C51_reflexive]
  · exact ⟨⟨{ o with boxOk := false, segs := [u2.reverse, v1.reverse, p2, r, t, q1] }, { a with segs := [b', u1, u2, v1, v2, l'] }, true,
      false⟩, rfl, rfl, rfl, h.closed, rfl⟩

end Iges.Props.Boxes
