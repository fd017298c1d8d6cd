import Verif.Lemmas.BoxCorner
import Verif.Lemmas.BoxRect
import Verif.Props.Cutout
import Verif.Props.MergeCases
import Verif.Props.MergeKept
import Verif.Props.RegionCases
/-
C85: cases that meet the hypotheses of the theorems, and cutouts that should not have been accepted.
-/
namespace Iges.Props
open Iges.Geo Iges.Spec Iges.Turn Real Boxes Iges.Props.Outlines Iges.Props.Inside

/-- a board of eight by eight, drawn counterclockwise -/
theorem ex_board : ∃ b r t l o, Drawn [b, r, t, l] o ∧ Box b r t l (-4) (-4) 4 4 ∧ o.closed = true ∧ o.segs = [b, r, t, l] :=
  ex_rect (by norm_num) (by norm_num) (by norm_num) (by norm_num)

/-- a box within the board -/
theorem board_apart {b r t l b' r' t' l' : Seg} {u : ℝ} (hu : u = 0 ∨ u = -1) (h : Box b r t l (-4) (-4) 4 4)
    (k : Box b' r' t' l' u u (u + 2) (u + 2)) :
    ∀ s ∈ [b, r, t, l], ∀ q ∈ [b', r', t', l'], intersections s q = ⟨[], .none, false⟩ := by
  have mb := h.made b (by simp)
  have mr := h.made r (by simp)
  have mt := h.made t (by simp)
  have ml := h.made l (by simp)
  have nb := k.made b' (by simp)
  have nr := k.made r' (by simp)
  have nt := k.made t' (by simp)
  have nl := k.made l' (by simp)
  intro s hs q hq
  simp only [List.mem_cons, List.not_mem_nil, or_false] at hs hq
  rcases hs with rfl | rfl | rfl | rfl <;> rcases hq with rfl | rfl | rfl | rfl
  · exact beside mb nb h.b1 h.b2 k.b1 k.b2 (by rcases hu with rfl | rfl <;> axis) (by rcases hu with rfl | rfl <;> axis)
  · exact misses mb nr h.b1 h.b2 k.r1 k.r2 (pt (u + 2) (-4)) ((u + 6) / 8) ((-4 - u) / 2) (by rcases hu with rfl | rfl <;> axis) (by rcases hu with rfl | rfl <;> axis) (by rcases hu with rfl | rfl <;> axis) (Or.inr (Or.inr (Or.inl (by rcases hu with rfl | rfl <;> norm_num))))
  · exact beside mb nt h.b1 h.b2 k.t1 k.t2 (by rcases hu with rfl | rfl <;> axis) (by rcases hu with rfl | rfl <;> axis)
  · exact misses mb nl h.b1 h.b2 k.l1 k.l2 (pt u (-4)) ((u + 4) / 8) ((u + 6) / 2) (by rcases hu with rfl | rfl <;> axis) (by rcases hu with rfl | rfl <;> axis) (by rcases hu with rfl | rfl <;> axis) (Or.inr (Or.inr (Or.inr (by rcases hu with rfl | rfl <;> norm_num))))
  · exact misses mr nb h.r1 h.r2 k.b1 k.b2 (pt 4 u) ((u + 4) / 8) ((4 - u) / 2) (by rcases hu with rfl | rfl <;> axis) (by rcases hu with rfl | rfl <;> axis) (by rcases hu with rfl | rfl <;> axis) (Or.inr (Or.inr (Or.inr (by rcases hu with rfl | rfl <;> norm_num))))
  · exact beside mr nr h.r1 h.r2 k.r1 k.r2 (by rcases hu with rfl | rfl <;> axis) (by rcases hu with rfl | rfl <;> axis)
  · exact misses mr nt h.r1 h.r2 k.t1 k.t2 (pt 4 (u + 2)) ((u + 6) / 8) ((u - 2) / 2) (by rcases hu with rfl | rfl <;> axis) (by rcases hu with rfl | rfl <;> axis) (by rcases hu with rfl | rfl <;> axis) (Or.inr (Or.inr (Or.inl (by rcases hu with rfl | rfl <;> norm_num))))
  · exact beside mr nl h.r1 h.r2 k.l1 k.l2 (by rcases hu with rfl | rfl <;> axis) (by rcases hu with rfl | rfl <;> axis)
  · exact beside mt nb h.t1 h.t2 k.b1 k.b2 (by rcases hu with rfl | rfl <;> axis) (by rcases hu with rfl | rfl <;> axis)
  · exact misses mt nr h.t1 h.t2 k.r1 k.r2 (pt (u + 2) 4) ((2 - u) / 8) ((4 - u) / 2) (by rcases hu with rfl | rfl <;> axis) (by rcases hu with rfl | rfl <;> axis) (by rcases hu with rfl | rfl <;> axis) (Or.inr (Or.inr (Or.inr (by rcases hu with rfl | rfl <;> norm_num))))
  · exact beside mt nt h.t1 h.t2 k.t1 k.t2 (by rcases hu with rfl | rfl <;> axis) (by rcases hu with rfl | rfl <;> axis)
  · exact misses mt nl h.t1 h.t2 k.l1 k.l2 (pt u 4) ((4 - u) / 8) ((u - 2) / 2) (by rcases hu with rfl | rfl <;> axis) (by rcases hu with rfl | rfl <;> axis) (by rcases hu with rfl | rfl <;> axis) (Or.inr (Or.inr (Or.inl (by rcases hu with rfl | rfl <;> norm_num))))
  · exact misses ml nb h.l1 h.l2 k.b1 k.b2 (pt (-4) u) ((4 - u) / 8) ((-4 - u) / 2) (by rcases hu with rfl | rfl <;> axis) (by rcases hu with rfl | rfl <;> axis) (by rcases hu with rfl | rfl <;> axis) (Or.inr (Or.inr (Or.inl (by rcases hu with rfl | rfl <;> norm_num))))
  · exact beside ml nr h.l1 h.l2 k.r1 k.r2 (by rcases hu with rfl | rfl <;> axis) (by rcases hu with rfl | rfl <;> axis)
  · exact misses ml nt h.l1 h.l2 k.t1 k.t2 (pt (-4) (u + 2)) ((2 - u) / 8) ((u + 6) / 2) (by rcases hu with rfl | rfl <;> axis) (by rcases hu with rfl | rfl <;> axis) (by rcases hu with rfl | rfl <;> axis) (Or.inr (Or.inr (Or.inr (by rcases hu with rfl | rfl <;> norm_num))))
  · exact beside ml nl h.l1 h.l2 k.l1 k.l2 (by rcases hu with rfl | rfl <;> axis) (by rcases hu with rfl | rfl <;> axis)

theorem box_regular {o : Outline} {b r t l : Seg} {x0 y0 x1 y1 : ℝ} (h : Box b r t l x0 y0 x1 y1) (hc : o.closed = true)
    (hs : o.segs = [b, r, t, l]) : Regular o := by
  obtain ⟨f, r1, k⟩ := h.proper
  rw [← hs] at f r1 k
  exact ⟨hc, fun s hs => (f s hs).kind, fun s hs => (f s hs).made, fun s hs => (f s hs).sharp, r1, k, by rw [hs]; exact h.onePiece⟩

/-- C85: a board, its cutout with the corners (0,0) and (2,2), and a new cutout with the corners (-1,-1) and (1,1), all of which can
be drawn: the conditions of `C85_region_partial` are met, the new cutout is joined to the other one, and there was material at
(-0.5,-0.5), in the new cutout. -/
theorem ex_cutout : ∃ p a, (∃ l, Drawn l p.main) ∧ (∀ c ∈ p.cutouts, ∃ l, Drawn l c) ∧ (∃ l, Drawn l a) ∧ p.cutouts.length = 1 ∧
    Regular p.main ∧ (∀ c ∈ p.cutouts, Regular c) ∧ Regular a ∧ Separate p.main a ∧
    (∀ c ∈ p.cutouts, Meeting c a ∧ ∀ s ∈ c.segs ++ a.segs, s.cw = false) ∧
    (∀ x, OffBorders p x → OffBorder a.segs x → Orderly p x ∧ (Inside a.segs x → Inside p.main.segs x)) ∧
    (∀ c ∈ p.cutouts, ¬ Separate c a) ∧ (p.cutouts.Pairwise fun c d => Separate c a ∨ Separate d a) ∧
    OffBorders p (pt (-0.5) (-0.5)) ∧ OffBorder a.segs (pt (-0.5) (-0.5)) ∧ Material p (pt (-0.5) (-0.5)) ∧ Inside a.segs (pt (-0.5) (-0.5)) := by
  obtain ⟨o, a, b, r, t, l, b', r', t', l', p1, p2, q1, q2, u1, u2, v1, v2, d1, d2, h⟩ := corner_exists
  obtain ⟨mb, mr, mt, ml, m, d3, k, mc, ms⟩ := ex_board
  have hm := box_regular k mc ms
  have ho := box_regular h.box h.closed h.segs
  have ha := box_regular h.box' h.closed' h.segs'
  have hap : Separate m a := by
    unfold Separate
    rw [ms, h.segs']
    exact board_apart (Or.inr rfl) k (by norm_num; exact h.box')
  have hmeet : Meeting o a := by
    refine ⟨?_, ?_, h.both, ?_, ?_⟩ <;> rw [h.segs, h.segs']
    · exact corner_overlap h.box h.box'
    · exact corner_crosses h.box h.box'
    · exact corner_clean h.box h.box'
    · exact ⟨pt 1 0, pt 0 1, by norm_num [pt], corner_shared h.box h.box'⟩
  have hna : ¬ Separate o a := by
    intro g
    have := g b (by rw [h.segs]; simp) r' (by rw [h.segs']; simp)
    rw [(corner_hits h.box h.box').1.1] at this
    cases this
  have off : ∀ {x y : ℝ} {b r t l : Seg} {x0 y0 x1 y1 : ℝ}, Box b r t l x0 y0 x1 y1 →
      ((x < x0 ∨ x1 < x ∨ y < y0 ∨ y1 < y) ∨ (x0 < x ∧ x < x1 ∧ y0 < y ∧ y < y1)) → OffBorder [b, r, t, l] (pt x y) :=
    fun k g => (k.off _ rfl).2 g
  refine ⟨⟨m, [o], []⟩, a, ⟨_, d3⟩, ?_, ⟨_, d2⟩, rfl, hm, ?_, ha, hap, ?_, ?_, ?_, ?_, ?_, ?_, ?_, ?_⟩
  · simpa using ⟨_, d1⟩
  · simpa using ho
  · intro c hc
    simp only [List.mem_singleton] at hc
    subst hc
    refine ⟨hmeet, fun s hs => ?_⟩
    rw [h.segs, h.segs'] at hs
    rcases List.mem_append.1 hs with hs | hs
    · exact made_line_cw (h.box.made s hs).1 (h.box.made s hs).2
    · exact made_line_cw (h.box'.made s hs).1 (h.box'.made s hs).2
  · rintro x ⟨g1, g2⟩ g3
    have g4 := g2 o (by simp)
    simp only [ms, h.segs, h.segs'] at g1 g4 g3
    refine ⟨⟨by simp, ?_⟩, ?_⟩
    · intro c hc
      simp only [List.mem_singleton] at hc
      subst hc
      simp only [h.segs, ms, h.box.inside g4, k.inside g1]
      rintro ⟨i1, i2, i3, i4⟩
      refine ⟨?_, ?_, ?_, ?_⟩ <;> linarith
    · simp only [h.segs', ms, h.box'.inside g3, k.inside g1]
      rintro ⟨i1, i2, i3, i4⟩
      refine ⟨?_, ?_, ?_, ?_⟩ <;> linarith
  · simpa using hna
  · simp
  · refine ⟨by simp only [ms]; exact off k (by norm_num), ?_⟩
    simp only [List.mem_singleton, forall_eq, h.segs]
    exact off h.box (by norm_num)
  · rw [h.segs']; exact off h.box' (by norm_num)
  · refine ⟨?_, ?_, by simp⟩
    · simp only [ms]
      rw [k.inside (off k (by norm_num))]; norm_num [pt]
    · simp only [List.mem_singleton, forall_eq, h.segs]
      rw [h.box.inside (off h.box (by norm_num))]; norm_num [pt]
  · rw [h.segs', h.box'.inside (off h.box' (by norm_num))]; norm_num [pt]

/-- C85: a cutout that crosses the border of a board: the conditions of `C85_region_partial` are met, and there was material at
(0.5,0.5), in the cutout. -/
theorem ex_notch : ∃ p a, (∃ l, Drawn l p.main) ∧ (∃ l, Drawn l a) ∧ Regular p.main ∧ (∀ c ∈ p.cutouts, Regular c) ∧ Regular a ∧
    Meeting p.main a ∧ (∀ c ∈ p.cutouts, Separate c a) ∧ OffBorders p (pt 0.5 0.5) ∧ OffBorder a.segs (pt 0.5 0.5) ∧
    Material p (pt 0.5 0.5) ∧ Inside a.segs (pt 0.5 0.5) := by
  obtain ⟨o, a, b, r, t, l, b', r', t', l', p1, p2, q1, q2, u1, u2, v1, v2, d1, d2, h⟩ := corner_exists
  have f1 : OffBorder [b, r, t, l] (pt 0.5 0.5) := (h.box.off _ rfl).2 (by norm_num [pt])
  have f2 : OffBorder [b', r', t', l'] (pt 0.5 0.5) := (h.box'.off _ rfl).2 (by norm_num [pt])
  refine ⟨⟨o, [], []⟩, a, ⟨_, d1⟩, ⟨_, d2⟩, box_regular h.box h.closed h.segs, by simp, box_regular h.box' h.closed' h.segs', ?_, by simp,
    ⟨by simp only [h.segs]; exact f1, by simp⟩, by rw [h.segs']; exact f2, ⟨?_, by simp, by simp⟩, ?_⟩
  · refine ⟨?_, ?_, h.both, ?_, ?_⟩ <;> simp only [h.segs, h.segs']
    · exact corner_overlap h.box h.box'
    · exact corner_crosses h.box h.box'
    · exact corner_clean h.box h.box'
    · exact ⟨pt 1 0, pt 0 1, by norm_num [pt], corner_shared h.box h.box'⟩
  · simp only [h.segs]
    rw [h.box.inside f1]; norm_num [pt]
  · rw [h.segs', h.box'.inside f2]; norm_num [pt]

/-- C85 (counterexample). A cutout that is wholly outside of the board is accepted although overlaps are to be treated, and is
listed as a cutout of the board. -/
theorem C85_outside : ∃ p a p', (∃ l, Drawn l p.main) ∧ (∃ l, Drawn l a) ∧ Regular p.main ∧ Regular a ∧ p.cutouts = [] ∧
    addCutout p (some a) true = .returns p' a true false ∧ a ∈ p'.cutouts ∧ p'.main.segs = p.main.segs ∧
    OffBorder p.main.segs (pt 4 4) ∧ OffBorder a.segs (pt 4 4) ∧ ¬ Orderly p' (pt 4 4) := by
  obtain ⟨b, r, t, l, o, h1, h2, h3, h4, -⟩ := ex_box 0 (by norm_num)
  obtain ⟨b', r', t', l', a, k1, k2, k3, k4, -⟩ := ex_box 3 (by norm_num)
  norm_num at h2 k2
  have hh := apart_hits h2 k2
  rw [← h4, ← k4] at hh
  obtain ⟨x, e1, e2, e3, e4, -, e5⟩ := C84_apart true h3 k3 hh
  have f1 : OffBorder [b, r, t, l] (pt 4 4) := (h2.off _ rfl).2 (by norm_num [pt])
  have f2 : OffBorder [b', r', t', l'] (pt 4 4) := (k2.off _ rfl).2 (by norm_num [pt])
  refine ⟨⟨o, [], []⟩, a, ⟨x.out, [a], []⟩, ⟨_, h1⟩, ⟨_, k1⟩, box_regular h2 h3 h4, box_regular k2 k3 k4, rfl, ?_, by simp, e4,
    by simp only [h4]; exact f1, by rw [k4]; exact f2, ?_⟩
  · simp [addCutout, k3, subShape, e1, e2, e3, e5, joinFirst]
  · rintro ⟨-, g⟩
    have := g a (by simp)
    simp only [k4, e4, h4] at this
    rw [h2.inside f1, k2.inside f2] at this
    norm_num [pt] at this

/-- C85: a board whose border is crossed by a hole: the conditions of `C85_hole_partial` are met, and there was material at (1.75,1),
in the hole. -/
theorem ex_hole_cut : ∃ p c, Made c ∧ (∀ o ∈ p.main :: p.cutouts, (∀ s ∈ o.segs, s.kind = .line ∨ s.kind = .arc) ∧ (∀ s ∈ o.segs, Made s) ∧
      (∀ s ∈ o.segs, Sharp s) ∧ Round o.segs ∧ Proper o.segs ∧ Crossed o.segs c ∧ Judged o c) ∧
    (addHole p (some c) true).2.1 = true ∧ p.main.segs.length = 4 ∧ Material p (pt 1.75 1) ∧ InHole c (pt 1.75 1) := by
  obtain ⟨o, c, h1, h2, h3, h4, h5, h6, h7, h8, h9, h10, h11, h12, h13, -⟩ := ex_region true
  obtain ⟨c', -, -, -, hc, hk, -⟩ := opCircle_true h9
  cases hc
  refine ⟨⟨o, [], []⟩, c, h4, by simpa using ⟨h1, h2, h3, h5, h6, h7, h8⟩, ?_, h10, ⟨h13, by simp, by simp⟩, ?_⟩
  · simp [addHole, hk, subCircle, h9]
  · unfold InHole; rw [h11, h12]; norm_num [planar2, pt]

/-- C85 (counterexample). The same hole is accepted twice although overlaps are to be treated: the holes are not compared with
each other. -/
theorem C85_hole_twice : ∃ p p' p'' c l, Drawn l p.main ∧ Made c ∧ c.kind = .circle ∧ 0 < c.radius ∧ p.holes = [] ∧ p.cutouts = [] ∧
    addHole p (some c) true = (p', true, false) ∧ addHole p' (some c) true = (p'', true, false) ∧ p''.holes = [c, c] ∧
    p''.main.segs = p.main.segs := by
  obtain ⟨b, r, t, l, o, hd, hm, hc, hs, x0, y0, x1, y1, b1, b2, r1, r2, t1, t2, l1, l2⟩ := ex_square
  obtain ⟨c, hcc, kc, cc, cr⟩ := OutlineOps.ex_hole (x := 1) (y := 1) (r := 0.5) (by norm_num) (by norm_num)
  have im : ∀ s ∈ [b, r, t, l], intersections s c = ⟨[], .none, false⟩ := by
    intro s h
    have hms := hm s h
    refine OutlineOps.misses hms.1 hms.2 kc ?_
    rw [cc, cr]
    simp at h
    rcases h with rfl | rfl | rfl | rfl
    · rw [b1, b2]; norm_num [quadA, quadB, quadC, pt]
    · rw [r1, r2]; norm_num [quadA, quadB, quadC, pt]
    · rw [t1, t2]; norm_num [quadA, quadB, quadC, pt]
    · rw [l1, l2]; norm_num [quadA, quadB, quadC, pt]
  have hit : circleHits c true 0 [b, r, t, l] = .points [] := by
    simp [circleHits, im b (by simp), im r (by simp), im t (by simp), im l (by simp)]
  have op : ∀ o : Outline, o.closed = true → o.segs = [b, r, t, l] → opCircle o (some c) true = ⟨{ o with boxOk := false }, false, false⟩ := by
    intro o hc hs
    unfold opCircle
    simp only
    rw [if_neg (by rw [hc]; simp), if_neg (by rw [kc]; simp), hs, hit]
    simp [distinct]
  refine ⟨⟨o, [], []⟩, ⟨{ o with boxOk := false }, [], [c]⟩, ⟨{ o with boxOk := false }, [], [c, c]⟩, c, _, hd, .arc hcc, kc,
    by rw [cr]; norm_num, rfl, rfl, ?_, ?_, rfl, rfl⟩
  · simp [addHole, subCircle, kc, op o hc hs, joinHole]
  · simp [addHole, subCircle, kc, op { o with boxOk := false } hc hs, joinHole]

end Iges.Props
