import Verif.Lemmas.BoxCorner
import Verif.Lemmas.BoxRect
import Verif.Props.MergeDone
/-
C84: two outlines that cross in four points.
-/
namespace Iges.Props
open Iges.Geo Iges.Spec Iges.Turn Real Boxes

/-- C84: two bars that cross: both can be drawn, they meet the hypotheses of `C84_number`, and they have the points (1,1) and
(-1,-1) in common, among others, so that joining them and cutting one out of the other is reported as an error. -/
theorem ex_bars (opsub : Bool) : ∃ o a, (∃ l, Drawn l o) ∧ (∃ l, Drawn l a) ∧ (∀ s ∈ o.segs, s.kind = .line ∨ s.kind = .arc) ∧
    (∀ s ∈ a.segs, s.kind = .line ∨ s.kind = .arc) ∧
    (∀ s ∈ o.segs, ∀ t ∈ a.segs, ∀ x, (Covers s x ∧ Covers t x) ↔ ((intersections s t).ret = true ∧ x ∈ (intersections s t).pts)) ∧
    (∀ x y, Shared o.segs a.segs x → Shared o.segs a.segs y → PointMatches x y 1e-8 = true → x = y) ∧ Clean o.segs a.segs ∧
    o.closed = true ∧ a.closed = true ∧ ¬ Twice o.segs a.segs ∧ Shared o.segs a.segs (pt 1 1) ∧ Shared o.segs a.segs (pt (-1) (-1)) ∧
    ∃ r, opShape o (some a) opsub = .returns r ∧ r.ret = false ∧ r.error = true := by
  obtain ⟨b, r, t, l, o, d1, h, c1, s1⟩ := ex_rect (x0 := -3) (y0 := -1) (x1 := 3) (y1 := 1) (by norm_num) (by norm_num) (by norm_num) (by norm_num)
  obtain ⟨b', r', t', l', a, d2, k, c2, s2⟩ := ex_rect (x0 := -1) (y0 := -3) (x1 := 1) (y1 := 3) (by norm_num) (by norm_num) (by norm_num) (by norm_num)
  have mb := h.made b (by simp)
  have mr := h.made r (by simp)
  have mt := h.made t (by simp)
  have ml := h.made l (by simp)
  have nb := k.made b' (by simp)
  have nr := k.made r' (by simp)
  have nt := k.made t' (by simp)
  have nl := k.made l' (by simp)
  have e1 := beside mb nb h.b1 h.b2 k.b1 k.b2 (by axis) (by axis)
  have e2 := meets mb nr h.b1 h.b2 k.r1 k.r2 (x := pt 1 (-1)) (2 / 3) (1 / 3) (by axis) (by axis) (by axis) (by norm_num) (by norm_num)
  have e3 := beside mb nt h.b1 h.b2 k.t1 k.t2 (by axis) (by axis)
  have e4 := meets mb nl h.b1 h.b2 k.l1 k.l2 (x := pt (-1) (-1)) (1 / 3) (2 / 3) (by axis) (by axis) (by axis) (by norm_num) (by norm_num)
  have e5 := misses mr nb h.r1 h.r2 k.b1 k.b2 (pt 3 (-3)) (-1) 2 (by axis) (by axis) (by axis) (by norm_num)
  have e6 := beside mr nr h.r1 h.r2 k.r1 k.r2 (by axis) (by axis)
  have e7 := misses mr nt h.r1 h.r2 k.t1 k.t2 (pt 3 3) 2 (-1) (by axis) (by axis) (by axis) (by norm_num)
  have e8 := beside mr nl h.r1 h.r2 k.l1 k.l2 (by axis) (by axis)
  have e9 := beside mt nb h.t1 h.t2 k.b1 k.b2 (by axis) (by axis)
  have e10 := meets mt nr h.t1 h.t2 k.r1 k.r2 (x := pt 1 1) (1 / 3) (2 / 3) (by axis) (by axis) (by axis) (by norm_num) (by norm_num)
  have e11 := beside mt nt h.t1 h.t2 k.t1 k.t2 (by axis) (by axis)
  have e12 := meets mt nl h.t1 h.t2 k.l1 k.l2 (x := pt (-1) 1) (2 / 3) (1 / 3) (by axis) (by axis) (by axis) (by norm_num) (by norm_num)
  have e13 := misses ml nb h.l1 h.l2 k.b1 k.b2 (pt (-3) (-3)) 2 (-1) (by axis) (by axis) (by axis) (by norm_num)
  have e14 := beside ml nr h.l1 h.l2 k.r1 k.r2 (by axis) (by axis)
  have e15 := misses ml nt h.l1 h.l2 k.t1 k.t2 (pt (-3) 3) (-1) 2 (by axis) (by axis) (by axis) (by norm_num)
  have e16 := beside ml nl h.l1 h.l2 k.l1 k.l2 (by axis) (by axis)
  have hS : ∀ x, Shared [b, r, t, l] [b', r', t', l'] x ↔ x = pt 1 (-1) ∨ x = pt (-1) (-1) ∨ x = pt 1 1 ∨ x = pt (-1) 1 := by
    intro x
    obtain ⟨cb, cr, ct, cl⟩ := h.sides x
    obtain ⟨cb', cr', ct', cl'⟩ := k.sides x
    unfold Shared
    simp only [List.mem_cons, List.not_mem_nil, or_false, exists_eq_or_imp, exists_eq_left, cb, cr, ct, cl, cb', cr', ct', cl']
    constructor
    · rintro ⟨h1, h2⟩
      rcases h1 with ⟨e, g1, g2⟩ | ⟨e, g1, g2⟩ | ⟨e, g1, g2⟩ | ⟨e, g1, g2⟩ <;>
        rcases h2 with ⟨f, i1, i2⟩ | ⟨f, i1, i2⟩ | ⟨f, i1, i2⟩ | ⟨f, i1, i2⟩ <;>
        have e1 := congrArg Point.x e <;> have e2 := congrArg Point.y e <;> have f1 := congrArg Point.x f <;>
        have f2 := congrArg Point.y f <;> simp only [pt] at e1 e2 f1 f2 <;>
        first
          | (exfalso; linarith)
          | (left; rw [e]; ext <;> simp only [pt] <;> linarith)
          | (right; left; rw [e]; ext <;> simp only [pt] <;> linarith)
          | (right; right; left; rw [e]; ext <;> simp only [pt] <;> linarith)
          | (right; right; right; rw [e]; ext <;> simp only [pt] <;> linarith)
    · rintro (rfl | rfl | rfl | rfl) <;> norm_num [pt]
  have hfound : ∀ s ∈ [b, r, t, l], ∀ t ∈ [b', r', t', l'], ∀ x,
      (Covers s x ∧ Covers t x) ↔ ((intersections s t).ret = true ∧ x ∈ (intersections s t).pts) := by
    intro s hs q hq x
    obtain ⟨cb, cr, ct, cl⟩ := h.sides x
    obtain ⟨cb', cr', ct', cl'⟩ := k.sides x
    simp only [List.mem_cons, List.not_mem_nil, or_false] at hs hq
    rcases hs with rfl | rfl | rfl | rfl <;> rcases hq with rfl | rfl | rfl | rfl <;>
      simp only [e1, e2, e3, e4, e5, e6, e7, e8, e9, e10, e11, e12, e13, e14, e15, e16, cb, cr, ct, cl, cb', cr', ct', cl',
        Bool.false_eq_true, false_and, iff_false, true_and, List.mem_singleton]
    all_goals first
      | (constructor
         · rintro ⟨⟨e, g1, g2⟩, f, i1, i2⟩
           have e2 := congrArg Point.y e
           have f1 := congrArg Point.x f
           simp only [pt] at e2 f1
           rw [e, f1]
         · rintro rfl
           norm_num [pt])
      | (rintro ⟨⟨e, g1, g2⟩, f, i1, i2⟩
         have e1 := congrArg Point.x e
         have e2 := congrArg Point.y e
         have f1 := congrArg Point.x f
         have f2 := congrArg Point.y f
         simp only [pt] at e1 e2 f1 f2
         linarith)
  have hap : ∀ x y, Shared [b, r, t, l] [b', r', t', l'] x → Shared [b, r, t, l] [b', r', t', l'] y → PointMatches x y 1e-8 = true → x = y := by
    intro x y hx hy hm
    rw [hS] at hx hy
    rcases hx with rfl | rfl | rfl | rfl <;> rcases hy with rfl | rfl | rfl | rfl <;> first
      | rfl
      | (exfalso
         rw [show PointMatches _ _ 1e-8 = false by apart] at hm
         cases hm)
  have hcl : Clean [b, r, t, l] [b', r', t', l'] := by
    intro s hs q hq
    simp only [List.mem_cons, List.not_mem_nil, or_false] at hs hq
    rcases hs with rfl | rfl | rfl | rfl <;> rcases hq with rfl | rfl | rfl | rfl <;>
      simp only [e1, e2, e3, e4, e5, e6, e7, e8, e9, e10, e11, e12, e13, e14, e15, e16] <;> simp [Flag.fine]
  have h2 : ¬ Twice [b, r, t, l] [b', r', t', l'] := by
    rintro ⟨p, q, -, g⟩
    have g1 := (g (pt 1 (-1))).1 ((hS _).2 (by simp))
    have g2 := (g (pt (-1) (-1))).1 ((hS _).2 (by simp))
    have g3 := (g (pt 1 1)).1 ((hS _).2 (by simp))
    have f1 : pt 1 (-1) ≠ pt (-1) (-1) := by norm_num [pt]
    have f2 : pt 1 (-1) ≠ pt 1 1 := by norm_num [pt]
    have f3 : pt (-1) (-1) ≠ pt 1 1 := by norm_num [pt]
    rcases g1 with g1 | g1 <;> rcases g2 with g2 | g2 <;> rcases g3 with g3 | g3 <;> first
      | exact f1 (g1.trans g2.symm)
      | exact f2 (g1.trans g3.symm)
      | exact f3 (g2.trans g3.symm)
  have ko : ∀ s ∈ o.segs, s.kind = .line ∨ s.kind = .arc := by rw [s1]; exact fun s hs => Or.inl (h.made s hs).2
  have ka : ∀ s ∈ a.segs, s.kind = .line ∨ s.kind = .arc := by rw [s2]; exact fun s hs => Or.inl (k.made s hs).2
  have sh : Shared [b, r, t, l] [b', r', t', l'] (pt 1 1) := (hS _).2 (by simp)
  have sh' : Shared [b, r, t, l] [b', r', t', l'] (pt (-1) (-1)) := (hS _).2 (by simp)
  rw [← s1, ← s2] at hfound hap hcl h2 sh sh'
  obtain ⟨x, g1, g2, g3, -⟩ := C84_number opsub ko ka hfound hap hcl c1 c2 h2
  exact ⟨o, a, ⟨_, d1⟩, ⟨_, d2⟩, ko, ka, hfound, hap, hcl, c1, c2, h2, sh, sh', x, g1, g2, g3.2 ⟨_, sh⟩⟩

end Iges.Props
