import Verif.Lemmas.BoxCorner
import Verif.Props.MergeDone
/-
C84: a case that meets the hypotheses of `C84_region_partial`, and an outline that comes apart.
-/
namespace Iges.Props
open Iges.Geo Iges.Spec Iges.Turn Real Boxes

theorem corner_clean {b r t l b' r' t' l' : Seg} (h : Box b r t l 0 0 2 2) (k : Box b' r' t' l' (-1) (-1) 1 1) :
    Clean [b, r, t, l] [b', r', t', l'] := by
  obtain ⟨⟨h1, h2⟩, ⟨h3, h4, h5⟩, ⟨h6, h7, h8, h9⟩, ⟨h10, h11, h12, h13⟩, h14, h15, h16⟩ := corner_hits h k
  intro s hs t ht
  simp only [List.mem_cons, List.not_mem_nil, or_false] at hs ht
  rcases hs with rfl | rfl | rfl | rfl <;> rcases ht with rfl | rfl | rfl | rfl <;>
    simp only [h1, h2, h3, h4, h5, h6, h7, h8, h9, h10, h11, h12, h13, h14, h15, h16] <;> simp [Flag.fine]

/-- C84: a box that covers the lower left corner of another one, cut out or joined: both outlines can be drawn, all conditions of
`C84_region_partial` and `C84_success_partial` are met, the operation succeeds, and the point (0.5,0.5) is cut out, or the point (-0.5,-0.5) is added. -/
theorem ex_merge (opsub : Bool) : ∃ o a x, (∃ l m, Drawn l o ∧ Drawn m a) ∧ (∀ s ∈ o.segs, s.kind = .line ∨ s.kind = .arc) ∧
    (∀ s ∈ o.segs, Made s) ∧ (∀ s ∈ o.segs, Sharp s) ∧ (∀ s ∈ a.segs, s.kind = .line ∨ s.kind = .arc) ∧
    (∀ s ∈ a.segs, Made s) ∧ (∀ s ∈ a.segs, Sharp s) ∧ Round o.segs ∧ Round a.segs ∧ Proper o.segs ∧ Proper a.segs ∧
    OnePiece o.segs ∧ OnePiece a.segs ∧ Overlap o.segs a.segs ∧ Crosses o.segs a.segs ∧ JudgedBoth o a ∧
    o.closed = true ∧ a.closed = true ∧ Clean o.segs a.segs ∧ Twice o.segs a.segs ∧ (∀ s ∈ o.segs ++ a.segs, s.cw = false) ∧
    opShape o (some a) opsub = .returns x ∧ x.ret = true ∧ o.segs.length = 4 ∧ a.segs.length = 4 ∧
    (Inside o.segs (pt 0.5 0.5) ∧ Inside a.segs (pt 0.5 0.5)) ∧ ¬ Inside o.segs (pt (-0.5) (-0.5)) ∧ Inside a.segs (pt (-0.5) (-0.5)) := by
  obtain ⟨o, a, b, r, t, l, b', r', t', l', p1, p2, q1, q2, u1, u2, v1, v2, d1, d2, h⟩ := corner_exists
  obtain ⟨f1, r1, k1⟩ := h.box.proper
  obtain ⟨f2, r2, k2⟩ := h.box'.proper
  obtain ⟨x, hx, hret, -, -, -⟩ := h.result opsub
  refine ⟨o, a, x, ⟨_, _, d1, d2⟩, ?_⟩
  have hj := h.both
  rw [h.segs, h.segs']
  refine ⟨fun s hs => (f1 s hs).kind, fun s hs => (f1 s hs).made, fun s hs => (f1 s hs).sharp, fun s hs => (f2 s hs).kind,
    fun s hs => (f2 s hs).made, fun s hs => (f2 s hs).sharp, r1, r2, k1, k2, h.box.onePiece, h.box'.onePiece,
    corner_overlap h.box h.box', corner_crosses h.box h.box', hj, h.closed, h.closed',
    corner_clean h.box h.box', ⟨pt 1 0, pt 0 1, by norm_num [pt], corner_shared h.box h.box'⟩, ?_, hx, hret, rfl, rfl, ⟨?_, ?_⟩, ?_, ?_⟩
  · intro s hs
    rcases List.mem_append.1 hs with hs | hs
    · exact made_line_cw (h.box.made s hs).1 (h.box.made s hs).2
    · exact made_line_cw (h.box'.made s hs).1 (h.box'.made s hs).2
  · rw [h.box.inside ((h.box.off _ rfl).2 (by norm_num [pt]))]; norm_num [pt]
  · rw [h.box'.inside ((h.box'.off _ rfl).2 (by norm_num [pt]))]; norm_num [pt]
  · rw [h.box.inside ((h.box.off _ rfl).2 (by norm_num [pt]))]; norm_num [pt]
  · rw [h.box'.inside ((h.box'.off _ rfl).2 (by norm_num [pt]))]; norm_num [pt]

/-- C84 (counterexample). A box that covers the lower left corner of another one is cut out: `SubOutline` reports success, but the two
sides that bound the notch are put in in the wrong order, and the outline, which is still closed, is not contiguous. -/
theorem C84_order : ∃ o a x l m, Drawn l o ∧ Drawn m a ∧ isContiguous o = true ∧ isContiguous a = true ∧
    subShape o (some a) = .returns x ∧ x.ret = true ∧ x.error = false ∧ x.out.closed = true ∧ isContiguous x.out = false := by
  obtain ⟨o, a, b, r, t, l, b', r', t', l', p1, p2, q1, q2, u1, u2, v1, v2, d1, d2, h⟩ := corner_exists
  obtain ⟨x, hx, hret, herr, hcl, hs⟩ := h.result true
  have e1 := (C61_reverse_ends u2).1 (Or.inl (h.made u2 (by simp)).2)
  refine ⟨o, a, x, _, _, d1, d2, by rw [Outlines.C67_contiguous d1, h.closed], by rw [Outlines.C67_contiguous d2, h.closed'], hx, hret,
    herr, hcl, ?_⟩
  have far : PointMatches (pt 1 1) (pt 0 1) 1e-8 = false := by apart
  unfold isContiguous
  simp only [hs, if_true, List.getLast?_cons_cons, List.getLast?_singleton, hcl, Bool.not_true, Bool.false_eq_true, if_false]
  rw [if_neg (by rw [(C61_reverse_ends u2).2.1, (h.made u2 (by simp)).2]; simp)]
  unfold contiguousFrom
  rw [e1.1, h.u2e, h.q1e, far]
  rfl

end Iges.Props
