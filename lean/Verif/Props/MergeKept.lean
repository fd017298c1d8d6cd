import Verif.Lemmas.BoxCorner
import Verif.Props.Merge
/-
C84: what `SubOutline` and `AddOutline` leave when they do not succeed.
-/
namespace Iges.Props
open Iges.Geo Iges.Spec Iges.Turn Real Boxes

/-- C84. An outline that is not closed is refused, and so is the NULL pointer and an argument that is not closed: an error is
reported, and both outlines keep their segments. -/
theorem C84_refused (o : Outline) (a : Option Outline) (opsub : Bool)
    (h : o.closed = false ∨ ∀ x, a = some x → x.closed = false) :
    ∃ r, opShape o a opsub = .returns r ∧ r.ret = false ∧ r.error = true ∧ r.out.segs = o.segs ∧ r.out.closed = o.closed ∧
      ∀ x, a = some x → r.other = x := by
  unfold opShape
  dsimp only
  split
  · exact ⟨_, rfl, rfl, rfl, rfl, rfl, fun x e => by rw [e]; rfl⟩
  · rename_i hc
    cases a with
    | none => exact ⟨_, rfl, rfl, rfl, rfl, rfl, by simp⟩
    | some x =>
      rcases h with h | h
      · exact absurd h hc
      · dsimp only
        rw [if_pos (h x rfl)]
        exact ⟨_, rfl, rfl, rfl, rfl, rfl, fun y e => by cases e; rfl⟩

theorem pairHits_apart {s : Seg} {opsub : Bool} {i j : ℕ} {m : List Seg} (h : ∀ t ∈ m, intersections s t = ⟨[], .none, false⟩) :
    pairHits s opsub i [] j m = .points [] := by
  induction m generalizing j with
  | nil => rfl
  | cons t m ih =>
    have ht := h t (by simp)
    unfold pairHits
    simp only [ht, List.append_nil, Bool.false_eq_true, if_false, if_true]
    exact ih fun t ht => h t (by simp [ht])

theorem shapeHits_apart {l m : List Seg} {opsub : Bool} {i : ℕ}
    (h : ∀ s ∈ l, ∀ t ∈ m, intersections s t = ⟨[], .none, false⟩) : shapeHits m opsub i l = .points [] := by
  induction l generalizing i with
  | nil => rfl
  | cons s l ih =>
    unfold shapeHits
    rw [pairHits_apart (h s (by simp)), ih fun s hs => h s (by simp [hs])]
    rfl

/-- C84. Closed outlines whose segments do not meet, whether apart or one within the other, keep their segments; the result is false
and there is no error. -/
theorem C84_apart {o a : Outline} (opsub : Bool) (ho : o.closed = true) (ha : a.closed = true)
    (h : ∀ s ∈ o.segs, ∀ t ∈ a.segs, intersections s t = ⟨[], .none, false⟩) :
    ∃ r, opShape o (some a) opsub = .returns r ∧ r.ret = false ∧ r.error = false ∧ r.out.segs = o.segs ∧ r.out.closed = true ∧ r.other = a := by
  unfold opShape
  dsimp only
  rw [if_neg (by rw [ho]; simp), if_neg (by rw [ha]; simp), shapeHits_apart h]
  exact ⟨_, rfl, rfl, rfl, rfl, ho, rfl⟩

/-- the same border in other pieces goes round the same region -/
theorem _root_.Iges.Turn.Refined.region {l l' : List Seg} {pts : List (Point ℝ)} (hf : ∀ s ∈ l, Fit s) (hr : Round l) (h : Refined l l' pts)
    (hp : Proper l) : Proper l' ∧ ∀ x, OffBorder l x → (Inside l' x ↔ Inside l x) := by
  have hoff : ∀ x, OffBorder l' x ↔ OffBorder l x := by
    intro x
    unfold OffBorder
    have := h.covers x
    constructor
    · rintro ⟨z, g⟩; exact ⟨z, fun s hs hc => by obtain ⟨t, ht, hc⟩ := this.2 ⟨s, hs, hc⟩; exact g t ht hc⟩
    · rintro ⟨z, g⟩; exact ⟨z, fun s hs hc => by obtain ⟨t, ht, hc⟩ := this.1 ⟨s, hs, hc⟩; exact g t ht hc⟩
  have hp' : Proper l' := by
    rw [proper_iff h.fit h.round]
    intro p hpo
    rw [h.turns]
    exact (proper_iff hf hr).1 hp p ((hoff p).1 hpo)
  refine ⟨hp', fun x hx => ?_⟩
  rw [inside_one h.fit h.round hp' ((hoff x).2 hx), inside_one hf hr hp hx, h.turns]

theorem _root_.Iges.Turn.Refined.refl {l : List Seg} (hf : ∀ s ∈ l, Fit s) (hr : Round l) : Refined l l [] :=
  ⟨hf, hr, fun _ => rfl, fun _ => Iff.rfl, fun t ht => Or.inl ⟨t, ht, rfl⟩⟩

/-- C84. An outline is to be cut out of an outline, or joined to it, and the result is false without an error.  Both are made of
lines and arcs and run round; they cross away from their corners and `GetIntersections` finds the common points.  Then both outlines
still run round, their borders have the same points as before, and their regions are the same, although their segments may have
been split.  What is missing: outlines with a circle, common points at corners, and what an error leaves. -/
theorem C84_kept_partial {o a : Outline} {opsub : Bool} {r : MergeRes}
    (ko : ∀ s ∈ o.segs, s.kind = .line ∨ s.kind = .arc) (mo : ∀ s ∈ o.segs, Made s) (so : ∀ s ∈ o.segs, Sharp s)
    (ka : ∀ s ∈ a.segs, s.kind = .line ∨ s.kind = .arc) (ma : ∀ s ∈ a.segs, Made s) (sa : ∀ s ∈ a.segs, Sharp s)
    (ro : Round o.segs) (ra : Round a.segs) (hx : Crosses o.segs a.segs)
    (h : opShape o (some a) opsub = .returns r) (hr : r.ret = false) (he : r.error = false) :
    (Round r.out.segs ∧ (∀ x, (∃ s ∈ r.out.segs, Covers s x) ↔ ∃ s ∈ o.segs, Covers s x) ∧
      (Proper o.segs → Proper r.out.segs ∧ ∀ x, OffBorder o.segs x → (Inside r.out.segs x ↔ Inside o.segs x))) ∧
    (Round r.other.segs ∧ (∀ x, (∃ s ∈ r.other.segs, Covers s x) ↔ ∃ s ∈ a.segs, Covers s x) ∧
      (Proper a.segs → Proper r.other.segs ∧ ∀ x, OffBorder a.segs x → (Inside r.other.segs x ↔ Inside a.segs x))) := by
  have hfo : ∀ s ∈ o.segs, Fit s := fun s hs => ⟨ko s hs, mo s hs, so s hs⟩
  have hfa : ∀ s ∈ a.segs, Fit s := fun s hs => ⟨ka s hs, ma s hs, sa s hs⟩
  suffices g : (∃ u, Refined o.segs r.out.segs u) ∧ ∃ v, Refined a.segs r.other.segs v by
    obtain ⟨⟨u, g1⟩, v, g2⟩ := g
    exact ⟨⟨g1.round, g1.covers, g1.region hfo ro⟩, g2.round, g2.covers, g2.region hfa ra⟩
  have same : (∃ u, Refined o.segs o.segs u) ∧ ∃ v, Refined a.segs a.segs v := ⟨⟨_, .refl hfo ro⟩, _, .refl hfa ra⟩
  unfold opShape at h
  dsimp only at h
  split at h
  · cases h; cases he
  split at h
  · cases h; cases he
  split at h
  · cases h; cases he
  · cases h; exact same
  rename_i hits hh
  split at h
  · cases h; exact same
  · rename_i p q hd
    obtain ⟨-, hpq, ⟨s1, P1⟩, ⟨s2, Q1⟩, ⟨s3, P2⟩, s4, Q2⟩ := cross_points hfo hfa ro ra hx hh hd
    generalize hs : splitBoth o.segs p.2.1 q.2.1 p.1 q.1 = s at h
    generalize ht : splitBoth a.segs p.2.2 q.2.2 p.1 q.1 = t at h
    obtain ⟨l1, k1, b1⟩ := s
    obtain ⟨l2, k2, b2⟩ := t
    dsimp only at h
    split at h
    · cases h; cases he
    rename_i hb1
    split at h
    · cases h; cases he
    rename_i hb2
    have hb1 : b1 = true := by simpa using hb1
    have hb2 : b2 = true := by simpa using hb2
    subst hb1 hb2
    have split : (∃ u, Refined o.segs l1 u) ∧ ∃ v, Refined a.segs l2 v :=
      ⟨⟨_, (splitBoth_spec hfo ro P1 Q1 hpq hs).1⟩, _, (splitBoth_spec hfa ra P2 Q2 hpq ht).1⟩
    unfold overlap at h
    dsimp only at h
    split at h
    · cases h; exact split
    split at h
    · cases h; cases he
    split at h
    · cases h; exact split
    split at h
    · cases h; cases he
    split at h
    · cases h; exact split
    unfold trim at h
    dsimp only at h
    split at h
    · cases h; cases he
    split at h
    · cases h; cases he
    unfold stitch at h
    dsimp only at h
    split at h
    · cases h
    split at h
    · cases h; cases hr
    split at h
    · cases h
    split at h
    · cases h
    · cases h; cases hr
  · cases h; cases he

/-- the sides of two boxes that are apart do not meet -/
theorem apart_hits {b r t l b' r' t' l' : Seg} (h : Box b r t l 0 0 2 2) (k : Box b' r' t' l' 3 3 5 5) :
    ∀ s ∈ [b, r, t, l], ∀ t ∈ [b', r', t', l'], intersections s t = ⟨[], .none, false⟩ := by
  have mb := h.made b (by simp)
  have mr := h.made r (by simp)
  have mt := h.made t (by simp)
  have ml := h.made l (by simp)
  have nb := k.made b' (by simp)
  have nr := k.made r' (by simp)
  have nt := k.made t' (by simp)
  have nl := k.made l' (by simp)
  intro s hs q hq
  simp only [List.mem_cons, List.not_mem_nil, or_false] at hs hq
  rcases hs with rfl | rfl | rfl | rfl <;> rcases hq with rfl | rfl | rfl | rfl
  · exact beside mb nb h.b1 h.b2 k.b1 k.b2 (by axis) (by axis)
  · exact misses mb nr h.b1 h.b2 k.r1 k.r2 (pt 5 0) (2.5) (-1.5) (by axis) (by axis) (by axis) (by norm_num)
  · exact beside mb nt h.b1 h.b2 k.t1 k.t2 (by axis) (by axis)
  · exact misses mb nl h.b1 h.b2 k.l1 k.l2 (pt 3 0) (1.5) (2.5) (by axis) (by axis) (by axis) (by norm_num)
  · exact misses mr nb h.r1 h.r2 k.b1 k.b2 (pt 2 3) (1.5) (-0.5) (by axis) (by axis) (by axis) (by norm_num)
  · exact beside mr nr h.r1 h.r2 k.r1 k.r2 (by axis) (by axis)
  · exact misses mr nt h.r1 h.r2 k.t1 k.t2 (pt 2 5) (2.5) (1.5) (by axis) (by axis) (by axis) (by norm_num)
  · exact beside mr nl h.r1 h.r2 k.l1 k.l2 (by axis) (by axis)
  · exact beside mt nb h.t1 h.t2 k.b1 k.b2 (by axis) (by axis)
  · exact misses mt nr h.t1 h.t2 k.r1 k.r2 (pt 5 2) (-1.5) (-0.5) (by axis) (by axis) (by axis) (by norm_num)
  · exact beside mt nt h.t1 h.t2 k.t1 k.t2 (by axis) (by axis)
  · exact misses mt nl h.t1 h.t2 k.l1 k.l2 (pt 3 2) (-0.5) (1.5) (by axis) (by axis) (by axis) (by norm_num)
  · exact misses ml nb h.l1 h.l2 k.b1 k.b2 (pt 0 3) (-0.5) (-1.5) (by axis) (by axis) (by axis) (by norm_num)
  · exact beside ml nr h.l1 h.l2 k.r1 k.r2 (by axis) (by axis)
  · exact misses ml nt h.l1 h.l2 k.t1 k.t2 (pt 0 5) (-1.5) (2.5) (by axis) (by axis) (by axis) (by norm_num)
  · exact beside ml nl h.l1 h.l2 k.l1 k.l2 (by axis) (by axis)

/-- C84: two boxes that are apart: both can be drawn, and they meet the hypotheses of `C84_apart` and of `C84_kept_partial`. -/
theorem ex_apart (opsub : Bool) : ∃ o a x, (∃ l m, Drawn l o ∧ Drawn m a) ∧ o.closed = true ∧ a.closed = true ∧
    (∀ s ∈ o.segs, ∀ t ∈ a.segs, intersections s t = ⟨[], .none, false⟩) ∧ (∀ s ∈ o.segs, Fit s) ∧ (∀ s ∈ a.segs, Fit s) ∧
    Round o.segs ∧ Round a.segs ∧ Proper o.segs ∧ Proper a.segs ∧ Crosses o.segs a.segs ∧
    opShape o (some a) opsub = .returns x ∧ x.ret = false ∧ x.error = false ∧ x.out.segs.length = 4 ∧ x.other.segs.length = 4 := by
  obtain ⟨b, r, t, l, o, h1, h2, h3, h4, -⟩ := ex_box 0 (by norm_num)
  obtain ⟨b', r', t', l', a, k1, k2, k3, k4, -⟩ := ex_box 3 (by norm_num)
  norm_num at h2 k2
  obtain ⟨f1, r1, p1⟩ := h2.proper
  obtain ⟨f2, r2, p2⟩ := k2.proper
  have hh := apart_hits h2 k2
  rw [← h4] at hh f1 r1 p1
  rw [← k4] at hh f2 r2 p2
  obtain ⟨x, e1, e2, e3, e4, -, e5⟩ := C84_apart opsub h3 k3 hh
  have hns : ∀ x, ¬ Shared o.segs a.segs x := by
    intro x hx
    obtain ⟨cb, cr, ct, cl⟩ := h2.sides x
    obtain ⟨cb', cr', ct', cl'⟩ := k2.sides x
    rw [h4, k4] at hx
    unfold Shared at hx
    simp only [List.mem_cons, List.not_mem_nil, or_false, exists_eq_or_imp, exists_eq_left, cb, cr, ct, cl, cb', cr', ct', cl'] at hx
    obtain ⟨g1, g2⟩ := hx
    rcases g1 with ⟨e, g1, g1'⟩ | ⟨e, g1, g1'⟩ | ⟨e, g1, g1'⟩ | ⟨e, g1, g1'⟩ <;>
      rcases g2 with ⟨f, i1, i2⟩ | ⟨f, i1, i2⟩ | ⟨f, i1, i2⟩ | ⟨f, i1, i2⟩ <;>
      have e1 := congrArg Point.x e <;> have e2 := congrArg Point.y e <;> have f1 := congrArg Point.x f <;>
      have f2 := congrArg Point.y f <;> simp only [pt] at e1 e2 f1 f2 <;> linarith
  refine ⟨o, a, x, ⟨_, _, h1, k1⟩, h3, k3, hh, f1, f2, r1, r2, p1, p2, ⟨?_, ?_, ?_, ?_⟩, e1, e2, e3, by rw [e4, h4]; rfl,
    by rw [e5, k4]; rfl⟩
  · intro s hs q hq y
    constructor
    · intro hc; exact absurd ⟨⟨s, hs, hc.1⟩, q, hq, hc.2⟩ (hns y)
    · intro hc; rw [hh s hs q hq] at hc; cases hc.1
  · intro y z hy; exact absurd hy (hns y)
  · intro s _ y hy; exact absurd hy (hns y)
  · intro y hy; exact absurd hy (hns y)

end Iges.Props
