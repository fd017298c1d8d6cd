import Verif.Props.RegionDone
import Verif.Props.OutlineOpCases
import Verif.Lemmas.Boxes
/-
C83: cases that meet the hypotheses of `C83_number` and `C83_one_side`.
-/
namespace Iges.Props
open Iges.Geo Iges.Spec Iges.Turn Real OutlineOps Iges.Props.Boxes Iges.Props.Inside

namespace RegionNumber

/-- a circle that touches a line -/
theorem touches {s c : Seg} (hm : Made s) (hk : s.kind = .line) (kc : c.kind = .circle) {τ : ℝ}
    (hD : quadB c.center s.start s.stop * quadB c.center s.start s.stop -
      4 * quadA s.start s.stop * quadC c.center c.radius s.stop = 0)
    (ht : -quadB c.center s.start s.stop / (2 * quadA s.start s.stop) = τ) (h0 : 0 ≤ τ) (h1 : τ ≤ 1) :
    intersections s c = ⟨[onLine s.start s.stop τ], .tangent, true⟩ := by
  obtain ⟨gs, ge, -, -, -⟩ := line_ends hm hk
  unfold intersections
  rw [hk, kc]
  simp only
  unfold checkArcLine
  rw [if_neg (by rw [hk]; simp)]
  unfold arcLine
  simp only [gs, ge]
  rw [hD, ht, if_pos (by rw [kc]; norm_num), if_neg (by rintro (h | h) <;> linarith)]

/-- the square with the corners (0,0) and (2,2) -/
theorem square : ∃ b r t l o, Drawn [b, r, t, l] o ∧ Box b r t l 0 0 2 2 ∧ o.closed = true ∧
    o.segs = [b, r, t, l] ∧ o.lo.x = 0 ∧ o.lo.y = 0 ∧ o.hi.x = 2 ∧ o.hi.y = 2 := by
  have := ex_box 0 (by norm_num)
  simpa using this

theorem corners {b r t l c : Seg} (h : Box b r t l 0 0 2 2) {a : ℝ} (ha : a = 1 ∨ a = 0.5) (cov : ∀ x, Covers c x ↔ OnCircle (pt a 0.5) 0.5 x) :
    ∀ s ∈ [b, r, t, l], ∀ x, Covers c x → PointMatches x s.start 1e-8 = false := by
  intro s hs x hx
  obtain ⟨h1, hz⟩ := (cov x).1 hx
  simp only [planar2, pt] at h1
  have x1 : -1 ≤ x.x ∧ x.x ≤ 2 := by rcases ha with rfl | rfl <;> constructor <;> nlinarith [sq_nonneg (x.y - 0.5)]
  have y1 : 0 ≤ x.y ∧ x.y ≤ 1 := by constructor <;> nlinarith [sq_nonneg (x.x - a)]
  have hst : s.start.x ^ 2 + s.start.y ^ 2 ≤ 8 ∧ s.start.z = 0 ∧ 0.01 ≤ (x.x - s.start.x) ^ 2 + (x.y - s.start.y) ^ 2 := by
    simp only [List.mem_cons, List.not_mem_nil, or_false] at hs
    rcases hs with rfl | rfl | rfl | rfl
    · rw [h.b1]; refine ⟨by norm_num [pt], rfl, ?_⟩
      simp only [pt]
      rcases ha with rfl | rfl <;> nlinarith [sq_nonneg (x.x - 0.2), sq_nonneg (x.y - 0.2), sq_nonneg (x.x - x.y)]
    · rw [h.r1]; refine ⟨by norm_num [pt], rfl, ?_⟩
      simp only [pt]
      rcases ha with rfl | rfl <;> nlinarith [sq_nonneg (x.x - 1.8), sq_nonneg (x.y - 0.2), sq_nonneg (2 - x.x - x.y)]
    · rw [h.t1]; refine ⟨by norm_num [pt], rfl, ?_⟩
      simp only [pt]
      nlinarith [sq_nonneg (x.x - 2)]
    · rw [h.l1]; refine ⟨by norm_num [pt], rfl, ?_⟩
      simp only [pt]
      nlinarith [sq_nonneg (x.x - 2)]
  obtain ⟨s1, s2, s3⟩ := hst
  apply no_match
  · norm_num
  · simp only [norm2]; rw [hz]; nlinarith
  · simp only [norm2]; rw [s2]; nlinarith
  · simp only [dist2]
    norm_num at s3 ⊢
    nlinarith [sq_nonneg (x.z - s.start.z)]

end RegionNumber

open RegionNumber in
/-- C83: a hole that touches the bottom of the square from the inside: one common point, so cutting it out and joining it report an
error and change nothing. -/
theorem ex_touching (opsub : Bool) : ∃ (o : Outline) (c : Seg), c.kind = .circle ∧ Crossed o.segs c ∧ o.closed = true ∧ Clean o.segs [c] ∧
    (¬ ∃ p q, p ≠ q ∧ ∀ x, Common o.segs c x ↔ x = p ∨ x = q) ∧ (∃ x, Common o.segs c x) ∧ o.segs.length = 4 ∧
    (opCircle o (some c) opsub).error = true := by
  obtain ⟨b, r, t, l, o, hd, hb, hcl, hs, -⟩ := square
  obtain ⟨c, hcc, kc, cc, cr⟩ := ex_hole (x := 1) (y := 0.5) (r := 0.5) (by norm_num) (by norm_num)
  have cov : ∀ x, Covers c x ↔ OnCircle (pt 1 0.5) 0.5 x := by intro x; unfold Covers; rw [kc, cc, cr]
  have ib : intersections b c = ⟨[onLine b.start b.stop 0.5], .tangent, true⟩ := by
    apply touches (hb.made b (by simp)).1 (hb.made b (by simp)).2 kc
    · rw [cc, cr, hb.b1, hb.b2]; norm_num [quadA, quadB, quadC, pt]
    · rw [cc, hb.b1, hb.b2]; norm_num [quadA, quadB, pt]
    · norm_num
    · norm_num
  have im : ∀ s ∈ [r, t, l], intersections s c = ⟨[], .none, false⟩ := by
    intro s h
    have hms := hb.made s (by simp at h ⊢; tauto)
    refine misses hms.1 hms.2 kc ?_
    rw [cc, cr]
    simp at h
    rcases h with rfl | rfl | rfl
    · rw [hb.r1, hb.r2]; norm_num [quadA, quadB, quadC, pt]
    · rw [hb.t1, hb.t2]; norm_num [quadA, quadB, quadC, pt]
    · rw [hb.l1, hb.l2]; norm_num [quadA, quadB, quadC, pt]
  have e0 : onLine b.start b.stop 0.5 = pt 1 0 := by rw [hb.b1, hb.b2]; norm_num [onLine, pt]
  have bottom : ∀ x, (Covers b x ∧ Covers c x) ↔ x = pt 1 0 := by
    intro x
    rw [(hb.sides x).1, cov]
    constructor
    · rintro ⟨⟨e, -, -⟩, h, -⟩
      rw [e] at h ⊢
      simp only [planar2, pt] at h
      have : x.x = 1 := by nlinarith
      rw [this]
    · rintro rfl
      exact ⟨⟨rfl, by norm_num [pt], by norm_num [pt]⟩, by norm_num [planar2, pt], rfl⟩
  have none : ∀ s ∈ [r, t, l], ∀ x, Covers s x → ¬ Covers c x := by
    intro s h x hx hcx
    obtain ⟨h1, hz⟩ := (cov x).1 hcx
    obtain ⟨-, cr', ct, cl⟩ := hb.sides x
    simp only [List.mem_cons, List.not_mem_nil, or_false] at h
    simp only [planar2, pt] at h1
    rcases h with rfl | rfl | rfl
    · have := congrArg Point.x (cr'.1 hx).1
      simp only [pt] at this; rw [this] at h1; nlinarith [sq_nonneg (x.y - 0.5)]
    · have := congrArg Point.y (ct.1 hx).1
      simp only [pt] at this; rw [this] at h1; nlinarith [sq_nonneg (x.x - 1)]
    · have := congrArg Point.x (cl.1 hx).1
      simp only [pt] at this; rw [this] at h1; nlinarith [sq_nonneg (x.y - 0.5)]
  have common : ∀ x, Common o.segs c x ↔ x = pt 1 0 := by
    intro x
    rw [← bottom, hs]
    constructor
    · rintro ⟨h1, s, h, h2⟩
      by_cases e : s = b
      · subst e; exact ⟨h2, h1⟩
      · exact absurd h1 (none s (by simp at h ⊢; tauto) x h2)
    · rintro ⟨h1, h2⟩
      exact ⟨h2, b, by simp, h1⟩
  have hcross : Crossed o.segs c := by
    refine ⟨?_, ?_, ?_, ?_, ?_⟩
    · intro s h x
      rw [hs] at h
      by_cases e : s = b
      · subst e; rw [bottom, ib, e0]; simp
      · have h' : s ∈ [r, t, l] := by simp at h ⊢; tauto
        rw [im s h']
        simp only [Bool.false_eq_true, false_and, iff_false, not_and]
        exact none s h' x
    · intro x y hx hy _
      rw [(common x).1 hx, (common y).1 hy]
    · rw [hs]; exact corners hb (Or.inl rfl) cov
    · rw [hs]
      simp only [List.pairwise_cons, List.mem_cons, List.not_mem_nil, or_false]
      refine ⟨fun s hs x _ h2 => none s (by simp; tauto) x h2, fun s _ x h1 _ => none r (by simp) x h1,
        fun s _ x h1 _ => none t (by simp) x h1, by simp⟩
    · intro s h e
      rw [hs] at h
      rw [(hb.made s h).2] at e; cases e
  have hclean : Clean o.segs [c] := by
    rw [hs]
    intro s h c' hc'
    obtain rfl := List.mem_singleton.1 hc'
    by_cases e : s = b
    · subst e; rw [ib]; simp [Flag.fine]
    · rw [im s (by simp at h ⊢; tauto)]; simp
  have h2 : ¬ ∃ p q, p ≠ q ∧ ∀ x, Common o.segs c x ↔ x = p ∨ x = q := by
    rintro ⟨p, q, hne, h⟩
    exact hne (((common p).1 ((h p).2 (Or.inl rfl))).trans ((common q).1 ((h q).2 (Or.inr rfl))).symm)
  exact ⟨o, c, kc, hcross, hcl, hclean, h2, ⟨_, (common _).2 rfl⟩, by rw [hs]; rfl,
    (C83_number opsub kc hcross hcl hclean h2).2.1.2 ⟨_, (common _).2 rfl⟩⟩

open RegionNumber in
/-- C83: a hole that touches the bottom and the left side of the square from the inside: two common points, all other points of the
circle inside.  Nothing happens and no error is reported. -/
example (opsub : Bool) : ∃ (o : Outline) (c : Seg), Made c ∧ c.kind = .circle ∧ Crossed o.segs c ∧ Judged o c ∧ o.closed = true ∧ Clean o.segs [c] ∧
    (∃ p q, p ≠ q ∧ ∀ x, Common o.segs c x ↔ x = p ∨ x = q) ∧
    (∀ x y, Covers c x → Covers c y → OffBorder o.segs x → OffBorder o.segs y → (Inside o.segs x ↔ Inside o.segs y)) ∧
    o.segs.length = 4 ∧ (opCircle o (some c) opsub).ret = false ∧ (opCircle o (some c) opsub).error = false := by
  obtain ⟨b, r, t, l, o, hd, hb, hcl, hs, x0, y0, x1, y1⟩ := square
  obtain ⟨c, hcc, kc, cc, cr⟩ := ex_hole (x := 0.5) (y := 0.5) (r := 0.5) (by norm_num) (by norm_num)
  have cov : ∀ x, Covers c x ↔ OnCircle (pt 0.5 0.5) 0.5 x := by intro x; unfold Covers; rw [kc, cc, cr]
  have ib : intersections b c = ⟨[onLine b.start b.stop 0.75], .tangent, true⟩ := by
    apply touches (hb.made b (by simp)).1 (hb.made b (by simp)).2 kc
    · rw [cc, cr, hb.b1, hb.b2]; norm_num [quadA, quadB, quadC, pt]
    · rw [cc, hb.b1, hb.b2]; norm_num [quadA, quadB, pt]
    · norm_num
    · norm_num
  have il : intersections l c = ⟨[onLine l.start l.stop 0.25], .tangent, true⟩ := by
    apply touches (hb.made l (by simp)).1 (hb.made l (by simp)).2 kc
    · rw [cc, cr, hb.l1, hb.l2]; norm_num [quadA, quadB, quadC, pt]
    · rw [cc, hb.l1, hb.l2]; norm_num [quadA, quadB, pt]
    · norm_num
    · norm_num
  have im : ∀ s ∈ [r, t], intersections s c = ⟨[], .none, false⟩ := by
    intro s h
    have hms := hb.made s (by simp at h ⊢; tauto)
    refine misses hms.1 hms.2 kc ?_
    rw [cc, cr]
    simp at h
    rcases h with rfl | rfl
    · rw [hb.r1, hb.r2]; norm_num [quadA, quadB, quadC, pt]
    · rw [hb.t1, hb.t2]; norm_num [quadA, quadB, quadC, pt]
  have e0 : onLine b.start b.stop 0.75 = pt 0.5 0 := by rw [hb.b1, hb.b2]; norm_num [onLine, pt]
  have e1 : onLine l.start l.stop 0.25 = pt 0 0.5 := by rw [hb.l1, hb.l2]; norm_num [onLine, pt]
  have bottom : ∀ x, (Covers b x ∧ Covers c x) ↔ x = pt 0.5 0 := by
    intro x
    rw [(hb.sides x).1, cov]
    constructor
    · rintro ⟨⟨e, -, -⟩, h, -⟩
      rw [e] at h ⊢
      simp only [planar2, pt] at h
      have : x.x = 0.5 := by nlinarith
      rw [this]
    · rintro rfl
      exact ⟨⟨rfl, by norm_num [pt], by norm_num [pt]⟩, by norm_num [planar2, pt], rfl⟩
  have left : ∀ x, (Covers l x ∧ Covers c x) ↔ x = pt 0 0.5 := by
    intro x
    rw [(hb.sides x).2.2.2, cov]
    constructor
    · rintro ⟨⟨e, -, -⟩, h, -⟩
      rw [e] at h ⊢
      simp only [planar2, pt] at h
      have : x.y = 0.5 := by nlinarith
      rw [this]
    · rintro rfl
      exact ⟨⟨rfl, by norm_num [pt], by norm_num [pt]⟩, by norm_num [planar2, pt], rfl⟩
  have none : ∀ s ∈ [r, t], ∀ x, Covers s x → ¬ Covers c x := by
    intro s h x hx hcx
    obtain ⟨h1, hz⟩ := (cov x).1 hcx
    obtain ⟨-, cr', ct, -⟩ := hb.sides x
    simp only [List.mem_cons, List.not_mem_nil, or_false] at h
    simp only [planar2, pt] at h1
    rcases h with rfl | rfl
    · have := congrArg Point.x (cr'.1 hx).1
      simp only [pt] at this; rw [this] at h1; nlinarith [sq_nonneg (x.y - 0.5)]
    · have := congrArg Point.y (ct.1 hx).1
      simp only [pt] at this; rw [this] at h1; nlinarith [sq_nonneg (x.x - 0.5)]
  have common : ∀ x, Common o.segs c x ↔ x = pt 0.5 0 ∨ x = pt 0 0.5 := by
    intro x
    rw [← bottom, ← left, hs]
    constructor
    · rintro ⟨h1, s, h, h2⟩
      by_cases e : s = b
      · subst e; exact Or.inl ⟨h2, h1⟩
      · by_cases e' : s = l
        · subst e'; exact Or.inr ⟨h2, h1⟩
        · exact absurd h1 (none s (by simp at h ⊢; tauto) x h2)
    · rintro (⟨h1, h2⟩ | ⟨h1, h2⟩)
      · exact ⟨h2, b, by simp, h1⟩
      · exact ⟨h2, l, by simp, h1⟩
  have hcross : Crossed o.segs c := by
    refine ⟨?_, ?_, ?_, ?_, ?_⟩
    · intro s h x
      rw [hs] at h
      by_cases e : s = b
      · subst e; rw [bottom, ib, e0]; simp
      · by_cases e' : s = l
        · subst e'; rw [left, il, e1]; simp
        · have h' : s ∈ [r, t] := by simp at h ⊢; tauto
          rw [im s h']
          simp only [Bool.false_eq_true, false_and, iff_false, not_and]
          exact none s h' x
    · intro x y hx hy hxy
      rcases (common x).1 hx with rfl | rfl <;> rcases (common y).1 hy with rfl | rfl
      · rfl
      · rw [show PointMatches (pt 0.5 0) (pt 0 0.5) 1e-8 = false by apart] at hxy; cases hxy
      · rw [show PointMatches (pt 0 0.5) (pt 0.5 0) 1e-8 = false by apart] at hxy; cases hxy
      · rfl
    · rw [hs]; exact corners hb (Or.inr rfl) cov
    · rw [hs]
      have bl : ∀ x, Covers b x → Covers l x → ¬ Covers c x := by
        intro x h1 h2 h3
        have a1 := (bottom x).1 ⟨h1, h3⟩
        have a2 := (left x).1 ⟨h2, h3⟩
        rw [a1] at a2
        norm_num [pt] at a2
      simp only [List.pairwise_cons, List.mem_cons, List.not_mem_nil, or_false]
      refine ⟨fun s hs x h1 h2 => ?_, fun s _ x h1 _ => none r (by simp) x h1,
        fun s _ x h1 _ => none t (by simp) x h1, by simp⟩
      rcases hs with rfl | rfl | rfl
      · exact none _ (by simp) x h2
      · exact none _ (by simp) x h2
      · exact bl x h1 h2
    · intro s h e
      rw [hs] at h
      rw [(hb.made s h).2] at e; cases e
  have hclean : Clean o.segs [c] := by
    rw [hs]
    intro s h c' hc'
    obtain rfl := List.mem_singleton.1 hc'
    by_cases e : s = b
    · subst e; rw [ib]; simp [Flag.fine]
    · by_cases e' : s = l
      · subst e'; rw [il]; simp [Flag.fine]
      · rw [im s (by simp at h ⊢; tauto)]; simp
  have ins : ∀ x, Covers c x → OffBorder o.segs x → Inside o.segs x := by
    intro x hx hoff
    obtain ⟨h1, hz⟩ := (cov x).1 hx
    simp only [planar2, pt] at h1
    rw [hs] at hoff ⊢
    rw [hb.inside hoff]
    rcases (hb.off x hz).1 hoff with h | h
    · exfalso
      rcases h with h | h | h | h <;> nlinarith [sq_nonneg (x.x - 0.5), sq_nonneg (x.y - 0.5)]
    · exact h
  have hjudged : Judged o c := by
    intro y hy heq β hβ
    have h1 := heq _ _ ((common _).2 (Or.inl rfl)) ((common _).2 (Or.inr rfl))
    obtain ⟨h2, hz⟩ := (cov y).1 hy
    simp only [planar2, pt] at h1 h2
    have hxy : y.x = y.y := by nlinarith
    rw [hxy] at h2
    have ha : 0.1 ≤ y.y ∧ y.y ≤ 0.9 := by constructor <;> nlinarith
    obtain ⟨a, rfl⟩ : ∃ a, y = pt a a := ⟨y.y, by ext <;> simp [pt, hxy, hz]⟩
    simp only [pt] at ha
    obtain ⟨a1, a2⟩ := ha
    have hoff : OffBorder o.segs (pt a a) := by
      rw [hs, hb.off _ rfl]; right; simp only [pt]; norm_num at a1 a2; refine ⟨?_, ?_, ?_, ?_⟩ <;> linarith
    have hin := ins _ hy hoff
    obtain ⟨hf, hround, hproper⟩ := hb.proper
    have hclear : ∀ s ∈ o.segs, Clear (o.hi.x - o.lo.x) (pt a a) s := by
      intro s h
      rw [hs] at h
      have hsd := fun q => hb.sides q
      unfold Clear
      rw [(hb.made s h).2, x0, x1]
      have p1 : |a| = a := abs_of_nonneg (by norm_num at a1; linarith)
      have p2 : |a - 2| = 2 - a := by rw [abs_sub_comm, abs_of_nonneg]; norm_num at a2; linarith
      norm_num at a1 a2
      simp at h
      rcases h with rfl | rfl | rfl | rfl
      · simp only [hb.b1, hb.b2, pt, sub_zero, sub_self, abs_zero, p1]
        refine ⟨?_, by norm_num; linarith, by norm_num; linarith, Or.inl ⟨trivial, by norm_num; linarith⟩⟩
        intro q hq hy
        have := congrArg Point.y ((hsd q).1.1 hq).1
        simp only [pt] at this; exfalso; linarith
      · simp only [hb.r1, hb.r2, pt, sub_zero, sub_self, abs_zero, p1, p2]
        refine ⟨?_, by norm_num; linarith, by norm_num; linarith, Or.inr (by norm_num)⟩
        intro q hq hy
        have := congrArg Point.x ((hsd q).2.1.1 hq).1
        simp only [pt] at this; rw [this, abs_sub_comm, p2]; norm_num; linarith
      · simp only [hb.t1, hb.t2, pt, sub_zero, sub_self, abs_zero, p2]
        refine ⟨?_, by norm_num; linarith, by norm_num; linarith, Or.inl ⟨trivial, by norm_num; linarith⟩⟩
        intro q hq hy
        have := congrArg Point.y ((hsd q).2.2.1.1 hq).1
        simp only [pt] at this; exfalso; linarith
      · simp only [hb.l1, hb.l2, pt, sub_zero, sub_self, abs_zero, p1, p2]
        refine ⟨?_, by norm_num; linarith, by norm_num; linarith, Or.inr (by norm_num)⟩
        intro q hq hy
        have := congrArg Point.x ((hsd q).2.2.2.1 hq).1
        simp only [pt] at this; rw [this, zero_sub, abs_neg, p1]; norm_num; linarith
    classical
    norm_num at a1 a2
    rw [C68_inside_partial hd (fun s h => (hb.made s h).1) hcl rfl (by rw [x0, x1]; simp only [pt]; constructor <;> linarith)
      (by rw [y0, y1]; simp only [pt]; constructor <;> linarith) (by rw [x0, x1, y0, y1]; norm_num) hclear] at hβ
    obtain rfl := Option.some.inj hβ
    rw [decide_eq_true_iff]
    refine ⟨fun _ => hin, fun _ => ?_⟩
    have hpl : ∀ s ∈ o.segs, Iges.Spec.Plain s (pt a a) := by
      intro s h
      rw [hs] at h
      refine ⟨?_, ?_, fun k => by rw [(hb.made s h).2] at k; cases k⟩ <;> simp at h <;>
        rcases h with rfl | rfl | rfl | rfl <;>
        simp only [hb.b1, hb.b2, hb.r1, hb.r2, hb.t1, hb.t2, hb.l1, hb.l2, pt] <;> intro e <;> linarith
    obtain ⟨δ, hδ, hi⟩ := hin
    exact hi _ rfl (by simp only [planar2, pt]; nlinarith) hpl
  have hp : ∃ p q, p ≠ q ∧ ∀ x, Common o.segs c x ↔ x = p ∨ x = q :=
    ⟨_, _, by intro e; norm_num [pt] at e, common⟩
  have side : ∀ x y, Covers c x → Covers c y → OffBorder o.segs x → OffBorder o.segs y → (Inside o.segs x ↔ Inside o.segs y) :=
    fun x y hx hy ox oy => ⟨fun _ => ins y hy oy, fun _ => ins x hx ox⟩
  have mc : Made c := .arc hcc
  obtain ⟨q1, q2, -⟩ := C83_one_side opsub mc kc hcross hjudged hcl hclean hp side
  exact ⟨o, c, mc, kc, hcross, hjudged, hcl, hclean, hp, side, by rw [hs]; rfl, q1, q2⟩

end Iges.Props
