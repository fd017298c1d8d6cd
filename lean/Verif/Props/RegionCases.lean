import Verif.Props.RegionDone
import Verif.Props.OutlineOpCases
/-
C83: a case that meets the hypotheses of `C83_region_partial` and `C83_success_partial`.
-/
namespace Iges.Props
open Iges.Geo Iges.Spec Iges.Turn Real OutlineOps

/-- the square with the corners (0,0) and (2,2) is run round once -/
theorem square_turns {b r t l : Seg} (hm : ∀ s ∈ [b, r, t, l], s.kind = .line)
    (b1 : b.start = pt 0 0) (b2 : b.stop = pt 2 0) (r1 : r.start = pt 2 0) (r2 : r.stop = pt 2 2)
    (t1 : t.start = pt 2 2) (t2 : t.stop = pt 0 2) (l1 : l.start = pt 0 2) (l2 : l.stop = pt 0 0) (x : ℝ × ℝ) :
    turns ([b, r, t, l].map curve) x = (ind (0 < x.1) - ind (2 < x.1)) * (ind (0 ≤ x.2) - ind (2 ≤ x.2)) := by
  simp only [List.map_cons, List.map_nil, turns_cons, turns_nil, curve_line (hm b (by simp)), curve_line (hm r (by simp)),
    curve_line (hm t (by simp)), curve_line (hm l (by simp)), Curve.wind, b1, b2, r1, r2, t1, t2, l1, l2, plane_pt, step, lineX]
  norm_num
  ring

theorem square_proper {b r t l : Seg} (hm : ∀ s ∈ [b, r, t, l], Made s ∧ s.kind = .line)
    (b1 : b.start = pt 0 0) (b2 : b.stop = pt 2 0) (r1 : r.start = pt 2 0) (r2 : r.stop = pt 2 2)
    (t1 : t.start = pt 2 2) (t2 : t.stop = pt 0 2) (l1 : l.start = pt 0 2) (l2 : l.stop = pt 0 0) :
    (∀ s ∈ [b, r, t, l], Fit s) ∧ Round [b, r, t, l] ∧ Proper [b, r, t, l] := by
  have hf : ∀ s ∈ [b, r, t, l], Fit s := fun s h => ⟨Or.inl (hm s h).2, (hm s h).1, fun k => by rw [(hm s h).2] at k; cases k⟩
  have hr : Round [b, r, t, l] := ⟨pt 0 0, b1, by rw [b2, r1], by rw [r2, t1], by rw [t2, l1], l2⟩
  refine ⟨hf, hr, (proper_iff hf hr).2 fun p _ => ?_⟩
  rw [square_turns (fun s h => (hm s h).2) b1 b2 r1 r2 t1 t2 l1 l2]
  unfold ind
  split_ifs <;> first | (exfalso; linarith) | simp

/-- C83: a hole about the middle of the right side of the square, cut out or joined: all conditions of `C83_region_partial` and
`C83_success_partial` are met, the operation succeeds, and the point (1.75,1) is cut out, or the point (2.25,1) is added. -/
theorem ex_region (opsub : Bool) : ∃ o c, (∀ s ∈ o.segs, s.kind = .line ∨ s.kind = .arc) ∧ (∀ s ∈ o.segs, Made s) ∧
    (∀ s ∈ o.segs, Sharp s) ∧ Made c ∧ Round o.segs ∧ Proper o.segs ∧ Crossed o.segs c ∧ Judged o c ∧
    (opCircle o (some c) opsub).ret = true ∧ o.segs.length = 4 ∧ c.center = pt 2 1 ∧ c.radius = 0.5 ∧
    Inside o.segs (pt 1.75 1) ∧ ¬ Inside o.segs (pt 2.25 1) ∧ c.kind = .circle ∧ o.closed = true ∧ Clean o.segs [c] ∧
    (∃ p q, p ≠ q ∧ ∀ x, Common o.segs c x ↔ x = p ∨ x = q) ∧ (∀ x, Common o.segs c x → PointMatches c.center x 1e-8 = false) ∧
    ∃ x y, Covers c x ∧ Covers c y ∧ OffBorder o.segs x ∧ OffBorder o.segs y ∧ Inside o.segs x ∧ ¬ Inside o.segs y := by
  obtain ⟨b, r, t, l, o, c, hd, hs, hc, hm, mc, kc, cc, cr, b1, b2, r1, r2, t1, t2, l1, l2, ir, im, in1, in2, sp, r', r'', hsp,
    hret, hout, k⟩ := ex_cut opsub
  obtain ⟨hf, hround, hproper⟩ := square_proper hm b1 b2 r1 r2 t1 t2 l1 l2
  have cov : ∀ s ∈ [b, r, t, l], ∀ x, Covers s x ↔ OnLine s.start s.stop x := fun s h => (line_ends (hm s h).1 (hm s h).2).2.2.2.2
  have hcov : ∀ x, Covers c x ↔ OnCircle (pt 2 1) 0.5 x := by intro x; unfold Covers; rw [kc, cc, cr]
  -- what a point of the circle is
  have box : ∀ x, Covers c x → 0.5 ≤ x.y ∧ x.y ≤ 1.5 ∧ 1.5 ≤ x.x := by
    intro x hx
    obtain ⟨h1, -⟩ := (hcov x).1 hx
    simp only [planar2, pt] at h1
    refine ⟨?_, ?_, ?_⟩ <;> nlinarith [sq_nonneg (x.x - 2), sq_nonneg (x.y - 1)]
  have none : ∀ s ∈ [b, t, l], ∀ x, Covers s x → ¬ Covers c x := by
    intro s h x hx hcx
    obtain ⟨y1, y2, x1⟩ := box x hcx
    rw [cov s (by simp at h ⊢; tauto)] at hx
    obtain ⟨τ, -, -, rfl⟩ := hx
    simp only [List.mem_cons, List.not_mem_nil, or_false] at h
    rcases h with rfl | rfl | rfl
    · simp only [b1, b2, pt] at y1; norm_num at y1
    · simp only [t1, t2, pt] at y2; norm_num at y2
    · simp only [l1, l2, pt] at x1; norm_num at x1
  have right : ∀ x, (Covers r x ∧ Covers c x) ↔ x = pt 2 1.5 ∨ x = pt 2 0.5 := by
    intro x
    rw [cov r (by simp), hcov, r1, r2]
    constructor
    · rintro ⟨⟨τ, -, -, rfl⟩, h, -⟩
      simp only [planar2, pt] at h
      have e : (τ - 0.75) * (τ - 0.25) = 0 := by norm_num at h; nlinarith
      rcases mul_eq_zero.1 e with e | e
      · left; obtain rfl : τ = 0.75 := by linarith
        simp only [pt]; norm_num
      · right; obtain rfl : τ = 0.25 := by linarith
        simp only [pt]; norm_num
    · rintro (rfl | rfl)
      · exact ⟨⟨0.75, by norm_num, by norm_num, by norm_num [pt]⟩, by norm_num [planar2, pt], rfl⟩
      · exact ⟨⟨0.25, by norm_num, by norm_num, by norm_num [pt]⟩, by norm_num [planar2, pt], rfl⟩
  have common : ∀ x, Common [b, r, t, l] c x ↔ x = pt 2 1.5 ∨ x = pt 2 0.5 := by
    intro x
    rw [← right]
    constructor
    · rintro ⟨h1, s, h, h2⟩
      by_cases e : s = r
      · subst e; exact ⟨h2, h1⟩
      · exact absurd h1 (none s (by simp at h ⊢; tauto) x h2)
    · rintro ⟨h1, h2⟩
      exact ⟨h2, r, by simp, h1⟩
  have hcross : Crossed [b, r, t, l] c := by
    refine ⟨?_, ?_, ?_, ?_, ?_⟩
    · intro s h x
      by_cases e : s = r
      · subst e; rw [right, ir]; simp
      · have h' : s ∈ [b, t, l] := by simp at h ⊢; tauto
        rw [im s h']
        simp only [Bool.false_eq_true, false_and, iff_false, not_and]
        exact none s h' x
    · intro x y hx hy hxy
      rcases (common x).1 hx with rfl | rfl <;> rcases (common y).1 hy with rfl | rfl
      · rfl
      · rw [show PointMatches (pt 2 1.5) (pt 2 0.5) 1e-8 = false by apart] at hxy; cases hxy
      · rw [show PointMatches (pt 2 0.5) (pt 2 1.5) 1e-8 = false by apart] at hxy; cases hxy
      · rfl
    · intro s h x hx
      obtain ⟨y1, y2, x1⟩ := box x hx
      have hz := ((hcov x).1 hx).2
      have h2 := ((hcov x).1 hx).1
      simp only [planar2, pt] at h2
      have hst : s.start.x ^ 2 + s.start.y ^ 2 ≤ 8 ∧ s.start.z = 0 ∧ (s.start.y = 0 ∨ s.start.y = 2) := by
        simp only [List.mem_cons, List.not_mem_nil, or_false] at h
        rcases h with rfl | rfl | rfl | rfl
        · rw [b1]; norm_num [pt]
        · rw [r1]; norm_num [pt]
        · rw [t1]; norm_num [pt]
        · rw [l1]; norm_num [pt]
      obtain ⟨s1, s2, s3⟩ := hst
      have x2 : x.x ≤ 2.5 := by nlinarith [sq_nonneg (x.y - 1)]
      apply no_match
      · norm_num
      · simp only [norm2]; rw [hz]; nlinarith
      · simp only [norm2]; rw [s2]; nlinarith
      · simp only [dist2]
        have : 0.25 ≤ (x.y - s.start.y) ^ 2 := by rcases s3 with e | e <;> rw [e] <;> nlinarith
        norm_num
        nlinarith [sq_nonneg (x.x - s.start.x), sq_nonneg (x.z - s.start.z)]
    · simp only [List.pairwise_cons, List.mem_cons, List.not_mem_nil, or_false]
      refine ⟨fun s _ x h1 _ => none b (by simp) x h1, fun s hs x _ h2 => none s (by simp; tauto) x h2,
        fun s _ x h1 _ => none t (by simp) x h1, by simp⟩
    · intro s h e
      rw [(hm s h).2] at e; cases e
  have out1 : OffBorder [b, r, t, l] (pt 1.5 1) := by
    refine ⟨rfl, fun s h hx => ?_⟩
    have hcx : Covers c (pt 1.5 1) := (hcov _).2 ⟨by norm_num [planar2, pt], rfl⟩
    rcases (common _).1 ⟨hcx, s, h, hx⟩ with e | e <;> simp [pt] at e <;> norm_num at e
  have out2 : OffBorder [b, r, t, l] (pt 2.5 1) := by
    refine ⟨rfl, fun s h hx => ?_⟩
    have hcx : Covers c (pt 2.5 1) := (hcov _).2 ⟨by norm_num [planar2, pt], rfl⟩
    rcases (common _).1 ⟨hcx, s, h, hx⟩ with e | e <;> simp [pt] at e <;> norm_num at e
  have tv : ∀ p : Point ℝ, turns ([b, r, t, l].map curve) (plane p) = (ind (0 < p.x) - ind (2 < p.x)) * (ind (0 ≤ p.y) - ind (2 ≤ p.y)) :=
    fun p => square_turns (fun s h => (hm s h).2) b1 b2 r1 r2 t1 t2 l1 l2 _
  have judged : Judged o c := by
    intro y hy heq β hβ
    rw [hs] at heq ⊢
    have h1 := heq _ _ ((common _).2 (Or.inl rfl)) ((common _).2 (Or.inr rfl))
    obtain ⟨h2, hz⟩ := (hcov y).1 hy
    simp only [planar2, pt] at h1 h2
    have hy1 : y.y = 1 := by nlinarith
    rw [hy1] at h2
    have e : (y.x - 1.5) * (y.x - 2.5) = 0 := by nlinarith
    rcases mul_eq_zero.1 e with e | e
    · obtain rfl : y = pt 1.5 1 := by ext <;> simp only [pt] <;> linarith
      rw [in1] at hβ
      obtain rfl := Option.some.inj hβ
      rw [inside_one hf hround hproper out1, tv]
      simp only [pt, ind]; norm_num
    · obtain rfl : y = pt 2.5 1 := by ext <;> simp only [pt] <;> linarith
      rw [in2] at hβ
      obtain rfl := Option.some.inj hβ
      rw [inside_one hf hround hproper out2, tv]
      simp only [pt, ind]; norm_num
  have off : ∀ a : ℝ, a ≠ 0 → a ≠ 2 → OffBorder [b, r, t, l] (pt a 1) := by
    intro a a0 a2
    refine ⟨rfl, fun s h hx => ?_⟩
    rw [cov s h] at hx
    obtain ⟨τ, -, -, e⟩ := hx
    simp only [List.mem_cons, List.not_mem_nil, or_false] at h
    rcases h with rfl | rfl | rfl | rfl
    · rw [b1, b2] at e; simp [pt] at e
    · rw [r1, r2] at e; simp [pt] at e; exact a2 e.1
    · rw [t1, t2] at e; simp [pt] at e
    · rw [l1, l2] at e; simp [pt] at e; exact a0 e.1
  refine ⟨o, c, ?_, ?_, ?_, mc, ?_, ?_, ?_, judged, hret, by rw [hs]; rfl, cc, cr, ?_, ?_, kc, hc, ?_, ?_, ?_, ?_⟩
  · rw [hs]; exact fun s h => Or.inl (hm s h).2
  · rw [hs]; exact fun s h => (hm s h).1
  · rw [hs]; exact fun s h => (hf s h).sharp
  · rw [hs]; exact hround
  · rw [hs]; exact hproper
  · rw [hs]; exact hcross
  · rw [hs, inside_one hf hround hproper (off _ (by norm_num) (by norm_num)), tv]
    simp only [pt, ind]; norm_num
  · rw [hs, inside_one hf hround hproper (off _ (by norm_num) (by norm_num)), tv]
    simp only [pt, ind]; norm_num
  · rw [hs]
    intro s h c' hc'
    obtain rfl := List.mem_singleton.1 hc'
    by_cases e : s = r
    · subst e; rw [ir]; simp [Flag.fine]
    · rw [im s (by simp at h ⊢; tauto)]; simp
  · refine ⟨pt 2 1.5, pt 2 0.5, fun e => ?_, by rw [hs]; exact common⟩
    have := congrArg Point.y e
    norm_num [pt] at this
  · rw [hs, cc]
    intro x hx
    rcases (common x).1 hx with rfl | rfl <;> apart
  · rw [hs]
    refine ⟨pt 1.5 1, pt 2.5 1, (hcov _).2 ⟨by norm_num [planar2, pt], rfl⟩, (hcov _).2 ⟨by norm_num [planar2, pt], rfl⟩, out1, out2, ?_, ?_⟩
    · rw [inside_one hf hround hproper out1, tv]
      simp only [pt, ind]; norm_num
    · rw [inside_one hf hround hproper out2, tv]
      simp only [pt, ind]; norm_num

end Iges.Props
