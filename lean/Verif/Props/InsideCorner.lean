import Verif.Lemmas.InsideCorner
import Verif.Props.InsideCases
/-! C68 for polygons, with corners at the height of the point. -/
namespace Iges.Props.InsideCorner
open Iges.Geo Iges.Spec Real Iges.Props.Outlines Iges.Props.Inside

theorem matches_near {q e : Point ℝ} (hq : norm2 q ≤ 10 ^ 15) (he : norm2 e ≤ 10 ^ 15) (h : PointMatches q e 1e-8 = true) :
    |q.x - e.x| ≤ 4e-8 ∧ |q.y - e.y| ≤ 4e-8 := by
  constructor
  · by_contra hc
    rw [not_le] at hc
    have : PointMatches q e 1e-8 = false := by
      apply no_match (by norm_num) hq he
      have : (4e-8) ^ 2 < (q.x - e.x) ^ 2 := by
        rw [← sq_abs (q.x - e.x)]
        exact pow_lt_pow_left₀ hc (by norm_num) two_ne_zero
      unfold dist2
      nlinarith [sq_nonneg (q.y - e.y), sq_nonneg (q.z - e.z)]
    rw [this] at h; cases h
  · by_contra hc
    rw [not_le] at hc
    rw [matches_height hq he hc] at h; cases h

theorem count_all {ray : Seg} {y : ℝ} (first prev : Seg) (l : List Seg) (g : Seg → ℕ) (h : ∀ s ∈ l, ∀ prev next, segCount ray prev s next y = g s) :
    countFrom ray y first prev l = (l.map g).sum := by
  induction l generalizing prev with
  | nil => rfl
  | cons s l ih =>
    unfold countFrom
    rw [h s (by simp), ih s fun t ht => h t (by simp [ht])]
    rfl

/-- C68 (partial). For a closed outline of straight segments and a point of its bounding box that is not close to the outline, also if corners or whole sides are
exactly at its height, `IsInside` reports what the even-odd rule says of every point nearby that is at the height of no corner.  Missing: points
close to the outline, corners that are almost but not exactly at the height of the point, arcs that end at that height. -/
theorem C68_corner_partial {l : List Seg} {o : Outline} (h : Drawn l o) (hm : ∀ s ∈ l, Made s) (hc : o.closed = true)
    {p : Point ℝ} (hz : p.z = 0) (hx : o.lo.x ≤ p.x ∧ p.x ≤ o.hi.x) (hy : o.lo.y ≤ p.y ∧ p.y ≤ o.hi.y)
    (hs : -10 ^ 7 ≤ o.lo.x ∧ -10 ^ 7 ≤ o.lo.y ∧ o.hi.x ≤ 10 ^ 7 ∧ o.hi.y ≤ 10 ^ 7)
    (ha : ∀ s ∈ o.segs, Apart (o.hi.x - o.lo.x) p s) :
    ∃ δ > 0, ∀ q : Point ℝ, |q.x - p.x| < δ → |q.y - p.y| < δ → (∀ s ∈ o.segs, s.start.y ≠ q.y ∧ s.stop.y ≠ q.y) →
      isInside o p = some (open Classical in decide (EvenOdd o.segs q)) := by
  classical
  have ho := drawn_shape h hm hc
  obtain ⟨hf, hr⟩ := ray_ok hz hx hy hs
  have hw : 0 ≤ o.hi.x - o.lo.x := by linarith
  have hh : ∀ s ∈ o.segs, Held o.lo o.hi s := by
    intro s h
    have hk := (ha s h).1
    have hb : boxTol s ≤ 1 := by unfold boxTol; rw [hk]; norm_num
    refine held (ho.made s h) (fun q hq => ?_) hs (by rw [hk]; simp) hb
    obtain ⟨a, b, c, d⟩ := ho.inside s h q hq
    exact ⟨by linarith, by linarith, by linarith, by linarith⟩
  obtain ⟨hne, hch, hmeet⟩ : o.segs ≠ [] ∧ Spec.Chained o.segs ∧ EndsMeet o.segs := by
    rcases ho.loop with ⟨c, e, k⟩ | ⟨h1, -, h3, h4⟩
    · have := (ha c (by rw [e]; simp)).1
      rw [k] at this; cases this
    · exact ⟨h1, h3, h4⟩
  have hnorm : ∀ s ∈ o.segs, norm2 s.start ≤ 10 ^ 15 ∧ norm2 s.stop ≤ 10 ^ 15 := by
    intro s h
    rcases (hh s h).ends with k | k
    · rw [(ha s h).1] at k; cases k
    · exact k
  -- corners are either both at the height of `p` or both on the same side of it
  have hcorner : ∀ s ∈ o.segs, ∀ t ∈ o.segs, PointMatches s.stop t.start 1e-8 = true →
      |s.stop.x - t.start.x| ≤ 4e-8 ∧ ((s.stop.y = p.y ∧ t.start.y = p.y) ∨ (s.stop.y < p.y ∧ t.start.y < p.y) ∨ (p.y < s.stop.y ∧ p.y < t.start.y)) := by
    intro s hs t ht hmt
    obtain ⟨d1, d2⟩ := matches_near (hnorm s hs).2 (hnorm t ht).1 hmt
    refine ⟨d1, ?_⟩
    obtain ⟨-, -, -, a2, -⟩ := ha s hs
    obtain ⟨-, -, a1, -⟩ := ha t ht
    have n1 := abs_nonneg (s.stop.y - s.start.y)
    have n2 := abs_nonneg (t.stop.y - t.start.y)
    obtain ⟨e1, e2⟩ := abs_le.1 d2
    rcases a2 with a2 | a2
    · rcases a1 with a1 | a1
      · exact .inl ⟨a2, a1⟩
      · exfalso
        rcases lt_abs.1 a1 with g | g <;> linarith
    · rcases lt_abs.1 a2 with g | g
      · exact .inr (.inl ⟨by linarith, by linarith⟩)
      · exact .inr (.inr ⟨by linarith, by linarith⟩)
  have hstop : ∀ s ∈ o.segs, Covers s s.stop ∧ Covers s s.start := by
    intro s h
    obtain ⟨-, -, z1, z2, cs⟩ := line_ends (ho.made s h) (ha s h).1
    exact ⟨(cs _).2 ⟨1, by norm_num, by norm_num, by ext <;> simp [pt, z2]⟩, (cs _).2 ⟨0, by norm_num, by norm_num, by ext <;> simp [pt, z1]⟩⟩
  have hoff : ∀ s ∈ o.segs, s.start.y ≠ s.stop.y → min s.start.y s.stop.y ≤ p.y → p.y ≤ max s.start.y s.stop.y → xAt s p.y ≠ p.x := by
    intro s h h1 h2 h3 e
    obtain ⟨hcov, -⟩ := (at_height (ho.made s h) (ha s h).1 h1 p.y ⟨xAt s p.y, p.y, 0⟩).2 ⟨rfl, h2, h3⟩
    have := (ha s h).2.1 _ hcov rfl
    simp only [e, sub_self, abs_zero] at this
    nlinarith
  -- the crossings on both sides
  have even1 : Even ((o.segs.map fun s => if Cross p.y s ∧ xAt s p.y < p.x then 1 else 0).sum + (o.segs.map fun s => if Cross p.y s ∧ p.x < xAt s p.y then 1 else 0).sum) := by
    rw [← odd_sum_add o.segs _ _ (fun s => if Cross p.y s then 1 else 0)]
    · have := loop_changes (fun a => a.y < p.y) o.segs (fun s hs t ht hmt => by
        rcases (hcorner s hs t ht hmt).2 with ⟨a, b⟩ | ⟨a, b⟩ | ⟨a, b⟩
        · simp [a, b]
        · simp [a, b]
        · exact ⟨fun h => absurd h (not_lt.2 a.le), fun h => absurd h (not_lt.2 b.le)⟩) hch hmeet
      unfold Cross
      convert this
    · intro s h
      by_cases hcr : Cross p.y s
      · obtain ⟨r0, r1, r2⟩ := cross_range hcr
        rcases lt_or_gt_of_ne (hoff s h r0 r1 r2) with g | g
        · simp [hcr, g, g.le]
        · simp [hcr, g, g.le]
      · simp [hcr]
  -- counting the height of `p` as below makes no difference
  have even2 : Even ((o.segs.map fun s => if Cross p.y s ∧ xAt s p.y < p.x then 1 else 0).sum + (o.segs.map fun s => if Cross' p.y s ∧ xAt s p.y < p.x then 1 else 0).sum) := by
    have hE := loop_changes (fun a => a.y = p.y ∧ a.x < p.x) o.segs (fun s hs t ht hmt => by
        obtain ⟨d, hcase⟩ := hcorner s hs t ht hmt
        rcases hcase with ⟨a, b⟩ | ⟨a, b⟩ | ⟨a, b⟩
        · have := (ha s hs).2.1 _ (hstop s hs).1 a
          have h5 : 4e-8 < |s.stop.x - p.x| := by nlinarith
          obtain ⟨d1, d2⟩ := abs_le.1 d
          simp only [a, b, true_and]
          rcases lt_abs.1 h5 with g | g <;> constructor <;> intro <;> linarith
        · simp [a.ne, b.ne]
        · simp [a.ne', b.ne']) hch hmeet
    have hsum : ∀ l : List Seg, (∀ s ∈ l, s ∈ o.segs) →
        (Even ((l.map fun s => if Cross p.y s ∧ xAt s p.y < p.x then 1 else 0).sum + (l.map fun s => if Cross' p.y s ∧ xAt s p.y < p.x then 1 else 0).sum) ↔
          Even ((l.map fun s => if ¬ ((s.start.y = p.y ∧ s.start.x < p.x) ↔ (s.stop.y = p.y ∧ s.stop.x < p.x)) then 1 else 0).sum)) := by
      intro l
      induction l with
      | nil => intro _; simp
      | cons s l ih =>
        intro hl
        have hs := hl s (by simp)
        have hone : Even ((if Cross p.y s ∧ xAt s p.y < p.x then 1 else 0) + (if Cross' p.y s ∧ xAt s p.y < p.x then 1 else 0)) ↔
            Even (if ¬ ((s.start.y = p.y ∧ s.start.x < p.x) ↔ (s.stop.y = p.y ∧ s.stop.x < p.x)) then 1 else 0) := by
          by_cases a : s.start.y = p.y
          · by_cases b : s.stop.y = p.y
            · have c1 : ¬ Cross p.y s := by unfold Cross; simp [a, b]
              have c2 : ¬ Cross' p.y s := by unfold Cross'; simp [a, b]
              have hside : s.start.x < p.x ↔ s.stop.x < p.x := by
                obtain ⟨-, -, z1, z2, cs⟩ := line_ends (ho.made s hs) (ha s hs).1
                by_contra hcon
                -- otherwise `p` is on the segment
                have hcov : Covers s p := by
                  have hd : s.stop.x - s.start.x ≠ 0 := by
                    intro e
                    apply hcon
                    rw [sub_eq_zero.1 e]
                  refine (cs p).2 ⟨(p.x - s.start.x) / (s.stop.x - s.start.x), ?_, ?_, ?_⟩
                  · by_cases g : s.start.x < p.x
                    · have : p.x ≤ s.stop.x := by by_contra g'; exact hcon ⟨fun _ => by linarith, fun _ => g⟩
                      exact div_nonneg (by linarith) (by linarith)
                    · have : s.stop.x < p.x := by by_contra g'; exact hcon ⟨fun h => absurd h g, fun h => absurd h g'⟩
                      exact div_nonneg_of_nonpos (by linarith) (by linarith)
                  · by_cases g : s.start.x < p.x
                    · have : p.x ≤ s.stop.x := by by_contra g'; exact hcon ⟨fun _ => by linarith, fun _ => g⟩
                      rw [div_le_one (by linarith)]; linarith
                    · have : s.stop.x < p.x := by by_contra g'; exact hcon ⟨fun h => absurd h g, fun h => absurd h g'⟩
                      rw [div_le_one_of_neg (by linarith)]; linarith
                  · rw [div_mul_cancel₀ _ hd]
                    ext <;> simp [pt, a, b, hz]
                have := (ha s hs).2.1 p hcov rfl
                rw [sub_self, abs_zero] at this
                nlinarith
              simp [c1, c2, a, b, hside]
            · have hne : s.start.y ≠ s.stop.y := by rw [a]; exact Ne.symm b
              have e : xAt s p.y = s.start.x := by rw [← a, xAt_start]
              rw [e]
              have hx : Cross p.y s ↔ ¬ Cross' p.y s := by
                unfold Cross Cross'
                rcases lt_or_gt_of_ne b with g | g
                · simp [a, g, g.le]
                · simp [a, g.le, not_le.2 g]
              rw [hx]
              by_cases c : Cross' p.y s <;> by_cases d : s.start.x < p.x <;> simp [a, b, c, d]
          · by_cases b : s.stop.y = p.y
            · have hne : s.start.y ≠ s.stop.y := by rw [b]; exact a
              have e : xAt s p.y = s.stop.x := by rw [← b, xAt_stop hne]
              rw [e]
              have hx : Cross p.y s ↔ ¬ Cross' p.y s := by
                unfold Cross Cross'
                rcases lt_or_gt_of_ne a with g | g
                · simp [b, g, g.le]
                · simp [b, g.le, not_le.2 g]
              rw [hx]
              by_cases c : Cross' p.y s <;> by_cases d : s.stop.x < p.x <;> simp [a, b, c, d]
            · have hx : Cross p.y s ↔ Cross' p.y s := by
                unfold Cross Cross'
                rw [le_iff_lt_or_eq, le_iff_lt_or_eq]
                simp [a, b]
              rw [hx]
              by_cases c : Cross' p.y s <;> by_cases d : xAt s p.y < p.x <;> simp [a, b, c, d]
        simp only [List.map_cons, List.sum_cons]
        rw [show ∀ a b c d : ℕ, a + b + (c + d) = (a + c) + (b + d) by intros; omega]
        have key : ∀ a b c d : ℕ, (Even a ↔ Even c) → (Even b ↔ Even d) → (Even (a + b) ↔ Even (c + d)) := by
          intro a b c d h1 h2
          rw [Nat.even_add, Nat.even_add, h1, h2]
        exact key _ _ _ _ hone (ih fun t ht => hl t (by simp [ht]))
    exact (hsum o.segs fun _ h => h).2 (by convert hE)
  obtain ⟨s0, l0, hl⟩ := List.exists_cons_of_ne_nil hne
  obtain ⟨e0, he0⟩ : ∃ e, o.segs.getLast? = some e := by
    cases h : o.segs.getLast? with
    | none => rw [List.getLast?_eq_none_iff, hl] at h; cases h
    | some e => exact ⟨e, rfl⟩
  have hval : isInside o p = some (countFrom (setLine p (rayEnd o p)).1 p.y s0 e0 o.segs % 2 == 1) := by
    unfold isInside
    rw [ho.closed]
    simp only [Bool.not_true, Bool.false_eq_true, if_false]
    rw [hl] at he0 ⊢
    rw [he0]
  have hcount := count_all s0 e0 o.segs _ fun s hs prev next => count_corner (prev := prev) (next := next) hr hf (hh s hs) (ha s hs)
  have hodd : Odd (countFrom (setLine p (rayEnd o p)).1 p.y s0 e0 o.segs) ↔ Odd (o.segs.map fun s => if Cross p.y s ∧ xAt s p.y < p.x then 1 else 0).sum := by
    rw [hcount]
    have hlt : o.lo.x - 5 ≠ o.hi.x + 5 := by linarith
    rcases hf.side with g | g
    · simp only [g, true_and, hlt, false_and, or_false]
    · simp only [g, true_and, hlt.symm, false_and, false_or]
      rw [Nat.even_add'] at even1
      exact even1.symm
  obtain ⟨δ, hδ, hall⟩ := near_all o.segs p (fun q s => s.start.y ≠ q.y → s.stop.y ≠ q.y → (leftOf q s).ncard =
      if (if q.y ≤ p.y then Cross p.y s else Cross' p.y s) ∧ xAt s p.y < p.x then 1 else 0)
    (fun s h => by
      obtain ⟨δ, h1, h2⟩ := near_count hw (ho.made s h) (ha s h)
      exact ⟨δ, h1, fun q hq e1 e2 => by rw [h2 q hq e1 e2]⟩)
  refine ⟨δ, hδ, fun q q1 q2 hq => ?_⟩
  rw [hval]
  congr 1
  have hsum : (o.segs.map fun s => (leftOf q s).ncard) = o.segs.map fun s => if (if q.y ≤ p.y then Cross p.y s else Cross' p.y s) ∧ xAt s p.y < p.x then 1 else 0 :=
    List.map_congr_left fun s hs => hall q ⟨q1, q2⟩ s hs (hq s hs).1 (hq s hs).2
  have hEO : EvenOdd o.segs q ↔ Odd (countFrom (setLine p (rayEnd o p)).1 p.y s0 e0 o.segs) := by
    unfold EvenOdd
    rw [hsum, hodd]
    by_cases g : q.y ≤ p.y
    · simp only [g, if_true]
    · simp only [g, if_false]
      rw [Nat.even_add'] at even2
      exact even2.symm
  rw [Bool.eq_iff_iff, beq_iff_eq, decide_eq_true_iff, hEO, Nat.odd_iff]

/-- a diamond with corners at (2,0), (4,2), (2,4) and (0,2), drawn counterclockwise -/
theorem ex_diamond : ∃ b r t l o, Drawn [b, r, t, l] o ∧ (∀ s ∈ [b, r, t, l], Made s ∧ s.kind = .line) ∧ o.closed = true ∧
    o.segs = [b, r, t, l] ∧ o.lo.x = 0 ∧ o.lo.y = 0 ∧ o.hi.x = 4 ∧ o.hi.y = 4 ∧
    b.start = pt 2 0 ∧ b.stop = pt 4 2 ∧ r.start = pt 4 2 ∧ r.stop = pt 2 4 ∧
    t.start = pt 2 4 ∧ t.stop = pt 0 2 ∧ l.start = pt 0 2 ∧ l.stop = pt 2 0 := by
  obtain ⟨b, hb, kb, b1, b2⟩ := ex_seg (a := 2) (b := 0) (c := 4) (d := 2) (by norm_num) (by norm_num) (by norm_num)
  obtain ⟨r, hr, kr, r1, r2⟩ := ex_seg (a := 4) (b := 2) (c := 2) (d := 4) (by norm_num) (by norm_num) (by norm_num)
  obtain ⟨t, ht, kt, t1, t2⟩ := ex_seg (a := 2) (b := 4) (c := 0) (d := 2) (by norm_num) (by norm_num) (by norm_num)
  obtain ⟨l, hl, kl, l1, l2⟩ := ex_seg (a := 0) (b := 2) (c := 2) (d := 0) (by norm_num) (by norm_num) (by norm_num)
  have far1 : PointMatches (pt 2 4) (pt 2 0) 1e-8 = false := by apart
  have far2 : PointMatches (pt 0 2) (pt 2 0) 1e-8 = false := by apart
  have hml : ∀ x ∈ [b, r, t, l], Made x ∧ x.kind = .line := by
    intro x hx
    simp at hx
    rcases hx with rfl | rfl | rfl | rfl
    · exact ⟨.line hb, kb⟩
    · exact ⟨.line hr, kr⟩
    · exact ⟨.line ht, kt⟩
    · exact ⟨.line hl, kl⟩
  obtain ⟨o, hd, hc⟩ := C67_drawable (l := [b, r, t, l]) (fun x hx => Or.inl (hml x hx).2)
    ⟨same_match (by rw [b2, r1]), same_match (by rw [r2, t1]), same_match (by rw [t2, l1]), trivial⟩ (by
      intro k hk hlt
      have : k = 2 ∨ k = 3 := by simp at hlt; omega
      rcases this with rfl | rfl
      · rintro ⟨f, e, hf, he, hm⟩
        simp at hf he
        subst hf he
        rw [r2, b1, far1] at hm
        cases hm
      · rintro ⟨f, e, hf, he, hm⟩
        simp at hf he
        subst hf he
        rw [t2, b1, far2] at hm
        cases hm)
  have hcl : o.closed = true := hc.2 ⟨by simp, b, l, by simp, by simp, same_match (by rw [l2, b1])⟩
  cases drawn_state hd with
  | empty e => cases e
  | circle _ _ e => cases e
  | drawing _ _ _ _ e => rw [hcl] at e; cases e
  | done lo hi h1 _ _ _ h5 _ hh he =>
    have hsegs : o.segs = [b, r, t, l] := by
      rw [h5]
      unfold orient
      rw [if_neg]
      simp only [List.map_cons, List.map_nil, List.sum_cons, List.sum_nil, windingOf, kb, kr, kt, kl, b1, b2, r1, r2, t1,
        t2, l1, l2, pt]
      norm_num
    have xb := line_box kb b1 b2 (by norm_num)
    have xr := line_box kr r1 r2 (by norm_num)
    have xt := line_box kt t1 t2 (by norm_num)
    have xl := line_box kl l1 l2 (by norm_num)
    norm_num at xb xr xt xl
    have ib := hh.inside b (by simp) _ xb
    have ir := hh.inside r (by simp) _ xr
    have it := hh.inside t (by simp) _ xt
    have il := hh.inside l (by simp) _ xl
    simp only [pt] at ib ir it il
    have hlx : lo.x = 0 := by
      obtain ⟨s, hs, v, hv, e⟩ := hh.left
      simp at hs
      rcases hs with rfl | rfl | rfl | rfl
      all_goals
        first | rw [xb] at hv | rw [xr] at hv | rw [xt] at hv | rw [xl] at hv
        injection hv with hv
        rw [← hv] at e
        simp only [pt] at e
        linarith
    have hly : lo.y = 0 := by
      obtain ⟨s, hs, v, hv, e⟩ := hh.bottom
      simp at hs
      rcases hs with rfl | rfl | rfl | rfl
      all_goals
        first | rw [xb] at hv | rw [xr] at hv | rw [xt] at hv | rw [xl] at hv
        injection hv with hv
        rw [← hv] at e
        simp only [pt] at e
        linarith
    have hhx : hi.x = 4 := by
      obtain ⟨s, hs, v, hv, e⟩ := hh.right
      simp at hs
      rcases hs with rfl | rfl | rfl | rfl
      all_goals
        first | rw [xb] at hv | rw [xr] at hv | rw [xt] at hv | rw [xl] at hv
        injection hv with hv
        rw [← hv] at e
        simp only [pt] at e
        linarith
    have hhy : hi.y = 4 := by
      obtain ⟨s, hs, v, hv, e⟩ := hh.top
      simp at hs
      rcases hs with rfl | rfl | rfl | rfl
      all_goals
        first | rw [xb] at hv | rw [xr] at hv | rw [xt] at hv | rw [xl] at hv
        injection hv with hv
        rw [← hv] at e
        simp only [pt] at e
        linarith
    have e1 := congrArg Prod.fst he
    have e2 := congrArg Prod.snd he
    unfold adjustBox at e1 e2
    simp only [hlx, hly, hhx, hhy] at e1 e2
    norm_num at e1 e2
    exact ⟨b, r, t, l, o, hd, hml, hcl, hsegs, by rw [e1], by rw [e1], by rw [e2], by rw [e2], b1, b2, r1, r2, t1, t2, l1, l2⟩

/-- C68: the centre of the diamond, which is at the height of two corners, meets the conditions of `C68_corner_partial` and is inside -/
example : ∃ l o, Drawn l o ∧ (∀ s ∈ l, Made s) ∧ o.closed = true ∧
    (∀ s ∈ o.segs, Apart (o.hi.x - o.lo.x) (pt 2 2) s) ∧ (∃ s ∈ o.segs, s.start.y = 2) ∧ isInside o (pt 2 2) = some true := by
  classical
  obtain ⟨b, r, t, l, o, hd, hm, hc, hs, x0, y0, x1, y1, b1, b2, r1, r2, t1, t2, l1, l2⟩ := ex_diamond
  have hap : ∀ s ∈ o.segs, Apart (o.hi.x - o.lo.x) (pt 2 2) s := by
    intro s h
    rw [hs] at h
    obtain ⟨-, -, -, -, cs⟩ := line_ends (hm s h).1 (hm s h).2
    unfold Apart
    rw [x0, x1]
    refine ⟨(hm s h).2, ?_⟩
    simp at h
    rcases h with rfl | rfl | rfl | rfl
    · simp only [b1, b2] at cs ⊢
      refine ⟨?_, by norm_num [pt], by norm_num [pt], Or.inr (by norm_num [pt])⟩
      intro q hq hy
      obtain ⟨v, -, -, rfl⟩ := (cs q).1 hq
      simp only [pt] at hy ⊢
      have : v = 1 := by linarith
      subst this; norm_num
    · simp only [r1, r2] at cs ⊢
      refine ⟨?_, by norm_num [pt], by norm_num [pt], Or.inr (by norm_num [pt])⟩
      intro q hq hy
      obtain ⟨v, -, -, rfl⟩ := (cs q).1 hq
      simp only [pt] at hy ⊢
      have : v = 0 := by linarith
      subst this; norm_num
    · simp only [t1, t2] at cs ⊢
      refine ⟨?_, by norm_num [pt], by norm_num [pt], Or.inr (by norm_num [pt])⟩
      intro q hq hy
      obtain ⟨v, -, -, rfl⟩ := (cs q).1 hq
      simp only [pt] at hy ⊢
      have : v = 1 := by linarith
      subst this; norm_num
    · simp only [l1, l2] at cs ⊢
      refine ⟨?_, by norm_num [pt], by norm_num [pt], Or.inr (by norm_num [pt])⟩
      intro q hq hy
      obtain ⟨v, -, -, rfl⟩ := (cs q).1 hq
      simp only [pt] at hy ⊢
      have : v = 0 := by linarith
      subst this; norm_num
  refine ⟨_, o, hd, fun s h => (hm s h).1, hc, hap, ⟨r, by rw [hs]; simp, by rw [r1]; rfl⟩, ?_⟩
  obtain ⟨δ, hδ, hall⟩ := C68_corner_partial hd (fun s h => (hm s h).1) hc (p := pt 2 2) rfl (by rw [x0, x1]; norm_num [pt]) (by rw [y0, y1]; norm_num [pt])
    (by rw [x0, x1, y0, y1]; norm_num) hap
  obtain ⟨ε, e1, e2, e3⟩ : ∃ ε : ℝ, 0 < ε ∧ ε < δ ∧ ε < 1 := ⟨min δ 1 / 2, by positivity, by
    have := min_le_left δ 1; have : 0 < min δ 1 := by positivity
    linarith, by have := min_le_right δ 1; linarith⟩
  have hne : ∀ s ∈ [b, r, t, l], s.start.y ≠ 2 - ε ∧ s.stop.y ≠ 2 - ε := by
    intro s h
    simp at h
    rcases h with rfl | rfl | rfl | rfl
    · rw [b1, b2]; simp only [pt]; constructor <;> intro <;> linarith
    · rw [r1, r2]; simp only [pt]; constructor <;> intro <;> linarith
    · rw [t1, t2]; simp only [pt]; constructor <;> intro <;> linarith
    · rw [l1, l2]; simp only [pt]; constructor <;> intro <;> linarith
  rw [hall (pt 2 (2 - ε)) (by simp only [pt]; rw [sub_self, abs_zero]; exact hδ) (by simp only [pt]; rw [abs_of_neg] <;> linarith) (by rw [hs]; exact hne), hs]
  congr 1
  apply decide_eq_true
  unfold EvenOdd
  simp only [List.map_cons, List.map_nil, List.sum_cons, List.sum_nil]
  have hcnt : ∀ s ∈ [b, r, t, l], _ := fun s h => left_count (hm s h).1 (hm s h).2 (pt 2 (2 - ε)) (hne s h).1 (hne s h).2
  rw [hcnt b (by simp), hcnt r (by simp), hcnt t (by simp), hcnt l (by simp), if_neg, if_neg, if_neg, if_pos]
  · decide
  · unfold Cross xAt
    rw [l1, l2]
    simp only [pt]
    refine ⟨?_, by rw [show (0 : ℝ) + (2 - ε - 2) / (0 - 2) * (2 - 0) = ε by ring]; linarith⟩
    rw [iff_iff_implies_and_implies, not_and_or]
    right
    intro h
    have := h (by linarith)
    linarith
  · rintro ⟨h, -⟩
    apply h
    rw [t1, t2]
    simp only [pt]
    constructor <;> intro <;> linarith
  · rintro ⟨h, -⟩
    apply h
    rw [r1, r2]
    simp only [pt]
    constructor <;> intro <;> linarith
  · rintro ⟨-, h⟩
    unfold xAt at h
    rw [b1, b2] at h
    simp only [pt] at h
    linarith

end Iges.Props.InsideCorner
