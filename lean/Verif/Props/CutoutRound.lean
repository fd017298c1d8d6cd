import Verif.Props.CutoutHole
import Verif.Props.RegionCircleCases
/-
C85: holes in boards and cutouts of which some are one circle.
-/
namespace Iges.Props
open Iges.Geo Iges.Spec OutlineOps CutoutHole

namespace CutoutRound

/-- what going to the left from a point meets of a circle, by its height -/
theorem left_circle {b : Seg} (kb : b.kind = .circle) (q : Point ℝ) :
    leftOf q b = {p | p.z = 0 ∧ p.y = q.y ∧ (p.x - b.center.x) ^ 2 = b.radius ^ 2 - (q.y - b.center.y) ^ 2 ∧ p.x < q.x} := by
  ext p
  simp only [leftOf, Covers, kb, OnCircle, Set.mem_ofPred_eq, planar2]
  constructor
  · rintro ⟨⟨h1, h2⟩, h3, h4⟩
    rw [h3] at h1
    exact ⟨h2, h3, by linarith, h4⟩
  · rintro ⟨h2, h3, h1, h4⟩
    rw [h3]
    exact ⟨⟨by linarith, h2⟩, rfl, h4⟩

theorem odd_circle {b : Seg} (kb : b.kind = .circle) {q : Point ℝ} (hin : planar2 q b.center < b.radius ^ 2) : EvenOdd [b] q := by
  simp only [planar2] at hin
  set h := b.radius ^ 2 - (q.y - b.center.y) ^ 2 with hh
  have h0 : 0 < h := by nlinarith [sq_nonneg (q.x - b.center.x)]
  have e : leftOf q b = {⟨b.center.x - √h, q.y, 0⟩} := by
    rw [left_circle kb]
    ext p
    simp only [Set.mem_ofPred_eq, Set.mem_singleton_iff]
    have hs := Real.sq_sqrt h0.le
    have hp := Real.sqrt_pos.2 h0
    have hq := abs_lt_of_sq_lt_sq' (show (q.x - b.center.x) ^ 2 < √h ^ 2 by rw [hs]; linarith) hp.le
    constructor
    · rintro ⟨h1, h2, h3, h4⟩
      have : (p.x - b.center.x - √h) * (p.x - b.center.x + √h) = 0 := by nlinarith
      rcases mul_eq_zero.1 this with h5 | h5
      · linarith [hq.2]
      · obtain ⟨px, py, pz⟩ := p
        simp only [Point.mk.injEq] at *
        exact ⟨by linarith, h2, h1⟩
    · rintro rfl
      refine ⟨rfl, rfl, ?_, ?_⟩
      · simp only; linarith [show (b.center.x - √h - b.center.x) ^ 2 = √h ^ 2 by ring]
      · simp only; linarith [hq.1]
  unfold EvenOdd
  simp [e]

theorem even_circle {b : Seg} (kb : b.kind = .circle) {q : Point ℝ} (hout : b.radius ^ 2 < planar2 q b.center)
    (hne : (q.y - b.center.y) ^ 2 ≠ b.radius ^ 2) : ¬ EvenOdd [b] q := by
  simp only [planar2] at hout
  set h := b.radius ^ 2 - (q.y - b.center.y) ^ 2 with hh
  unfold EvenOdd
  simp only [List.map_cons, List.map_nil, List.sum_cons, List.sum_nil, add_zero, Nat.not_odd_iff_even]
  rw [left_circle kb, ← hh]
  rcases lt_or_gt_of_ne (show h ≠ 0 by rw [hh]; intro e; apply hne; linarith) with h0 | h0
  · have : {p : Point ℝ | p.z = 0 ∧ p.y = q.y ∧ (p.x - b.center.x) ^ 2 = h ∧ p.x < q.x} = ∅ := by
      ext p
      simp only [Set.mem_ofPred_eq, Set.mem_empty_iff_false, iff_false]
      rintro ⟨-, -, h3, -⟩
      nlinarith [sq_nonneg (p.x - b.center.x)]
    rw [this]
    simp
  · have hs := Real.sq_sqrt h0.le
    have hp := Real.sqrt_pos.2 h0
    have roots : ∀ p : Point ℝ, (p.x - b.center.x) ^ 2 = h ↔ p.x = b.center.x - √h ∨ p.x = b.center.x + √h := by
      intro p
      constructor
      · intro h3
        have : (p.x - b.center.x - √h) * (p.x - b.center.x + √h) = 0 := by nlinarith
        rcases mul_eq_zero.1 this with h5 | h5
        · right; linarith
        · left; linarith
      · rintro (e | e) <;> rw [e]
        · linarith [show (b.center.x - √h - b.center.x) ^ 2 = √h ^ 2 by ring]
        · linarith [show (b.center.x + √h - b.center.x) ^ 2 = √h ^ 2 by ring]
    rcases le_or_gt 0 (q.x - b.center.x) with hq | hq
    · have : √h < q.x - b.center.x := by
        by_contra hc
        nlinarith
      have : {p : Point ℝ | p.z = 0 ∧ p.y = q.y ∧ (p.x - b.center.x) ^ 2 = h ∧ p.x < q.x} =
          {⟨b.center.x - √h, q.y, 0⟩, ⟨b.center.x + √h, q.y, 0⟩} := by
        ext ⟨px, py, pz⟩
        simp only [Set.mem_ofPred_eq, Set.mem_insert_iff, Set.mem_singleton_iff, roots, Point.mk.injEq]
        constructor
        · rintro ⟨rfl, rfl, h3 | h3, -⟩
          · exact Or.inl ⟨h3, rfl, rfl⟩
          · exact Or.inr ⟨h3, rfl, rfl⟩
        · rintro (⟨rfl, rfl, rfl⟩ | ⟨rfl, rfl, rfl⟩)
          · exact ⟨rfl, rfl, Or.inl rfl, by linarith⟩
          · exact ⟨rfl, rfl, Or.inr rfl, by linarith⟩
      rw [this, Set.ncard_pair (by simp only [ne_eq, Point.mk.injEq, not_and]; intro e; linarith)]
      exact even_two
    · have hlt : q.x - b.center.x < -√h := by
        by_contra hc
        nlinarith
      have : {p : Point ℝ | p.z = 0 ∧ p.y = q.y ∧ (p.x - b.center.x) ^ 2 = h ∧ p.x < q.x} = ∅ := by
        ext p
        simp only [Set.mem_ofPred_eq, Set.mem_empty_iff_false, iff_false, roots]
        rintro ⟨-, -, h3 | h3, h4⟩ <;> linarith
      rw [this]
      simp

/-- the inside of an outline that is one circle is the disc -/
theorem inside_circle {b : Seg} (kb : b.kind = .circle) {x : Point ℝ} :
    Inside [b] x ↔ planar2 x b.center < b.radius ^ 2 := by
  constructor
  · rintro ⟨δ, hδ, h⟩
    by_contra hc
    rw [not_lt] at hc
    obtain ⟨σ, hσ, hσ'⟩ : ∃ σ : ℝ, σ ^ 2 = 1 ∧ 0 ≤ σ * (x.y - b.center.y) := by
      rcases le_total 0 (x.y - b.center.y) with h | h
      · exact ⟨1, by norm_num, by linarith⟩
      · exact ⟨-1, by norm_num, by linarith⟩
    have hσ0 : σ ≠ 0 := by rintro rfl; norm_num at hσ
    have hfin : ({t : ℝ | x.y + σ * t = b.start.y} ∪ {t | x.y + σ * t = b.stop.y} ∪
        {t | (x.y + σ * t - b.center.y) ^ 2 = b.radius ^ 2}).Finite := by
      have one : ∀ v : ℝ, {t : ℝ | x.y + σ * t = v}.Finite := fun v =>
        Set.Subsingleton.finite fun s hs t ht => by
          simp only [Set.mem_ofPred_eq] at hs ht
          exact mul_left_cancel₀ hσ0 (by linarith)
      refine Set.Finite.union (Set.Finite.union (one _) (one _)) ?_
      refine Set.Finite.subset ((one (b.center.y + b.radius)).union (one (b.center.y - b.radius))) fun t ht => ?_
      simp only [Set.mem_ofPred_eq] at ht
      rcases sq_eq_sq_iff_eq_or_eq_neg.1 ht with e | e
      · left; simp only [Set.mem_ofPred_eq]; linarith
      · right; simp only [Set.mem_ofPred_eq]; linarith
    obtain ⟨t, ht, hn⟩ := (Set.Ioo_infinite (Real.sqrt_pos.2 hδ)).exists_notMem_finite hfin
    simp only [Set.mem_union, Set.mem_ofPred_eq, not_or] at hn
    have hs := Real.sq_sqrt hδ.le
    have ht2 : t ^ 2 < δ := by nlinarith [ht.1, ht.2]
    refine even_circle (q := ⟨x.x, x.y + σ * t, 0⟩) kb ?_ hn.2 (h _ rfl ?_ ?_)
    · simp only [planar2] at hc ⊢
      have : (x.y + σ * t - b.center.y) ^ 2 = (x.y - b.center.y) ^ 2 + 2 * t * (σ * (x.y - b.center.y)) + σ ^ 2 * t ^ 2 := by ring
      rw [this, hσ]
      nlinarith [mul_nonneg ht.1.le hσ', ht.1]
    · simp only [planar2]
      have : (x.x - x.x) ^ 2 + (x.y + σ * t - x.y) ^ 2 = σ ^ 2 * t ^ 2 := by ring
      rw [this, hσ]
      linarith
    · intro s hs
      obtain rfl := List.mem_singleton.1 hs
      exact ⟨hn.1.1, hn.1.2, fun k => by rw [kb] at k; cases k⟩
  · intro h
    -- a ball within the disc
    have hc : Continuous fun v : ℝ × ℝ => (v.1 - b.center.x) ^ 2 + (v.2 - b.center.y) ^ 2 := by fun_prop
    have ho : IsOpen {v : ℝ × ℝ | (v.1 - b.center.x) ^ 2 + (v.2 - b.center.y) ^ 2 < b.radius ^ 2} := isOpen_lt hc continuous_const
    obtain ⟨ε, hε, hb⟩ := Metric.isOpen_iff.1 ho (x.x, x.y) h
    refine ⟨ε ^ 2, by positivity, fun q _ hq _ => odd_circle kb (hb (a := (q.x, q.y)) ?_)⟩
    simp only [planar2] at hq
    rw [Metric.mem_ball, Prod.dist_eq, max_lt_iff, Real.dist_eq, Real.dist_eq]
    exact ⟨abs_lt_of_sq_lt_sq (by nlinarith [sq_nonneg (q.y - x.y)]) hε.le, abs_lt_of_sq_lt_sq (by nlinarith [sq_nonneg (q.x - x.x)]) hε.le⟩

end CutoutRound
open CutoutRound

/-- The outline is one circle.  The two circles are apart; or, when `c` is to be cut out, `c` lies within the outline and is neither
tiny nor equal to it; or they cross, with the common points apart by more than the tolerance, and `IsInside` is right about the
points of `c` halfway between the common points. -/
def RoundReady (o : Outline) (c : Seg) (opsub : Bool) : Prop :=
  ∃ b, o.segs = [b] ∧ o.closed = true ∧ Made b ∧ b.kind = .circle ∧
    (√(planar2 b.center c.center) > b.radius + c.radius ∨
      (opsub = true ∧ √(planar2 b.center c.center) ≤ b.radius - c.radius ∧ 0.0005 ≤ c.radius ∧
        ¬ (PointMatches b.center c.center 1e-3 = true ∧ |b.radius - c.radius| < 1e-3)) ∨
      (JudgedDisc o b c ∧ (intersections b c).ret = true ∧ (∀ x y, Common [b] c x → Common [b] c y → PointMatches x y 1e-8 = true → x = y) ∧
        ∀ x, Common [b] c x → PointMatches c.center x 1e-8 = false))

namespace CutoutRound

theorem round_right {o : Outline} {c : Seg} {opsub : Bool} (hc : Made c) (kc : c.kind = .circle) (h : RoundReady o c opsub) :
    Right o c opsub ∧ (opCircle o (some c) opsub).error = false := by
  obtain ⟨b, ho, hcl, hb, kb, hh⟩ := h
  have hrb := ((made_ok hb).circle kb).1
  have hrc := ((made_ok hc).circle kc).1
  obtain ⟨r1, r2, -⟩ := C83_circles_refused opsub ho hcl kb kc hrb hrc
  rcases hh with hh | ⟨rfl, h1, h2, h3⟩ | ⟨hj, h1, h2, h3⟩
  · exact ⟨fun e => (by rw [(r1 hh).1] at e; cases e), (r1 hh).2.1⟩
  · exact ⟨fun e => (by rw [(r2 h1 h2 h3).1] at e; cases e), by simpa using (r2 h1 h2 h3).2.1⟩
  · refine ⟨fun hret x hx hxc => ?_, (C83_circles_done opsub ho hcl hb kb hc kc h1 h2 h3 hj).2.1⟩
    obtain ⟨-, -, -, g⟩ := C83_circles ho hb kb hc hj hret
    rw [g x hx hxc, ho]
    simp only [inside_circle kb]

end CutoutRound

/-- C85. A hole in a board of which the outline, or a cutout, may be one circle.  Each outline is made of lines and arcs, with the
conditions of `C85_hole_accepted_partial`, or is one circle that is apart from the hole, crosses it, or, for the board itself, goes
round it.  Then the hole is accepted, and at a point that is not on a border afterwards, nor on the circle, there is material
exactly if there was and the point is not in the hole.  What is missing: circles through corners, circles that touch, and arcs that
the circle meets twice and that start inside of it. -/
theorem C85_round_partial {p : Plate} {c : Seg} (hc : Made c) (kc : c.kind = .circle)
    (hm : (HoleReady p.main c ∧ (OneSided p.main c ∨ CrossesOnce p.main c)) ∨ RoundReady p.main c true)
    (hl : ∀ o ∈ p.cutouts, (HoleReady o c ∧ (OneSided o c ∨ CrossesOnce o c)) ∨ RoundReady o c false) :
    (addHole p (some c) true).2 = (true, false) ∧
    ∀ x, OffBorders (addHole p (some c) true).1 x → planar2 x c.center ≠ c.radius ^ 2 →
      (Material (addHole p (some c) true).1 x ↔ Material p x ∧ ¬ InHole c x) :=
  hole_right kc (hm.elim (ready_right true hc kc) (round_right hc kc))
    fun o ho => (hl o ho).elim (ready_right false hc kc) (round_right hc kc)

/-- a round board that the hole crosses, with a round cutout that it crosses too -/
example : ∃ (p : Plate) (c : Seg), Made c ∧ c.kind = .circle ∧ RoundReady p.main c true ∧ (∀ o ∈ p.cutouts, RoundReady o c false) ∧
    p.cutouts.length = 1 ∧ (∃ b, p.main.segs = [b] ∧ (intersections b c).ret = true) ∧ (addHole p (some c) true).2 = (true, false) := by
  obtain ⟨o, b, c, hd, hb, kb, hc, kc, hm, h1, h2, h3, h4, h5⟩ := TwoCircles.ex_two
  obtain ⟨hcl, hs, hj⟩ := TwoCircles.judged hd hb kb hc kc hm h3 h4 h5
  have r1 : RoundReady o c true := ⟨b, hs, hcl, hb, kb, Or.inr (Or.inr ⟨hj, hm, h1, h2⟩)⟩
  have r2 : RoundReady o c false := ⟨b, hs, hcl, hb, kb, Or.inr (Or.inr ⟨hj, hm, h1, h2⟩)⟩
  refine ⟨⟨o, [o], []⟩, c, hc, kc, r1, by simpa using r2, rfl, ⟨b, hs, hm⟩, ?_⟩
  exact (C85_round_partial (p := ⟨o, [o], []⟩) hc kc (Or.inr r1) (by simpa using Or.inr r2)).1

end Iges.Props
