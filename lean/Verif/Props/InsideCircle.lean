import Verif.Props.Inside
/-
C68 for an outline that is one circle and any point of the plane.
-/
namespace Iges.Props.Inside
open Iges.Geo Iges.Spec Real Iges.Props.Outlines

namespace Round

/-- how many of two different points have a property -/
theorem ncard_two {A B : Point ℝ} (hne : A ≠ B) (P : Point ℝ → Prop) :
    Odd ({q | (q = A ∨ q = B) ∧ P q} : Set (Point ℝ)).ncard ↔ ¬ (P A ↔ P B) := by
  by_cases a : P A <;> by_cases b : P B
  · have : ({q | (q = A ∨ q = B) ∧ P q} : Set (Point ℝ)) = {A, B} := by
      ext q
      simp only [Set.mem_ofPred_eq, Set.mem_insert_iff, Set.mem_singleton_iff, and_iff_left_iff_imp]
      rintro (rfl | rfl) <;> assumption
    rw [this, Set.ncard_pair hne]
    simp [a, b]
  · have : ({q | (q = A ∨ q = B) ∧ P q} : Set (Point ℝ)) = {A} := by
      ext q
      simp only [Set.mem_ofPred_eq, Set.mem_singleton_iff]
      constructor
      · rintro ⟨rfl | rfl, h⟩
        · rfl
        · exact absurd h b
      · rintro rfl; exact ⟨Or.inl rfl, a⟩
    rw [this, Set.ncard_singleton]
    simp [a, b]
  · have : ({q | (q = A ∨ q = B) ∧ P q} : Set (Point ℝ)) = {B} := by
      ext q
      simp only [Set.mem_ofPred_eq, Set.mem_singleton_iff]
      constructor
      · rintro ⟨rfl | rfl, h⟩
        · exact absurd h a
        · rfl
      · rintro rfl; exact ⟨Or.inr rfl, b⟩
    rw [this, Set.ncard_singleton]
    simp [a, b]
  · have : ({q | (q = A ∨ q = B) ∧ P q} : Set (Point ℝ)) = ∅ := by
      ext q
      simp only [Set.mem_ofPred_eq, Set.mem_empty_iff_false, iff_false]
      rintro ⟨rfl | rfl, h⟩
      · exact a h
      · exact b h
    rw [this, Set.ncard_empty]
    simp [a, b]

/-- the points of a flat line -/
theorem flat_covers {l : Seg} {p : Point ℝ} {X : ℝ} (hm : Made l) (hk : l.kind = .line) (h1 : l.start = p)
    (h2 : l.stop = ⟨X, p.y, 0⟩) (hne : X ≠ p.x) (q : Point ℝ) :
    Covers l q ↔ q.z = 0 ∧ q.y = p.y ∧ ((p.x ≤ q.x ∧ q.x ≤ X) ∨ (X ≤ q.x ∧ q.x ≤ p.x)) := by
  obtain ⟨-, -, -, -, cl⟩ := line_ends hm hk
  rw [cl, h1, h2]
  have hne' : X - p.x ≠ 0 := sub_ne_zero.2 hne
  constructor
  · rintro ⟨t, t0, t1, rfl⟩
    refine ⟨rfl, by simp [pt], ?_⟩
    simp only [pt]
    rcases le_total p.x X with h | h
    · left; constructor <;> nlinarith
    · right; constructor <;> nlinarith
  · rintro ⟨z, y, hx⟩
    refine ⟨(q.x - p.x) / (X - p.x), ?_, ?_, ?_⟩
    · rcases hx with ⟨a, b⟩ | ⟨a, b⟩
      · exact div_nonneg (by linarith) (by linarith)
      · exact div_nonneg_of_nonpos (by linarith) (by linarith)
    · rcases hx with ⟨a, b⟩ | ⟨a, b⟩
      · rw [div_le_one (lt_of_le_of_ne (by linarith) (Ne.symm hne'))]; linarith
      · rw [div_le_one_of_neg (lt_of_le_of_ne (by linarith) hne')]; linarith
    · ext
      · simp only [pt]; field_simp; ring
      · simp only [pt]; rw [y]; ring
      · exact z

/-- how a ray that ends on one side of two points passes them -/
theorem between {m w x X : ℝ} (hw : 0 < w) (hX : X < m - w ∨ m + w < X) (n1 : x ≠ m - w) (n2 : x ≠ m + w) :
    ¬ (((x ≤ m - w ∧ m - w ≤ X) ∨ (X ≤ m - w ∧ m - w ≤ x)) ↔ ((x ≤ m + w ∧ m + w ≤ X) ∨ (X ≤ m + w ∧ m + w ≤ x))) ↔
      m - w < x ∧ x < m + w := by
  rcases hX with a1 | a1
  · rcases lt_trichotomy x (m - w) with g | g | g
    · have r1 : ¬ ((x ≤ m - w ∧ m - w ≤ X) ∨ (X ≤ m - w ∧ m - w ≤ x)) := by
        rintro (⟨-, _⟩ | ⟨-, _⟩) <;> linarith
      have r2 : ¬ ((x ≤ m + w ∧ m + w ≤ X) ∨ (X ≤ m + w ∧ m + w ≤ x)) := by
        rintro (⟨-, _⟩ | ⟨-, _⟩) <;> linarith
      simp only [r1, r2]
      simp [g.not_gt]
    · exact absurd g n1
    · have r1 : ((x ≤ m - w ∧ m - w ≤ X) ∨ (X ≤ m - w ∧ m - w ≤ x)) :=
        Or.inr ⟨by linarith, by linarith⟩
      have r2 : ((x ≤ m + w ∧ m + w ≤ X) ∨ (X ≤ m + w ∧ m + w ≤ x)) ↔
          ¬ x < m + w := by
        constructor
        · rintro (⟨-, _⟩ | ⟨-, _⟩) <;> intro _ <;> linarith
        · intro g'; exact Or.inr ⟨by linarith, by linarith⟩
      simp only [r1, r2]
      simp [g]
  · rcases lt_trichotomy x (m + w) with g | g | g
    · have r2 : ((x ≤ m + w ∧ m + w ≤ X) ∨ (X ≤ m + w ∧ m + w ≤ x)) :=
        Or.inl ⟨by linarith, by linarith⟩
      have r1 : ((x ≤ m - w ∧ m - w ≤ X) ∨ (X ≤ m - w ∧ m - w ≤ x)) ↔
          ¬ m - w < x := by
        constructor
        · rintro (⟨_, -⟩ | ⟨_, -⟩) <;> intro _ <;> linarith
        · intro g'; exact Or.inl ⟨by linarith, by linarith⟩
      simp only [r1, r2]
      simp [g]
    · exact absurd g n2
    · have r1 : ¬ ((x ≤ m - w ∧ m - w ≤ X) ∨ (X ≤ m - w ∧ m - w ≤ x)) := by
        rintro (⟨_, -⟩ | ⟨_, -⟩) <;> linarith
      have r2 : ¬ ((x ≤ m + w ∧ m + w ≤ X) ∨ (X ≤ m + w ∧ m + w ≤ x)) := by
        rintro (⟨_, -⟩ | ⟨_, -⟩) <;> linarith
      simp only [r1, r2]
      simp [g.not_gt]

theorem hits_odd {c ray : Seg} {p : Point ℝ} {X lo hi : ℝ} (hm : Made ray) (kr : ray.kind = .line) (s1 : ray.start = p)
    (s2 : ray.stop = ⟨X, p.y, 0⟩) (hne : X ≠ p.x) (hk : c.kind = .circle)
    (hr : 0 < c.radius) (hlo : lo ≤ c.center.x - c.radius) (hhi : c.center.x + c.radius ≤ hi)
    (hX : X = lo - 5 ∧ p.x ≤ hi ∨ X = hi + 5 ∧ lo ≤ p.x) (hon : planar2 p c.center ≠ c.radius ^ 2)
    (hflat : c.radius ^ 2 - (p.y - c.center.y) ^ 2 ≠ 0) :
    Odd (hitSet ray c).ncard ↔ planar2 p c.center < c.radius ^ 2 := by
  have hmem : ∀ q, q ∈ hitSet ray c ↔ (planar2 q c.center = c.radius ^ 2 ∧ q.z = 0 ∧ q.y = p.y) ∧
      ((p.x ≤ q.x ∧ q.x ≤ X) ∨ (X ≤ q.x ∧ q.x ≤ p.x)) := by
    intro q
    unfold hitSet
    rw [Set.mem_ofPred_eq, flat_covers hm kr s1 s2 hne]
    unfold Covers OnCircle
    rw [hk]
    tauto
  by_cases hneg : c.radius ^ 2 - (p.y - c.center.y) ^ 2 < 0
  · have he : hitSet ray c = ∅ := by
      ext q
      rw [hmem]
      simp only [Set.mem_empty_iff_false, iff_false]
      rintro ⟨⟨g1, -, g2⟩, -⟩
      unfold planar2 at g1
      rw [g2] at g1
      nlinarith [sq_nonneg (q.x - c.center.x)]
    rw [he, Set.ncard_empty]
    simp only [Nat.not_odd_zero, false_iff, not_lt]
    unfold planar2
    nlinarith [sq_nonneg (p.x - c.center.x)]
  · obtain ⟨w, hw, hsq⟩ : ∃ w : ℝ, 0 < w ∧ w ^ 2 = c.radius ^ 2 - (p.y - c.center.y) ^ 2 := by
      rw [not_lt] at hneg
      refine ⟨√(c.radius ^ 2 - (p.y - c.center.y) ^ 2), Real.sqrt_pos.2 (lt_of_le_of_ne hneg ?_), Real.sq_sqrt hneg⟩
      exact fun e => hflat e.symm
    have hwr : w ≤ c.radius := by nlinarith [sq_nonneg (p.y - c.center.y)]
    have he : hitSet ray c = {q | (q = ⟨c.center.x - w, p.y, 0⟩ ∨ q = ⟨c.center.x + w, p.y, 0⟩) ∧
        ((p.x ≤ q.x ∧ q.x ≤ X) ∨ (X ≤ q.x ∧ q.x ≤ p.x))} := by
      ext q
      rw [hmem, Set.mem_ofPred_eq]
      refine and_congr_left fun _ => ?_
      constructor
      · rintro ⟨g1, g2, g3⟩
        unfold planar2 at g1
        rw [g3] at g1
        have : (q.x - c.center.x - w) * (q.x - c.center.x + w) = 0 := by linear_combination g1 - hsq
        rcases mul_eq_zero.1 this with g | g
        · right; ext
          · simp only; linarith
          · exact g3
          · exact g2
        · left; ext
          · simp only; linarith
          · exact g3
          · exact g2
      · rintro (rfl | rfl)
        · exact ⟨by unfold planar2; simp only; linear_combination hsq, rfl, rfl⟩
        · exact ⟨by unfold planar2; simp only; linear_combination hsq, rfl, rfl⟩
    rw [he, ncard_two (by intro e; have := congrArg Point.x e; simp only at this; linarith)]
    simp only
    have n1 : p.x ≠ c.center.x - w := by
      intro e; apply hon; unfold planar2; rw [e]; linear_combination hsq
    have n2 : p.x ≠ c.center.x + w := by
      intro e; apply hon; unfold planar2; rw [e]; linear_combination hsq
    have hdisc : planar2 p c.center < c.radius ^ 2 ↔ c.center.x - w < p.x ∧ p.x < c.center.x + w := by
      unfold planar2
      constructor
      · intro g; constructor <;> nlinarith
      · rintro ⟨g1, g2⟩; nlinarith
    rw [hdisc]
    exact between hw (by rcases hX with ⟨e, -⟩ | ⟨e, -⟩; exacts [Or.inl (by linarith), Or.inr (by linarith)]) n1 n2

end Round
open Round

/-- C68. An outline that is one circle, with a box that holds it: for every point of the plane that is not on the circle,
`IsInside` reports whether the point is nearer to the centre than the radius.  Only the points of the width of the box are
left out that are at the height of the top or the bottom of the circle, for which it can be wrong (`C68_beside_circle`). -/
theorem C68_circle {o : Outline} {c : Seg} (ho : o.segs = [c]) (hcl : o.closed = true) (hk : c.kind = .circle) (hr : 0 < c.radius)
    (hlo : o.lo.x ≤ c.center.x - c.radius) (hhi : c.center.x + c.radius ≤ o.hi.x)
    (hs : -10 ^ 7 ≤ o.lo.x ∧ o.hi.x ≤ 10 ^ 7) {p : Point ℝ} (hz : p.z = 0) (hy : |p.y| ≤ 10 ^ 7)
    (hon : planar2 p c.center ≠ c.radius ^ 2)
    (hp : p.x < o.lo.x ∨ o.hi.x < p.x ∨ 1e-8 ≤ |c.radius ^ 2 - (p.y - c.center.y) ^ 2|) :
    isInside o p = some (open Classical in decide (planar2 p c.center < c.radius ^ 2)) := by
  classical
  have hval : isInside o p = some (segCount (setLine p (rayEnd o p)).1 c c c p.y % 2 == 1) := by
    unfold isInside
    rw [hcl]
    simp only [Bool.not_true, Bool.false_eq_true, if_false, ho, List.getLast?_singleton]
    unfold countFrom countFrom
    simp
  rw [hval]
  congr 1
  rw [Bool.eq_iff_iff, beq_iff_eq, decide_eq_true_iff, ← Nat.odd_iff]
  have hX : (rayEnd o p).x = o.lo.x - 5 ∧ p.x ≤ o.hi.x ∨ (rayEnd o p).x = o.hi.x + 5 ∧ o.lo.x ≤ p.x := by
    unfold rayEnd
    simp only
    split
    · left; exact ⟨rfl, by linarith⟩
    · right; exact ⟨rfl, by linarith⟩
  have hend : rayEnd o p = ⟨(rayEnd o p).x, p.y, 0⟩ := rfl
  generalize hXX : (rayEnd o p).x = X at *
  have hbox : o.lo.x < o.hi.x := by linarith
  -- outside of the box the point is further away than the radius
  have hout : (p.x < o.lo.x ∨ o.hi.x < p.x) → ¬ planar2 p c.center < c.radius ^ 2 := by
    rintro h hc
    unfold planar2 at hc
    rcases h with h | h <;> nlinarith [sq_nonneg (p.y - c.center.y)]
  rcases setLine_cases p (rayEnd o p) with h | ⟨-, -, hmt, h⟩
  · have hk0 : (setLine p (rayEnd o p)).1.kind = .none := by rw [h]; rfl
    have h0 : segCount (setLine p (rayEnd o p)).1 c c c p.y = 0 := by
      unfold segCount intersections
      rw [hk, hk0]
      simp
    rw [h0]
    simp only [Nat.not_odd_zero, false_iff]
    apply hout
    by_contra hcon
    push Not at hcon
    have : PointMatches p (rayEnd o p) 1e-8 = false := by
      have hx1 : |p.x| ≤ 2 * 10 ^ 7 := by rw [abs_le]; constructor <;> linarith [hs.1, hs.2]
      apply no_match (by norm_num)
      · exact norm_small hx1 (hy.trans (by norm_num)) hz
      · rw [hend]
        refine norm_small ?_ (hy.trans (by norm_num)) rfl
        simp only
        rw [abs_le]
        rcases hX with ⟨e, -⟩ | ⟨e, -⟩ <;> rw [e] <;> constructor <;> linarith [hs.1, hs.2]
      · rw [hend]
        unfold dist2
        simp only
        have : 25 ≤ (p.x - X) ^ 2 := by
          rcases hX with ⟨e, -⟩ | ⟨e, -⟩ <;> rw [e] <;> nlinarith
        nlinarith [sq_nonneg (p.y - p.y), sq_nonneg (p.z - 0)]
    unfold setLine at h
    rw [if_neg (by rw [hz]; simp [rayEnd]), if_neg (by rw [this]; simp)] at h
    simp at h
  · have hm : Made (setLine p (rayEnd o p)).1 := .line (by rw [h])
    have kr : (setLine p (rayEnd o p)).1.kind = .line := by rw [h]
    have s1 : (setLine p (rayEnd o p)).1.start = p := by rw [h]
    have s2 : (setLine p (rayEnd o p)).1.stop = ⟨X, p.y, 0⟩ := by rw [h]; exact hend
    generalize (setLine p (rayEnd o p)).1 = ray at hm kr s1 s2
    have hne : X ≠ p.x := by
      intro e
      have : rayEnd o p = p := by rw [hend, e]; ext <;> simp [hz]
      rw [this, C51_reflexive] at hmt
      cases hmt
    have hap : ray.start.x ≠ ray.stop.x ∨ ray.start.y ≠ ray.stop.y := by
      left; rw [s1, s2]; exact hne.symm
    have hi' : intersections c ray = arcLine c c.start c.stop ray.start ray.stop c.start c.stop := by
      obtain ⟨gs, ge, -, -, -⟩ := line_ends hm kr
      unfold intersections checkArcLine; rw [hk, kr]; simp only [or_true, if_true, gs, ge]
    have hch : chord c.center c.radius ray.start ray.stop = 4 * (X - p.x) ^ 2 * (c.radius ^ 2 - (p.y - c.center.y) ^ 2) := by
      unfold chord planar2 across
      rw [s1, s2]
      simp only
      ring
    by_cases hD : 1e-6 ≤ |chord c.center c.radius ray.start ray.stop|
    · obtain ⟨h1, h2⟩ := C64_circle_line (Or.inl ⟨rfl, rfl⟩) hm hk kr hap hD
      have hcount : segCount ray c c c p.y = (hitSet ray c).ncard := by
        refine count_hits h2 ?_ h1 fun q _ => count_one (Or.inl hk)
        rw [hi']
        exact arcLine_nodup (line_positive hap) hD
      rw [hcount]
      exact hits_odd hm kr s1 s2 hne hk hr hlo hhi hX hon (by rintro e0; rw [hch, e0] at hD; norm_num at hD)
    · -- the ray passes the circle at the height of its top or bottom: the point is beside the box
      have hbeside : p.x < o.lo.x ∨ o.hi.x < p.x := by
        by_contra hcon
        have h8 : 1e-8 ≤ |c.radius ^ 2 - (p.y - c.center.y) ^ 2| := by tauto
        push Not at hcon
        apply hD
        rw [hch, abs_mul, abs_mul, abs_of_pos (by norm_num : (0:ℝ) < 4), abs_of_nonneg (sq_nonneg _)]
        have : 25 ≤ (X - p.x) ^ 2 := by
          rcases hX with ⟨e, -⟩ | ⟨e, -⟩ <;> rw [e] <;> nlinarith
        nlinarith
      have hmiss : intersections c ray = ⟨[], .none, false⟩ := by
        rw [hi']
        unfold arcLine
        simp only [quad_disc]
        rw [if_pos ⟨not_le.1 hD, by rw [hk]; rfl⟩, if_pos]
        have hB : -quadB c.center ray.start ray.stop / (2 * quadA ray.start ray.stop) = (c.center.x - X) / (p.x - X) := by
          have : p.x - X ≠ 0 := sub_ne_zero.2 hne.symm
          unfold quadA quadB
          rw [s1, s2]
          simp only
          rw [div_eq_div_iff (by
            have : 0 < (p.x - X) ^ 2 := by positivity
            intro e; nlinarith) this]
          ring
        rw [hB]
        have far : ∀ {a b : ℝ}, a ≠ b → ((c.center.x < a ∧ c.center.x < b) ∨ (a < c.center.x ∧ b < c.center.x)) →
            (c.center.x - b) / (a - b) < 0 ∨ (c.center.x - b) / (a - b) > 1 := by
          intro a b hab h
          rcases lt_or_gt_of_ne (sub_ne_zero.2 hab) with g | g
          · rcases h with ⟨x1, x2⟩ | ⟨x1, x2⟩
            · right; rw [gt_iff_lt, one_lt_div_of_neg g]; linarith
            · left; exact div_neg_of_pos_of_neg (by linarith) g
          · rcases h with ⟨x1, x2⟩ | ⟨x1, x2⟩
            · left; exact div_neg_of_neg_of_pos (by linarith) g
            · right; rw [gt_iff_lt, one_lt_div g]; linarith
        refine far hne.symm ?_
        rcases hbeside with g | g
        · right
          rcases hX with ⟨e, -⟩ | ⟨e, hx⟩
          · rw [e]; constructor <;> linarith
          · linarith
        · left
          rcases hX with ⟨e, hx⟩ | ⟨e, -⟩
          · linarith
          · rw [e]; constructor <;> linarith
      have h0 : segCount ray c c c p.y = 0 := by
        unfold segCount
        rw [hmiss]
        simp
      rw [h0]
      simp only [Nat.not_odd_zero, false_iff]
      exact hout hbeside

end Iges.Props.Inside
