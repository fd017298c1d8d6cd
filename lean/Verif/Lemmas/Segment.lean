import Verif.Lemmas.Trig
import Verif.Spec.SegPoints
import Verif.Props.Geom
/- The invariant of arcs, the bounding box and the points of a segment. -/
namespace Iges.Geo
open Real Spec

/-- how far the end points of an arc may be off its circle -/
noncomputable def slack (r : ℝ) : ℝ := max 1e-8 (1e-8 / r)

/-- `p` is in the direction `a` from `c`, and nearly at distance `r` -/
def EndAt (c : Point ℝ) (r : ℝ) (p : Point ℝ) (a : ℝ) : Prop := ∃ ρ, 0 < ρ ∧ |ρ - r| ≤ slack r ∧ p = polar c ρ a

structure ArcOk (s : Seg) : Prop where
  kind : s.kind = .arc
  pos : 0 < s.radius
  low : -π < s.startAngle
  le : s.startAngle ≤ s.endAngle
  high : s.endAngle < 3 * π
  turn : s.endAngle < s.startAngle + 2 * π
  flat : s.center.z = 0
  first : EndAt s.center s.radius s.start s.sang
  last : EndAt s.center s.radius s.stop s.eang

theorem slack_pos (r : ℝ) : 0 < slack r := lt_of_lt_of_le (by norm_num) (le_max_left _ _)

theorem matches_self_of_eq {p q : Point ℝ} {r : ℝ} (h : p = q) : PointMatches p q r = true := by
  rw [h]; exact Props.C51_reflexive q r

/-- points that differ by at most `r` match -/
theorem matches_of_close {p q : Point ℝ} {r : ℝ} (h : dist2 p q ≤ r ^ 2) : PointMatches p q r = true := by
  have h3 : dist2 p q ≤ 3.0001 * r ^ 2 := by nlinarith [sq_nonneg r]
  by_cases hb : norm2 p > 10 ^ 15 ∨ norm2 q > 10 ^ 15
  · rw [Props.C51_match_far_iff p q r hb]; exact le_max_of_le_left h3
  · push Not at hb
    rw [Props.C51_match_iff p q r hb.1 hb.2]; exact le_max_of_le_left h3

theorem polar_of (c p : Point ℝ) (hz : p.z = 0) :
    p = polar c (hyp (p.x - c.x) (p.y - c.y)) (atan2 (p.y - c.y) (p.x - c.x)) := by
  unfold polar pt
  ext
  · rw [hyp_cos]; ring
  · rw [hyp_sin]; ring
  · exact hz

theorem hyp_pos {c p : Point ℝ} (hc : c.z = 0) (hp : p.z = 0) (h : PointMatches c p 1e-8 = false) :
    0 < hyp (p.x - c.x) (p.y - c.y) := by
  rcases (hyp_nonneg (p.x - c.x) (p.y - c.y)).lt_or_eq with h0 | h0
  · exact h0
  · exfalso
    have h1 := hyp_sq (p.x - c.x) (p.y - c.y)
    rw [← h0] at h1
    have hx : p.x = c.x := by nlinarith [sq_nonneg (p.x - c.x), sq_nonneg (p.y - c.y)]
    have hy : p.y = c.y := by nlinarith [sq_nonneg (p.x - c.x), sq_nonneg (p.y - c.y)]
    rw [matches_self_of_eq (Point.ext hx.symm hy.symm (hc.trans hp.symm) : c = p)] at h
    cases h

theorem cos_shift (a : ℝ) (b : Prop) [Decidable b] : cos (if b then a + 2 * π else a) = cos a := by
  split
  · exact Real.cos_add_two_pi a
  · rfl

theorem sin_shift (a : ℝ) (b : Prop) [Decidable b] : sin (if b then a + 2 * π else a) = sin a := by
  split
  · exact Real.sin_add_two_pi a
  · rfl

/-- `SetParams` of an arc that is not a closed circle: what is set -/
theorem setArc_cases {c a b : Point ℝ} {cw : Bool} {s : Seg} (h : setArc c a b cw = (s, true)) :
    c.z = 0 ∧ a.z = 0 ∧ b.z = 0 ∧ 0 < hyp (a.x - c.x) (a.y - c.y) ∧ 0 < hyp (b.x - c.x) (b.y - c.y) ∧
    s.center = c ∧ s.radius = hyp (a.x - c.x) (a.y - c.y) ∧
    ((s.kind = .circle ∧ PointMatches a b 1e-8 = true) ∨
     (s.kind = .arc ∧ PointMatches a b 1e-8 = false ∧ s.start = a ∧ s.stop = b ∧ s.cw = cw ∧
      |hyp (b.x - c.x) (b.y - c.y) - s.radius| ≤ 1e-8 ∧
      (let sa := atan2 (a.y - c.y) (a.x - c.x)
       let ea := atan2 (b.y - c.y) (b.x - c.x)
       s.sang = (if cw = true ∧ sa < ea then sa + 2 * π else sa) ∧
       s.eang = (if cw = false ∧ ea < sa then ea + 2 * π else ea)))) := by
  unfold setArc at h
  split at h
  · simp at h
  rename_i hz
  push Not at hz
  split at h
  · simp at h
  rename_i hm
  push Not at hm
  have hm1 : PointMatches c a 1e-8 = false := by simpa using hm.1
  have hm2 : PointMatches c b 1e-8 = false := by simpa using hm.2
  refine ⟨hz.1, hz.2.1, hz.2.2, hyp_pos hz.1 hz.2.1 hm1, hyp_pos hz.1 hz.2.2 hm2, ?_⟩
  simp only at h
  split at h
  · rename_i hab
    have h' := (Prod.mk.inj h).1
    subst h'
    exact ⟨rfl, rfl, Or.inl ⟨rfl, hab⟩⟩
  · rename_i hab
    split at h
    · simp at h
    · rename_i hr
      have h' := (Prod.mk.inj h).1
      subst h'
      refine ⟨rfl, rfl, Or.inr ⟨rfl, by simpa using hab, rfl, rfl, rfl, not_lt.1 hr, ?_, ?_⟩⟩
      · cases cw <;> simp
      · cases cw <;> simp

theorem setArc_ok {c a b : Point ℝ} {cw : Bool} {s : Seg} (h : setArc c a b cw = (s, true)) (hk : s.kind = .arc) :
    ArcOk s := by
  obtain ⟨hc, ha, hb, hra, hrb, e1, e2, h⟩ := setArc_cases h
  rcases h with ⟨h, -⟩ | ⟨-, hab, hs, he, hcw, hr, hsa, hea⟩
  · rw [hk] at h; cases h
  have p1 := atan2_gt (a.y - c.y) (a.x - c.x)
  have p2 := atan2_le (a.y - c.y) (a.x - c.x)
  have p3 := atan2_gt (b.y - c.y) (b.x - c.x)
  have p4 := atan2_le (b.y - c.y) (b.x - c.x)
  have hp := Real.pi_pos
  constructor
  · exact hk
  · rw [e2]; exact hra
  · unfold Seg.startAngle
    rw [hcw, hsa, hea]
    cases cw <;> simp [p1, p3]
  · unfold Seg.startAngle Seg.endAngle
    rw [hcw, hsa, hea]
    cases cw
    · simp; split <;> linarith
    · simp; split <;> linarith
  · unfold Seg.endAngle
    rw [hcw, hsa, hea]
    cases cw
    · simp; split <;> linarith
    · simp; split <;> linarith
  · unfold Seg.startAngle Seg.endAngle
    rw [hcw, hsa, hea]
    cases cw
    · simp; split <;> linarith
    · simp; split <;> linarith
  · rw [e1]; exact hc
  · refine ⟨_, hra, ?_, ?_⟩
    · rw [e2, sub_self, abs_zero]; exact (slack_pos _).le
    · rw [hs, hsa, e1]
      have := polar_of c a ha
      unfold polar at this ⊢
      rw [cos_shift, sin_shift]
      exact this
  · refine ⟨_, hrb, le_trans hr (le_max_left _ _), ?_⟩
    rw [he, hea, e1]
    have := polar_of c b hb
    unfold polar at this ⊢
    rw [cos_shift, sin_shift]
    exact this

theorem reverse_ok {s : Seg} (h : ArcOk s) : ArcOk s.reverse := by
  obtain ⟨hk, h1, h2, h3, h4, h5, h6, h7, h8⟩ := h
  unfold Seg.reverse
  simp only [hk]
  constructor <;> simp_all [Seg.startAngle, Seg.endAngle] <;> cases hc : s.cw <;> simp_all

/-- the box of `grow`ing: it contains what it contained and the points -/
theorem grow_spec (ms : List (Point ℝ)) (b : Point ℝ × Point ℝ) :
    (ms.foldl grow b).1.x ≤ b.1.x ∧ (ms.foldl grow b).1.y ≤ b.1.y ∧
    b.2.x ≤ (ms.foldl grow b).2.x ∧ b.2.y ≤ (ms.foldl grow b).2.y ∧
    (∀ m ∈ ms, (ms.foldl grow b).1.x ≤ m.x ∧ (ms.foldl grow b).1.y ≤ m.y ∧
      m.x ≤ (ms.foldl grow b).2.x ∧ m.y ≤ (ms.foldl grow b).2.y) ∧
    ((ms.foldl grow b).1.x = b.1.x ∨ ∃ m ∈ ms, (ms.foldl grow b).1.x = m.x) ∧
    ((ms.foldl grow b).1.y = b.1.y ∨ ∃ m ∈ ms, (ms.foldl grow b).1.y = m.y) ∧
    ((ms.foldl grow b).2.x = b.2.x ∨ ∃ m ∈ ms, (ms.foldl grow b).2.x = m.x) ∧
    ((ms.foldl grow b).2.y = b.2.y ∨ ∃ m ∈ ms, (ms.foldl grow b).2.y = m.y) := by
  induction ms generalizing b with
  | nil => simp
  | cons m ms ih =>
    obtain ⟨h1, h2, h3, h4, h5, h6, h7, h8, h9⟩ := ih (grow b m)
    have g1 : (grow b m).1.x ≤ b.1.x ∧ (grow b m).1.x ≤ m.x ∧ ((grow b m).1.x = b.1.x ∨ (grow b m).1.x = m.x) := by
      unfold grow; dsimp only; split <;> refine ⟨by linarith, by linarith, by simp⟩
    have g2 : (grow b m).1.y ≤ b.1.y ∧ (grow b m).1.y ≤ m.y ∧ ((grow b m).1.y = b.1.y ∨ (grow b m).1.y = m.y) := by
      unfold grow; dsimp only; split <;> refine ⟨by linarith, by linarith, by simp⟩
    have g3 : b.2.x ≤ (grow b m).2.x ∧ m.x ≤ (grow b m).2.x ∧ ((grow b m).2.x = b.2.x ∨ (grow b m).2.x = m.x) := by
      unfold grow; dsimp only; split <;> refine ⟨by linarith, by linarith, by simp⟩
    have g4 : b.2.y ≤ (grow b m).2.y ∧ m.y ≤ (grow b m).2.y ∧ ((grow b m).2.y = b.2.y ∨ (grow b m).2.y = m.y) := by
      unfold grow; dsimp only; split <;> refine ⟨by linarith, by linarith, by simp⟩
    rw [List.foldl_cons]
    refine ⟨by linarith, by linarith, by linarith, by linarith, ?_, ?_, ?_, ?_, ?_⟩
    · intro k hk
      rcases List.mem_cons.1 hk with rfl | hk
      · exact ⟨by linarith, by linarith, by linarith, by linarith⟩
      · exact h5 k hk
    · rcases h6 with e | ⟨k, hk, e⟩
      · rw [e]; rcases g1.2.2 with e | e
        · exact Or.inl e
        · exact Or.inr ⟨m, by simp, e⟩
      · exact Or.inr ⟨k, by simp [hk], e⟩
    · rcases h7 with e | ⟨k, hk, e⟩
      · rw [e]; rcases g2.2.2 with e | e
        · exact Or.inl e
        · exact Or.inr ⟨m, by simp, e⟩
      · exact Or.inr ⟨k, by simp [hk], e⟩
    · rcases h8 with e | ⟨k, hk, e⟩
      · rw [e]; rcases g3.2.2 with e | e
        · exact Or.inl e
        · exact Or.inr ⟨m, by simp, e⟩
      · exact Or.inr ⟨k, by simp [hk], e⟩
    · rcases h9 with e | ⟨k, hk, e⟩
      · rw [e]; rcases g4.2.2 with e | e
        · exact Or.inl e
        · exact Or.inr ⟨m, by simp, e⟩
      · exact Or.inr ⟨k, by simp [hk], e⟩

theorem endBox_spec (a b : Point ℝ) :
    (endBox a b).1.x = min a.x b.x ∧ (endBox a b).1.y = min a.y b.y ∧
    (endBox a b).2.x = max a.x b.x ∧ (endBox a b).2.y = max a.y b.y := by
  unfold endBox
  dsimp only
  refine ⟨?_, ?_, ?_, ?_⟩
  · split
    · rw [min_eq_left]; linarith
    · rw [min_eq_right]; linarith
  · split
    · rw [min_eq_left]; linarith
    · rw [min_eq_right]; linarith
  · split
    · rw [max_eq_right]; linarith
    · rw [max_eq_left]; linarith
  · split
    · rw [max_eq_right]; linarith
    · rw [max_eq_left]; linarith

/-- the extreme points: which ones are listed -/
theorem extrema_right {s : Seg} (h : ArcOk s) {k : ℤ} (h1 : s.startAngle ≤ 2 * π * k) (h2 : 2 * π * k ≤ s.endAngle) :
    (⟨s.center.x + s.radius, s.center.y, 0⟩ : Point ℝ) ∈ s.extrema := by
  have hp := Real.pi_pos
  have k1 : (-1 : ℝ) < k := by by_contra hc; nlinarith [h.low]
  have k2 : (k : ℝ) < 2 := by by_contra hc; nlinarith [h.high]
  have k1' : -1 < k := by exact_mod_cast k1
  have k2' : k < 2 := by exact_mod_cast k2
  unfold Seg.extrema
  simp only [List.mem_append]
  left; left; left
  rw [if_pos]
  · simp
  · obtain rfl | rfl : k = 0 ∨ k = 1 := by omega
    · left; simp at h1 h2; exact ⟨h1, h2⟩
    · right; simp at h1 h2; exact ⟨h1, h2⟩

theorem extrema_top {s : Seg} (h : ArcOk s) {k : ℤ} (h1 : s.startAngle ≤ π / 2 + 2 * π * k)
    (h2 : π / 2 + 2 * π * k ≤ s.endAngle) : (⟨s.center.x, s.center.y + s.radius, 0⟩ : Point ℝ) ∈ s.extrema := by
  have hp := Real.pi_pos
  have k1 : (-1 : ℝ) < k := by by_contra hc; nlinarith [h.low]
  have k2 : (k : ℝ) < 2 := by by_contra hc; nlinarith [h.high]
  have k1' : -1 < k := by exact_mod_cast k1
  have k2' : k < 2 := by exact_mod_cast k2
  unfold Seg.extrema
  simp only [List.mem_append]
  left; left; right
  rw [if_pos]
  · simp
  · obtain rfl | rfl : k = 0 ∨ k = 1 := by omega
    · left; simp at h1 h2; constructor <;> linarith
    · right; simp at h1 h2; constructor <;> linarith

theorem extrema_left {s : Seg} (h : ArcOk s) {k : ℤ} (h1 : s.startAngle ≤ π + 2 * π * k)
    (h2 : π + 2 * π * k ≤ s.endAngle) : (⟨s.center.x - s.radius, s.center.y, 0⟩ : Point ℝ) ∈ s.extrema := by
  have hp := Real.pi_pos
  have k1 : (-1 : ℝ) < k := by by_contra hc; nlinarith [h.low]
  have k2 : (k : ℝ) < 1 := by by_contra hc; nlinarith [h.high]
  have k1' : -1 < k := by exact_mod_cast k1
  have k2' : k < 1 := by exact_mod_cast k2
  unfold Seg.extrema
  simp only [List.mem_append]
  left; right
  rw [if_pos]
  · simp
  · obtain rfl : k = 0 := by omega
    simp at h1 h2; exact ⟨h1, h2⟩

theorem extrema_bottom {s : Seg} (h : ArcOk s) {k : ℤ} (h1 : s.startAngle ≤ -(π / 2) + 2 * π * k)
    (h2 : -(π / 2) + 2 * π * k ≤ s.endAngle) : (⟨s.center.x, s.center.y - s.radius, 0⟩ : Point ℝ) ∈ s.extrema := by
  have hp := Real.pi_pos
  have k1 : (-1 : ℝ) < k := by by_contra hc; nlinarith [h.low]
  have k2 : (k : ℝ) < 2 := by by_contra hc; nlinarith [h.high]
  have k1' : -1 < k := by exact_mod_cast k1
  have k2' : k < 2 := by exact_mod_cast k2
  unfold Seg.extrema
  simp only [List.mem_append]
  right
  rw [if_pos]
  · simp
  · obtain rfl | rfl : k = 0 ∨ k = 1 := by omega
    · left; simp at h1 h2; constructor <;> linarith
    · right; simp at h1 h2; constructor <;> linarith

/-- every listed extreme point is a point of the arc -/
theorem extrema_on {s : Seg} (m : Point ℝ) (hm : m ∈ s.extrema) :
    ∃ a, s.startAngle ≤ a ∧ a ≤ s.endAngle ∧ m = polar s.center s.radius a := by
  unfold Seg.extrema at hm
  simp only [List.mem_append] at hm
  have e25 : cos (2.5 * π) = 0 ∧ sin (2.5 * π) = 1 := by
    have : 2.5 * π = π / 2 + 2 * π := by ring
    rw [this, Real.cos_add_two_pi, Real.sin_add_two_pi]; simp
  have e15 : cos (1.5 * π) = 0 ∧ sin (1.5 * π) = -1 := by
    have : 1.5 * π = π / 2 + π := by ring
    rw [this, Real.cos_add_pi, Real.sin_add_pi]; simp
  have e05 : cos (π * 0.5) = 0 ∧ sin (π * 0.5) = 1 := by
    have : π * 0.5 = π / 2 := by ring
    rw [this]; simp
  have em05 : cos (-0.5 * π) = 0 ∧ sin (-0.5 * π) = -1 := by
    have : -0.5 * π = -(π / 2) := by ring
    rw [this, Real.cos_neg, Real.sin_neg]; simp
  rcases hm with ((hm | hm) | hm) | hm
  · split at hm
    · rename_i hc
      rw [List.mem_singleton] at hm
      subst hm
      rcases hc with hc | hc
      · exact ⟨0, hc.1, hc.2, by simp [polar, pt]⟩
      · exact ⟨2 * π, hc.1, hc.2, by simp [polar, pt]⟩
    · simp at hm
  · split at hm
    · rename_i hc
      rw [List.mem_singleton] at hm
      subst hm
      rcases hc with hc | hc
      · exact ⟨_, hc.1, hc.2, by simp [polar, pt, e05]⟩
      · exact ⟨_, hc.1, hc.2, by simp [polar, pt, e25]⟩
    · simp at hm
  · split at hm
    · rename_i hc
      rw [List.mem_singleton] at hm
      subst hm
      exact ⟨_, hc.1, hc.2, by simp [polar, pt]; ring⟩
    · simp at hm
  · split at hm
    · rename_i hc
      rw [List.mem_singleton] at hm
      subst hm
      rcases hc with hc | hc
      · refine ⟨_, hc.1, hc.2, ?_⟩
        unfold polar pt; rw [em05.1, em05.2]; simp; ring
      · refine ⟨_, hc.1, hc.2, ?_⟩
        unfold polar pt; rw [e15.1, e15.2]; simp; ring
    · simp at hm

/-- an end point differs by at most the slack from the point of the circle in its direction -/
theorem EndAt.close {c p : Point ℝ} {r a : ℝ} (h : EndAt c r p a) :
    |p.x - (c.x + r * cos a)| ≤ slack r ∧ |p.y - (c.y + r * sin a)| ≤ slack r := by
  obtain ⟨ρ, -, h2, rfl⟩ := h
  constructor
  · have : (polar c ρ a).x - (c.x + r * cos a) = (ρ - r) * cos a := by unfold polar pt; ring
    rw [this, abs_mul]
    calc |ρ - r| * |cos a| ≤ |ρ - r| * 1 := mul_le_mul_of_nonneg_left (Real.abs_cos_le_one a) (abs_nonneg _)
      _ ≤ slack r := by linarith
  · have : (polar c ρ a).y - (c.y + r * sin a) = (ρ - r) * sin a := by unfold polar pt; ring
    rw [this, abs_mul]
    calc |ρ - r| * |sin a| ≤ |ρ - r| * 1 := mul_le_mul_of_nonneg_left (Real.abs_sin_le_one a) (abs_nonneg _)
      _ ≤ slack r := by linarith

/-- the end points in the order of the angles -/
theorem ArcOk.ends {s : Seg} (h : ArcOk s) :
    EndAt s.center s.radius s.getStart s.startAngle ∧ EndAt s.center s.radius s.getEnd s.endAngle := by
  unfold Seg.getStart Seg.getEnd Seg.startAngle Seg.endAngle
  cases s.cw
  · exact ⟨h.first, h.last⟩
  · exact ⟨h.last, h.first⟩

theorem endBox_comm (a b : Point ℝ) : ((endBox a b).1.x = (endBox b a).1.x ∧ (endBox a b).1.y = (endBox b a).1.y ∧
    (endBox a b).2.x = (endBox b a).2.x ∧ (endBox a b).2.y = (endBox b a).2.y) := by
  obtain ⟨h1, h2, h3, h4⟩ := endBox_spec a b
  obtain ⟨g1, g2, g3, g4⟩ := endBox_spec b a
  rw [h1, h2, h3, h4, g1, g2, g3, g4]
  exact ⟨min_comm _ _, min_comm _ _, max_comm _ _, max_comm _ _⟩

/-- the box of the end points by `GetStart` and `GetEnd` -/
theorem endBox_ends (s : Seg) :
    (endBox s.start s.stop).1.x ≤ s.getStart.x ∧ (endBox s.start s.stop).1.x ≤ s.getEnd.x ∧
    (endBox s.start s.stop).1.y ≤ s.getStart.y ∧ (endBox s.start s.stop).1.y ≤ s.getEnd.y ∧
    s.getStart.x ≤ (endBox s.start s.stop).2.x ∧ s.getEnd.x ≤ (endBox s.start s.stop).2.x ∧
    s.getStart.y ≤ (endBox s.start s.stop).2.y ∧ s.getEnd.y ≤ (endBox s.start s.stop).2.y := by
  obtain ⟨h1, h2, h3, h4⟩ := endBox_spec s.start s.stop
  rw [h1, h2, h3, h4]
  unfold Seg.getStart Seg.getEnd
  cases s.cw <;> simp

/-- the box of an arc contains its points -/
theorem box_arc_contains {s : Seg} (h : ArcOk s) {a : ℝ} (ha : s.startAngle ≤ a) (ha' : a ≤ s.endAngle) :
    InBox (slack s.radius) (s.extrema.foldl grow (endBox s.start s.stop)) (polar s.center s.radius a) := by
  obtain ⟨g1, g2, g3, g4, g5, -⟩ := grow_spec s.extrema (endBox s.start s.stop)
  obtain ⟨b1, b2, b3, b4, b5, b6, b7, b8⟩ := endBox_ends s
  obtain ⟨es, ee⟩ := h.ends
  have es' := es.close
  have ee' := ee.close
  simp only [abs_le] at es' ee'
  have hr := h.pos
  have hs := slack_pos s.radius
  refine ⟨?_, ?_, ?_, ?_⟩
  · show _ ≤ s.center.x + s.radius * cos a
    by_cases hk : ∃ k : ℤ, s.startAngle ≤ π + 2 * π * k ∧ π + 2 * π * k ≤ s.endAngle
    · obtain ⟨k, k1, k2⟩ := hk
      have := (g5 _ (extrema_left h k1 k2)).1
      simp only at this
      have := mul_le_mul_of_nonneg_left (Real.neg_one_le_cos a) hr.le
      linarith
    · push Not at hk
      rcases cos_ge_ends (fun k ⟨x, y⟩ => absurd (hk k x) (not_lt.2 y)) ha ha' with hc | hc <;>
        · have := mul_le_mul_of_nonneg_left hc hr.le
          linarith
  · show s.center.x + s.radius * cos a ≤ _
    by_cases hk : ∃ k : ℤ, s.startAngle ≤ 2 * π * k ∧ 2 * π * k ≤ s.endAngle
    · obtain ⟨k, k1, k2⟩ := hk
      have := (g5 _ (extrema_right h k1 k2)).2.2.1
      simp only at this
      have := mul_le_mul_of_nonneg_left (Real.cos_le_one a) hr.le
      linarith
    · push Not at hk
      rcases cos_le_ends (fun k ⟨x, y⟩ => absurd (hk k x) (not_lt.2 y)) ha ha' with hc | hc <;>
        · have := mul_le_mul_of_nonneg_left hc hr.le
          linarith
  · show _ ≤ s.center.y + s.radius * sin a
    by_cases hk : ∃ k : ℤ, s.startAngle ≤ -(π / 2) + 2 * π * k ∧ -(π / 2) + 2 * π * k ≤ s.endAngle
    · obtain ⟨k, k1, k2⟩ := hk
      have := (g5 _ (extrema_bottom h k1 k2)).2.1
      simp only at this
      have := mul_le_mul_of_nonneg_left (Real.neg_one_le_sin a) hr.le
      linarith
    · push Not at hk
      rcases sin_ge_ends (fun k ⟨x, y⟩ => absurd (hk k x) (not_lt.2 y)) ha ha' with hc | hc <;>
        · have := mul_le_mul_of_nonneg_left hc hr.le
          linarith
  · show s.center.y + s.radius * sin a ≤ _
    by_cases hk : ∃ k : ℤ, s.startAngle ≤ π / 2 + 2 * π * k ∧ π / 2 + 2 * π * k ≤ s.endAngle
    · obtain ⟨k, k1, k2⟩ := hk
      have := (g5 _ (extrema_top h k1 k2)).2.2.2
      simp only at this
      have := mul_le_mul_of_nonneg_left (Real.sin_le_one a) hr.le
      linarith
    · push Not at hk
      rcases sin_le_ends (fun k ⟨x, y⟩ => absurd (hk k x) (not_lt.2 y)) ha ha' with hc | hc <;>
        · have := mul_le_mul_of_nonneg_left hc hr.le
          linarith

/-- each side of the box of an arc comes close to a point of the arc -/
theorem box_arc_tight {s : Seg} (h : ArcOk s) :
    Tight (slack s.radius) (Covers s) (s.extrema.foldl grow (endBox s.start s.stop)) := by
  have hcov : ∀ a, s.startAngle ≤ a → a ≤ s.endAngle → Covers s (polar s.center s.radius a) := by
    intro a h1 h2
    unfold Covers; rw [h.kind]; exact ⟨a, h1, h2, rfl⟩
  obtain ⟨-, -, -, -, -, g6, g7, g8, g9⟩ := grow_spec s.extrema (endBox s.start s.stop)
  have hext : ∀ m ∈ s.extrema, Covers s m := by
    intro m hm
    obtain ⟨a, h1, h2, rfl⟩ := extrema_on m hm
    exact hcov a h1 h2
  have hs := (slack_pos s.radius).le
  -- the two ends
  have hlo : ∃ p, Covers s p ∧ |p.x - s.start.x| ≤ slack s.radius ∧ |p.y - s.start.y| ≤ slack s.radius := by
    have := h.first.close
    refine ⟨polar s.center s.radius s.sang, hcov _ ?_ ?_, ?_, ?_⟩
    · have := h.le; unfold Seg.startAngle Seg.endAngle at *; cases hc : s.cw <;> simp_all
    · have := h.le; unfold Seg.startAngle Seg.endAngle at *; cases hc : s.cw <;> simp_all
    · rw [abs_sub_comm]; exact this.1
    · rw [abs_sub_comm]; exact this.2
  have hhi : ∃ p, Covers s p ∧ |p.x - s.stop.x| ≤ slack s.radius ∧ |p.y - s.stop.y| ≤ slack s.radius := by
    have := h.last.close
    refine ⟨polar s.center s.radius s.eang, hcov _ ?_ ?_, ?_, ?_⟩
    · have := h.le; unfold Seg.startAngle Seg.endAngle at *; cases hc : s.cw <;> simp_all
    · have := h.le; unfold Seg.startAngle Seg.endAngle at *; cases hc : s.cw <;> simp_all
    · rw [abs_sub_comm]; exact this.1
    · rw [abs_sub_comm]; exact this.2
  obtain ⟨p, hp, hpx, hpy⟩ := hlo
  obtain ⟨q, hq, hqx, hqy⟩ := hhi
  obtain ⟨e1, e2, e3, e4⟩ := endBox_spec s.start s.stop
  refine ⟨?_, ?_, ?_, ?_⟩
  · rcases g6 with e | ⟨m, hm, e⟩
    · rw [e, e1]
      rcases min_choice s.start.x s.stop.x with e | e <;> rw [e]
      · exact ⟨p, hp, hpx⟩
      · exact ⟨q, hq, hqx⟩
    · exact ⟨m, hext m hm, by rw [e]; simpa using hs⟩
  · rcases g8 with e | ⟨m, hm, e⟩
    · rw [e, e3]
      rcases max_choice s.start.x s.stop.x with e | e <;> rw [e]
      · exact ⟨p, hp, hpx⟩
      · exact ⟨q, hq, hqx⟩
    · exact ⟨m, hext m hm, by rw [e]; simpa using hs⟩
  · rcases g7 with e | ⟨m, hm, e⟩
    · rw [e, e2]
      rcases min_choice s.start.y s.stop.y with e | e <;> rw [e]
      · exact ⟨p, hp, hpy⟩
      · exact ⟨q, hq, hqy⟩
    · exact ⟨m, hext m hm, by rw [e]; simpa using hs⟩
  · rcases g9 with e | ⟨m, hm, e⟩
    · rw [e, e4]
      rcases max_choice s.start.y s.stop.y with e | e <;> rw [e]
      · exact ⟨p, hp, hpy⟩
      · exact ⟨q, hq, hqy⟩
    · exact ⟨m, hext m hm, by rw [e]; simpa using hs⟩

end Iges.Geo
