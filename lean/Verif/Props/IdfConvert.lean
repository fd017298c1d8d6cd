import Verif.Spec.IdfConvert
import Verif.Props.IdfArc
import Verif.Props.Segment
import Verif.Props.OutlineCases
import Verif.Props.IdfOutline
import Mathlib.Analysis.SpecialFunctions.Trigonometric.Angle
/-
C87: the converter from IDF keeps the outlines.
-/
namespace Iges.Props
open Iges.Geo Iges.Spec Real

namespace IdfConvert

theorem turn_flat (c a : Idf.P2) (θ : ℝ) : turn c.flat (θ * π / 180) a.flat = (Idf.Spec.turnDeg c θ a).flat := rfl

theorem flat_inj {p q : Idf.P2} (h : p.flat = q.flat) : p = q := by
  unfold Idf.P2.flat at h
  injection h with h1 h2
  ext
  · exact h1
  · exact h2

theorem planar_flat (p q : Idf.P2) : planar2 p.flat q.flat = Idf.Spec.gap2 p q := rfl

/-- two angles less than a full turn apart with the same cosine and sine -/
theorem same_angle {u v : ℝ} (h1 : cos u = cos v) (h2 : sin u = sin v) (h : |u - v| < 2 * π) : u = v := by
  have := Real.Angle.cos_sin_inj h1 h2
  rw [Real.Angle.angle_eq_iff_two_pi_dvd_sub] at this
  obtain ⟨k, hk⟩ := this
  rw [hk, abs_mul, abs_of_pos two_pi_pos] at h
  have : |(k : ℝ)| < 1 := by
    by_contra hn
    push Not at hn
    nlinarith [two_pi_pos]
  have : k = 0 := by
    rw [← Int.cast_abs] at this
    have h3 : |k| < 1 := by exact_mod_cast this
    exact Int.abs_lt_one_iff.1 h3
  rw [this] at hk
  simp at hk
  linarith

/-- the angle of the sweep is determined -/
theorem sweep_unique {c a e : Point ℝ} {cw : Bool} {φ ψ : ℝ} (ha : 0 < planar2 a c) (h1 : Sweep c a e cw φ) (h2 : Sweep c a e cw ψ) : φ = ψ := by
  obtain ⟨p1, p2, k, hk, k1, k2⟩ := h1
  obtain ⟨q1, q2, m, hm, m1, m2⟩ := h2
  have key : ∀ u v : ℝ, e.x - c.x = k * ((turn c u a).x - c.x) → e.y - c.y = k * ((turn c u a).y - c.y) →
      e.x - c.x = m * ((turn c v a).x - c.x) → e.y - c.y = m * ((turn c v a).y - c.y) → cos u = cos v ∧ sin u = sin v := by
    intro u v a1 a2 b1 b2
    unfold planar2 at ha
    unfold turn pt at a1 a2 b1 b2
    simp only at a1 a2 b1 b2
    have su := sin_sq_add_cos_sq u
    have sv := sin_sq_add_cos_sq v
    generalize cos u = cu at *
    generalize sin u = su' at *
    generalize cos v = cv at *
    generalize sin v = sv' at *
    generalize hX : a.x - c.x = X at *
    generalize hY : a.y - c.y = Y at *
    have e1 : (e.x - c.x) ^ 2 + (e.y - c.y) ^ 2 = k ^ 2 * (X ^ 2 + Y ^ 2) := by
      rw [a1, a2]; linear_combination (k ^ 2 * (X ^ 2 + Y ^ 2)) * su
    have e2 : (e.x - c.x) ^ 2 + (e.y - c.y) ^ 2 = m ^ 2 * (X ^ 2 + Y ^ 2) := by
      rw [b1, b2]; linear_combination (m ^ 2 * (X ^ 2 + Y ^ 2)) * sv
    have e3 : k ^ 2 = m ^ 2 := mul_right_cancel₀ ha.ne' (e1.symm.trans e2)
    have e4 : k = m := by nlinarith
    subst e4
    have f1 : k * ((cu - cv) * X - (su' - sv') * Y) = 0 := by linear_combination b1 - a1
    have f2 : k * ((su' - sv') * X + (cu - cv) * Y) = 0 := by linear_combination b2 - a2
    have g1 := (mul_eq_zero.1 f1).resolve_left hk.ne'
    have g2 := (mul_eq_zero.1 f2).resolve_left hk.ne'
    have h1 : (cu - cv) * (X ^ 2 + Y ^ 2) = 0 := by linear_combination X * g1 + Y * g2
    have h2 : (su' - sv') * (X ^ 2 + Y ^ 2) = 0 := by linear_combination X * g2 - Y * g1
    constructor
    · linarith [(mul_eq_zero.1 h1).resolve_right ha.ne']
    · linarith [(mul_eq_zero.1 h2).resolve_right ha.ne']
  have hb : |φ - ψ| < 2 * π := by rw [abs_lt]; constructor <;> linarith
  cases cw
  · simp only [Bool.false_eq_true, if_false] at k1 k2 m1 m2
    obtain ⟨r1, r2⟩ := key _ _ k1 k2 m1 m2
    exact same_angle r1 r2 hb
  · simp only [if_true] at k1 k2 m1 m2
    obtain ⟨r1, r2⟩ := key _ _ k1 k2 m1 m2
    have := same_angle r1 r2 (by rw [show -φ - -ψ = -(φ - ψ) by ring, abs_neg]; exact hb)
    linarith

/-- the centre is determined -/
theorem centre_unique {c d a b : Idf.P2} {θ : ℝ} (h0 : 0.01 < |θ|) (h1 : |θ| ≤ 359.99) (hc : Idf.Spec.turnDeg c θ a = b)
    (hd : Idf.Spec.turnDeg d θ a = b) : c = d := by
  have hC : cos (θ * π / 180) ≠ 1 := by
    intro h
    rw [Real.cos_eq_one_iff] at h
    obtain ⟨n, hn⟩ := h
    have : (n : ℝ) * 360 = θ := by
      have := pi_pos
      field_simp at hn
      nlinarith
    rw [← this, abs_mul] at h0 h1
    rw [abs_of_pos (by norm_num : (0 : ℝ) < 360), ← Int.cast_abs] at h0 h1
    have k1 : (0 : ℝ) < (|n| : ℤ) := by
      generalize ((|n| : ℤ) : ℝ) = w at *
      norm_num at h0; linarith
    have k2 : ((|n| : ℤ) : ℝ) < 1 := by
      generalize ((|n| : ℤ) : ℝ) = w at *
      norm_num at h1; linarith
    have k1' : 0 < |n| := by exact_mod_cast k1
    have k2' : |n| < 1 := by exact_mod_cast k2
    omega
  have hS := sin_sq_add_cos_sq (θ * π / 180)
  rw [← hd] at hc
  unfold Idf.Spec.turnDeg at hc
  obtain ⟨e1, e2⟩ := Idf.P2.mk.inj hc
  generalize cos (θ * π / 180) = C at *
  generalize sin (θ * π / 180) = S at *
  have f1 : (c.x - d.x) * (1 - C) + (c.y - d.y) * S = 0 := by linear_combination e1
  have f2 : (c.y - d.y) * (1 - C) - (c.x - d.x) * S = 0 := by linear_combination e2
  have g0 : (1 - C) ^ 2 + S ^ 2 ≠ 0 := by
    intro h
    apply hC
    nlinarith
  have g1 : (c.x - d.x) * ((1 - C) ^ 2 + S ^ 2) = 0 := by linear_combination (1 - C) * f1 - S * f2
  have g2 : (c.y - d.y) * ((1 - C) ^ 2 + S ^ 2) = 0 := by linear_combination (1 - C) * f2 + S * f1
  ext
  · linarith [(mul_eq_zero.1 g1).resolve_right g0]
  · linarith [(mul_eq_zero.1 g2).resolve_right g0]

end IdfConvert

open IdfConvert Idf.Spec in
/-- C87. A line, an arc or a circle of an IDF outline becomes a segment of the IGES library that has exactly the same points and,
unless it is a circle, the same ends; an arc keeps its direction. -/
theorem C87_item (it : Item) (h : it.Valid) :
    Made (Idf.convertSeg it.seg) ∧
    (∀ p : Idf.P2, Covers (Idf.convertSeg it.seg) p.flat ↔ it.On p) ∧
    it.Like (Idf.convertSeg it.seg) := by
  cases it with
  | line a b =>
    have hv : PointMatches a.flat b.flat 1e-8 = false := h
    have e : Idf.convertSeg (Item.line a b).seg = (setLine a.flat b.flat).1 := by
      have : (Idf.lineSeg a b).isCircle = false := by
        unfold Idf.Seg.isCircle Idf.fullTurn Idf.minAng Idf.lineSeg; norm_num
      unfold Item.seg Idf.convertSeg
      simp only
      rw [this]
      simp [Idf.lineSeg]
    have hs : setLine a.flat b.flat = ({ Seg.init with start := a.flat, stop := b.flat, kind := .line }, true) := by
      unfold setLine
      rw [if_neg (by simp [Idf.P2.flat]), hv]
      simp
    refine ⟨?_, fun p => ?_, ?_⟩
    · rw [e]; exact .line (by rw [hs])
    · rw [e, C61_line_points (s := (setLine a.flat b.flat).1) (by rw [hs])]
      unfold Iges.Spec.OnLine Item.On Idf.Spec.OnLine
      refine exists_congr fun t => and_congr_right fun _ => and_congr_right fun _ => ?_
      exact ⟨fun g => flat_inj g, fun g => by rw [g]; rfl⟩
    · unfold Item.Like
      simp only
      rw [e, hs]
      exact ⟨rfl, rfl, rfl⟩
  | arc a b θ =>
    obtain ⟨h0, h1, hab, hcc⟩ := h
    obtain ⟨s1, s2, s3, s4, s5, s6, s7⟩ := IdfArc.C72_arc a b θ h0 h1
    have hnc : (Idf.arcSeg a b θ false).isCircle = false := by
      unfold Idf.Seg.isCircle Idf.fullTurn Idf.minAng
      rw [s3, decide_eq_false_iff_not]
      rintro ⟨-, g⟩
      norm_num at g h1
      linarith
    unfold Item.seg
    simp only
    generalize Idf.arcSeg a b θ false = s at *
    obtain ⟨hca, hcb⟩ := hcc s.center s4
    have hpos : 0 < Idf.Spec.gap2 a s.center := by
      by_contra hn
      have : Idf.Spec.gap2 a s.center = 0 := le_antisymm (not_lt.1 hn) (by unfold Idf.Spec.gap2; positivity)
      unfold Idf.Spec.gap2 at this
      have e1 : a.x = s.center.x := by nlinarith [sq_nonneg (a.x - s.center.x), sq_nonneg (a.y - s.center.y)]
      have e2 : a.y = s.center.y := by nlinarith [sq_nonneg (a.x - s.center.x), sq_nonneg (a.y - s.center.y)]
      have : a = s.center := by ext <;> assumption
      rw [this, C51_reflexive] at hca
      cases hca
    have hr : s.radius > 0 := by
      rcases s5.lt_or_eq with g | g
      · exact g
      · rw [s6, ← g] at hpos; norm_num at hpos
    have e : Idf.convertSeg s = (setArc s.center.flat a.flat b.flat (!decide (θ > 0))).1 := by
      unfold Idf.convertSeg
      rw [hnc]
      simp only [Bool.false_eq_true, if_false]
      rw [if_pos hr, s1, s2, s3]
    obtain ⟨m, hm⟩ := (C61_arc_accepted s.center.flat a.flat b.flat (!decide (θ > 0))).2 ⟨⟨rfl, rfl, rfl⟩, hca, hcb,
      Or.inr (by rw [planar_flat, planar_flat, s6, s7]; norm_num)⟩
    rw [e, hm]
    simp only
    rcases (setArc_cases hm).2.2.2.2.2.2.2 with ⟨-, g⟩ | ⟨hk, -, m1, m2, m3, -⟩
    · rw [hab] at g; cases g
    have hθ : (!decide (θ > 0)) = true ↔ θ < 0 := by
      simp only [gt_iff_lt, Bool.not_eq_true', decide_eq_false_iff_not, not_lt]
      constructor
      · intro g
        rcases g.lt_or_eq with g | g
        · exact g
        · rw [g] at h0; norm_num at h0
      · exact fun g => g.le
    refine ⟨.arc hm, fun p => ?_, hk, m1, m2, by rw [m3]; exact hθ⟩
    rw [C61_arc_points hm hk]
    have hT : |θ * π / 180| < 2 * π := by
      rw [show θ * π / 180 = θ * (π / 180) by ring, abs_mul, abs_of_pos (a := π / 180) (by positivity)]
      norm_num at h1
      nlinarith [pi_pos]
    have hsign : (if (!decide (θ > 0)) = true then -|θ * π / 180| else |θ * π / 180|) = θ * π / 180 := by
      by_cases g : θ < 0
      · rw [if_pos (hθ.2 g), abs_of_neg (by have := pi_pos; rw [div_lt_iff₀ (by norm_num)]; nlinarith)]; ring
      · rw [if_neg (fun x => g (hθ.1 x)), abs_of_nonneg (by push Not at g; positivity)]
    have hsw : Sweep s.center.flat a.flat b.flat (!decide (θ > 0)) |θ * π / 180| := by
      refine ⟨abs_pos.2 (by have := pi_pos; intro g; rw [div_eq_zero_iff] at g; norm_num at h0; rcases g with g | g
                            · rcases mul_eq_zero.1 g with g | g
                              · rw [g] at h0; norm_num at h0
                              · linarith
                            · norm_num at g), hT, ?_⟩
      rw [hsign, turn_flat, s4]
      exact ⟨1, one_pos, by ring, by ring⟩
    unfold Item.On
    simp only
    constructor
    · rintro ⟨φ, g1, t, g2, g3, g4⟩
      have := sweep_unique (by rw [planar_flat]; exact hpos) g1 hsw
      subst this
      have hp0 := hsw.1
      refine ⟨s.center, s4, t / |θ * π / 180|, by positivity, (div_le_one hp0).2 g3, flat_inj ?_⟩
      rw [g4, ← turn_flat]
      congr 1
      have : t / |θ * π / 180| * θ * π / 180 = t / |θ * π / 180| * (θ * π / 180) := by ring
      rw [this]
      by_cases g : (!decide (θ > 0)) = true
      · rw [if_pos g] at hsign ⊢
        rw [← hsign, abs_neg, abs_abs, mul_neg, div_mul_cancel₀ _ hp0.ne']
      · rw [if_neg g] at hsign ⊢
        rw [← hsign, abs_abs, div_mul_cancel₀ _ hp0.ne']
    · rintro ⟨c, g1, t, g2, g3, g4⟩
      have := centre_unique h0 h1 g1 s4
      subst this
      refine ⟨_, hsw, t * |θ * π / 180|, by positivity, by nlinarith [hsw.1], ?_⟩
      rw [g4, ← turn_flat]
      congr 1
      by_cases g : (!decide (θ > 0)) = true
      · rw [if_pos g] at hsign ⊢
        rw [← mul_neg, hsign]; ring
      · rw [if_neg g] at hsign ⊢
        rw [hsign]; ring
  | circle c b θ =>
    obtain ⟨h0, hv⟩ := h
    obtain ⟨s1, s2, s3, s4, -⟩ := IdfArc.C72_circle c b θ false h0
    unfold Item.seg
    simp only
    generalize Idf.arcSeg c b θ false = s at *
    have hq : PointMatches c.flat (⟨c.x + s.radius, c.y⟩ : Idf.P2).flat 1e-8 = false := by
      apply hv
      unfold Idf.Spec.gap2 at s4 ⊢
      simp only
      rw [← s4]; ring
    obtain ⟨m, hm⟩ := (C61_arc_accepted c.flat (⟨c.x + s.radius, c.y⟩ : Idf.P2).flat (⟨c.x + s.radius, c.y⟩ : Idf.P2).flat false).2
      ⟨⟨rfl, rfl, rfl⟩, hq, hq, Or.inl (C51_reflexive _ _)⟩
    have e : Idf.convertSeg s = m := by
      unfold Idf.convertSeg
      rw [if_pos s1]
      simp only
      rw [s2]
      unfold Idf.P2.flat at hm ⊢
      simp only at hm
      rw [hm]
    rw [e]
    have hc := setArc_cases hm
    have hk : m.kind = .circle := by
      rcases hc.2.2.2.2.2.2.2 with ⟨g, -⟩ | ⟨-, g, -⟩
      · exact g
      · rw [C51_reflexive] at g; cases g
    refine ⟨.arc hm, fun p => ?_, hk, hc.2.2.2.2.2.1⟩
    rw [C61_circle_points hm hk]
    unfold Item.On
    simp only
    rw [planar_flat, planar_flat]
    have : Idf.Spec.gap2 (⟨c.x + s.radius, c.y⟩ : Idf.P2) c = Idf.Spec.gap2 b c := by
      rw [← s4]; unfold Idf.Spec.gap2; simp only; ring
    rw [this]
    exact ⟨fun g => g.2, fun g => ⟨rfl, g⟩⟩

namespace IdfConvert
open Idf Idf.Spec

theorem append (o : Outline) (l m : List Idf.Seg) :
    convertSegs o (l ++ m) = (convertSegs o l).bind fun o => convertSegs o m := by
  induction l generalizing o with
  | nil => rfl
  | cons s l ih =>
    rw [List.cons_append, convertSegs, convertSegs]
    by_cases h : (addSegment o (some (convertSeg s))).2 = true
    · rw [if_pos h, if_pos h, ih]
    · rw [if_neg h, if_neg h]; rfl

/-- the calls of `AddSegment` in `convertOln` all succeed exactly when the segments can be drawn -/
theorem of_drawn {L : List Geo.Seg} {o : Outline} (h : Drawn L o) : ∀ l, L = l.map convertSeg → convertSegs .new l = some o := by
  induction h with
  | new => intro l e; rw [eq_comm, List.map_eq_nil_iff] at e; subst e; rfl
  | @took L o s o' _ ha ih =>
    intro l e
    rw [eq_comm, List.map_eq_append_iff] at e
    obtain ⟨l1, l2, rfl, e1, e2⟩ := e
    rw [List.map_eq_singleton_iff] at e2
    obtain ⟨t, rfl, e3⟩ := e2
    rw [append, ih l1 e1.symm]
    simp only [Option.bind_some, convertSegs]
    rw [e3, ha]
    rfl
  | refused _ ha ih =>
    intro l e
    rw [ih l e]
    rw [addSegment_refused ha]

theorem to_drawn (l : List Idf.Seg) : ∀ o, convertSegs .new l = some o → Drawn (l.map convertSeg) o := by
  induction l using List.reverseRecOn with
  | nil => intro o h; cases h; exact .new
  | append_singleton l s ih =>
    intro o h
    rw [append, Option.bind_eq_some_iff] at h
    obtain ⟨o', h1, h2⟩ := h
    rw [convertSegs] at h2
    split at h2
    · rename_i h3
      cases h2
      rw [List.map_append]
      exact .took (ih _ h1) (Prod.ext rfl h3)
    · cases h2

theorem item_seg (s : QSeg) : s.item.seg = s.real := by
  unfold QSeg.item QSeg.real Item.seg
  split_ifs <;> rfl

theorem item_kind (s : QSeg) (hv : s.item.Valid) :
    (s.isCircle = true → (convertSeg s.real).kind = .circle) ∧
    (s.isCircle = false → ((convertSeg s.real).kind = .line ∨ (convertSeg s.real).kind = .arc) ∧
      (convertSeg s.real).start = s.start.real.flat ∧ (convertSeg s.real).stop = s.stop.real.flat) := by
  have := (C87_item _ hv).2.2
  rw [item_seg] at this
  unfold QSeg.item at this
  unfold Item.Like at this
  split_ifs at this with h1 h2
  · have hc : s.isCircle = false := by unfold QSeg.isCircle Idf.turn; rw [h1]; norm_num
    simp only at this
    exact ⟨fun g => by rw [hc] at g; (cases g), fun _ => ⟨.inl this.1, this.2.1, this.2.2⟩⟩
  · exact ⟨fun _ => this.1, fun g => by rw [h2] at g; (cases g)⟩
  · exact ⟨fun g => absurd g h2, fun _ => ⟨.inr this.1, this.2.1, this.2.2.1⟩⟩

/-- after a segment within the outline the reader had not found the outline closed -/
def NotYet (l : List QSeg) : Prop :=
  ∀ f e, l.head? = some f → l.getLast? = some e → e.stop.near f.start = false

def Early (l : List QSeg) : Prop :=
  (∃ s, l = [s] ∧ s.isCircle = true) ∨
  ((∀ s ∈ l, s.isCircle = false) ∧ ∀ k, 2 ≤ k → k < l.length → NotYet (l.take k))

structure Inv2 (st : OutState) : Prop where
  done : ∀ l ∈ st.done, Early l
  cur : Early st.cur
  open' : st.closed = false → (∀ s ∈ st.cur, s.isCircle = false) ∧ ∀ k, 2 ≤ k → k ≤ st.cur.length → NotYet (st.cur.take k)

theorem inv2_new {single : Bool} {ccw : List QSeg → Bool} {st st' : OutState} {i : ℤ} (h : Inv2 st)
    (hn : newLoop single ccw st i = some st') : Inv2 st' := by
  have e0 : Early [] := .inr ⟨by simp, by intro k h1 h2; simp at h2⟩
  have e1 : ∀ k, 2 ≤ k → k ≤ ([] : List QSeg).length → NotYet (([] : List QSeg).take k) := by intro k h1 h2; simp at h2; omega
  unfold newLoop at hn
  split_ifs at hn with h1 h2 h3 h4 h5 h6 h7 h8 h9
  · cases hn; exact h
  · cases hn; exact ⟨h.done, e0, fun _ => ⟨by simp, e1⟩⟩
  · cases hn
    refine ⟨?_, e0, fun _ => ⟨by simp, e1⟩⟩
    intro l hl
    rcases List.mem_append.1 hl with g | g
    · exact h.done l g
    · rw [List.mem_singleton.1 g]; exact h.cur

theorem inv2_add {st st' : OutState} {p : Pt} {a : ℚ} (h : Inv2 st) (hn : addPoint st p a = some st') : Inv2 st' := by
  have hstop : (recSeg st.pre p a).stop = p := by unfold recSeg; split_ifs <;> rfl
  unfold addPoint at hn
  generalize recSeg st.pre p a = s at *
  simp only at hn
  split_ifs at hn with h1 h2 h3 h4 h5
  · cases hn; exact ⟨h.done, h.cur, h.open'⟩
  · cases hn
    exact ⟨h.done, .inl ⟨_, rfl, h4⟩, fun e => by cases e⟩
  · cases hn
    obtain ⟨o1, o2⟩ := h.open' (by simpa using h3)
    have c1 : ∀ t ∈ st.cur ++ [s], t.isCircle = false := by
      intro t ht
      rcases List.mem_append.1 ht with g | g
      · exact o1 t g
      · rw [List.mem_singleton.1 g]; simpa using h4
    have c2 : ∀ k, 2 ≤ k → k < (st.cur ++ [s]).length → NotYet ((st.cur ++ [s]).take k) := by
      intro k hk hlt
      have : k ≤ st.cur.length := by simp at hlt; omega
      rw [List.take_append_of_le_length this]
      exact o2 k hk this
    refine ⟨h.done, .inr ⟨c1, c2⟩, fun hc => ⟨c1, fun k hk hle => ?_⟩⟩
    rcases hle.lt_or_eq with hlt | he
    · exact c2 k hk hlt
    · subst he
      rw [List.take_length]
      intro f e hf he
      rw [List.getLast?_concat] at he
      cases he
      rw [hstop]
      cases hcur : st.cur with
      | nil => rw [hcur] at hk; simp at hk
      | cons g r =>
        rw [hcur] at hf hc
        simp at hf hc
        rw [← hf]; exact hc

theorem inv2_line {single comp : Bool} {ccw : List QSeg → Bool} {u : Idf.Unit} {v : Version} {st st' : OutState} {s : Str}
    (h : Inv2 st) (hn : outlineLine single comp ccw u v st s = .next st') : Inv2 st' := by
  unfold outlineLine at hn
  split at hn
  · split at hn
    · cases hn
    split at hn
    · cases hn
    split at hn
    · split at hn <;> cases hn
    · split at hn
      · cases hn
      · rename_i st1 h1
        have g := inv2_new h h1
        split at hn
        · cases hn
        · split at hn
          · cases hn
          · split at hn
            · cases hn
            · split at hn
              · cases hn
              · split at hn
                · cases hn
                · rename_i st2 h2
                  cases hn
                  refine inv2_add ?_ h2
                  exact ⟨g.done, g.cur, g.open'⟩
  · cases hn

/-- an outline that was read comes back to its first point only at its end -/
theorem read_early (single comp : Bool) (ccw : List QSeg → Bool) (u : Idf.Unit) (v : Version) (input rest : List Str) (ls : List (List QSeg))
    (h : readOutlines single comp ccw u v .start input = some (ls, rest)) : ∀ l ∈ ls, Early l := by
  have key : ∀ (input : List Str) (st : OutState), Inv2 st → readOutlines single comp ccw u v st input = some (ls, rest) → ∀ l ∈ ls, Early l := by
    intro input
    have fin : ∀ st, Inv2 st → ∀ l ∈ st.loops, Early l := by
      intro st hi l hl
      unfold OutState.loops at hl
      split_ifs at hl
      · simp at hl
      · rcases List.mem_append.1 hl with g | g
        · exact hi.done l g
        · rw [List.mem_singleton.1 g]; exact hi.cur
    induction input with
    | nil => intro st _ h; cases h
    | cons raw input ih =>
      intro st hi h
      rw [readOutlines] at h
      split at h
      · exact ih st hi h
      · split at h
        · cases h
        · split_ifs at h with hc
          simp only [Option.some.injEq, Prod.mk.injEq] at h
          rw [← h.1]; exact fin st hi
        · simp only [Option.some.injEq, Prod.mk.injEq] at h
          rw [← h.1]; exact fin st hi
        · rename_i st' hl
          exact ih st' (inv2_line hi hl) h
  refine key input .start ⟨by simp [OutState.start], ?_, ?_⟩ h
  · exact .inr ⟨by simp [OutState.start], by intro k h1 h2; simp [OutState.start] at h2⟩
  · intro _
    exact ⟨by simp [OutState.start], by intro k h1 h2; simp [OutState.start] at h2; omega⟩

theorem small_norm {p : Pt} (h1 : |p.x| ≤ 10 ^ 7) (h2 : |p.y| ≤ 10 ^ 7) : norm2 p.real.flat ≤ 10 ^ 15 := by
  have g1 : |((p.x : ℚ) : ℝ)| ≤ 10 ^ 7 := by exact_mod_cast h1
  have g2 : |((p.y : ℚ) : ℝ)| ≤ 10 ^ 7 := by exact_mod_cast h2
  unfold norm2 Pt.real Idf.P2.flat
  simp only
  have k1 : ((p.x : ℚ) : ℝ) ^ 2 ≤ (10 ^ 7) ^ 2 := sq_le_sq' (abs_le.1 g1).1 (abs_le.1 g1).2
  have k2 : ((p.y : ℚ) : ℝ) ^ 2 ≤ (10 ^ 7) ^ 2 := sq_le_sq' (abs_le.1 g2).1 (abs_le.1 g2).2
  norm_num at k1 k2 ⊢
  linarith

/-- what the IGES library takes for the same point, the reader takes for the same point -/
theorem near_of_match {p q : Pt} (hp : norm2 p.real.flat ≤ 10 ^ 15) (hq : norm2 q.real.flat ≤ 10 ^ 15)
    (h : PointMatches p.real.flat q.real.flat 1e-8 = true) : p.near q = true := by
  rw [C51_match_iff _ _ _ hp hq] at h
  unfold Pt.near
  rw [decide_eq_true_eq]
  have : ((((p.x - q.x) * (p.x - q.x) + (p.y - q.y) * (p.y - q.y) : ℚ)) : ℝ) ≤ ((1 / 100000 * (1 / 100000) : ℚ) : ℝ) := by
    push_cast
    unfold dist2 Pt.real Idf.P2.flat at h
    simp only at h
    norm_num at h ⊢
    nlinarith
  exact_mod_cast this

theorem linked_chained {p q : Pt} {s : QSeg} {l : List QSeg} (hv : ∀ t ∈ s :: l, t.item.Valid) (hc : ∀ t ∈ s :: l, t.isCircle = false)
    (hp : s.stop = p) (h : Linked p l q) : Spec.Chained ((s :: l).map fun t => convertSeg t.real) := by
  induction l generalizing s p with
  | nil => trivial
  | cons t l ih =>
    obtain ⟨h1, h2⟩ := h
    refine ⟨Outlines.same_match ?_, ih (fun x hx => hv x (by simp at hx ⊢; tauto)) (fun x hx => hc x (by simp at hx ⊢; tauto)) rfl h2⟩
    rw [((item_kind s (hv s (by simp))).2 (hc s (by simp))).2.2, ((item_kind t (hv t (by simp))).2 (hc t (by simp))).2.1, hp, h1]

theorem circle_drawn {s : Geo.Seg} (h : s.kind = .circle) : ∃ o, Drawn [s] o := by
  have : (addSegment .new (some s)).2 = true := (Outlines.C67_accepts _ _).2 ⟨s, rfl, rfl, Or.inl ⟨h, rfl⟩⟩
  exact ⟨_, .took (l := []) .new (Prod.ext rfl this)⟩

end IdfConvert

open IdfConvert Idf Idf.Spec in
/-- C87. Whatever outlines were read from a board file, each one becomes an outline of the IGES library with exactly the same
points: every call of `AddSegment` succeeds, if its lines, arcs and circles are not too small and not too far away.  The new outline is closed when the one
read is a circle, or when its last point matches the first one by the standards of the IGES library. -/
theorem C87_outline_partial (single : Bool) (ccw : List QSeg → Bool) (u : Idf.Unit) (v : Version) (input rest : List Str) (ls : List (List QSeg))
    (h : readOutlines single false ccw u v .start input = some (ls, rest)) (l : List QSeg) (hl : l ∈ ls)
    (hv : ∀ s ∈ l, s.item.Valid) (hs : ∀ s ∈ l, s.small) :
    ∃ o, convertOln (l.map QSeg.real) = some o ∧ Drawn (l.map fun s => convertSeg s.real) o ∧
      (∀ p : Idf.P2, (∃ s ∈ o.segs, Covers s p.flat) ↔ ∃ s ∈ l, s.item.On p) ∧
      (o.closed = true ↔ (∃ s, l = [s] ∧ s.isCircle = true) ∨
        ∃ f e, l.head? = some f ∧ l.getLast? = some e ∧ PointMatches e.stop.real.flat f.start.real.flat 1e-8 = true) := by
  obtain ⟨k, hk⟩ := List.mem_iff_getElem?.1 hl
  have hcl := (IdfOutline.C78_closed single ccw u v input rest ls h k l hk).1
  have he := read_early single false ccw u v input rest ls h l hl
  have hne : l ≠ [] := by
    rcases hcl with ⟨s, rfl, -⟩ | ⟨f, r, q, rfl, -⟩ <;> simp
  have main : ∃ o, Drawn (l.map fun s => convertSeg s.real) o ∧ (o.closed = true ↔ (∃ s, l = [s] ∧ s.isCircle = true) ∨
        ∃ f e, l.head? = some f ∧ l.getLast? = some e ∧ PointMatches e.stop.real.flat f.start.real.flat 1e-8 = true) := by
    rcases he with ⟨s, rfl, hc⟩ | ⟨hc, he⟩
    · obtain ⟨o, ho⟩ := circle_drawn ((item_kind s (hv s (by simp))).1 hc)
      refine ⟨o, ho, iff_of_true ?_ (Or.inl ⟨s, rfl, hc⟩)⟩
      cases drawn_state ho with
      | empty h0 => simp at h0
      | circle s b h0 h1 h2 h3 => exact h3
      | drawing h1 h2 => have := h2 _ (List.mem_singleton_self _); rw [(item_kind s (hv s (by simp))).1 hc] at this; simp at this
      | done lo hi h1 => have := h1 _ (List.mem_singleton_self _); rw [(item_kind s (hv s (by simp))).1 hc] at this; simp at this
    · rcases hcl with ⟨s, rfl, hcc⟩ | ⟨f, r, q, rfl, hr, hlink, -⟩
      · rw [hc s (by simp)] at hcc; cases hcc
      have ends : ∀ k, EndsMeet (((f :: r).map fun s => convertSeg s.real).take k) →
          ∃ e, ((f :: r).take k).head? = some f ∧ ((f :: r).take k).getLast? = some e ∧ e ∈ f :: r ∧
            PointMatches e.stop.real.flat f.start.real.flat 1e-8 = true := by
        rintro k ⟨a, b, ha, hb, hm⟩
        rw [← List.map_take] at ha hb
        rw [List.head?_map, Option.map_eq_some_iff] at ha
        rw [List.getLast?_map, Option.map_eq_some_iff] at hb
        obtain ⟨a', ha, rfl⟩ := ha
        obtain ⟨b', hb, rfl⟩ := hb
        have ma : a' ∈ f :: r := List.mem_of_mem_take (List.mem_of_head? ha)
        have mb : b' ∈ f :: r := List.mem_of_mem_take (List.mem_of_getLast? hb)
        rw [((item_kind a' (hv a' ma)).2 (hc a' ma)).2.1, ((item_kind b' (hv b' mb)).2 (hc b' mb)).2.2] at hm
        have : a' = f := by
          cases k with
          | zero => simp at ha
          | succ k => simp at ha; exact ha.symm
        subst this
        exact ⟨b', ha, hb, mb, hm⟩
      obtain ⟨o, ho, hcl⟩ := Outlines.C67_drawable (l := (f :: r).map fun s => convertSeg s.real)
        (by intro t ht
            obtain ⟨s, hs, rfl⟩ := List.mem_map.1 ht
            exact ((item_kind s (hv s hs)).2 (hc s hs)).1)
        (linked_chained hv hc rfl hlink)
        (by intro k hk hlt hm
            obtain ⟨e, g1, g2, g3, g4⟩ := ends k hm
            have := he k hk (by simpa using hlt) f e g1 g2
            rw [near_of_match (small_norm (hs e g3).2.2.1 (hs e g3).2.2.2) (small_norm (hs f (by simp)).1 (hs f (by simp)).2.1) g4] at this
            cases this)
      refine ⟨o, ho, hcl.trans ⟨?_, ?_⟩⟩
      · rintro ⟨-, hm⟩
        rw [← List.take_length (l := (f :: r).map fun s => convertSeg s.real)] at hm
        obtain ⟨e, g1, g2, g3, g4⟩ := ends _ hm
        rw [List.length_map, List.take_length] at g1 g2
        exact .inr ⟨f, e, g1, g2, g4⟩
      · rintro (⟨s, hs, hcc⟩ | ⟨a, e, g1, g2, g3⟩)
        · rw [hs] at hc; rw [hc s (by simp)] at hcc; cases hcc
        · have : 2 ≤ ((f :: r).map fun s => convertSeg s.real).length := by
            have := List.length_pos_of_ne_nil hr
            simp; omega
          have ma : a ∈ f :: r := List.mem_of_head? g1
          have mb : e ∈ f :: r := List.mem_of_getLast? g2
          refine ⟨this, convertSeg a.real, convertSeg e.real, by rw [List.head?_map, g1]; rfl, by rw [List.getLast?_map, g2]; rfl, ?_⟩
          rw [((item_kind a (hv a ma)).2 (hc a ma)).2.1, ((item_kind e (hv e mb)).2 (hc e mb)).2.2]
          exact g3
  obtain ⟨o, ho, hc⟩ := main
  refine ⟨o, ?_, ho, fun p => ?_, hc⟩
  · unfold convertOln
    rw [if_neg (by simpa using hne)]
    exact of_drawn ho _ (by simp)
  · rw [(Outlines.C67_contents ho).2.2 (by
      intro s hs'
      obtain ⟨t, ht, rfl⟩ := List.mem_map.1 hs'
      have := (C87_item _ (hv t ht)).1
      rwa [item_seg] at this)]
    simp only [List.mem_map, exists_exists_and_eq_and]
    refine exists_congr fun s => and_congr_right fun hs' => ?_
    have := (C87_item _ (hv s hs')).2.1 p
    rwa [item_seg] at this

end Iges.Props
