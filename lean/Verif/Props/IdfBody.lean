import Verif.Spec.IdfBody
import Verif.Props.IdfConvert
import Verif.Props.FaceCases
/-
C89: the bodies that the converter from IDF makes.
-/
namespace Iges.Props
open Iges.Geo Iges.Spec Iges.Idf Iges.Idf.Spec Real

namespace IdfBody
open Iges.Props.Walls Iges.Props.Face Iges.Props.IdfConvert

/-- points that do not match are further apart than the tolerance of the box of a line -/
theorem far_dist {p q : Point ℝ} (h : PointMatches p q 1e-8 = false) : 3e-16 < dist2 p q := by
  by_contra hn
  have hm : dist2 p q ≤ 3.0001 * (1e-8 : ℝ) ^ 2 := le_trans (not_lt.1 hn) (by norm_num)
  have : PointMatches p q 1e-8 = true := by
    by_cases hb : norm2 p > 10 ^ 15 ∨ norm2 q > 10 ^ 15
    · exact (C51_match_far_iff p q 1e-8 hb).2 (le_max_of_le_left hm)
    · push Not at hb
      exact (C51_match_iff p q 1e-8 hb.1 hb.2).2 (le_max_of_le_left hm)
  rw [h] at this
  cases this

/-- what the theorems about walls and faces ask of a segment -/
structure Sound (ε : ℝ) (s : Geo.Seg) : Prop where
  made : Iges.Spec.Made s
  ends : s.kind = .arc → PointMatches s.getStart s.getEnd 1e-8 = false
  tol : endTol s ≤ ε
  ang : s.kind = .arc → s.startAngle ≤ π
  len : 0 < s.length
  wall : ∀ top bot rev, 0.001 ≤ |top - bot| → (segmentWall top bot s rev).isSome
  gap : s.kind ≠ .circle → 3e-16 < (s.start.x - s.stop.x) ^ 2 + (s.start.y - s.stop.y) ^ 2

theorem Sound.reverse {ε : ℝ} {s : Geo.Seg} (h : Sound ε s) : Sound ε s.reverse := by
  have hk : s.kind ≠ .none := by
    intro hk
    have := h.wall 1 0 false (by norm_num)
    unfold segmentWall at this
    rw [hk] at this
    split at this <;> simp at this
  by_cases hc : s.kind = .circle
  · have : s.reverse = s := by unfold Seg.reverse; rw [hc]
    rwa [this]
  have he : s.reverse.getStart = s.getStart ∨ s.kind = .line := by
    by_cases hl : s.kind = .line
    · exact .inr hl
    · left
      have ha : s.kind = .arc := by cases e : s.kind <;> simp_all
      unfold Seg.reverse Seg.getStart
      rw [ha]
      cases s.cw <;> rfl
  rcases (by cases e : s.kind <;> simp_all : s.kind = .line ∨ s.kind = .arc) with hl | ha
  · have e : s.reverse = { s with start := s.stop, stop := s.start } := by unfold Seg.reverse; rw [hl]
    have hl' : s.reverse.kind = .line := by rw [e]; exact hl
    refine ⟨h.made.reverse, fun g => ?_, ?_, fun g => ?_, ?_, ?_, fun _ => ?_⟩
    · rw [hl'] at g; cases g
    · have := h.tol; unfold endTol at this ⊢; rw [hl]  at this; rw [hl']; exact this
    · rw [hl'] at g; cases g
    · have := h.len
      unfold Seg.length at this ⊢
      rw [hl] at this
      rw [hl', e]
      simp only at this ⊢
      unfold hyp at this ⊢
      convert this using 2
      ring
    · intro top bot rev hd
      unfold segmentWall
      rw [hl', if_neg (not_lt.2 (le_trans (by norm_num) hd))]
      rfl
    · have := h.gap hc
      rw [e]
      simp only
      calc _ < _ := this
        _ = _ := by ring
  · have e : s.reverse = { s with start := s.stop, stop := s.start, cw := !s.cw, sang := s.eang, eang := s.sang } := by
      unfold Seg.reverse; rw [ha]
    have ha' : s.reverse.kind = .arc := by rw [e]; exact ha
    have e1 : s.reverse.getStart = s.getStart := by rw [e]; unfold Seg.getStart; cases s.cw <;> rfl
    have e2 : s.reverse.getEnd = s.getEnd := by rw [e]; unfold Seg.getEnd; cases s.cw <;> rfl
    have e3 : s.reverse.startAngle = s.startAngle := by rw [e]; unfold Seg.startAngle; cases s.cw <;> rfl
    have e4 : s.reverse.endAngle = s.endAngle := by rw [e]; unfold Seg.endAngle; cases s.cw <;> rfl
    have e5 : s.reverse.radius = s.radius := by rw [e]
    have e6 : s.reverse.center = s.center := by rw [e]
    refine ⟨h.made.reverse, fun _ => by rw [e1, e2]; exact h.ends ha, ?_, fun _ => by rw [e3]; exact h.ang ha, ?_, ?_, fun _ => ?_⟩
    · have := h.tol; unfold endTol at this ⊢; rw [ha] at this; rw [ha', e5]; exact this
    · have := h.len; unfold Seg.length at this ⊢; rw [ha] at this; rw [ha', e3, e4, e5]; exact this
    · intro top bot rev hd
      have := h.wall top bot rev hd
      unfold segmentWall at this ⊢
      rw [ha] at this
      rw [ha', e1, e2, e6]
      rw [if_neg (not_lt.2 (le_trans (by norm_num) hd))] at this ⊢
      simp only at this ⊢
      cases hy : cylParams s.center s.getStart s.getEnd with
      | none => rw [hy] at this; simp at this
      | some y =>
        simp only [Option.bind_some]
        unfold cylInstantiate
        rw [if_neg (not_lt.2 hd)]
        rfl
    · have := h.gap hc
      rw [e]
      simp only
      calc _ < _ := this
        _ = _ := by ring

/-- the box of a segment is wide or high -/
theorem Sound.box {ε : ℝ} {s : Geo.Seg} (h : Sound ε s) {b : Point ℝ × Point ℝ} (hb : s.box = some b) :
    b.1.x < b.2.x ∨ b.1.y < b.2.y := by
  have ends : ∀ a c : Point ℝ, a.x ≠ c.x ∨ a.y ≠ c.y → (endBox a c).1.x < (endBox a c).2.x ∨ (endBox a c).1.y < (endBox a c).2.y := by
    intro a c hne
    unfold endBox
    rcases hne with hne | hne
    · left
      simp only
      split_ifs with g
      · exact g
      · exact lt_of_le_of_ne (not_lt.1 g) (Ne.symm hne)
    · right
      simp only
      split_ifs with g
      · exact g
      · exact lt_of_le_of_ne (not_lt.1 g) (Ne.symm hne)
  have grows : ∀ (l : List (Point ℝ)) (a : Point ℝ × Point ℝ), (a.1.x < a.2.x ∨ a.1.y < a.2.y) →
      (l.foldl grow a).1.x < (l.foldl grow a).2.x ∨ (l.foldl grow a).1.y < (l.foldl grow a).2.y := by
    intro l
    induction l with
    | nil => exact fun a h => h
    | cons m l ih =>
      intro a ha
      refine ih _ ?_
      unfold grow
      simp only
      rcases ha with ha | ha
      · left; split_ifs <;> linarith
      · right; split_ifs <;> linarith
  have hne : s.kind ≠ .circle → s.start.x ≠ s.stop.x ∨ s.start.y ≠ s.stop.y := by
    intro hc
    have := h.gap hc
    by_contra hn
    push Not at hn
    rw [hn.1, hn.2] at this
    norm_num at this
  unfold Seg.box at hb
  cases hk : s.kind <;> rw [hk] at hb <;> simp only at hb
  · cases hb
  · split_ifs at hb with h1 h2
    · cases hb
      right
      refine lt_of_le_of_ne h2 fun e => ?_
      have := h.gap (by rw [hk]; simp)
      rw [e, sub_self] at this
      rw [abs_lt] at h1
      norm_num at h1 this
      nlinarith
    · cases hb
      right
      exact not_le.1 h2
    · cases hb
      exact ends _ _ (hne (by rw [hk]; simp))
  · cases hb
    exact grows _ _ (ends _ _ (hne (by rw [hk]; simp)))
  · cases hb
    left
    have := (made_circle h.made hk).2.2.1
    simp only
    linarith

theorem Sound.ready {ε : ℝ} {s : Geo.Seg} (h : Sound ε s) : Ready ε s :=
  ⟨h.made, h.ends, h.tol, fun g _ => h.ang g, h.len, h.wall, fun _ hb => h.box hb⟩

theorem ready_kind {ε : ℝ} {s : Geo.Seg} (h : Ready ε s) : s.kind ≠ .none := by
  intro hk
  have := h.wall 1 0 false (by norm_num)
  unfold segmentWall at this
  rw [hk] at this
  split at this <;> simp at this

/-- the box that is made of those of the segments contains them -/
theorem fold_inside (l : List Geo.Seg) : ∀ (a : Point ℝ × Point ℝ),
    let r := l.foldl (fun b t => joinBox b.1 b.2 (boxOr t b.1 b.2)) a
    r.1.x ≤ a.1.x ∧ r.1.y ≤ a.1.y ∧ a.2.x ≤ r.2.x ∧ a.2.y ≤ r.2.y := by
  induction l with
  | nil => intro a; simp
  | cons s l ih =>
    intro a
    obtain ⟨i1, i2, i3, i4⟩ := ih (joinBox a.1 a.2 (boxOr s a.1 a.2))
    simp only [List.foldl_cons]
    have : (joinBox a.1 a.2 (boxOr s a.1 a.2)).1.x ≤ a.1.x ∧ (joinBox a.1 a.2 (boxOr s a.1 a.2)).1.y ≤ a.1.y ∧
        a.2.x ≤ (joinBox a.1 a.2 (boxOr s a.1 a.2)).2.x ∧ a.2.y ≤ (joinBox a.1 a.2 (boxOr s a.1 a.2)).2.y := by
      unfold joinBox
      simp only
      refine ⟨?_, ?_, ?_, ?_⟩ <;> split_ifs <;> linarith
    exact ⟨i1.trans this.1, i2.trans this.2.1, this.2.2.1.trans i3, this.2.2.2.trans i4⟩

/-- the face has a size -/
theorem face_size {lo hi : Point ℝ} {ε : ℝ} {s : Geo.Seg} {l : List Geo.Seg} (h : Ready ε s) :
    (calcBox lo hi (s :: l)).1.x < (calcBox lo hi (s :: l)).2.x := by
  have hk := ready_kind h
  obtain ⟨b, hb⟩ := box_some hk
  have hw := h.size b hb
  obtain ⟨i1, i2, i3, i4⟩ := fold_inside l (boxOr s lo hi)
  have e : boxOr s lo hi = b := by unfold boxOr; rw [hb]; rfl
  unfold calcBox
  simp only
  rw [e] at i1 i2 i3 i4 ⊢
  generalize l.foldl (fun b t => joinBox b.1 b.2 (boxOr t b.1 b.2)) b = r at *
  unfold adjustBox
  simp only
  have hd : ⌊r.1.x⌋ < ⌈r.2.x⌉ ∨ ⌊r.1.y⌋ < ⌈r.2.y⌉ := by
    rcases hw with hw | hw
    · left
      have : (⌊r.1.x⌋ : ℝ) < ⌈r.2.x⌉ := by linarith [Int.floor_le r.1.x, Int.le_ceil r.2.x]
      exact_mod_cast this
    · right
      have : (⌊r.1.y⌋ : ℝ) < ⌈r.2.y⌉ := by linarith [Int.floor_le r.1.y, Int.le_ceil r.2.y]
      exact_mod_cast this
  generalize ⌊r.1.x⌋ = x0 at *
  generalize ⌈r.2.x⌉ = x1 at *
  generalize ⌊r.1.y⌋ = y0 at *
  generalize ⌈r.2.y⌉ = y1 at *
  have h2 : 0 < max (if (x1 - x0) % 2 ≠ 0 then x1 - x0 + 1 else x1 - x0) (if (y1 - y0) % 2 ≠ 0 then y1 - y0 + 1 else y1 - y0) := by
    rcases hd with hd | hd
    · refine lt_max_of_lt_left ?_
      split_ifs <;> omega
    · refine lt_max_of_lt_right ?_
      split_ifs <;> omega
  have h3 : (0 : ℝ) < ((max (if (x1 - x0) % 2 ≠ 0 then x1 - x0 + 1 else x1 - x0) (if (y1 - y0) % 2 ≠ 0 then y1 - y0 + 1 else y1 - y0) : ℤ) : ℝ) := by
    exact_mod_cast h2
  linarith

theorem setArc_true {c a b : Point ℝ} {cw : Bool} (h : (setArc c a b cw).1.kind ≠ .none) : setArc c a b cw = ((setArc c a b cw).1, true) := by
  refine Prod.ext rfl ?_
  have key : ∀ x : Geo.Seg × Bool, (x = (Seg.init, false) ∨ x.2 = true) → x.1.kind ≠ .none → x.2 = true := by
    rintro x (rfl | hx) hk
    · exact absurd rfl hk
    · exact hx
  refine key _ ?_ h
  unfold setArc
  by_cases h1 : c.z ≠ 0 ∨ a.z ≠ 0 ∨ b.z ≠ 0
  · rw [if_pos h1]; exact .inl rfl
  rw [if_neg h1]
  by_cases h2 : PointMatches c a 1e-8 = true ∨ PointMatches c b 1e-8 = true
  · rw [if_pos h2]; exact .inl rfl
  rw [if_neg h2]
  simp only
  by_cases h3 : PointMatches a b 1e-8 = true
  · rw [if_pos h3]; exact .inr rfl
  rw [if_neg h3]
  by_cases h4 : |hyp (b.x - c.x) (b.y - c.y) - hyp (a.x - c.x) (a.y - c.y)| > 1e-8
  · rw [if_pos h4]; exact .inl rfl
  · rw [if_neg h4]; exact .inr rfl

/-- lines, arcs and circles of a file -/
theorem item_sound {ε : ℝ} (it : Item) (h : it.Valid) (hε : it.Within ε) : Sound ε (convertSeg it.seg) := by
  obtain ⟨hm, hon, hl⟩ := C87_item it h
  cases it with
  | line a b =>
    have hv : PointMatches a.flat b.flat 1e-8 = false := h
    have hd := far_dist hv
    obtain ⟨hk, h1, h2⟩ := hl
    have hg : 3e-16 < ((convertSeg (Item.line a b).seg).start.x - (convertSeg (Item.line a b).seg).stop.x) ^ 2 +
        ((convertSeg (Item.line a b).seg).start.y - (convertSeg (Item.line a b).seg).stop.y) ^ 2 := by
      rw [h1, h2]
      unfold dist2 P2.flat at hd
      simpa [P2.flat] using hd
    generalize convertSeg (Item.line a b).seg = s at *
    refine ⟨hm, (fun g => by rw [hk] at g; cases g), ?_, (fun g => by rw [hk] at g; cases g), ?_, ?_, fun _ => hg⟩
    · rw [endTol_line hk]; exact hε
    · unfold Seg.length
      rw [hk]
      unfold hyp
      refine Real.sqrt_pos.2 ?_
      norm_num at hg
      nlinarith
    · intro top bot rev hd
      unfold segmentWall
      rw [hk, if_neg (not_lt.2 (le_trans (by norm_num) hd))]
      rfl
  | arc a b θ =>
    obtain ⟨h0, h1, hab, hcc⟩ := h
    obtain ⟨hk, k1, k2, k3⟩ := hl
    obtain ⟨s1, s2, s3, s4, s5, s6, s7⟩ := IdfArc.C72_arc a b θ h0 h1
    have hset : ∃ cw, setArc (arcSeg a b θ false).center.flat a.flat b.flat cw = (convertSeg (Item.arc a b θ).seg, true) := by
      have hnc : (arcSeg a b θ false).isCircle = false := by
        unfold Seg.isCircle fullTurn minAng
        rw [s3, decide_eq_false_iff_not]
        rintro ⟨-, g⟩
        norm_num at g h1
        linarith
      unfold Item.seg at hk ⊢
      simp only at hk ⊢
      unfold convertSeg at hk ⊢
      rw [hnc] at hk ⊢
      simp only [Bool.false_eq_true, if_false] at hk ⊢
      by_cases hr : (arcSeg a b θ false).radius > 0
      · rw [if_pos hr] at hk ⊢
        rw [s1, s2] at hk ⊢
        exact ⟨_, setArc_true (by rw [hk]; simp)⟩
      · rw [if_neg hr] at hk
        exfalso
        unfold setLine at hk
        split_ifs at hk <;> simp [Seg.init] at hk
    obtain ⟨cw, hset⟩ := hset
    have hε' := hε _ s4
    have hrad : (convertSeg (Item.arc a b θ).seg).radius = Real.sqrt (gap2 a (arcSeg a b θ false).center) := by
      rw [(setArc_cases hset).2.2.2.2.2.2.1]
      unfold hyp gap2 P2.flat
      congr 1
      simp only
      ring
    have hrp : 0 < (convertSeg (Item.arc a b θ).seg).radius := by
      have := (setArc_cases hset).2.2.2.1
      rwa [← (setArc_cases hset).2.2.2.2.2.2.1] at this
    rw [← hrad] at hε'
    have oa := (hon a).2 ⟨_, s4, 0, le_rfl, zero_le_one, by
      unfold turnDeg; simp⟩
    have ob := (hon b).2 ⟨_, s4, 1, zero_le_one, le_rfl, by
      rw [one_mul]; exact s4.symm⟩
    have hab' := far_dist hab
    generalize convertSeg (Item.arc a b θ).seg = s at *
    refine ⟨hm, fun _ => ?_, ?_, fun _ => ?_, ?_, fun top bot rev hd => (C69_arc_made hset hk top bot rev).2 hd, fun _ => ?_⟩
    · unfold Seg.getStart Seg.getEnd
      rw [k1, k2]
      cases s.cw
      · exact hab
      · rw [C51_symmetric]; exact hab
    · rw [endTol_arc hk]
      unfold slack
      exact max_le hε'.1 ((div_le_iff₀ hrp).2 hε'.2)
    · rcases (setArc_cases hset).2.2.2.2.2.2.2 with ⟨g, -⟩ | ⟨-, -, -, -, m3, -, m4, m5⟩
      · rw [hk] at g; cases g
      unfold Seg.startAngle
      rw [m3]
      cases cw
      · simp only [Bool.false_eq_true, if_false]
        rw [m4, if_neg (by simp)]
        exact atan2_le _ _
      · simp only [if_true]
        rw [m5, if_neg (by simp)]
        exact atan2_le _ _
    · unfold Seg.length
      rw [hk]
      simp only
      unfold Covers at oa ob
      rw [hk] at oa ob
      simp only at oa ob
      obtain ⟨u, u1, u2, u3⟩ := oa
      obtain ⟨v, v1, v2, v3⟩ := ob
      have : s.startAngle < s.endAngle := by
        by_contra hn
        have : u = v := by linarith
        rw [this, ← v3] at u3
        rw [u3] at hab
        rw [C51_reflexive] at hab
        cases hab
      have hd : 0 < s.endAngle - s.startAngle := sub_pos.2 this
      positivity
    · rw [k1, k2]
      unfold dist2 P2.flat at hab'
      simpa [P2.flat] using hab'
  | circle c b θ =>
    obtain ⟨hk, k1⟩ := hl
    obtain ⟨-, hv⟩ := h
    have hq : PointMatches c.flat (⟨c.x + (convertSeg (Item.circle c b θ).seg).radius, c.y⟩ : P2).flat 1e-8 = false := by
      apply hv
      refine (hon _).1 ?_
      unfold Covers
      rw [hk]
      simp only
      refine ⟨?_, rfl⟩
      rw [k1]
      unfold planar2 P2.flat
      simp
    have ht : endTol (convertSeg (Item.circle c b θ).seg) ≤ ε := by rw [endTol_circle hk]; exact hε
    generalize convertSeg (Item.circle c b θ).seg = s at *
    obtain ⟨g1, g2, hr, -⟩ := made_circle hm hk
    refine ⟨hm, (fun g => by rw [hk] at g; cases g), ht, (fun g => by rw [hk] at g; cases g), ?_, ?_, fun g => absurd hk g⟩
    · unfold Seg.length
      rw [hk]
      simp only
      have := pi_pos
      positivity
    · intro top bot rev hd
      have e1 : s.getStart = (⟨c.x + s.radius, c.y⟩ : P2).flat := by
        unfold Seg.getStart
        rw [g1, g2, ite_self, k1]
        unfold polar P2.flat; simp [pt]
      have e2 : s.getEnd = (⟨c.x + s.radius, c.y⟩ : P2).flat := by
        unfold Seg.getEnd
        rw [g1, g2, ite_self, k1]
        unfold polar P2.flat; simp [pt]
      obtain ⟨y, hy⟩ : ∃ y, cylParams s.center s.getStart s.getEnd = some y := by
        unfold cylParams
        rw [e1, e2, k1, if_neg (by simp [P2.flat]), if_neg (by simp [hq])]
        simp only [sub_self, abs_zero]
        rw [if_neg (by norm_num), if_pos (C51_reflexive _ _)]
        exact ⟨_, rfl⟩
      unfold segmentWall
      rw [hk, if_neg (not_lt.2 (le_trans (by norm_num) hd))]
      simp only [hy, Option.bind_some]
      unfold cylInstantiate
      rw [if_neg (not_lt.2 hd)]
      rfl

theorem affine (a c : ℝ) (f : ℝ → ℝ) (u : ℝ) (h : ∀ t, f t = a + t * c) : HasDerivAt f c u := by
  have : f = fun t => a + t * c := funext h
  rw [this]
  have := ((hasDerivAt_id u).mul_const c).const_add a
  simpa using this

theorem face_up {b : Geo.Board} {h : ℝ} {f : Face} (hf : trimmedPlane b h false = some f)
    (hw : (calcBox b.outline.lo b.outline.hi b.outline.segs).1.x < (calcBox b.outline.lo b.outline.hi b.outline.segs).2.x) : FacesUp f := by
  obtain ⟨e1, -, -⟩ := trimmed_parts hf
  have hne := ((C70_face_made b h false).1 (by rw [hf]; rfl)).2.1
  have hs := calc_square (lo := b.outline.lo) (hi := b.outline.hi) hne
  intro u v
  unfold under
  rw [e1]
  generalize calcBox b.outline.lo b.outline.hi b.outline.segs = r at *
  refine ⟨⟨0, 0, (r.2.x - r.1.x) * (r.2.x - r.1.x)⟩, ⟨⟨r.2.x - r.1.x, 0, 0⟩, ⟨0, r.2.x - r.1.x, 0⟩, ⟨?_, ?_, ?_⟩, ⟨?_, ?_, ?_⟩, ?_⟩, rfl, rfl, ?_⟩
  · exact affine r.1.x _ _ _ fun t => by simp [surfaceAt, facePlane, along, Point.add, Point.scale]; ring
  · exact affine (r.1.y + v * (r.2.x - r.1.x)) _ _ _ fun t => by
      rw [← hs]; simp [surfaceAt, facePlane, along, Point.add, Point.scale]; ring
  · exact affine h _ _ _ fun t => by simp [surfaceAt, facePlane, along, Point.add, Point.scale]; ring
  · exact affine (r.1.x + u * (r.2.x - r.1.x)) _ _ _ fun t => by simp [surfaceAt, facePlane, along, Point.add, Point.scale]; ring
  · exact affine r.1.y _ _ _ fun t => by
      rw [← hs]; simp [surfaceAt, facePlane, along, Point.add, Point.scale]; ring
  · exact affine h _ _ _ fun t => by simp [surfaceAt, facePlane, along, Point.add, Point.scale]; ring
  · unfold cross; simp
  · have := sub_pos.2 hw
    positivity

theorem face_down {b : Geo.Board} {h : ℝ} {f : Face} (hf : trimmedPlane b h true = some f)
    (hw : (calcBox b.outline.lo b.outline.hi b.outline.segs).1.x < (calcBox b.outline.lo b.outline.hi b.outline.segs).2.x) : FacesDown f := by
  obtain ⟨e1, -, -⟩ := trimmed_parts hf
  have hne := ((C70_face_made b h true).1 (by rw [hf]; rfl)).2.1
  have hs := calc_square (lo := b.outline.lo) (hi := b.outline.hi) hne
  intro u v
  unfold under
  rw [e1]
  generalize calcBox b.outline.lo b.outline.hi b.outline.segs = r at *
  refine ⟨⟨0, 0, -((r.2.x - r.1.x) * (r.2.x - r.1.x))⟩, ⟨⟨r.2.x - r.1.x, 0, 0⟩, ⟨0, -(r.2.x - r.1.x), 0⟩, ⟨?_, ?_, ?_⟩, ⟨?_, ?_, ?_⟩, ?_⟩, rfl, rfl, ?_⟩
  · exact affine r.1.x _ _ _ fun t => by simp [surfaceAt, facePlane, along, Point.add, Point.scale]; ring
  · exact affine (r.2.y - v * (r.2.x - r.1.x)) _ _ _ fun t => by
      rw [← hs]; simp [surfaceAt, facePlane, along, Point.add, Point.scale]; ring
  · exact affine h _ _ _ fun t => by simp [surfaceAt, facePlane, along, Point.add, Point.scale]; ring
  · exact affine (r.1.x + u * (r.2.x - r.1.x)) _ _ _ fun t => by simp [surfaceAt, facePlane, along, Point.add, Point.scale]; ring
  · exact affine r.2.y _ _ _ fun t => by
      rw [← hs]; simp [surfaceAt, facePlane, along, Point.add, Point.scale]; ring
  · exact affine h _ _ _ fun t => by simp [surfaceAt, facePlane, along, Point.add, Point.scale]; ring
  · unfold cross; simp; ring
  · have := sub_pos.2 hw
    simp only
    have := mul_pos this this
    linarith

/-- the three calls when all of them succeed -/
theorem body_parts {b : Geo.Board} {top bot : ℝ} {rt rb : Bool} {ws : List Patch} {f g : Face} (h : verticalSurface b top bot = (ws, true))
    (hf : trimmedPlane b top rt = some f) (hg : trimmedPlane b bot rb = some g) :
    bodyOf b top bot rt rb = ws.map (fun w => some (Surf.wall w)) ++ [some (.face f), some (.face g)] := by
  unfold bodyOf getPlane getVertical appendTo
  rw [h, hf, hg]
  cases ws <;> simp

/-- a board whose segments are all as they should be -/
theorem body_ready {b : Geo.Board} {top bot ε : ℝ} (hc : b.outline.closed = true) (hne : b.outline.segs ≠ [])
    (hr : ∀ s ∈ edges b, Ready ε s) (hd : 0.001 ≤ |top - bot|) (rt rb : Bool) :
    ∃ ws f g, verticalSurface b top bot = (ws, true) ∧ trimmedPlane b top rt = some f ∧ trimmedPlane b bot rb = some g ∧
      bodyOf b top bot rt rb = ws.map (fun w => some (Surf.wall w)) ++ [some (.face f), some (.face g)] ∧
      Fits ε (fun x => ∃ w ∈ ws, PatchOn w x) (fun x => ∃ s ∈ edges b, Upright (Covers s) top bot x) ∧
      EdgedBoard ε b top f ∧ EdgedBoard ε b bot g ∧
      (calcBox b.outline.lo b.outline.hi b.outline.segs).1.x < (calcBox b.outline.lo b.outline.hi b.outline.segs).2.x := by
  have hw : (calcBox b.outline.lo b.outline.hi b.outline.segs).1.x < (calcBox b.outline.lo b.outline.hi b.outline.segs).2.x := by
    obtain ⟨s, l, e⟩ := List.exists_cons_of_ne_nil hne
    rw [e]
    exact face_size (hr s (by unfold edges; rw [e]; simp))
  have h1 : (verticalSurface b top bot).2 = true := by
    rw [C69_board_made]
    refine ⟨hc, hne, fun s hs => (hr s ?_).wall _ _ _ hd, fun s hs => (hr s ?_).wall _ _ _ hd⟩
    · unfold edges; simp [hs]
    · unfold edges; simp only [List.mem_append] at hs ⊢; tauto
  have hk : ∀ s ∈ b.outline.segs ++ b.holes ++ b.cutouts.flatten, s.kind ≠ .none := fun s hs => ready_kind (hr s hs)
  obtain ⟨f, hf⟩ := Option.isSome_iff_exists.1 ((C70_face_made b top rt).2 ⟨hc, hne, hk⟩)
  obtain ⟨g, hg⟩ := Option.isSome_iff_exists.1 ((C70_face_made b bot rb).2 ⟨hc, hne, hk⟩)
  have h1' : verticalSurface b top bot = ((verticalSurface b top bot).1, true) := Prod.ext rfl h1
  have face : ∀ {h : ℝ} {rev : Bool} {f : Face}, trimmedPlane b h rev = some f → EdgedBoard ε b h f := by
    intro h rev f hf
    have := C70_face_partial (ε := ε) hf hw fun s hs => ⟨(hr s hs).made, (hr s hs).length, (hr s hs).angle, (hr s hs).tol⟩
    unfold EdgedBoard
    exact .cons this.1 this.2
  exact ⟨_, f, g, h1', hf, hg, body_parts h1' hf hg,
    C69_board h1' fun s hs => ⟨(hr s hs).made, (hr s hs).ends, (hr s hs).tol⟩, face hf, face hg, hw⟩

theorem fits_congr {ε : ℝ} {P Q Q' : Point ℝ → Prop} (h : Fits ε P Q) (e : ∀ x, Q x ↔ Q' x) : Fits ε P Q' := by
  have : Q = Q' := funext fun x => propext (e x)
  rwa [← this]

/-- the segments of an outline that was converted -/
theorem outline_sound {its : List Item} {ε : ℝ} {o : Outline} (hv : ∀ it ∈ its, it.Valid) (hε : ∀ it ∈ its, it.Within ε)
    (ho : convertOln (its.map Item.seg) = some o) (hc : o.closed = true) :
    its ≠ [] ∧ o.segs ≠ [] ∧ (∀ s ∈ o.segs, Sound ε s) ∧
      ∀ x : Point ℝ, (∃ s ∈ o.segs, Covers s (pt x.x x.y)) ↔ ∃ it ∈ its, it.On ⟨x.x, x.y⟩ := by
  have hne : its ≠ [] := by
    rintro rfl
    unfold convertOln at ho
    simp at ho
  have hd : Drawn ((its.map Item.seg).map convertSeg) o := by
    unfold convertOln at ho
    rw [if_neg (by simpa using hne)] at ho
    exact to_drawn _ _ ho
  obtain ⟨-, c2, c3⟩ := Outlines.C67_contents hd
  have snd : ∀ s ∈ (its.map Item.seg).map convertSeg, Sound ε s := by
    intro s hs
    rw [List.map_map, List.mem_map] at hs
    obtain ⟨it, hit, rfl⟩ := hs
    exact item_sound it (hv it hit) (hε it hit)
  have cov : ∀ p : P2, (∃ s ∈ o.segs, Covers s p.flat) ↔ ∃ it ∈ its, it.On p := by
    intro p
    rw [c3 fun s hs => (snd s hs).made]
    simp only [List.map_map, List.mem_map, exists_exists_and_eq_and, Function.comp]
    exact exists_congr fun it => and_congr_right fun hit => (C87_item it (hv it hit)).2.1 p
  have cov' : ∀ x : Point ℝ, (∃ s ∈ o.segs, Covers s (pt x.x x.y)) ↔ ∃ it ∈ its, it.On ⟨x.x, x.y⟩ := fun x => cov ⟨x.x, x.y⟩
  have osnd : ∀ s ∈ o.segs, Sound ε s := by
    intro s hs
    rcases c2 hc with e | e
    · rw [e] at hs; exact snd s hs
    · have := e.mem_iff.1 hs
      rw [List.mem_map] at this
      obtain ⟨t, ht, rfl⟩ := this
      exact (snd t ht).reverse
  have one : o.segs ≠ [] := by
    intro e
    rcases c2 hc with g | g
    · rw [e] at g; simp at g; exact hne g
    · rw [e] at g; have := g.length_eq; simp at this; exact hne (List.length_eq_zero_iff.1 this.symm)
  exact ⟨hne, one, osnd, cov'⟩

end IdfBody

open IdfBody Iges.Props.Walls Iges.Props.IdfConvert in
/-- C89. The body of a component whose outline can be converted and is closed: the walls are the points over the outline of the file
between the heights 0 and the thickness; the top face and the bottom face are bounded by the outline at these heights; the top faces
up, the bottom down and every wall to the right of the way the outline runs.  This is for any lines, arcs and circles. -/
theorem C89_component {its : List Item} {th ε : ℝ} {o : Outline} (hv : ∀ it ∈ its, it.Valid) (hε : ∀ it ∈ its, it.Within ε)
    (ho : convertOln (its.map Item.seg) = some o) (hc : o.closed = true) (ht : 0.001 ≤ th) :
    ∃ (ws : List Patch) (f g : Face), buildComponent (its.map Item.seg) th = some (ws.map (fun w => some (Surf.wall w)) ++ [some (.face f), some (.face g)]) ∧
      Walled ε (fun p => ∃ it ∈ its, it.On p) th 0 ws ∧
      Edged ε (fun p => ∃ it ∈ its, it.On p) th f ∧ Edged ε (fun p => ∃ it ∈ its, it.On p) 0 g ∧
      FacesUp f ∧ FacesDown g ∧ ∀ w ∈ ws, Bounded 1e-8 w ∧ FacesRight o w := by
  obtain ⟨hne, one, osnd, cov'⟩ := outline_sound hv hε ho hc
  have ed : edges ⟨o, [], []⟩ = o.segs := by unfold edges; simp
  obtain ⟨ws, f, g, w1, w2, w3, w4, w5, w6, w7, w8⟩ := body_ready (b := ⟨o, [], []⟩) (top := th) (bot := 0) (ε := ε) hc one
    (by rw [ed]; exact fun s hs => (osnd s hs).ready) (by rw [sub_zero]; exact le_trans ht (le_abs_self _)) false true
  rw [ed] at w5
  have face : ∀ {h : ℝ} {f : Face}, EdgedBoard ε ⟨o, [], []⟩ h f → Edged ε (fun p => ∃ it ∈ its, it.On p) h f := by
    intro h f hf
    unfold EdgedBoard at hf
    simp only [List.map_nil, List.append_nil] at hf
    cases hf with
    | cons h1 h2 =>
      cases hi : f.inner with
      | cons a l => rw [hi] at h2; cases h2
      | nil =>
        refine ⟨hi, fits_congr h1.1 fun x => ?_, fits_congr h1.2 fun x => ?_⟩ <;>
        · exact and_congr_left' (cov' x)
  refine ⟨ws, f, g, ?_, ?_, face w6, face w7, face_up w2 w8, face_down w3 w8, fun w hw => ?_⟩
  · unfold buildComponent
    rw [if_neg (by simpa using hne), if_neg (not_lt.2 (by norm_num at ht ⊢; linarith)), ho]
    simp only
    rw [w4]
  · refine fits_congr w5 fun x => ?_
    constructor
    · rintro ⟨s, hs, a, b⟩; exact ⟨(cov' x).1 ⟨s, hs, a⟩, b⟩
    · rintro ⟨a, b⟩
      obtain ⟨s, hs, a⟩ := (cov' x).2 a
      exact ⟨s, hs, a, b⟩
  · have := C69_board_facing (by norm_num at ht ⊢; linarith) w1 (fun s hs => by
      have hs' : s ∈ o.segs := by simpa using hs
      exact ⟨(osnd s hs').made, (osnd s hs').ends, (osnd s hs').len⟩) w hw
    refine ⟨this.1, ?_⟩
    rcases this.2 with h | ⟨s, hs, -⟩
    · exact h
    · simp at hs

open IdfBody in
/-- C89. The body of the board, with its cutouts and its holes: walls over all of the edges between the two sides, a face that looks up on the upper side and one
that looks down on the lower side, each bounded by all of the edges.  Not proved: that the segments of the board meet the conditions of
`Ready` for every file; the arcs that are left when a hole across an edge cuts an arc need not (`C70_curves_wrong`). -/
theorem C89_board_partial {p : Plate} {th ε : ℝ} (hc : p.main.closed = true) (hne : p.main.segs ≠ [])
    (hr : ∀ s ∈ edges p.board, Ready ε s) (ht : 0.0005 ≤ th) :
    ∃ (ws : List Patch) (f g : Face), boardBody p th = ws.map (fun w => some (Surf.wall w)) ++ [some (.face f), some (.face g)] ∧
      Fits ε (fun x => ∃ w ∈ ws, PatchOn w x) (fun x => ∃ s ∈ edges p.board, Upright (Covers s) th (-th) x) ∧
      EdgedBoard ε p.board th f ∧ EdgedBoard ε p.board (-th) g ∧ FacesUp f ∧ FacesDown g ∧
      ∀ w ∈ ws, Bounded 1e-8 w ∧ (FacesRight p.main w ∨
        ∃ s ∈ p.holes ++ (p.cutouts.map (·.segs)).flatten, ∀ u v, ∃ d, Heading s (surfaceAt w u v) d ∧ NormalAt w u v (cross ⟨0, 0, 1⟩ d)) := by
  have hd : 0.001 ≤ |th - -th| := by
    rw [sub_neg_eq_add, ← two_mul]
    refine le_trans ?_ (le_abs_self _)
    norm_num at ht ⊢; linarith
  obtain ⟨ws, f, g, w1, w2, w3, w4, w5, w6, w7, w8⟩ := body_ready (b := p.board) (top := th) (bot := -th) (ε := ε) hc hne hr hd false true
  refine ⟨ws, f, g, w4, w5, w6, w7, face_up w2 w8, face_down w3 w8, fun w hw => ?_⟩
  exact Walls.C69_board_facing (by norm_num at ht ⊢; linarith) w1 (fun s hs => ⟨(hr s hs).made, (hr s hs).ends, (hr s hs).length⟩) w hw

end Iges.Props
