import Verif.Lemmas.Face
import Verif.Props.Walls

/-! C70: the curves that bound a face, in space (`GetCurves`) and in its parameter plane (`GetCurveOnPlane`). -/
namespace Iges.Props.Face
open Iges Iges.Geo Iges.Spec Iges.Props.Walls Real

theorem endTol_arc {s : Seg} (h : s.kind = .arc) : endTol s = slack s.radius := by unfold endTol slack; rw [h]

theorem near_of {c : Point ℝ} {r a : ℝ} {p : Point ℝ} (h : EndAt c r p a) : Near c r (slack r) (p.x, p.y) a := by
  obtain ⟨ρ, h1, h2, rfl⟩ := h
  exact ⟨ρ, h1, h2, rfl⟩

theorem lift_pt (p : Point ℝ) (h : ℝ) : lift (pt p.x p.y) h = lift p h := rfl

theorem at_height_arc {s : Seg} (hk : s.kind = .arc) {h a b : ℝ} {m : ℤ} (ha : a = s.startAngle + m * (2 * π))
    (hb : b = s.endAngle + m * (2 * π)) (x : Point ℝ) :
    AtHeight (Covers s) h x ↔ ∃ t, a ≤ t ∧ t ≤ b ∧ x = lift (polar s.center s.radius t) h := by
  have per : ∀ t, polar s.center s.radius (t + m * (2 * π)) = polar s.center s.radius t := by
    intro t
    unfold polar
    rw [Real.cos_add_int_mul_two_pi, Real.sin_add_int_mul_two_pi]
  unfold AtHeight
  rw [covers_arc hk]
  constructor
  · rintro ⟨⟨t, t1, t2, e⟩, hz⟩
    refine ⟨t + m * (2 * π), by linarith, by linarith, ?_⟩
    rw [per, ← e, ← hz]; rfl
  · rintro ⟨t, t1, t2, rfl⟩
    refine ⟨⟨t - m * (2 * π), by linarith, by linarith, ?_⟩, rfl⟩
    have := per (t - m * (2 * π))
    rw [sub_add_cancel] at this
    rw [← this]
    rfl

theorem at_height_circle {s : Seg} (hk : s.kind = .circle) (hr : 0 < s.radius) {h : ℝ} (x : Point ℝ) :
    AtHeight (Covers s) h x ↔ ∃ t, 0 ≤ t ∧ t ≤ 2 * π ∧ x = lift (polar s.center s.radius t) h := by
  have hp := Real.pi_pos
  unfold AtHeight Covers
  rw [hk]
  simp only
  rw [onCircle_polar hr]
  constructor
  · rintro ⟨⟨t, t1, t2, e⟩, hz⟩
    by_cases h0 : 0 ≤ t
    · exact ⟨t, h0, by linarith, by rw [← e, ← hz]; rfl⟩
    · refine ⟨t + 2 * π, by linarith, by linarith, ?_⟩
      rw [polar_add, ← e, ← hz]; rfl
  · rintro ⟨t, t1, t2, rfl⟩
    refine ⟨?_, rfl⟩
    by_cases h0 : t ≤ π
    · exact ⟨t, by linarith, h0, rfl⟩
    · refine ⟨t - 2 * π, by linarith, by linarith, ?_⟩
      rw [polar_sub]; rfl

theorem at_height_line {s : Seg} (hm : Made s) (hk : s.kind = .line) {h : ℝ} (x : Point ℝ) :
    AtHeight (Covers s) h x ↔ ∃ t, 0 ≤ t ∧ t ≤ 1 ∧ x = along (lift s.start h) (lift s.stop h) t := by
  obtain ⟨h1, h2, h3⟩ := (made_ok hm).line hk
  unfold AtHeight Covers
  rw [hk]
  simp only
  unfold Seg.getStart Seg.getEnd OnLine
  rw [h1]
  simp only [Bool.false_eq_true, if_false]
  constructor
  · rintro ⟨⟨t, t1, t2, e⟩, hz⟩
    refine ⟨t, t1, t2, ?_⟩
    unfold pt at e
    injection e with ex ey
    unfold along lift Point.add Point.scale
    ext
    · simp only; linear_combination ex
    · simp only; linear_combination ey
    · simp only; linear_combination hz
  · rintro ⟨t, t1, t2, rfl⟩
    refine ⟨⟨t, t1, t2, ?_⟩, ?_⟩
    · unfold along lift Point.add Point.scale pt
      ext <;> simp only <;> ring
    · unfold along lift Point.add Point.scale; simp only; ring

theorem atan2_mod {ρ : ℝ} (h : 0 < ρ) (a : ℝ) : ∃ m : ℤ, atan2 (ρ * sin a) (ρ * cos a) = a + m * (2 * π) := by
  unfold atan2
  have : (⟨ρ * cos a, ρ * sin a⟩ : ℂ) = ρ * (Complex.cos a + Complex.sin a * Complex.I) := by
    apply Complex.ext <;> simp [← Complex.ofReal_cos, ← Complex.ofReal_sin]
  rw [this, Complex.arg_mul_cos_add_sin_mul_I_eq_toIocMod h]
  refine ⟨-toIocDiv Real.two_pi_pos (-π) a, ?_⟩
  have e := toIocMod_add_toIocDiv_zsmul Real.two_pi_pos (-π) a
  rw [zsmul_eq_mul] at e
  push_cast
  linarith

/-- C70. The curves made for a segment run without any gap from its start to its end. -/
theorem C70_curves_run {s : Seg} {h : ℝ} {l : List Curve} (hm : Made s) (hl : getCurves h s = some l) :
    Runs (lift s.start h) l (lift s.stop h) := by
  unfold getCurves at hl
  cases hk : s.kind <;> rw [hk] at hl <;> simp only [Option.some.injEq, reduceCtorEq] at hl
  · subst hl
    exact ⟨rfl, rfl⟩
  · subst hl
    unfold curveArc
    split
    · simp only
      obtain ⟨m, e⟩ := arcStops_form 0 s.center.y s.radius (s.center.x - s.start.x, s.start.y)
        (s.center.x - s.stop.x, s.stop.y) (atan2 (s.start.y - s.center.y) (s.center.x - s.start.x))
        (if atan2 (s.stop.y - s.center.y) (s.center.x - s.stop.x) < atan2 (s.start.y - s.center.y) (s.center.x - s.start.x)
          then atan2 (s.stop.y - s.center.y) (s.center.x - s.stop.x) + 2 * π
          else atan2 (s.stop.y - s.center.y) (s.center.x - s.stop.x))
      rw [e]
      have := runs_through (h := h) (x := 0) (y := s.center.y) (tx := some (mirror s.center.x (2 * h)))
        (s.center.x - s.start.x, s.start.y) (s.center.x - s.stop.x, s.stop.y) m
      simp only [Option.getD_some, act_mirror, sub_sub_cancel] at this
      convert this using 1 <;> unfold lift <;> ext <;> simp <;> ring
    · obtain ⟨m, e⟩ := arcStops_form s.center.x s.center.y s.radius (s.start.x, s.start.y) (s.stop.x, s.stop.y) s.sang s.eang
      rw [e]
      have := runs_through (h := h) (x := s.center.x) (y := s.center.y) (tx := none)
        (s.start.x, s.start.y) (s.stop.x, s.stop.y) m
      simp only [Option.getD_none, act_one] at this
      exact this
  · subst hl
    obtain ⟨e1, e2, -, -⟩ := made_circle hm hk
    rw [polar_zero] at e1 e2
    rw [e1, e2]
    unfold curveCircle
    simp only [Runs, curveFirst, curveLast, Option.getD_none, act_one]
    exact ⟨rfl, trivial, rfl⟩

theorem circle_through (h : ℝ) (s : Seg) : curveCircle h s = arcsThrough h s.center.x s.center.y none
    [(s.center.x + s.radius, s.center.y), (s.center.x - s.radius, s.center.y), (s.center.x + s.radius, s.center.y)] := rfl

/-- C70. The curves made for a segment cover its points, at the height of the face, and nothing else, up to the distance of
the ends of an arc from its circle; an arc that runs counterclockwise must start at an angle of at most half a turn. -/
theorem C70_curves_fit_partial {s : Seg} {h : ℝ} {l : List Curve} (hm : Made s) (hlen : 0 < s.length)
    (hs : s.kind = .arc → s.cw = false → s.startAngle ≤ π) (hl : getCurves h s = some l) :
    Fits (endTol s) (fun x => ∃ c ∈ l, CurveOn c x) (AtHeight (Covers s) h) := by
  have eon : ∀ l : List Curve, (fun q => ∃ x ∈ l.map curvePiece, x.on q) = fun x => ∃ c ∈ l, CurveOn c x := by
    intro l; funext q; simp [curvePiece]
  unfold getCurves at hl
  cases hk : s.kind <;> rw [hk] at hl <;> simp only [Option.some.injEq, reduceCtorEq] at hl
  · subst hl
    have e : endTol s = 0 := by unfold endTol; rw [hk]
    rw [e]
    refine fits_of_iff fun x => ?_
    rw [at_height_line hm hk]
    unfold curveLine
    simp only [List.mem_singleton, exists_eq_left, CurveOn]
    rfl
  · subst hl
    have ok := (made_ok hm).arc hk
    have hlt : s.startAngle < s.endAngle := by
      unfold Seg.length at hlen
      rw [hk] at hlen
      simp only at hlen
      have := ok.pos
      by_contra hc
      nlinarith
    have hε := (slack_pos s.radius).le
    rw [endTol_arc hk, ← eon]
    unfold curveArc
    cases hcw : s.cw
    · have e1 : s.startAngle = s.sang := by unfold Seg.startAngle; rw [hcw]; rfl
      have e2 : s.endAngle = s.eang := by unfold Seg.endAngle; rw [hcw]; rfl
      have hst := hs hk hcw
      simp only [Bool.false_eq_true, if_false]
      have st := arcStops_at ok.pos hε (near_of ok.first) (near_of ok.last) (by rw [← e1]; exact ok.low)
        (by rw [← e1]; exact hst) (by rw [← e1, ← e2]; exact hlt) (by rw [← e1, ← e2]; exact ok.turn)
      have sw := through_swept (c := s.center) (c' := s.center) (h := h) (e := 0) (k := 1) (tx := none)
        (by intro ρ t; simp [act_one]) ok.flat st
      refine swept_fits (Or.inl rfl) ?_ sw fun q => ?_
      · obtain ⟨m, e⟩ := arcStops_form s.center.x s.center.y s.radius (s.start.x, s.start.y) (s.stop.x, s.stop.y) s.sang s.eang
        rw [e]
        cases m <;> simp [arcsThrough]
      · simp only [zero_add, one_mul]
        rw [← e1, ← e2, min_eq_left hlt.le, max_eq_right hlt.le]
        exact at_height_arc (m := 0) hk (by simp) (by simp) q
    · have e1 : s.startAngle = s.eang := by unfold Seg.startAngle; rw [hcw]; rfl
      have e2 : s.endAngle = s.sang := by unfold Seg.endAngle; rw [hcw]; rfl
      simp only [if_true]
      have hp := Real.pi_pos
      obtain ⟨ρ, hρ, hd, es⟩ := ok.first
      obtain ⟨ρ', hρ', hd', ee⟩ := ok.last
      have flip : ∀ q a, pt (s.center.x - (polar s.center q a).x) (polar s.center q a).y = polar (pt 0 s.center.y) q (π - a) := by
        intro q a
        unfold polar pt
        rw [Real.cos_pi_sub, Real.sin_pi_sub]
        ext <;> simp only <;> ring
      have n0 : Near (pt 0 s.center.y) s.radius (slack s.radius) (s.center.x - s.start.x, s.start.y) (π - s.sang) :=
        ⟨ρ, hρ, hd, by rw [es]; exact flip _ _⟩
      have n1 : Near (pt 0 s.center.y) s.radius (slack s.radius) (s.center.x - s.stop.x, s.stop.y) (π - s.eang) :=
        ⟨ρ', hρ', hd', by rw [ee]; exact flip _ _⟩
      have near_mod : ∀ {p : ℝ × ℝ} {a : ℝ} (m : ℤ), Near (pt 0 s.center.y) s.radius (slack s.radius) p a →
          Near (pt 0 s.center.y) s.radius (slack s.radius) p (a + m * (2 * π)) := by
        rintro p a m ⟨q, q1, q2, q3⟩
        refine ⟨q, q1, q2, ?_⟩
        rw [q3]
        unfold polar
        rw [Real.cos_add_int_mul_two_pi, Real.sin_add_int_mul_two_pi]
      have ang : ∀ q a, 0 < q → ∃ m : ℤ, atan2 ((polar s.center q a).y - s.center.y) (s.center.x - (polar s.center q a).x) =
          π - a + m * (2 * π) := by
        intro q a hq
        obtain ⟨m, hm⟩ := atan2_mod hq (π - a)
        refine ⟨m, ?_⟩
        rw [← hm, Real.cos_pi_sub, Real.sin_pi_sub]
        unfold polar pt
        congr 1 <;> simp only <;> ring
      obtain ⟨m, hm0⟩ := ang ρ s.sang hρ
      obtain ⟨m', hm1⟩ := ang ρ' s.eang hρ'
      rw [← es] at hm0
      rw [← ee] at hm1
      set a0 := atan2 (s.start.y - s.center.y) (s.center.x - s.start.x) with ha0
      set a1' := atan2 (s.stop.y - s.center.y) (s.center.x - s.stop.x) with ha1
      have b0 : -π < a0 ∧ a0 ≤ π := ⟨atan2_gt _ _, atan2_le _ _⟩
      have b1 : -π < a1' ∧ a1' ≤ π := ⟨atan2_gt _ _, atan2_le _ _⟩
      have hL : 0 < s.sang - s.eang ∧ s.sang - s.eang < 2 * π := by
        have := ok.turn
        rw [← e1, ← e2]; constructor <;> linarith
      have hval : (if a1' < a0 then a1' + 2 * π else a1') = a0 + (s.sang - s.eang) := by
        have fin : ∀ (n : ℤ) (x : ℝ), x = a0 + (s.sang - s.eang) + n * (2 * π) → a0 ≤ x → x < a0 + 2 * π →
            x = a0 + (s.sang - s.eang) := by
          intro n x hx h1 h2
          have k1 : (-1 : ℝ) < n := by by_contra hc; nlinarith
          have k2 : (n : ℝ) < 1 := by by_contra hc; nlinarith
          have : n = 0 := by
            have k1' : (-1 : ℤ) < n := by exact_mod_cast k1
            have k2' : n < 1 := by exact_mod_cast k2
            omega
          rw [hx, this]; simp
        split_ifs with hlt'
        · exact fin (m' - m + 1) _ (by push_cast; linarith) (by linarith) (by linarith)
        · exact fin (m' - m) _ (by push_cast; linarith) (by linarith) (by linarith)
      rw [hval]
      have st := arcStops_at (c := pt 0 s.center.y) (a0 := a0) (a1 := a0 + (s.sang - s.eang)) ok.pos hε
        (by rw [hm0]; exact near_mod m n0)
        (by rw [show a0 + (s.sang - s.eang) = π - s.eang + m * (2 * π) by linarith]; exact near_mod m n1)
        b0.1 b0.2 (by linarith) (by linarith)
      have sw := through_swept (c := s.center) (c' := pt 0 s.center.y) (h := h) (e := π) (k := -1)
        (tx := some (mirror s.center.x (2 * h))) (by
          intro q t
          rw [Option.getD_some, act_mirror]
          unfold lift polar pt
          rw [show π + -1 * t = π - t by ring, Real.cos_pi_sub, Real.sin_pi_sub]
          ext <;> simp only <;> ring) rfl st
      refine swept_fits (Or.inr rfl) ?_ sw fun q => ?_
      · obtain ⟨m, e⟩ := arcStops_form (pt 0 s.center.y).x (pt 0 s.center.y).y s.radius (s.center.x - s.start.x, s.start.y)
          (s.center.x - s.stop.x, s.stop.y) a0 (a0 + (s.sang - s.eang))
        rw [e]
        cases m <;> simp [arcsThrough]
      · rw [min_eq_right (by linarith), max_eq_left (by linarith)]
        refine at_height_arc (m := -m) hk ?_ ?_ q
        · rw [e1]; push_cast; linarith
        · rw [e2]; push_cast; linarith
  · subst hl
    obtain ⟨e1, e2, hr, hz⟩ := made_circle hm hk
    have e : endTol s = 0 := by unfold endTol; rw [hk]
    have hp := Real.pi_pos
    obtain ⟨z, p, tp⟩ := near_pole (c := s.center) hr le_rfl
    rw [e, ← eon, circle_through]
    have st : StopsAt s.center s.radius 0 0 [(s.center.x + s.radius, s.center.y), (s.center.x - s.radius, s.center.y),
        (s.center.x + s.radius, s.center.y)] (2 * π) :=
      ⟨z, π, hp, by linarith, p, 2 * π, by linarith, by linarith, tp, rfl⟩
    have sw := through_swept (c := s.center) (c' := s.center) (h := h) (e := 0) (k := 1) (tx := none)
      (by intro ρ t; simp [act_one]) hz st
    refine swept_fits (Or.inl rfl) (by simp [arcsThrough]) sw fun q => ?_
    simp only [zero_add, one_mul]
    rw [min_eq_left (by linarith), max_eq_right (by linarith)]
    exact at_height_circle hk hr q

theorem plane_union (d : Point ℝ × Point ℝ × Point ℝ × Point ℝ) (l : List PlaneCurve) :
    (fun q => ∃ x ∈ l.map (planePiece d), x.on q) = fun x => ∃ c ∈ l, ∃ p, PlaneCurveOn c p ∧ x = faceAt d p := by
  funext q; simp [planePiece]

theorem face_along {lo hi : Point ℝ} {h : ℝ} {rev : Bool} (hw : 0 < hi.x - lo.x) (hs : hi.y - lo.y = hi.x - lo.x)
    (a b : Point ℝ) (t : ℝ) :
    faceAt (facePlane lo hi h rev)
      ((1 - t) * (onFace lo.x lo.y (1 / (hi.x - lo.x)) rev a.x a.y).1 + t * (onFace lo.x lo.y (1 / (hi.x - lo.x)) rev b.x b.y).1,
       (1 - t) * (onFace lo.x lo.y (1 / (hi.x - lo.x)) rev a.x a.y).2 + t * (onFace lo.x lo.y (1 / (hi.x - lo.x)) rev b.x b.y).2) =
      along (lift a h) (lift b h) t := by
  have e : ((1 - t) * (onFace lo.x lo.y (1 / (hi.x - lo.x)) rev a.x a.y).1 + t * (onFace lo.x lo.y (1 / (hi.x - lo.x)) rev b.x b.y).1,
       (1 - t) * (onFace lo.x lo.y (1 / (hi.x - lo.x)) rev a.x a.y).2 + t * (onFace lo.x lo.y (1 / (hi.x - lo.x)) rev b.x b.y).2) =
      onFace lo.x lo.y (1 / (hi.x - lo.x)) rev ((1 - t) * a.x + t * b.x) ((1 - t) * a.y + t * b.y) := by
    cases rev <;> unfold onFace <;> ext <;> simp <;> ring
  rw [e, face_point hw hs]
  unfold along lift pt Point.add Point.scale
  ext <;> simp only <;> ring

/-- what `GetCurveOnPlane` makes for an arc or a circle, seen on the face -/
theorem plane_swept {s : Seg} {lo hi : Point ℝ} {h : ℝ} {rev : Bool} {l : List PlaneCurve} (hm : Made s)
    (hw : 0 < hi.x - lo.x) (hs : hi.y - lo.y = hi.x - lo.x) (hl : curveOnPlane lo.x hi.x lo.y rev s = some l)
    (hk : s.kind ≠ .line) :
    l ≠ [] ∧ ∃ k a b, (k = 1 ∨ k = -1) ∧ Swept s.center s.radius (endTol s) h k a (l.map (planePiece (facePlane lo hi h rev))) b ∧
      (∀ q, AtHeight (Covers s) h q ↔ ∃ t, min a b ≤ t ∧ t ≤ max a b ∧ q = lift (polar s.center s.radius t) h) ∧
      (∃ ρ, |ρ - s.radius| ≤ endTol s ∧ lift s.start h = lift (polar s.center ρ a) h) ∧
      ∃ ρ, |ρ - s.radius| ≤ endTol s ∧ lift s.stop h = lift (polar s.center ρ b) h := by
  have hp := Real.pi_pos
  unfold curveOnPlane at hl
  cases hk' : s.kind <;> rw [hk'] at hl hk <;> simp only [Option.some.injEq, reduceCtorEq, ne_eq, not_true_eq_false] at hl hk
  · subst hl
    have ok := (made_ok hm).arc hk'
    have hε := (slack_pos s.radius).le
    rw [endTol_arc hk']
    unfold copArc
    simp only
    set m : ℤ := if s.startAngle > π then -1 else 0 with hmdef
    have es : (if s.startAngle > π then s.startAngle - 2 * π else s.startAngle) = s.startAngle + m * (2 * π) := by
      rw [hmdef]; split_ifs <;> push_cast <;> ring
    have ee : (if s.startAngle > π then s.endAngle - 2 * π else s.endAngle) = s.endAngle + m * (2 * π) := by
      rw [hmdef]; split_ifs <;> push_cast <;> ring
    rw [es, ee]
    have bs : s.startAngle + m * (2 * π) ≤ π := by
      have := ok.high
      have := ok.le
      rw [← es]; split_ifs with hc <;> linarith
    have per : ∀ ρ t, polar s.center ρ (t + m * (2 * π)) = polar s.center ρ t := by
      intro ρ t
      unfold polar
      rw [Real.cos_add_int_mul_two_pi, Real.sin_add_int_mul_two_pi]
    obtain ⟨⟨ρ, hρ, hd, e1⟩, ρ', hρ', hd', e2⟩ := ok.ends
    have n0 : Near s.center s.radius (slack s.radius) (s.getStart.x, s.getStart.y) (s.startAngle + m * (2 * π)) :=
      ⟨ρ, hρ, hd, by rw [per, e1]; rfl⟩
    have n1 : Near s.center s.radius (slack s.radius) (s.getEnd.x, s.getEnd.y) (s.endAngle + m * (2 * π)) :=
      ⟨ρ', hρ', hd', by rw [per, e2]; rfl⟩
    obtain ⟨g1, g2, g3, g4⟩ := copPieces_at (offX := lo.x) (offY := lo.y) (scale := 1 / (hi.x - lo.x)) (rev := rev) ok.pos hε n0 n1 bs
      (by linarith [ok.le]) (by linarith [ok.turn])
    have cov : ∀ a b, min a b = s.startAngle + m * (2 * π) → max a b = s.endAngle + m * (2 * π) → ∀ q,
        AtHeight (Covers s) h q ↔ ∃ t, min a b ≤ t ∧ t ≤ max a b ∧ q = lift (polar s.center s.radius t) h := by
      intro a b h1 h2 q
      exact at_height_arc hk' h1 h2 q
    have l0 : ∀ {x : Point ℝ} {q t : ℝ}, x = polar s.center q t → lift x h = lift (polar s.center q (t + m * (2 * π))) h := by
      intro x q t e; rw [per, e]
    cases hcw : s.cw
    · have a1 : s.getStart = s.start := by unfold Seg.getStart; rw [hcw]; rfl
      have a2 : s.getEnd = s.stop := by unfold Seg.getEnd; rw [hcw]; rfl
      rw [a1] at e1
      rw [a2] at e2
      simp only [Bool.false_eq_true, if_false, Bool.false_and, Bool.not_false, Bool.true_and, Bool.false_or]
      refine ⟨by simpa using g1, 1, _, _, Or.inl rfl, pieces_swept (up := !rev) hw hs ok.flat (by cases rev <;> simp) g2,
        cov _ _ (min_eq_left (by linarith [ok.le])) (max_eq_right (by linarith [ok.le])), ⟨ρ, hd, l0 e1⟩, ρ', hd', l0 e2⟩
    · have a1 : s.getStart = s.stop := by unfold Seg.getStart; rw [hcw]; rfl
      have a2 : s.getEnd = s.start := by unfold Seg.getEnd; rw [hcw]; rfl
      rw [a1] at e1
      rw [a2] at e2
      simp only [if_true, Bool.not_true, Bool.false_and, Bool.true_and, Bool.or_false, Bool.not_not]
      refine ⟨by simpa using g3, -1, _, _, Or.inr rfl, pieces_swept (up := rev) hw hs ok.flat (by simp) g4,
        cov _ _ (min_eq_right (by linarith [ok.le])) (max_eq_left (by linarith [ok.le])), ⟨ρ', hd', l0 e2⟩, ρ, hd, l0 e1⟩
  · subst hl
    obtain ⟨e1, e2, hr, hz⟩ := made_circle hm hk'
    have e : endTol s = 0 := by unfold endTol; rw [hk']
    obtain ⟨z, p, tp⟩ := near_pole (c := s.center) hr le_rfl
    rw [e]
    have er : ((onFace lo.x lo.y (1 / (hi.x - lo.x)) rev s.center.x s.center.y).1 + s.radius * (1 / (hi.x - lo.x)),
        (onFace lo.x lo.y (1 / (hi.x - lo.x)) rev s.center.x s.center.y).2) =
        onFace lo.x lo.y (1 / (hi.x - lo.x)) rev (s.center.x + s.radius) s.center.y := by
      unfold onFace; ext <;> simp; ring
    have el : ((onFace lo.x lo.y (1 / (hi.x - lo.x)) rev s.center.x s.center.y).1 - s.radius * (1 / (hi.x - lo.x)),
        (onFace lo.x lo.y (1 / (hi.x - lo.x)) rev s.center.x s.center.y).2) =
        onFace lo.x lo.y (1 / (hi.x - lo.x)) rev (s.center.x - s.radius) s.center.y := by
      unfold onFace; ext <;> simp; ring
    have pc : PiecesAt s.center s.radius 0 lo.x lo.y (1 / (hi.x - lo.x)) rev 1 0
        [(onFace lo.x lo.y (1 / (hi.x - lo.x)) rev (s.center.x + s.radius) s.center.y, π),
         (onFace lo.x lo.y (1 / (hi.x - lo.x)) rev (s.center.x - s.radius) s.center.y, π)] (2 * π) :=
      ⟨hp.le, ⟨(_, _), rfl, z⟩, hp.le, ⟨(_, _), rfl, by simpa using p⟩, by simp only [PiecesAt]; ring⟩
    have sw := pieces_swept (h := h) (up := !rev) hw hs hz (by cases rev <;> simp) pc
    unfold copCircle
    simp only [er, el]
    refine ⟨by simp, 1, 0, 2 * π, Or.inl rfl, sw, ?_, ⟨s.radius, by simp, by rw [e1]⟩, s.radius, by simp, ?_⟩
    · intro q
      rw [min_eq_left (by linarith), max_eq_right (by linarith)]
      exact at_height_circle hk' hr q
    · rw [e2, polar_zero, polar_two_pi]

/-- C70. The curves in the parameter plane of a face over a square, seen on the face, cover the points of the segment and
nothing else, up to the distance of the ends of an arc from its circle; for the face seen from above and for the one seen
from below. -/
theorem C70_plane_fit {s : Seg} {lo hi : Point ℝ} {h : ℝ} {rev : Bool} {l : List PlaneCurve} (hm : Made s)
    (hw : 0 < hi.x - lo.x) (hs : hi.y - lo.y = hi.x - lo.x) (hl : curveOnPlane lo.x hi.x lo.y rev s = some l) :
    Fits (endTol s) (fun x => ∃ c ∈ l, ∃ p, PlaneCurveOn c p ∧ x = faceAt (facePlane lo hi h rev) p)
      (AtHeight (Covers s) h) := by
  by_cases hk : s.kind = .line
  · have e : endTol s = 0 := by unfold endTol; rw [hk]
    unfold curveOnPlane at hl
    rw [hk] at hl
    injection hl with hl
    subst hl
    rw [e]
    refine fits_of_iff fun x => ?_
    rw [at_height_line hm hk]
    unfold copLine
    simp only [List.mem_singleton, exists_eq_left, PlaneCurveOn]
    constructor
    · rintro ⟨p, ⟨t, t1, t2, rfl⟩, rfl⟩
      exact ⟨t, t1, t2, face_along hw hs _ _ _⟩
    · rintro ⟨t, t1, t2, rfl⟩
      exact ⟨_, ⟨t, t1, t2, rfl⟩, (face_along hw hs _ _ _).symm⟩
  · obtain ⟨hne, k, a, b, hk', sw, cov, -⟩ := plane_swept (h := h) hm hw hs hl hk
    rw [← plane_union]
    exact swept_fits hk' (by simpa using hne) sw cov

/-- C70. The curves in the parameter plane, seen on the face, run from the start to the end of the segment, with gaps of at
most twice the distance of the ends of an arc from its circle. -/
theorem C70_plane_run {s : Seg} {lo hi : Point ℝ} {h : ℝ} {rev : Bool} {l : List PlaneCurve} (hm : Made s)
    (hw : 0 < hi.x - lo.x) (hs : hi.y - lo.y = hi.x - lo.x) (hl : curveOnPlane lo.x hi.x lo.y rev s = some l) :
    RunsOn (2 * endTol s) (facePlane lo hi h rev) (lift s.start h) l (lift s.stop h) := by
  by_cases hk : s.kind = .line
  · have e : endTol s = 0 := by unfold endTol; rw [hk]
    unfold curveOnPlane at hl
    rw [hk] at hl
    injection hl with hl
    subst hl
    have z : ∀ x : Point ℝ, dist2 x x ≤ (2 * endTol s) ^ 2 := by intro x; unfold dist2; rw [e]; simp
    unfold copLine
    simp only [RunsOn, planeFirst, planeLast]
    rw [face_point hw hs, face_point hw hs]
    exact ⟨z _, z _⟩
  · obtain ⟨-, k, a, b, -, sw, -, ⟨ρ, h1, e1⟩, ρ', h2, e2⟩ := plane_swept (h := h) hm hw hs hl hk
    rw [e1, e2]
    exact swept_runs sw h1 h2

end Iges.Props.Face
