import Verif.Lemmas.RegionOp
/- The region of an outline after a circle has been cut out of it or joined to it: directions, and the two parts. -/
namespace Iges.Turn
open Iges.Geo Iges.Spec Iges.Props Real Filter Topology

theorem onCircle_rim {c : Seg} (hr : 0 < c.radius) {x : Point ℝ} (hx : OnCircle c.center c.radius x) :
    plane x = rim (plane c.center) c.radius (atan2 (x.y - c.center.y) (x.x - c.center.x)) := by
  have hyp_r : hyp (x.x - c.center.x) (x.y - c.center.y) = c.radius := by
    have h1 := hyp_sq (x.x - c.center.x) (x.y - c.center.y)
    have h2 := hx.1
    unfold planar2 at h2
    have h3 := hyp_nonneg (x.x - c.center.x) (x.y - c.center.y)
    nlinarith
  have px := hyp_cos (x.x - c.center.x) (x.y - c.center.y)
  have py := hyp_sin (x.x - c.center.x) (x.y - c.center.y)
  rw [hyp_r] at px py
  unfold plane rim
  ext
  · simp only; linarith
  · simp only; linarith

/-- the directions of two points of a circle, and the middle of them -/
theorem mid_angle {c : Seg} (hr : 0 < c.radius) {p q : Point ℝ} (hp : OnCircle c.center c.radius p)
    (hq : OnCircle c.center c.radius q) (hne : p ≠ q) :
    ∃ a b, plane p = rim (plane c.center) c.radius a ∧ plane q = rim (plane c.center) c.radius b ∧ a < b ∧ b < a + 2 * π ∧
      midAngle c.center p q = (a + b) / 2 := by
  have ep := onCircle_rim hr hp
  have eq := onCircle_rim hr hq
  unfold midAngle
  simp only
  have g1 := atan2_gt (p.y - c.center.y) (p.x - c.center.x)
  have g2 := atan2_le (p.y - c.center.y) (p.x - c.center.x)
  have g3 := atan2_gt (q.y - c.center.y) (q.x - c.center.x)
  have g4 := atan2_le (q.y - c.center.y) (q.x - c.center.x)
  have hd : atan2 (p.y - c.center.y) (p.x - c.center.x) ≠ atan2 (q.y - c.center.y) (q.x - c.center.x) := by
    intro e
    apply hne
    refine plane_inj hp.2 hq.2 ?_
    rw [ep, eq, e]
  generalize atan2 (p.y - c.center.y) (p.x - c.center.x) = a1 at *
  generalize atan2 (q.y - c.center.y) (q.x - c.center.x) = a2 at *
  refine ⟨a1, _, ep, ?_, ?_, ?_, rfl⟩
  · rw [eq]; split
    · rw [rim_turn]
    · rfl
  · split
    · linarith
    · rename_i h; exact lt_of_le_of_ne (not_lt.1 h) hd
  · split
    · linarith
    · linarith

theorem plane_pointAt (c : Seg) (a : ℝ) : plane (pointAt c a) = rim (plane c.center) c.radius a := rfl

theorem chord (c : ℝ × ℝ) (r a b : ℝ) : d2 (rim c r a) (rim c r b) = 2 * r ^ 2 * (1 - cos (a - b)) := by
  unfold d2 rim
  rw [cos_sub]
  linear_combination r ^ 2 * sin_sq_add_cos_sq a + r ^ 2 * sin_sq_add_cos_sq b

section
variable {o : Outline} {c : Seg} {p q : Point ℝ}

theorem covers_on (hk : c.kind = .circle) {x : Point ℝ} : Covers c x ↔ OnCircle c.center c.radius x := by
  unfold Covers; rw [hk]

/-- the points of the circle halfway between the two common points are not on the border -/
theorem halfway_off {l : List Seg} (hk : c.kind = .circle) (hr : 0 < c.radius)
    (hcom : ∀ x, Common l c x → x = p ∨ x = q) {a b φ : ℝ} (ep : plane p = rim (plane c.center) c.radius a)
    (eq : plane q = rim (plane c.center) c.radius b) (hab : a < b) (hba : b < a + 2 * π)
    (hφ : φ = (a + b) / 2 ∨ φ = (a + b) / 2 + π) : OffBorder l (pointAt c φ) := by
  have hon : Covers c (pointAt c φ) := by
    rw [covers_on hk]
    refine ⟨?_, rfl⟩
    rw [← d2_plane, plane_pointAt, d2_rim]
  refine ⟨rfl, fun s hs hc => ?_⟩
  rcases hcom _ ⟨hon, s, hs, hc⟩ with e | e
  · have e := congrArg plane e
    rw [plane_pointAt, ep] at e
    refine rim_ne hr (θ := a) (φ := φ) ?_ ?_ e.symm <;> rcases hφ with rfl | rfl <;> linarith [pi_pos]
  · have e := congrArg plane e
    rw [plane_pointAt, eq] at e
    rcases hφ with rfl | rfl
    · refine rim_ne hr (θ := (a + b) / 2) (φ := b) ?_ ?_ e <;> linarith
    · refine rim_ne hr (θ := b) (φ := (a + b) / 2 + π) ?_ ?_ e.symm <;> linarith

/-- what is known of the points of the circle halfway between the two common points -/
theorem halfway (hk : c.kind = .circle) (hr : 0 < c.radius) (hj : Judged o c)
    (hcom : ∀ x, Common o.segs c x → x = p ∨ x = q) {a b φ : ℝ} (ep : plane p = rim (plane c.center) c.radius a)
    (eq : plane q = rim (plane c.center) c.radius b) (hab : a < b) (hba : b < a + 2 * π)
    (hφ : φ = (a + b) / 2 ∨ φ = (a + b) / 2 + π) :
    OffBorder o.segs (pointAt c φ) ∧ ∀ β, isInside o (pointAt c φ) = some β → (β = true ↔ Inside o.segs (pointAt c φ)) := by
  have hon : Covers c (pointAt c φ) := by
    rw [covers_on hk]
    refine ⟨?_, rfl⟩
    rw [← d2_plane, plane_pointAt, d2_rim]
  refine ⟨halfway_off hk hr hcom ep eq hab hba hφ, ?_⟩
  · intro β hβ
    refine hj _ hon ?_ β hβ
    have key : planar2 (pointAt c φ) p = planar2 (pointAt c φ) q := by
      rw [← d2_plane, ← d2_plane, plane_pointAt, ep, eq, chord, chord]
      congr 2
      rcases hφ with rfl | rfl
      · rw [← cos_neg]; congr 1; ring
      · rw [show a - ((a + b) / 2 + π) = (a - b) / 2 - π by ring, show b - ((a + b) / 2 + π) = -((a - b) / 2) - π by ring,
          cos_sub_pi, cos_sub_pi, cos_neg]
    intro x x' hx hx'
    rcases hcom x hx with rfl | rfl <;> rcases hcom x' hx' with rfl | rfl <;> simp [key]

/-- the cut, when it is known which of the points halfway between the common points is inside -/
theorem parts_cut_of {l : List Seg} (hk : c.kind = .circle) (hr : 0 < c.radius) (hfit : ∀ s ∈ l, Fit s)
    (hround : Round l) (hproper : Proper l)
    (hcom : ∀ x, Common l c x → x = p ∨ x = q) (hp : OnCircle c.center c.radius p) (hq : OnCircle c.center c.radius q)
    (hne : p ≠ q) {F G : List Seg} (hP : Parts l c.center c.radius p q F G)
    (hin : (Inside l (pointAt c (midAngle c.center q p)) ∧ ¬ Inside l (pointAt c (midAngle c.center q p + π))) ∨
       (¬ Inside l (pointAt c (midAngle c.center p q)) ∧ Inside l (pointAt c (midAngle c.center p q + π)))) :
    ∃ θP θQ, plane p = rim (plane c.center) c.radius θP ∧ plane q = rim (plane c.center) c.radius θQ ∧
      Cut (plane c.center) c.radius θP θQ (F.map curve) (G.map curve) := by
  have hfitF : ∀ t ∈ F, Fit t := fun t ht => hP.fit t (by simp [ht])
  have hfitG : ∀ t ∈ G, Fit t := fun t ht => hP.fit t (by simp [ht])
  have lF := linked_of_joined hfitF hP.joinF
  have lG := linked_of_joined hfitG hP.joinG
  have firsts : ∀ {H : List Seg}, (∀ t ∈ H, Fit t) → (∀ t ∈ H.tail, planar2 t.start c.center ≠ c.radius ^ 2) →
      ∀ k ∈ (H.map curve).tail, d2 (plane c.center) k.first ≠ c.radius ^ 2 := by
    intro H hH ht k hk
    rw [← List.map_tail] at hk
    obtain ⟨t, htt, rfl⟩ := List.mem_map.1 hk
    rw [(hH t (List.mem_of_mem_tail htt)).first, d2_plane]
    exact ht t htt
  have sF := linked_side lF (fun k hk => by
    obtain ⟨t, ht, rfl⟩ := List.mem_map.1 hk; exact hP.sided t (by simp [ht])) (firsts hfitF hP.tailF)
  have sG := linked_side lG (fun k hk => by
    obtain ⟨t, ht, rfl⟩ := List.mem_map.1 hk; exact hP.sided t (by simp [ht])) (firsts hfitG hP.tailG)
  have off : ∀ {x : Point ℝ}, OffBorder l x → OffBorder (F ++ G) x := by
    rintro x ⟨hz, hx⟩
    refine ⟨hz, fun t ht hc => ?_⟩
    obtain ⟨s, hs, hs'⟩ := (hP.covers x).1 ⟨t, ht, hc⟩
    exact hx s hs hs'
  have inside : ∀ φ, OffBorder l (pointAt c φ) →
      Off (F.map curve ++ G.map curve) (rim (plane c.center) c.radius φ) ∧
      (Inside l (pointAt c φ) → turns (F.map curve ++ G.map curve) (rim (plane c.center) c.radius φ) = 1) ∧
      (¬ Inside l (pointAt c φ) → turns (F.map curve ++ G.map curve) (rim (plane c.center) c.radius φ) = 0) := by
    intro φ h1
    refine ⟨?_, ?_, ?_⟩
    · rw [← List.map_append, ← plane_pointAt, off_map hP.fit h1.1]; exact off h1
    · intro hi
      rw [← List.map_append, ← plane_pointAt, hP.turns, ← inside_one hfit hround hproper h1]
      exact hi
    · intro hi
      rw [← List.map_append, ← plane_pointAt, hP.turns]
      rw [inside_one hfit hround hproper h1] at hi
      rcases (proper_iff hfit hround).1 hproper _ h1 with e | e
      · exact e
      · exact absurd e hi
  have shift : ∀ θ, rim (plane c.center) c.radius (θ + π + π) = rim (plane c.center) c.radius θ := by
    intro θ; rw [add_assoc, ← two_mul, rim_turn]
  rcases hin with ⟨h1, h2⟩ | ⟨h1, h2⟩
  · obtain ⟨a, b, ea, eb, hab, hba, hm⟩ := mid_angle hr hq hp hne.symm
    rw [hm] at h1 h2
    have hcom' : ∀ x, Common l c x → x = q ∨ x = p := fun x hx => (hcom x hx).symm
    have i1 := inside _ (halfway_off hk hr hcom' ea eb hab hba (Or.inl rfl))
    have i2 := inside _ (halfway_off hk hr hcom' ea eb hab hba (Or.inr rfl))
    refine ⟨b, a, eb, ea, ⟨hr, hab, hba, ok_map hfitF, ok_map hfitG, ?_, ?_, sF, sG, i1.1, i2.1, i1.2.1 h1, i2.2.2 h2⟩⟩
    · rw [← ea, ← eb]; exact lF
    · rw [← ea, ← eb]; exact lG
  · obtain ⟨a, b, ea, eb, hab, hba, hm⟩ := mid_angle hr hp hq hne
    rw [hm] at h1 h2
    have i1 := inside _ (halfway_off hk hr hcom ea eb hab hba (Or.inl rfl))
    have i2 := inside _ (halfway_off hk hr hcom ea eb hab hba (Or.inr rfl))
    have e1 : (b + (a + 2 * π)) / 2 = (a + b) / 2 + π := by ring
    refine ⟨a + 2 * π, b, by rw [rim_turn]; exact ea, eb, ⟨hr, hba, by linarith, ok_map hfitF, ok_map hfitG, ?_, ?_, sF, sG, ?_, ?_, ?_, ?_⟩⟩
    · rw [rim_turn, ← ea, ← eb]; exact lF
    · rw [rim_turn, ← ea, ← eb]; exact lG
    · rw [e1]; exact i2.1
    · rw [e1, shift]; exact i1.1
    · rw [e1]; exact i2.2.1 h2
    · rw [e1, shift]; exact i1.2.2 h1

/-- the cut -/
theorem parts_cut (hk : c.kind = .circle) (hr : 0 < c.radius) (hj : Judged o c) (hfit : ∀ s ∈ o.segs, Fit s)
    (hround : Round o.segs) (hproper : Proper o.segs)
    (hcom : ∀ x, Common o.segs c x → x = p ∨ x = q) (hp : OnCircle c.center c.radius p) (hq : OnCircle c.center c.radius q)
    (hne : p ≠ q) {F G : List Seg} (hP : Parts o.segs c.center c.radius p q F G)
    (hin : (isInside o (pointAt c (midAngle c.center q p)) = some true ∧
        isInside o (pointAt c (midAngle c.center q p + π)) = some false) ∨
       (isInside o (pointAt c (midAngle c.center p q)) = some false ∧
        isInside o (pointAt c (midAngle c.center p q + π)) = some true)) :
    ∃ θP θQ, plane p = rim (plane c.center) c.radius θP ∧ plane q = rim (plane c.center) c.radius θQ ∧
      Cut (plane c.center) c.radius θP θQ (F.map curve) (G.map curve) := by
  refine parts_cut_of hk hr hfit hround hproper hcom hp hq hne hP ?_
  rcases hin with ⟨h1, h2⟩ | ⟨h1, h2⟩
  · obtain ⟨a, b, ea, eb, hab, hba, hm⟩ := mid_angle hr hq hp hne.symm
    have hcom' : ∀ x, Common o.segs c x → x = q ∨ x = p := fun x hx => (hcom x hx).symm
    rw [hm] at h1 h2 ⊢
    exact Or.inl ⟨((halfway hk hr hj hcom' ea eb hab hba (Or.inl rfl)).2 _ h1).1 rfl,
      fun hi => by cases ((halfway hk hr hj hcom' ea eb hab hba (Or.inr rfl)).2 _ h2).2 hi⟩
  · obtain ⟨a, b, ea, eb, hab, hba, hm⟩ := mid_angle hr hp hq hne
    rw [hm] at h1 h2 ⊢
    exact Or.inr ⟨fun hi => (by cases ((halfway hk hr hj hcom ea eb hab hba (Or.inl rfl)).2 _ h1).2 hi),
      ((halfway hk hr hj hcom ea eb hab hba (Or.inr rfl)).2 _ h2).1 rfl⟩

/-- the new arc -/
theorem new_arc (hc : c.kind = .circle) (hr : 0 < c.radius) (hp : OnCircle c.center c.radius p) (hq : OnCircle c.center c.radius q)
    (hne : PointMatches p q 1e-8 = false) {opsub : Bool} {sp : Seg} (h : setArc c.center p q opsub = (sp, true)) {θP θQ : ℝ}
    (ep : plane p = rim (plane c.center) c.radius θP) (eq : plane q = rim (plane c.center) c.radius θQ)
    (h1 : θQ < θP) (h2 : θP < θQ + 2 * π) :
    Fit sp ∧ sp.start = p ∧ sp.stop = q ∧ (∀ x, Covers sp x → Covers c x) ∧
      ∀ x, (curve sp).wind x = if opsub then (Curve.arc (plane c.center) c.radius θP θQ).wind x
        else (Curve.arc (plane c.center) c.radius θP (θQ + 2 * π)).wind x := by
  obtain ⟨zc, zp, zq, -, -, ec, er, hk⟩ := setArc_cases h
  rcases hk with ⟨-, hk⟩ | ⟨hk, -, e1, e2, ecw, -, -⟩
  · rw [hne] at hk; cases hk
  have hrad : sp.radius = c.radius := by
    rw [er]
    have h1 := hyp_sq (p.x - c.center.x) (p.y - c.center.y)
    have h2 := hp.1
    unfold planar2 at h2
    have h3 := hyp_nonneg (p.x - c.center.x) (p.y - c.center.y)
    nlinarith
  have fit : Fit sp := by
    refine ⟨Or.inr hk, .arc h, fun _ => ?_⟩
    rw [e1, e2, ec, hrad]
    exact ⟨hp.1, hq.1⟩
  have hok := (made_ok fit.made).arc hk
  obtain ⟨f1, f2⟩ := fit.arc_ends hk
  rw [e1, ec, hrad] at f1
  rw [e2, ec, hrad] at f2
  refine ⟨fit, e1, e2, ?_, ?_⟩
  · intro x hx
    rw [covers_on hc]
    refine ⟨?_, covers_flat hx⟩
    have := covers_circle hk hx
    rwa [ec, hrad] at this
  · intro x
    rw [curve_arc hk, ec, hrad]
    have r1 : rim (plane c.center) c.radius sp.sang = rim (plane c.center) c.radius θP := by
      rw [← ep, f1, plane_polar]
    have r2 : rim (plane c.center) c.radius sp.eang = rim (plane c.center) c.radius θQ := by
      rw [← eq, f2, plane_polar]
    have hneq : sp.sang ≠ sp.eang := by
      intro e
      rw [e, r2] at r1
      exact rim_ne hr h1 h2 r1
    obtain ⟨n, hn⟩ := rim_angle hr r1
    obtain ⟨m, hm⟩ := rim_angle hr r2
    have hpi := pi_pos
    have l1 := hok.le
    have l2 := hok.turn
    unfold Seg.startAngle Seg.endAngle at l1 l2
    rw [ecw] at l1 l2
    rw [arc_from hr r1 x]
    cases opsub with
    | true =>
      simp only [if_true] at l1 l2 ⊢
      have l1 : sp.eang < sp.sang := lt_of_le_of_ne l1 (Ne.symm hneq)
      have : m = n := by
        have d : (m - n : ℝ) * (2 * π) = (sp.eang - sp.sang) - (θQ - θP) := by rw [hn, hm]; ring
        have d1 : (m - n : ℝ) < 1 := by by_contra hc; push Not at hc; nlinarith
        have d2 : (-1 : ℝ) < m - n := by by_contra hc; push Not at hc; nlinarith
        have d1' : m - n < 1 := by exact_mod_cast d1
        have d2' : -1 < m - n := by exact_mod_cast d2
        omega
      have e : θP + (sp.eang - sp.sang) = θQ := by rw [hn, hm, this]; ring
      rw [e]; rfl
    | false =>
      simp only [Bool.false_eq_true, if_false] at l1 l2 ⊢
      have l1 : sp.sang < sp.eang := lt_of_le_of_ne l1 hneq
      have : m = n + 1 := by
        have d : (m - n - 1 : ℝ) * (2 * π) = (sp.eang - sp.sang) - (θQ + 2 * π - θP) := by rw [hn, hm]; ring
        have d1 : (m - n - 1 : ℝ) < 1 := by by_contra hc; push Not at hc; nlinarith
        have d2 : (-1 : ℝ) < m - n - 1 := by by_contra hc; push Not at hc; nlinarith
        have d1' : m - n - 1 < 1 := by exact_mod_cast d1
        have d2' : -1 < m - n - 1 := by exact_mod_cast d2
        omega
      have e : θP + (sp.eang - sp.sang) = θQ + 2 * π := by rw [hn, hm, this]; push_cast; ring
      rw [e]; rfl

/-- the region of the new outline -/
theorem region_cut (hk : c.kind = .circle) (hfit : ∀ s ∈ o.segs, Fit s) (hround : Round o.segs) (hproper : Proper o.segs)
    {F G out : List Seg} (hP : Parts o.segs c.center c.radius p q F G) {θP θQ : ℝ}
    (hcut : Cut (plane c.center) c.radius θP θQ (F.map curve) (G.map curve)) {sp : Seg} (hsp : Fit sp) (s1 : sp.start = p)
    (s2 : sp.stop = q) (hm : Made2 G out sp) {opsub : Bool}
    (hw : ∀ x, (curve sp).wind x = if opsub then (Curve.arc (plane c.center) c.radius θP θQ).wind x
        else (Curve.arc (plane c.center) c.radius θP (θQ + 2 * π)).wind x) :
    Round out ∧ (∀ s ∈ out, Fit s) ∧ Proper out ∧
    ∀ x, OffBorder out x → planar2 x c.center ≠ c.radius ^ 2 →
      (Inside out x ↔ if opsub then Inside o.segs x ∧ c.radius ^ 2 < planar2 x c.center
        else Inside o.segs x ∨ planar2 x c.center < c.radius ^ 2) := by
  obtain ⟨X, Y, rfl, hXY⟩ := hm
  have memOut : ∀ t, t ∈ X ++ Y ↔ t ∈ G ++ [sp] := by
    intro t; rw [hXY]; simp; tauto
  have rOut : Round (X ++ Y) := by
    refine round_rotate ?_
    rw [← hXY]
    exact ⟨q, joined_append.2 ⟨p, hP.joinG, s1, s2⟩⟩
  have fOut : ∀ s ∈ X ++ Y, Fit s := by
    intro s hs
    rw [memOut] at hs
    rcases List.mem_append.1 hs with hs | hs
    · exact hP.fit s (by simp [hs])
    · obtain rfl : s = sp := by simpa using hs
      exact hsp
  have tOut : ∀ x, d2 (plane c.center) x ≠ c.radius ^ 2 → turns ((X ++ Y).map curve) x =
      if d2 (plane c.center) x < c.radius ^ 2 then (if opsub then 0 else 1) else turns (o.segs.map curve) x := by
    intro x hx
    have e : turns ((X ++ Y).map curve) x = turns (G.map curve) x + (curve sp).wind x := by
      have : turns ((Y ++ X).map curve) x = turns (G.map curve) x + (curve sp).wind x := by
        rw [← hXY]; simp only [List.map_append, turns_append, List.map_cons, List.map_nil, turns_cons, turns_nil, add_zero]
      rw [← this]
      simp only [List.map_append, turns_append]; ring
    have eo := hP.turns x
    rw [List.map_append] at eo
    rw [e, hw, ← eo]
    cases opsub with
    | true =>
      simp only [if_true]
      rw [← hcut.minus hx]; simp only [turns_append, turns_cons, turns_nil, add_zero]
    | false =>
      simp only [Bool.false_eq_true, if_false]
      rw [← hcut.plus hx]; simp only [turns_append, turns_cons, turns_nil, add_zero]
  have offO : ∀ x, OffBorder (X ++ Y) x → c.radius ^ 2 < planar2 x c.center → OffBorder o.segs x := by
    rintro x ⟨hz, hx⟩ hd
    refine ⟨hz, fun s hs hc => ?_⟩
    obtain ⟨t, ht, htc⟩ := (hP.covers x).2 ⟨s, hs, hc⟩
    rcases List.mem_append.1 ht with ht | ht
    · have := hcut.sides.1 (curve t) (List.mem_map.2 ⟨t, ht, rfl⟩) (plane x) (((hP.fit t (by simp [ht])).trace' hz).2 htc)
      rw [d2_plane] at this
      linarith
    · exact hx t ((memOut t).2 (by simp [ht])) htc
  have pOut : Proper (X ++ Y) := by
    rw [proper_iff fOut rOut]
    intro x hx
    rcases lt_trichotomy (planar2 x c.center) (c.radius ^ 2) with hd | hd | hd
    · rw [tOut _ (by rw [d2_plane]; exact hd.ne), d2_plane, if_pos hd]
      cases opsub <;> simp
    · have hl := round_local fOut rOut hx
      have hon : OnCircle c.center c.radius x := ⟨hd, hx.1⟩
      rw [onCircle_rim hcut.pos hon] at hl
      obtain ⟨y, ⟨-, hy⟩, hyd⟩ := near_rim hcut.pos _ hl
      rw [onCircle_rim hcut.pos hon, ← hy, tOut y hyd.ne, if_pos hyd]
      cases opsub <;> simp
    · rw [tOut _ (by rw [d2_plane]; exact hd.ne'), d2_plane, if_neg hd.not_gt]
      exact (proper_iff hfit hround).1 hproper x (offO x hx hd)
  refine ⟨rOut, fOut, pOut, ?_⟩
  intro x hx hd
  rw [inside_one fOut rOut pOut hx, tOut _ (by rw [d2_plane]; exact hd), d2_plane]
  rcases lt_or_gt_of_ne hd with hd | hd
  · rw [if_pos hd]
    cases opsub
    · simp [hd]
    · simp [hd.not_gt]
  · rw [if_neg hd.not_gt, ← inside_one hfit hround hproper (offO x hx hd)]
    cases opsub
    · simp [hd.not_gt]
    · simp [hd]

end
end Iges.Turn
