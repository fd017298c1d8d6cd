import Verif.Lemmas.Surface
/-
C69: the vertical walls of a board.
-/
namespace Iges.Props.Walls
open Iges.Geo Iges.Spec Real

/-- a circle keeps its start and end point, whatever is done to it -/
theorem made_circle {s : Seg} (h : Made s) (hk : s.kind = .circle) :
    s.start = polar s.center s.radius 0 ∧ s.stop = polar s.center s.radius 0 ∧ 0 < s.radius ∧ s.center.z = 0 := by
  induction h with
  | line h =>
    rename_i a b s
    rcases setLine_cases a b with e | ⟨-, -, -, e⟩ <;> rw [e] at h <;> injection h with h <;> subst h <;>
      simp [Seg.init] at hk
  | @arc c a b cw s h =>
    have hz := (setArc_segOk h).circle hk
    refine ⟨?_, ?_, hz.1, hz.2.1⟩
    all_goals
      unfold setArc at h
      split at h
      · simp at h
      split at h
      · simp at h
      rename_i h0 h1
      push Not at h0
      simp only at h
      split at h
      · injection h with h
        subst h
        rw [polar_zero]
        simp only
        rw [h0.1]; rfl
      · split at h
        · simp at h
        · injection h with h
          subst h
          simp at hk
  | @reverse s hs ih =>
    have : s.kind = .circle := by
      unfold Seg.reverse at hk
      split at hk <;> simp_all
    have e : s.reverse = s := by unfold Seg.reverse; rw [this]
    rw [e]; exact ih this
  | @split s pts s' l t hs hsp hf ht ih =>
    exfalso
    obtain ⟨-, h⟩ := split_cases hsp
    rcases h with ⟨hk', h⟩ | ⟨hk', h⟩ | ⟨hk', h⟩
    · have key : ∀ a b, (setLine a b).1.kind ≠ .circle := by
        intro a b
        rcases setLine_cases a b with e | ⟨-, -, -, e⟩ <;> rw [e] <;> simp [Seg.init]
      unfold splitLine at h
      split at h
      · split at h
        · injection h with h; injection h with h1 h2
          subst h1 h2
          simp only [List.mem_cons, List.not_mem_nil, or_false] at ht
          rcases ht with rfl | rfl
          · simp [hk'] at hk
          · exact key _ _ hk
        · cases h
      · split at h
        · injection h with h; injection h with h1 h2
          subst h1 h2
          simp only [List.mem_cons, List.not_mem_nil, or_false] at ht
          rcases ht with rfl | rfl | rfl
          · simp [hk'] at hk
          · exact key _ _ hk
          · exact key _ _ hk
        · cases h
      · cases h
    · obtain ⟨g, -⟩ := splitArc_ok ((made_ok hs).arc hk') (fun p hp => (hf p (List.mem_of_mem_filter hp)).2) h
      have := (g t ht).1.kind
      rw [hk] at this; cases this
    · obtain ⟨p, q, -, -, -, -, rfl, rfl⟩ := splitCircle_cases h
      simp only [List.mem_cons, List.not_mem_nil, or_false] at ht
      rcases ht with rfl | rfl <;> rw [circleArc_eq] at hk <;> simp at hk

/-- the points of a wall, whatever the segment: for an arc the radius is that of the first end -/
theorem wall_points {s : Seg} {top bot : ℝ} {rev : Bool} {l : List Patch} (hm : Made s)
    (hne : s.kind = .arc → PointMatches s.getStart s.getEnd 1e-8 = false) (h : segmentWall top bot s rev = some l)
    (x : Point ℝ) :
    (s.kind = .line ∨ s.kind = .circle → ((∃ w ∈ l, PatchOn w x) ↔ Upright (Covers s) top bot x)) ∧
    (s.kind = .arc → ∀ ρ, 0 < ρ → s.getStart = polar s.center ρ s.startAngle →
      ((∃ w ∈ l, PatchOn w x) ↔
        Upright (fun q => ∃ t, s.startAngle ≤ t ∧ t ≤ s.endAngle ∧ q = polar s.center ρ t) top bot x)) := by
  refine ⟨?_, ?_⟩
  · rintro (hk | hk)
    · unfold segmentWall at h
      split at h
      · cases h
      rw [hk] at h
      injection h with h
      subst h
      have hl := (made_ok hm).line hk
      unfold Upright Covers
      rw [hk]
      simp only [List.mem_singleton, exists_eq_left, Seg.getStart, Seg.getEnd, hl.1, Bool.false_eq_true, if_false]
      have hc : cornersOf (if rev = true then
            wallPatch ⟨s.start.x, s.start.y, top⟩ ⟨s.stop.x, s.stop.y, top⟩ ⟨s.stop.x, s.stop.y, bot⟩ ⟨s.start.x, s.start.y, bot⟩
          else
            wallPatch ⟨s.start.x, s.start.y, bot⟩ ⟨s.stop.x, s.stop.y, bot⟩ ⟨s.stop.x, s.stop.y, top⟩ ⟨s.start.x, s.start.y, top⟩) =
          [(0, 0), (1, 0), (1, 1), (0, 1)] := by cases rev <;> rfl
      unfold PatchOn OnLine
      rw [hc]
      have hs : {c : ℝ × ℝ | c ∈ [((0 : ℝ), (0 : ℝ)), (1, 0), (1, 1), (0, 1)]} =
          {c | c ∈ [((0 : ℝ), (0 : ℝ)), (0, 1), (1, 1), (1, 0)]} := by
        ext c; simp only [List.mem_cons, List.not_mem_nil, or_false, Set.mem_ofPred_eq]; tauto
      rw [hs]
      simp only [hull_rectangle, min_eq_left (zero_le_one' ℝ), max_eq_right (zero_le_one' ℝ)]
      constructor
      · rintro ⟨u, v, ⟨⟨u1, u2⟩, v1, v2⟩, rfl⟩
        cases rev
        · simp only [Bool.false_eq_true, if_false, wallPatch, surfaceAt, along, Point.add, Point.scale]
          refine ⟨⟨u, u1, u2, ?_⟩, ?_, ?_⟩
          · unfold pt; ext <;> simp only <;> ring
          · rcases le_total top bot with h | h
            · rw [min_eq_left h]; nlinarith
            · rw [min_eq_right h]; nlinarith
          · rcases le_total top bot with h | h
            · rw [max_eq_right h]; nlinarith
            · rw [max_eq_left h]; nlinarith
        · simp only [if_true, wallPatch, surfaceAt, along, Point.add, Point.scale]
          refine ⟨⟨u, u1, u2, ?_⟩, ?_, ?_⟩
          · unfold pt; ext <;> simp only <;> ring
          · rcases le_total top bot with h | h
            · rw [min_eq_left h]; nlinarith
            · rw [min_eq_right h]; nlinarith
          · rcases le_total top bot with h | h
            · rw [max_eq_right h]; nlinarith
            · rw [max_eq_left h]; nlinarith
      · rintro ⟨⟨u, u1, u2, e⟩, z1, z2⟩
        have ex : x.x = s.start.x + u * (s.stop.x - s.start.x) := congrArg Point.x e
        have ey : x.y = s.start.y + u * (s.stop.y - s.start.y) := congrArg Point.y e
        rename_i hd
        have hd' : top ≠ bot := by rintro rfl; norm_num at hd
        have key : ∀ a b : ℝ, a ≠ b → min a b ≤ x.z → x.z ≤ max a b → 0 ≤ (x.z - a) / (b - a) ∧ (x.z - a) / (b - a) ≤ 1 := by
          intro a b hab m1 m2
          rcases lt_or_gt_of_ne hab with h | h
          · rw [min_eq_left h.le] at m1; rw [max_eq_right h.le] at m2
            exact ⟨div_nonneg (by linarith) (by linarith), (div_le_one (by linarith)).2 (by linarith)⟩
          · rw [min_eq_right h.le] at m1; rw [max_eq_left h.le] at m2
            exact ⟨div_nonneg_of_nonpos (by linarith) (by linarith), (div_le_one_of_neg (by linarith)).2 (by linarith)⟩
        cases rev
        · refine ⟨u, (x.z - bot) / (top - bot), ⟨⟨u1, u2⟩, key bot top hd'.symm ?_ ?_⟩, ?_⟩
          · rwa [min_comm]
          · rwa [max_comm]
          · simp only [Bool.false_eq_true, if_false, wallPatch, surfaceAt, along, Point.add, Point.scale]
            have : top - bot ≠ 0 := sub_ne_zero.2 hd'
            ext
            · simp only; rw [ex]; ring
            · simp only; rw [ey]; ring
            · simp only; field_simp; ring
        · refine ⟨u, (x.z - top) / (bot - top), ⟨⟨u1, u2⟩, key top bot hd' z1 z2⟩, ?_⟩
          simp only [if_true, wallPatch, surfaceAt, along, Point.add, Point.scale]
          have : bot - top ≠ 0 := sub_ne_zero.2 hd'.symm
          ext
          · simp only; rw [ex]; ring
          · simp only; rw [ey]; ring
          · simp only; field_simp; ring
    · obtain ⟨e1, e2, hr, hz⟩ := made_circle hm hk
      obtain ⟨y, hy, hi⟩ := segmentWall_cyl h (Or.inr hk)
      have hcw := ((made_ok hm).circle hk).2.2
      have g1 : s.getStart = polar s.center s.radius 0 := by unfold Seg.getStart; rw [hcw]; exact e1
      have g2 : s.getEnd = polar s.center s.radius 0 := by unfold Seg.getEnd; rw [hcw]; exact e2
      obtain ⟨-, c1, c2, -, c3, c4⟩ := cylParams_circle hy (by rw [g1, g2]; exact C51_reflexive _ _)
      have er : y.radius = s.radius := by rw [c2, g1]; exact hyp_polar hr
      rw [instantiate_points hi c1 c3]
      unfold Upright Covers
      rw [hk]
      simp only
      rw [c4, er]
  · intro hk ρ hρ hs
    obtain ⟨y, hy, hi⟩ := segmentWall_cyl h (Or.inl hk)
    have ok := (made_ok hm).arc hk
    obtain ⟨-, ρ', hρ', -, he⟩ := ok.ends
    obtain ⟨c1, c2, c3, -, c4⟩ := cylParams_arc hy (hne hk) hs he hρ hρ' ok.low ok.le ok.turn ok.high
    rw [← c2] at c3 c4 ⊢
    rw [instantiate_points hi c1 c3]
    unfold Upright
    simp only [c4]

theorem fits_of_iff {P Q : Point ℝ → Prop} (h : ∀ x, P x ↔ Q x) : Fits 0 P Q := by
  have z : ∀ x : Point ℝ, dist2 x x ≤ (0 : ℝ) ^ 2 := by intro x; unfold dist2; simp
  exact ⟨fun p hp => ⟨p, (h p).1 hp, z p⟩, fun q hq => ⟨q, (h q).2 hq, z q⟩⟩

/-- C69. The surfaces made for the wall of a segment are, between the two heights, the points of the segment: the surfaces
add nothing and leave nothing out, up to the distance of the ends of an arc from its circle. -/
theorem C69_wall {s : Seg} {top bot : ℝ} {rev : Bool} {l : List Patch} (hm : Made s)
    (hne : s.kind = .arc → PointMatches s.getStart s.getEnd 1e-8 = false) (h : segmentWall top bot s rev = some l) :
    Fits (endTol s) (fun x => ∃ w ∈ l, PatchOn w x) (Upright (Covers s) top bot) := by
  have hw := fun x => wall_points hm hne h x
  cases hk : s.kind
  · unfold segmentWall at h
    rw [hk] at h
    simp at h
  · have e : endTol s = 0 := by unfold endTol; rw [hk]
    rw [e]; exact fits_of_iff fun x => (hw x).1 (Or.inl hk)
  · obtain ⟨ρ, hρ, hd, hs⟩ := ((made_ok hm).arc hk).ends.1
    have e : endTol s = slack s.radius := by unfold endTol slack; rw [hk]
    rw [e]
    have sq : (ρ - s.radius) ^ 2 ≤ slack s.radius ^ 2 := sq_le_sq' (by linarith [abs_le.1 hd]) (by linarith [abs_le.1 hd])
    constructor
    · intro p hp
      obtain ⟨⟨t, t1, t2, e⟩, z⟩ := ((hw p).2 hk ρ hρ hs).1 hp
      refine ⟨lift (polar s.center s.radius t) p.z, ⟨?_, z⟩, ?_⟩
      · rw [covers_arc hk]; exact ⟨t, t1, t2, rfl⟩
      · have : p = lift (polar s.center ρ t) p.z := by rw [← e]; rfl
        rw [this]
        exact (lift_polar_dist s.center ρ s.radius t p.z).le.trans sq
    · rintro q ⟨hq, z⟩
      rw [covers_arc hk] at hq
      obtain ⟨t, t1, t2, e⟩ := hq
      refine ⟨lift (polar s.center ρ t) q.z, ((hw _).2 hk ρ hρ hs).2 ⟨⟨t, t1, t2, rfl⟩, z⟩, ?_⟩
      have : q = lift (polar s.center s.radius t) q.z := by rw [← e]; rfl
      rw [this]
      exact (lift_polar_dist s.center ρ s.radius t q.z).le.trans sq
  · have e : endTol s = 0 := by unfold endTol; rw [hk]
    rw [e]; exact fits_of_iff fun x => (hw x).1 (Or.inr hk)

/-- C69. The surfaces are exactly the points of the segment between the two heights when the first end of an arc lies on its
circle. -/
theorem C69_wall_exact {s : Seg} {top bot : ℝ} {rev : Bool} {l : List Patch} (hm : Made s)
    (hne : s.kind = .arc → PointMatches s.getStart s.getEnd 1e-8 = false)
    (hc : s.kind = .arc → planar2 s.getStart s.center = s.radius ^ 2) (h : segmentWall top bot s rev = some l)
    (x : Point ℝ) : (∃ w ∈ l, PatchOn w x) ↔ Upright (Covers s) top bot x := by
  have hw := wall_points hm hne h x
  cases hk : s.kind
  · unfold segmentWall at h
    rw [hk] at h
    simp at h
  · exact hw.1 (Or.inl hk)
  · obtain ⟨ρ, hρ, -, hs⟩ := ((made_ok hm).arc hk).ends.1
    have hp := ((made_ok hm).arc hk).pos
    have e : ρ = s.radius := by
      have h1 := hc hk
      rw [hs] at h1
      have h2 := Real.sin_sq_add_cos_sq s.startAngle
      have : ρ ^ 2 = s.radius ^ 2 := by
        unfold planar2 polar pt at h1
        simp only at h1
        linear_combination h1 - ρ ^ 2 * h2
      exact (pow_left_inj₀ hρ.le hp.le two_ne_zero).1 this
    rw [hw.2 hk ρ hρ hs, e]
    unfold Upright
    rw [covers_arc hk]
  · exact hw.1 (Or.inr hk)

/-- C69. The wall of a line can be made if and only if the heights differ by at least 1e-6. -/
theorem C69_line_made {a b : Point ℝ} {s : Seg} (h : setLine a b = (s, true)) (top bot : ℝ) (rev : Bool) :
    (segmentWall top bot s rev).isSome ↔ 1e-6 ≤ |top - bot| := by
  have hk : s.kind = .line := by
    rcases setLine_cases a b with e | ⟨-, -, -, e⟩ <;> rw [e] at h
    · simp at h
    · injection h with h
      subst h
      rfl
  unfold segmentWall
  rw [hk]
  by_cases hd : |top - bot| < 1e-6
  · rw [if_pos hd]; simp; linarith
  · rw [if_neg hd]; simp; linarith

/-- C69. The wall of an arc set by `SetParams` can be made if and only if the heights differ by at least 0.001: a wall whose
height is between 1e-6 and 0.001 can be made for a line and not for an arc. -/
theorem C69_arc_made {c a b : Point ℝ} {cw : Bool} {s : Seg} (h : setArc c a b cw = (s, true)) (hk : s.kind = .arc)
    (top bot : ℝ) (rev : Bool) : (segmentWall top bot s rev).isSome ↔ 0.001 ≤ |top - bot| := by
  have hcases := setArc_cases h
  obtain ⟨hc, ha, hb, hra, hrb, e1, e2, h'⟩ := hcases
  rcases h' with ⟨h', -⟩ | ⟨-, hab, hs, he, hcw, hr, -⟩
  · rw [hk] at h'; cases h'
  have hmatch : PointMatches c a 1e-8 = false ∧ PointMatches c b 1e-8 = false := by
    unfold setArc at h
    split at h
    · simp at h
    split at h
    · simp at h
    rename_i hn
    rw [not_or] at hn
    exact ⟨by simpa using hn.1, by simpa using hn.2⟩
  have hsome : (cylParams s.center s.getStart s.getEnd).isSome := by
    unfold cylParams
    rw [e1]
    have z1 : s.getStart.z = 0 := by unfold Seg.getStart; split <;> simp [hs, he, ha, hb]
    have z2 : s.getEnd.z = 0 := by unfold Seg.getEnd; split <;> simp [hs, he, ha, hb]
    have m1 : PointMatches c s.getStart 1e-8 = false := by
      unfold Seg.getStart; split <;> simp [hs, he, hmatch]
    have m2 : PointMatches c s.getEnd 1e-8 = false := by
      unfold Seg.getEnd; split <;> simp [hs, he, hmatch]
    have rr : ¬ |hyp (c.x - s.getStart.x) (c.y - s.getStart.y) - hyp (c.x - s.getEnd.x) (c.y - s.getEnd.y)| > 1e-8 := by
      rw [hyp_comm c s.getStart, hyp_comm c s.getEnd, not_lt]
      unfold Seg.getStart Seg.getEnd
      rw [e2] at hr
      split
      · rw [hs, he]; exact hr
      · rw [hs, he, abs_sub_comm]; exact hr
    rw [if_neg (by simp [hc, z1, z2]), if_neg (by simp [m1, m2])]
    simp only [if_neg rr]
    split <;> rfl
  obtain ⟨y, hy⟩ := Option.isSome_iff_exists.1 hsome
  unfold segmentWall
  rw [hk]
  by_cases hd : |top - bot| < 1e-6
  · have : |top - bot| < 0.001 := lt_trans hd (by norm_num)
    rw [if_pos hd]; simp; linarith
  · rw [if_neg hd]
    simp only [hy, Option.bind_some]
    unfold cylInstantiate
    by_cases hd2 : |top - bot| < 0.001
    · rw [if_pos hd2]; simp; linarith
    · rw [if_neg hd2]; simp; linarith

/-- two arcs about the same centre over the same directions -/
theorem fits_arcs {c : Point ℝ} {r ρ a b h : ℝ} (hr : |ρ - r| ≤ 1e-8) {P Q : Point ℝ → Prop}
    (hP : ∀ x, P x ↔ ∃ t, a ≤ t ∧ t ≤ b ∧ x = lift (polar c r t) h)
    (hQ : ∀ x, Q x ↔ ∃ t, a ≤ t ∧ t ≤ b ∧ x = lift (polar c ρ t) h) : Fits 1e-8 P Q := by
  have sq : ∀ x y : ℝ, |x - y| ≤ 1e-8 → (x - y) ^ 2 ≤ (1e-8 : ℝ) ^ 2 := by
    intro x y hx
    exact sq_le_sq' (by linarith [abs_le.1 hx]) (by linarith [abs_le.1 hx])
  constructor
  · intro p hp
    obtain ⟨t, t1, t2, rfl⟩ := (hP p).1 hp
    exact ⟨_, (hQ _).2 ⟨t, t1, t2, rfl⟩, by rw [lift_polar_dist]; exact sq _ _ (by rw [abs_sub_comm]; exact hr)⟩
  · intro q hq
    obtain ⟨t, t1, t2, rfl⟩ := (hQ q).1 hq
    exact ⟨_, (hP _).2 ⟨t, t1, t2, rfl⟩, by rw [lift_polar_dist]; exact sq _ _ (by rw [abs_sub_comm]; exact hr)⟩

/-- two upright lines -/
theorem fits_lines {c p : Point ℝ} {r ρ a z0 z1 : ℝ} (hr : |ρ - r| ≤ 1e-8) (hp : p = polar c ρ a) {P Q : Point ℝ → Prop}
    (hP : ∀ x, P x ↔ ∃ t : ℝ, 0 ≤ t ∧ t ≤ 1 ∧ x = lift (polar c r a) (z0 + t * (z1 - z0)))
    (hQ : ∀ x, Q x ↔ ∃ t : ℝ, 0 ≤ t ∧ t ≤ 1 ∧ x = along ⟨p.x, p.y, z0⟩ ⟨p.x, p.y, z1⟩ t) : Fits 1e-8 P Q := by
  have e : ∀ t, along ⟨p.x, p.y, z0⟩ ⟨p.x, p.y, z1⟩ t = lift (polar c ρ a) (z0 + t * (z1 - z0)) := by
    intro t
    rw [← hp]
    unfold along Point.add Point.scale lift
    ext <;> simp only <;> ring
  have sq : ∀ x y : ℝ, |x - y| ≤ 1e-8 → (x - y) ^ 2 ≤ (1e-8 : ℝ) ^ 2 := by
    intro x y hx
    exact sq_le_sq' (by linarith [abs_le.1 hx]) (by linarith [abs_le.1 hx])
  constructor
  · intro p hp
    obtain ⟨t, t1, t2, rfl⟩ := (hP p).1 hp
    exact ⟨_, (hQ _).2 ⟨t, t1, t2, rfl⟩, by rw [e, lift_polar_dist]; exact sq _ _ (by rw [abs_sub_comm]; exact hr)⟩
  · intro q hq
    obtain ⟨t, t1, t2, rfl⟩ := (hQ q).1 hq
    exact ⟨_, (hP _).2 ⟨t, t1, t2, rfl⟩, by rw [e, lift_polar_dist]; exact sq _ _ (by rw [abs_sub_comm]; exact hr)⟩

/-- the boundary in space of a surface of a cylinder -/
theorem cyl_boundary {c : Point ℝ} {r top bot : ℝ} {rev : Bool} {a : ℝ × ℝ} {p q : Point ℝ} (h : bot < top)
    (hp : Tip c r p a.1) (hq : Tip c r q a.2) (ha : a.1 < a.2) (hb : a.2 < a.1 + 2 * π) :
    Bounded 1e-8 (cylPatch c r top bot rev a p q) := by
  obtain ⟨ρ, h1, h2, hp⟩ := hp
  obtain ⟨ρ', h1', h2', hq⟩ := hq
  set w := cylPatch c r top bot rev a p q with hw
  refine ⟨(0, if rev then 2 * π - a.1 else a.1), (0, if rev then 2 * π - a.2 else a.2),
    (1, if rev then 2 * π - a.2 else a.2), (1, if rev then 2 * π - a.1 else a.1), _, _, _, _, rfl, rfl, ?_, ?_, ?_, ?_, ?_⟩
  · unfold Runs curveFirst curveLast
    simp only [Option.getD_none, Option.getD_some, act_one, act_mirror, true_and, Runs, curveFirst, curveLast]
    refine ⟨?_, ?_, trivial⟩ <;> ext <;> simp only <;> ring
  · refine fits_arcs h2 (fun x => ?_) (arc_up hp hq h1 h1' ha hb)
    unfold SideOn
    simp only [hw, surface_cyl c r top bot rev a p q h]
    constructor
    · rintro ⟨t, t1, t2, rfl⟩
      refine ⟨(1 - t) * a.1 + t * a.2, by nlinarith, by nlinarith, ?_⟩
      congr 1
      · congr 1; cases rev <;> simp; ring
      · ring
    · rintro ⟨t, t1, t2, rfl⟩
      have hne : a.2 - a.1 ≠ 0 := by linarith
      refine ⟨(t - a.1) / (a.2 - a.1), div_nonneg (by linarith) (by linarith), (div_le_one (by linarith)).2 (by linarith), ?_⟩
      congr 1
      · congr 1; cases rev <;> simp <;> field_simp <;> ring
      · ring
  · refine fits_lines (a := a.2) h2' hq (fun x => ?_) (fun x => Iff.rfl)
    unfold SideOn
    simp only [hw, surface_cyl c r top bot rev a p q h]
    refine exists_congr fun t => and_congr_right fun t1 => and_congr_right fun t2 => ?_
    rw [show (1 - t) * (0 : ℝ) + t * 1 = t by ring, show ∀ z : ℝ, (1 - t) * z + t * z = z by intro z; ring]
    cases rev <;> simp
  · refine fits_arcs (c := c) (r := r) h2' (fun x => ?_) (arc_down hp hq h1 h1' ha hb)
    unfold SideOn
    simp only [hw, surface_cyl c r top bot rev a p q h]
    constructor
    · rintro ⟨t, t1, t2, rfl⟩
      refine ⟨(1 - t) * a.2 + t * a.1, by nlinarith, by nlinarith, ?_⟩
      congr 1
      · congr 1; cases rev <;> simp; ring
      · ring
    · rintro ⟨t, t1, t2, rfl⟩
      have hne : a.2 - a.1 ≠ 0 := by linarith
      refine ⟨(a.2 - t) / (a.2 - a.1), div_nonneg (by linarith) (by linarith), (div_le_one (by linarith)).2 (by linarith), ?_⟩
      congr 1
      · congr 1; cases rev <;> simp <;> field_simp <;> ring
      · ring
  · refine fits_lines (a := a.1) h2 hp (fun x => ?_) (fun x => Iff.rfl)
    unfold SideOn
    simp only [hw, surface_cyl c r top bot rev a p q h]
    refine exists_congr fun t => and_congr_right fun t1 => and_congr_right fun t2 => ?_
    rw [show (1 - t) * (1 : ℝ) + t * 0 = 1 - t by ring, show ∀ z : ℝ, (1 - t) * z + t * z = z by intro z; ring,
      show top + (1 - t) * (bot - top) = bot + t * (top - bot) by ring]
    cases rev <;> simp

theorem fits_weaken {ε : ℝ} {P Q : Point ℝ → Prop} (h : ∀ x, P x ↔ Q x) : Fits ε P Q := by
  have z : ∀ x : Point ℝ, dist2 x x ≤ ε ^ 2 := by intro x; unfold dist2; simp; positivity
  exact ⟨fun p hp => ⟨p, (h p).1 hp, z p⟩, fun q hq => ⟨q, (h q).2 hq, z q⟩⟩

theorem wall_boundary (p0 p1 p2 p3 : Point ℝ) : Bounded 1e-8 (wallPatch p0 p1 p2 p3) := by
  refine ⟨(0, 0), (1, 0), (1, 1), (0, 1), _, _, _, _, rfl, rfl, ⟨rfl, rfl, rfl, rfl, rfl⟩, ?_, ?_, ?_, ?_⟩
  all_goals
    refine fits_weaken fun x => ?_
    unfold SideOn CurveOn
    refine exists_congr fun t => and_congr_right fun t1 => and_congr_right fun t2 => ?_
    have : ∀ a b : Point ℝ, a = b → (x = a ↔ x = b) := by rintro a b rfl; rfl
    apply this
    simp only [wallPatch, surfaceAt, along, Point.add, Point.scale]
    ext <;> simp only <;> ring

/-- the surfaces of an arc or a circle are those of `cylPatch` -/
theorem cyl_parts {y : Cyl} {c : Point ℝ} {r top bot : ℝ} {rev : Bool} {l : List Patch}
    (h : cylInstantiate y top bot rev = some l) (hc : y.center = c) (hr : y.radius = r) (hl : Links c r y.ranges y.pts) :
    min top bot < max top bot ∧
    ∀ w ∈ l, ∃ g ∈ y.ranges, ∃ p q, Tip c r p g.1 ∧ Tip c r q g.2 ∧ g.1 ≤ g.2 ∧ g.2 < g.1 + 2 * π ∧
      w = cylPatch c r (max top bot) (min top bot) rev g p q := by
  unfold cylInstantiate at h
  split at h
  · cases h
  rename_i hd
  have hlt : min top bot < max top bot := by
    rcases lt_trichotomy top bot with h | h | h
    · rw [min_eq_left h.le, max_eq_right h.le]; exact h
    · rw [h] at hd; norm_num at hd
    · rw [min_eq_right h.le, max_eq_left h.le]; exact h
  have et : (if top < bot then bot else top) = max top bot := by
    split_ifs with h
    · exact (max_eq_right h.le).symm
    · exact (max_eq_left (not_lt.1 h)).symm
  have eb : (if top < bot then top else bot) = min top bot := by
    split_ifs with h
    · exact (min_eq_left h.le).symm
    · exact (min_eq_right (not_lt.1 h)).symm
  rw [et, eb, hc, hr] at h
  injection h with h
  subst h
  exact ⟨hlt, (mem_cylPatches hl).1⟩

theorem wall_cases {s : Seg} {top bot : ℝ} {rev : Bool} {l : List Patch} (hm : Made s)
    (hne : s.kind = .arc → PointMatches s.getStart s.getEnd 1e-8 = false) (h : segmentWall top bot s rev = some l) :
    (s.kind = .line ∧ top ≠ bot ∧
      l = [if rev then wallPatch ⟨s.start.x, s.start.y, top⟩ ⟨s.stop.x, s.stop.y, top⟩ ⟨s.stop.x, s.stop.y, bot⟩
              ⟨s.start.x, s.start.y, bot⟩
           else wallPatch ⟨s.start.x, s.start.y, bot⟩ ⟨s.stop.x, s.stop.y, bot⟩ ⟨s.stop.x, s.stop.y, top⟩
              ⟨s.start.x, s.start.y, top⟩]) ∨
    ((s.kind = .arc ∨ s.kind = .circle) ∧ min top bot < max top bot ∧
      ∃ ρ, 0 < ρ ∧ ∀ w ∈ l, ∃ g p q, Tip s.center ρ p g.1 ∧ Tip s.center ρ q g.2 ∧ g.1 ≤ g.2 ∧ (0 < s.length → g.1 < g.2) ∧
        g.2 < g.1 + 2 * π ∧
        w = cylPatch s.center ρ (max top bot) (min top bot) ((s.cw && !rev) || (!s.cw && rev)) g p q) := by
  cases hk : s.kind
  · unfold segmentWall at h
    rw [hk] at h
    simp at h
  · left
    unfold segmentWall at h
    split at h
    · cases h
    rename_i hd
    rw [hk] at h
    injection h with h
    exact ⟨rfl, by rintro rfl; norm_num at hd, h.symm⟩
  · right
    obtain ⟨y, hy, hi⟩ := segmentWall_cyl h (Or.inl hk)
    have ok := (made_ok hm).arc hk
    obtain ⟨⟨ρ, hρ, -, hs⟩, ρ', hρ', -, he⟩ := ok.ends
    obtain ⟨c1, c2, c3, c4, -⟩ := cylParams_arc hy (hne hk) hs he hρ hρ' ok.low ok.le ok.turn ok.high
    obtain ⟨m1, m2⟩ := cyl_parts hi c1 c2 c3
    refine ⟨Or.inl rfl, m1, ρ, hρ, fun w hw => ?_⟩
    obtain ⟨g, hg, p, q, g1, g2, g3, g4, g5⟩ := m2 w hw
    refine ⟨g, p, q, g1, g2, g3, fun hl => c4 ?_ g hg, g4, g5⟩
    unfold Seg.length at hl
    rw [hk] at hl
    simp only at hl
    have := ok.pos
    by_contra hc
    nlinarith
  · right
    obtain ⟨e1, e2, hr, hz⟩ := made_circle hm hk
    obtain ⟨y, hy, hi⟩ := segmentWall_cyl h (Or.inr hk)
    have hcw := ((made_ok hm).circle hk).2.2
    have g1 : s.getStart = polar s.center s.radius 0 := by unfold Seg.getStart; rw [hcw]; exact e1
    have g2 : s.getEnd = polar s.center s.radius 0 := by unfold Seg.getEnd; rw [hcw]; exact e2
    have hmm : PointMatches s.getStart s.getEnd 1e-8 = true := by rw [g1, g2]; exact C51_reflexive _ _
    obtain ⟨-, c1, c2, c5, c3, c4⟩ := cylParams_circle hy hmm
    obtain ⟨m1, m2⟩ := cyl_parts hi c1 rfl c3
    refine ⟨Or.inr rfl, m1, y.radius, c5, fun w hw => ?_⟩
    obtain ⟨g, hg, p, q, g1, g2, g3, g4, g5⟩ := m2 w hw
    have hlt : g.1 < g.2 := by
      have hp := Real.pi_pos
      have : y.ranges = [(0, π), (π, 2 * π)] := by
        unfold cylParams at hy
        split at hy
        · cases hy
        split at hy
        · cases hy
        simp only at hy
        split at hy
        · cases hy
        injection hy with hy
        rw [← hy]
      rw [this] at hg
      simp only [List.mem_cons, List.not_mem_nil, or_false] at hg
      rcases hg with rfl | rfl <;> simp only <;> linarith
    exact ⟨g, p, q, g1, g2, g3, fun _ => hlt, g4, g5⟩

/-- C69. The boundary of each surface of a wall: the four curves in space run round and come back to where they started, and
each of them is, up to 1e-8, the side of the boundary in the parameter plane. -/
theorem C69_boundary {s : Seg} {top bot : ℝ} {rev : Bool} {l : List Patch} (hm : Made s)
    (hne : s.kind = .arc → PointMatches s.getStart s.getEnd 1e-8 = false) (hl : 0 < s.length)
    (h : segmentWall top bot s rev = some l) (w : Patch) (hw : w ∈ l) : Bounded 1e-8 w := by
  rcases wall_cases hm hne h with ⟨-, -, rfl⟩ | ⟨-, hlt, ρ, hρ, hall⟩
  · rw [List.mem_singleton] at hw
    subst hw
    cases rev
    · simp only [Bool.false_eq_true, if_false]
      exact wall_boundary _ _ _ _
    · simp only [if_true]
      exact wall_boundary _ _ _ _
  · obtain ⟨g, p, q, g1, g2, g3, g4, g5, rfl⟩ := hall w hw
    exact cyl_boundary hlt g1 g2 (g4 hl) g5

/-- the arcs of `SetParams` lie in one turn and none is more than half a turn -/
theorem ranges_half {a1 a2 : ℝ} (h0 : -π < a1) (h1 : a1 ≤ π) (h : a1 ≤ a2) (h2 : a2 < a1 + 2 * π) :
    ∀ g ∈ cylRanges a1 a2, 0 ≤ g.1 ∧ g.1 ≤ g.2 ∧ g.2 ≤ 2 * π ∧ g.2 - g.1 ≤ π := by
  have hp := Real.pi_pos
  unfold cylRanges
  simp only
  intro g hg
  split_ifs at hg with c1 c2 c3 c4 c5 c6 c7 <;>
    simp only [List.mem_cons, List.not_mem_nil, or_false] at hg <;>
    (try rw [not_or] at c4) <;>
    (try rcases c4 with c4 | ⟨c4, c4'⟩) <;>
    rcases hg with rfl | rfl | rfl <;> refine ⟨?_, ?_, ?_, ?_⟩ <;> simp only <;> linarith

/-- C69. No surface of a wall goes more than half a turn round its axis, and its angles lie between 0 and a full turn.  This
holds of every segment, also of those no call can make. -/
theorem C69_half_turn {s : Seg} {top bot : ℝ} {rev : Bool} {l : List Patch} (h : segmentWall top bot s rev = some l)
    (w : Patch) (hw : w ∈ l) (p : ℝ × ℝ) (hp : p ∈ cornersOf w) (q : ℝ × ℝ) (hq : q ∈ cornersOf w) :
    0 ≤ p.2 ∧ p.2 ≤ 2 * π ∧ |p.2 - q.2| ≤ π := by
  have hpi := Real.two_le_pi
  have line : ∀ a b c d : Point ℝ, w = wallPatch a b c d → 0 ≤ p.2 ∧ p.2 ≤ 2 * π ∧ |p.2 - q.2| ≤ π := by
    rintro a b c d rfl
    simp only [wallPatch, cornersOf, List.mem_cons, List.not_mem_nil, or_false] at hp hq
    rcases hp with rfl | rfl | rfl | rfl <;> rcases hq with rfl | rfl | rfl | rfl <;>
      refine ⟨?_, ?_, abs_le.2 ⟨?_, ?_⟩⟩ <;> simp only <;> linarith
  have patches : ∀ (c : Point ℝ) (r t b : ℝ) (rev : Bool) (rs : List (ℝ × ℝ)) (ps : List (Point ℝ)),
      w ∈ cylPatches c r t b rev rs ps → ∃ g ∈ rs, ∃ a e, w = cylPatch c r t b rev g a e := by
    intro c r t b rev rs
    induction rs with
    | nil => intro ps hm; simp [cylPatches] at hm
    | cons g rs ih =>
      intro ps hm
      match ps, hm with
      | [], hm => simp [cylPatches] at hm
      | [_], hm => simp [cylPatches] at hm
      | a :: e :: ps, hm =>
        rw [cylPatches, List.mem_cons] at hm
        rcases hm with rfl | hm
        · exact ⟨g, by simp, a, e, rfl⟩
        · obtain ⟨g', h1, h2⟩ := ih _ hm
          exact ⟨g', List.mem_cons_of_mem _ h1, h2⟩
  have round : ∀ rv, (cylParams s.center s.getStart s.getEnd).bind (fun y => cylInstantiate y top bot rv) = some l →
      0 ≤ p.2 ∧ p.2 ≤ 2 * π ∧ |p.2 - q.2| ≤ π := by
    intro rv hr
    obtain ⟨y, hy, hi⟩ := Option.bind_eq_some_iff.1 hr
    have hg : ∀ g ∈ y.ranges, 0 ≤ g.1 ∧ g.1 ≤ g.2 ∧ g.2 ≤ 2 * π ∧ g.2 - g.1 ≤ π := by
      unfold cylParams at hy
      simp only at hy
      split at hy
      · cases hy
      split at hy
      · cases hy
      split at hy
      · cases hy
      split at hy
      · cases hy
        intro g hg
        simp only [List.mem_cons, List.not_mem_nil, or_false] at hg
        rcases hg with rfl | rfl <;> refine ⟨?_, ?_, ?_, ?_⟩ <;> simp only <;> linarith
      · cases hy
        have a1 := atan2_gt (s.getStart.y - s.center.y) (s.getStart.x - s.center.x)
        have a2 := atan2_le (s.getStart.y - s.center.y) (s.getStart.x - s.center.x)
        have b1 := atan2_gt (s.getEnd.y - s.center.y) (s.getEnd.x - s.center.x)
        have b2 := atan2_le (s.getEnd.y - s.center.y) (s.getEnd.x - s.center.x)
        apply ranges_half a1 a2 <;> split <;> linarith
    unfold cylInstantiate at hi
    split at hi
    · cases hi
    cases hi
    obtain ⟨g, hg', a, e, rfl⟩ := patches _ _ _ _ _ _ _ hw
    obtain ⟨g1, g2, g3, g4⟩ := hg g hg'
    simp only [cylPatch, cornersOf, List.mem_cons, List.not_mem_nil, or_false] at hp hq
    cases rv <;> simp only [if_true, Bool.false_eq_true, if_false] at hp hq <;>
      rcases hp with rfl | rfl | rfl | rfl <;> rcases hq with rfl | rfl | rfl | rfl <;>
      refine ⟨?_, ?_, abs_le.2 ⟨?_, ?_⟩⟩ <;> simp only <;> linarith
  unfold segmentWall at h
  split at h
  · cases h
  split at h
  · cases h
  · cases h
    rw [List.mem_singleton] at hw
    cases rev
    · exact line _ _ _ _ hw
    · exact line _ _ _ _ hw
  · exact round _ h

/-- C69. The side of a wall: where the parameters run counterclockwise one looks at a wall of the outline from the right of
the direction in which its segment runs, and at a wall of a hole or cutout from the left.  For a straight wall the first
height has to be the greater one. -/
theorem C69_facing {s : Seg} {top bot : ℝ} {rev : Bool} {l : List Patch} (hm : Made s)
    (hne : s.kind = .arc → PointMatches s.getStart s.getEnd 1e-8 = false) (hlt : s.kind = .line → bot < top)
    (h : segmentWall top bot s rev = some l) (w : Patch) (hw : w ∈ l) (u v : ℝ) :
    ∃ d, Heading s (surfaceAt w u v) d ∧
      NormalAt w u v (if rev then cross ⟨0, 0, 1⟩ d else cross d ⟨0, 0, 1⟩) := by
  rcases wall_cases hm hne h with ⟨hk, -, rfl⟩ | ⟨hk, hmm, ρ, hρ, hall⟩
  · rw [List.mem_singleton] at hw
    replace hlt := hlt hk
    refine ⟨⟨(top - bot) * (s.stop.x - s.start.x), (top - bot) * (s.stop.y - s.start.y), 0⟩, ⟨rfl, ?_⟩, ?_⟩
    · rw [hk]; exact ⟨top - bot, by linarith, rfl, rfl⟩
    · have der : ∀ (f : ℝ → ℝ) (a b t : ℝ), (∀ x, f x = a + x * b) → HasDerivAt f b t := by
        intro f a b t hf
        have : f = fun x => a + x * b := funext hf
        rw [this]
        simpa using ((hasDerivAt_id t).mul_const b).const_add a
      cases rev
      · simp only [Bool.false_eq_true, if_false] at hw ⊢
        subst hw
        refine ⟨⟨s.stop.x - s.start.x, s.stop.y - s.start.y, 0⟩, ⟨0, 0, top - bot⟩, ⟨?_, ?_, ?_⟩, ⟨?_, ?_, ?_⟩, ?_⟩
        · refine der _ s.start.x _ _ fun x => ?_
          simp only [wallPatch, surfaceAt, along, Point.add, Point.scale]; ring
        · refine der _ s.start.y _ _ fun x => ?_
          simp only [wallPatch, surfaceAt, along, Point.add, Point.scale]; ring
        · refine der _ (bot + v * (top - bot)) _ _ fun x => ?_
          simp only [wallPatch, surfaceAt, along, Point.add, Point.scale]; ring
        · refine der _ (s.start.x + u * (s.stop.x - s.start.x)) _ _ fun x => ?_
          simp only [wallPatch, surfaceAt, along, Point.add, Point.scale]; ring
        · refine der _ (s.start.y + u * (s.stop.y - s.start.y)) _ _ fun x => ?_
          simp only [wallPatch, surfaceAt, along, Point.add, Point.scale]; ring
        · refine der _ bot _ _ fun x => ?_
          simp only [wallPatch, surfaceAt, along, Point.add, Point.scale]; ring
        · unfold cross; ext <;> simp only <;> ring
      · simp only [if_true] at hw ⊢
        subst hw
        refine ⟨⟨s.stop.x - s.start.x, s.stop.y - s.start.y, 0⟩, ⟨0, 0, bot - top⟩, ⟨?_, ?_, ?_⟩, ⟨?_, ?_, ?_⟩, ?_⟩
        · refine der _ s.start.x _ _ fun x => ?_
          simp only [wallPatch, surfaceAt, along, Point.add, Point.scale]; ring
        · refine der _ s.start.y _ _ fun x => ?_
          simp only [wallPatch, surfaceAt, along, Point.add, Point.scale]; ring
        · refine der _ (top + v * (bot - top)) _ _ fun x => ?_
          simp only [wallPatch, surfaceAt, along, Point.add, Point.scale]; ring
        · refine der _ (s.start.x + u * (s.stop.x - s.start.x)) _ _ fun x => ?_
          simp only [wallPatch, surfaceAt, along, Point.add, Point.scale]; ring
        · refine der _ (s.start.y + u * (s.stop.y - s.start.y)) _ _ fun x => ?_
          simp only [wallPatch, surfaceAt, along, Point.add, Point.scale]; ring
        · refine der _ top _ _ fun x => ?_
          simp only [wallPatch, surfaceAt, along, Point.add, Point.scale]; ring
        · unfold cross; ext <;> simp only <;> ring
  · obtain ⟨g, p, q, -, -, -, -, -, rfl⟩ := hall w hw
    clear hall hw hlt h
    revert hmm
    generalize max top bot = T
    generalize min top bot = B
    clear top bot
    rename' T => top, B => bot
    intro hlt
    set b := ((s.cw && !rev) || (!s.cw && rev)) with hb
    set σ := (if b then 2 * π - v else v) with hσ
    set k : ℝ := (if b then -1 else 1) with hk'
    have es := surface_cyl s.center ρ top bot b g p q hlt
    refine ⟨⟨(if s.cw then 1 else -1) * ((top - bot) * (ρ * sin σ)), (if s.cw then -1 else 1) * ((top - bot) * (ρ * cos σ)), 0⟩,
      ⟨rfl, ?_⟩, ?_⟩
    · have e : surfaceAt (cylPatch s.center ρ top bot b g p q) u v = lift (polar s.center ρ σ) (top + u * (bot - top)) := es u v
      rw [e]
      have ex : (lift (polar s.center ρ σ) (top + u * (bot - top))).x - s.center.x = ρ * cos σ := by
        unfold lift polar pt; simp
      have ey : (lift (polar s.center ρ σ) (top + u * (bot - top))).y - s.center.y = ρ * sin σ := by
        unfold lift polar pt; simp
      rw [ex, ey]
      rcases hk with hk | hk <;> rw [hk] <;> exact ⟨top - bot, by linarith, rfl, rfl⟩
    · have hz : HasDerivAt (fun t => top + t * (bot - top)) (bot - top) u := by
        simpa using ((hasDerivAt_id u).mul_const (bot - top)).const_add top
      have hang : HasDerivAt (fun t : ℝ => if b then 2 * π - t else t) k v := by
        cases hb' : b
        · have : k = 1 := by rw [hk', hb']; rfl
          rw [this]; exact hasDerivAt_id' v
        · have : k = -1 := by rw [hk', hb']; rfl
          rw [this]; simpa using (hasDerivAt_id v).const_sub (2 * π)
      have hcos : HasDerivAt (fun t : ℝ => s.center.x + ρ * cos (if b then 2 * π - t else t)) (ρ * (-sin σ * k)) v := by
        have := (hang.cos.const_mul ρ).const_add s.center.x
        exact this
      have hsin : HasDerivAt (fun t : ℝ => s.center.y + ρ * sin (if b then 2 * π - t else t)) (ρ * (cos σ * k)) v := by
        have := (hang.sin.const_mul ρ).const_add s.center.y
        exact this
      refine ⟨⟨0, 0, bot - top⟩, ⟨ρ * (-sin σ * k), ρ * (cos σ * k), 0⟩, ⟨?_, ?_, ?_⟩, ⟨?_, ?_, ?_⟩, ?_⟩
      · simp only [es]; exact hasDerivAt_const u _
      · simp only [es]; exact hasDerivAt_const u _
      · simp only [es]; exact hz
      · simp only [es]; exact hcos
      · simp only [es]; exact hsin
      · simp only [es]; exact hasDerivAt_const v _
      · have hkk : k = (if s.cw then -1 else 1) * (if rev then -1 else 1) := by
          rw [hk', hb]
          cases s.cw <;> cases rev <;> simp
        rw [hkk]
        unfold cross
        cases s.cw <;> cases rev <;> ext <;> simp <;> ring

/-- C69. A straight wall whose first height is the smaller one faces the other way, while curved walls (`C69_facing`) do
not: the walls of an outline of lines and arcs then face different ways. -/
theorem C69_facing_upside_down {s : Seg} {top bot : ℝ} {rev : Bool} {l : List Patch} (hm : Made s) (hk : s.kind = .line)
    (hlt : top < bot) (h : segmentWall top bot s rev = some l) (w : Patch) (hw : w ∈ l) (u v : ℝ) :
    ∃ d, Heading s (surfaceAt w u v) d ∧
      NormalAt w u v (if rev then cross d ⟨0, 0, 1⟩ else cross ⟨0, 0, 1⟩ d) := by
  have hs : segmentWall bot top s (!rev) = some l := by
    unfold segmentWall at h ⊢
    rw [hk] at h ⊢
    rw [abs_sub_comm] at h
    split at h
    · cases h
    rename_i hd
    rw [if_neg hd, ← h]
    cases rev <;> rfl
  obtain ⟨d, d1, d2⟩ := C69_facing hm (fun e => by rw [hk] at e; cases e) (fun _ => hlt) hs w hw u v
  exact ⟨d, d1, by cases rev <;> simpa using d2⟩

end Iges.Props.Walls
