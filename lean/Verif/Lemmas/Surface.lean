import Mathlib.Analysis.Convex.Combination
import Mathlib.Analysis.Convex.Segment
import Mathlib.Analysis.SpecialFunctions.Trigonometric.Deriv
import Verif.Spec.Surface
import Verif.Props.Segment
/-
Points of the surfaces and curves of Model/Surface.lean.
-/
namespace Iges.Geo
open Iges.Spec Real
open Iges.Props (turn_polar sameDirection_polar eq_of_cos_sub)

/-- the arc from one direction to another -/
theorem onArc_polar {c p : Point ℝ} {ρ ρ' a b : ℝ} (h1 : 0 < ρ) (h2 : 0 < ρ') (hab : a < b) (hb : b < a + 2 * π) :
    OnArc c (polar c ρ a) (polar c ρ' b) false p ↔ ∃ t, a ≤ t ∧ t ≤ b ∧ p = polar c ρ t := by
  have key : ∀ φ, SameDirection c (turn c φ (polar c ρ a)) (polar c ρ' b) ↔ cos (a + φ - b) = 1 := by
    intro φ; rw [turn_polar]; exact sameDirection_polar h1 h2
  unfold OnArc Sweep
  simp only [Bool.false_eq_true, if_false]
  constructor
  · rintro ⟨φ, ⟨p1, p2, p3⟩, θ, q1, q2, rfl⟩
    have e : φ = b - a := by
      refine eq_of_cos_sub p1 p2 (by linarith) (by linarith) ?_
      rw [key] at p3
      rw [show φ - (b - a) = a + φ - b by ring]; exact p3
    refine ⟨a + θ, by linarith, by linarith, ?_⟩
    rw [turn_polar]
  · rintro ⟨t, t1, t2, rfl⟩
    refine ⟨b - a, ⟨by linarith, by linarith, ?_⟩, t - a, by linarith, by linarith, ?_⟩
    · rw [key, show a + (b - a) - b = 0 by ring]; exact Real.cos_zero
    · rw [turn_polar]; congr 1; ring

theorem polar_z (c : Point ℝ) (r a : ℝ) : (polar c r a).z = 0 := rfl

theorem lift_polar_dist (c : Point ℝ) (ρ r a h : ℝ) :
    dist2 (lift (polar c ρ a) h) (lift (polar c r a) h) = (ρ - r) ^ 2 := by
  unfold dist2 lift polar pt
  have := Real.sin_sq_add_cos_sq a
  simp only
  linear_combination (ρ - r) ^ 2 * this

theorem act_one (p : Point ℝ) : Transform.one.act p = p := by
  unfold Transform.one Transform.act Mat.one Mat.act Point.add
  ext <;> simp

theorem act_mirror (x z : ℝ) (p : Point ℝ) : (mirror x z).act p = ⟨x - p.x, p.y, z - p.z⟩ := by
  unfold mirror Transform.act Mat.one Mat.act Point.add
  ext <;> simp <;> ring

/-- the points of an arc entity that runs counterclockwise -/
theorem arc_up {c p q : Point ℝ} {ρ ρ' a b h : ℝ} (hp : p = polar c ρ a) (hq : q = polar c ρ' b) (h1 : 0 < ρ) (h2 : 0 < ρ')
    (hab : a < b) (hb : b < a + 2 * π) (x : Point ℝ) :
    CurveOn (.arc ⟨h, c.x, c.y, p.x, p.y, q.x, q.y, none⟩) x ↔
      ∃ t, a ≤ t ∧ t ≤ b ∧ x = lift (polar c ρ t) h := by
  have key : ∀ y, OnArc (pt c.x c.y) (pt p.x p.y) (pt q.x q.y) false y ↔ ∃ t, a ≤ t ∧ t ≤ b ∧ y = polar c ρ t := by
    intro y
    have := onArc_polar (c := pt c.x c.y) (p := y) h1 h2 hab hb
    rw [hp, hq]
    exact this
  unfold CurveOn
  simp only [key, Option.getD_none, act_one]
  constructor
  · rintro ⟨y, ⟨t, t1, t2, rfl⟩, rfl⟩; exact ⟨t, t1, t2, rfl⟩
  · rintro ⟨t, t1, t2, rfl⟩; exact ⟨_, ⟨t, t1, t2, rfl⟩, rfl⟩

/-- the points of an arc entity that runs clockwise because its transform turns it over -/
theorem arc_down {c p q : Point ℝ} {ρ ρ' a b h : ℝ} (hp : p = polar c ρ a) (hq : q = polar c ρ' b) (h1 : 0 < ρ)
    (h2 : 0 < ρ') (hab : a < b) (hb : b < a + 2 * π) (x : Point ℝ) :
    CurveOn (.arc ⟨h, 0, c.y, c.x - q.x, q.y, c.x - p.x, p.y, some (mirror c.x (2 * h))⟩) x ↔
      ∃ t, a ≤ t ∧ t ≤ b ∧ x = lift (polar c ρ' t) h := by
  have e : ∀ (r t : ℝ), pt (c.x - (polar c r t).x) (polar c r t).y = polar (pt 0 c.y) r (π - t) := by
    intro r t
    unfold polar pt
    rw [Real.cos_pi_sub, Real.sin_pi_sub]
    ext <;> simp
  have key : ∀ y, OnArc (pt 0 c.y) (pt (c.x - q.x) q.y) (pt (c.x - p.x) p.y) false y ↔
      ∃ t, π - b ≤ t ∧ t ≤ π - a ∧ y = polar (pt 0 c.y) ρ' t := by
    intro y
    rw [hp, hq, e, e]
    exact onArc_polar h2 h1 (by linarith) (by linarith)
  have m : ∀ t, (mirror c.x (2 * h)).act (lift (polar (pt 0 c.y) ρ' (π - t)) h) = lift (polar c ρ' t) h := by
    intro t
    rw [act_mirror]
    unfold lift polar pt
    rw [Real.cos_pi_sub, Real.sin_pi_sub]
    ext <;> simp <;> ring
  unfold CurveOn
  simp only [key, Option.getD_some]
  constructor
  · rintro ⟨y, ⟨t, t1, t2, rfl⟩, rfl⟩
    refine ⟨π - t, by linarith, by linarith, ?_⟩
    rw [← m (π - t)]; congr 3; ring
  · rintro ⟨t, t1, t2, rfl⟩
    exact ⟨_, ⟨π - t, by linarith, by linarith, rfl⟩, (m t).symm⟩

/-- the convex hull of the corners of a rectangle -/
theorem hull_rectangle (a b u v : ℝ) :
    (u, v) ∈ convexHull ℝ {c | c ∈ [((0 : ℝ), a), (0, b), (1, b), (1, a)]} ↔
      (0 ≤ u ∧ u ≤ 1) ∧ min a b ≤ v ∧ v ≤ max a b := by
  have e : {c | c ∈ [((0 : ℝ), a), (0, b), (1, b), (1, a)]} = ({0, 1} : Set ℝ) ×ˢ ({a, b} : Set ℝ) := by
    ext ⟨x, y⟩
    simp only [List.mem_cons, List.not_mem_nil, or_false, Set.mem_ofPred_eq, Set.mem_prod, Set.mem_insert_iff,
      Set.mem_singleton_iff, Prod.mk.injEq]
    tauto
  rw [e, convexHull_prod, convexHull_pair, convexHull_pair, segment_eq_uIcc, segment_eq_uIcc, Set.mem_prod,
    Set.mem_uIcc, Set.uIcc, Set.mem_Icc]
  constructor
  · rintro ⟨h | h, h'⟩
    · exact ⟨h, h'⟩
    · exact ⟨⟨by linarith [h.1, h.2], by linarith [h.1, h.2]⟩, h'⟩
  · rintro ⟨h, h'⟩
    exact ⟨Or.inl h, h'⟩

/-- turning about a vertical axis -/
theorem revolve_vertical (x y z0 z1 θ r z : ℝ) (k : ℝ) (hk : (k = 1 ∧ z0 < z1) ∨ (k = -1 ∧ z1 < z0)) :
    revolve ⟨x, y, z0⟩ ⟨x, y, z1⟩ θ ⟨x + r, y, z⟩ = ⟨x + r * cos θ, y + r * sin (k * θ), z⟩ := by
  have hn : (1 / Real.sqrt (norm2 ((⟨x, y, z1⟩ : Point ℝ).sub ⟨x, y, z0⟩))) * (z1 - z0) = k := by
    have e : norm2 ((⟨x, y, z1⟩ : Point ℝ).sub ⟨x, y, z0⟩) = (z1 - z0) ^ 2 := by
      unfold norm2 Point.sub; simp
    rw [e, Real.sqrt_sq_eq_abs]
    rcases hk with ⟨rfl, h⟩ | ⟨rfl, h⟩
    · rw [abs_of_pos (by linarith)]; exact one_div_mul_cancel (by linarith)
    · rw [abs_of_neg (by linarith), neg_sub]
      have : z0 - z1 ≠ 0 := by linarith
      field_simp; ring
  have kk : k * k = 1 := by rcases hk with ⟨rfl, -⟩ | ⟨rfl, -⟩ <;> norm_num
  have sk : sin (k * θ) = k * sin θ := by
    rcases hk with ⟨rfl, -⟩ | ⟨rfl, -⟩ <;> simp
  unfold revolve
  simp only
  generalize (1 / Real.sqrt (norm2 ((⟨x, y, z1⟩ : Point ℝ).sub ⟨x, y, z0⟩))) = m at hn
  rw [sk]
  unfold Point.add Point.scale Point.sub cross dot
  simp only
  have hn' : (z1 - z0) * m = k := by rw [mul_comm]; exact hn
  rw [hn']
  ext
  · simp only; ring
  · simp only; ring
  · simp only
    linear_combination (z - z0) * (1 - cos θ) * kk

/-- the points of a surface made for one of the arcs -/
theorem surface_cyl (c : Point ℝ) (r top bot : ℝ) (rev : Bool) (a : ℝ × ℝ) (p q : Point ℝ) (h : bot < top) (u v : ℝ) :
    surfaceAt (cylPatch c r top bot rev a p q) u v =
      lift (polar c r (if rev then 2 * π - v else v)) (top + u * (bot - top)) := by
  have e : along ⟨c.x + r, c.y, top⟩ ⟨c.x + r, c.y, bot⟩ u = ⟨c.x + r, c.y, top + u * (bot - top)⟩ := by
    unfold along Point.add Point.scale
    ext <;> simp only <;> ring
  unfold cylPatch surfaceAt
  cases rev
  · simp only [Bool.false_eq_true, if_false]
    rw [e, revolve_vertical c.x c.y bot top v r _ 1 (Or.inl ⟨rfl, h⟩)]
    unfold lift polar pt; simp
  · simp only [if_true]
    rw [e, revolve_vertical c.x c.y top bot v r _ (-1) (Or.inr ⟨rfl, h⟩)]
    unfold lift polar pt
    rw [Real.cos_two_pi_sub, Real.sin_two_pi_sub]; simp

theorem patch_cyl (c : Point ℝ) (r top bot : ℝ) (rev : Bool) (a : ℝ × ℝ) (p q : Point ℝ) (h : bot < top)
    (ha : a.1 ≤ a.2) (x : Point ℝ) :
    PatchOn (cylPatch c r top bot rev a p q) x ↔
      ∃ t z, a.1 ≤ t ∧ t ≤ a.2 ∧ bot ≤ z ∧ z ≤ top ∧ x = lift (polar c r t) z := by
  unfold PatchOn
  simp only [surface_cyl c r top bot rev a p q h]
  have hc : cornersOf (cylPatch c r top bot rev a p q) =
      [(0, if rev then 2 * π - a.1 else a.1), (0, if rev then 2 * π - a.2 else a.2),
       (1, if rev then 2 * π - a.2 else a.2), (1, if rev then 2 * π - a.1 else a.1)] := rfl
  rw [hc]
  simp only [hull_rectangle]
  constructor
  · rintro ⟨u, v, ⟨⟨u1, u2⟩, v1, v2⟩, rfl⟩
    refine ⟨_, _, ?_, ?_, ?_, ?_, rfl⟩
    · cases rev
      · simp only [Bool.false_eq_true, if_false, min_eq_left ha] at v1 ⊢; exact v1
      · simp only [if_true, max_eq_left (show 2 * π - a.2 ≤ 2 * π - a.1 by linarith)] at v2 ⊢; linarith
    · cases rev
      · simp only [Bool.false_eq_true, if_false, max_eq_right ha] at v2 ⊢; exact v2
      · simp only [if_true, min_eq_right (show 2 * π - a.2 ≤ 2 * π - a.1 by linarith)] at v1 ⊢; linarith
    · nlinarith
    · nlinarith
  · rintro ⟨t, z, t1, t2, z1, z2, rfl⟩
    refine ⟨(top - z) / (top - bot), if rev then 2 * π - t else t, ⟨⟨?_, ?_⟩, ?_, ?_⟩, ?_⟩
    · exact div_nonneg (by linarith) (by linarith)
    · exact (div_le_one (by linarith)).2 (by linarith)
    · cases rev
      · simp only [Bool.false_eq_true, if_false, min_eq_left ha]; exact t1
      · simp only [if_true, min_eq_right (show 2 * π - a.2 ≤ 2 * π - a.1 by linarith)]; linarith
    · cases rev
      · simp only [Bool.false_eq_true, if_false, max_eq_right ha]; exact t2
      · simp only [if_true, max_eq_left (show 2 * π - a.2 ≤ 2 * π - a.1 by linarith)]; linarith
    · congr 1
      · cases rev <;> simp
      · have : top - bot ≠ 0 := by linarith
        field_simp; ring

/-- `p` is in the direction `a` from `c`, at distance `r` up to 1e-8 -/
def Tip (c : Point ℝ) (r : ℝ) (p : Point ℝ) (a : ℝ) : Prop := ∃ ρ, 0 < ρ ∧ |ρ - r| ≤ 1e-8 ∧ p = polar c ρ a

/-- the arcs of a cylinder hang together: each has its ends where its angles say, up to the tolerance, and less than
a full turn -/
def Links (c : Point ℝ) (r : ℝ) : List (ℝ × ℝ) → List (Point ℝ) → Prop
  | a :: l, p :: q :: rest =>
      Tip c r p a.1 ∧ Tip c r q a.2 ∧ a.1 ≤ a.2 ∧ a.2 < a.1 + 2 * π ∧ Links c r l (q :: rest)
  | [], [_] => True
  | _, _ => False

theorem mem_cylPatches {c : Point ℝ} {r top bot : ℝ} {rev : Bool} {l : List (ℝ × ℝ)} {pts : List (Point ℝ)}
    (h : Links c r l pts) :
    (∀ w ∈ cylPatches c r top bot rev l pts, ∃ a ∈ l, ∃ p q, Tip c r p a.1 ∧ Tip c r q a.2 ∧ a.1 ≤ a.2 ∧
      a.2 < a.1 + 2 * π ∧ w = cylPatch c r top bot rev a p q) ∧
    ∀ a ∈ l, a.1 ≤ a.2 ∧ ∃ p q, cylPatch c r top bot rev a p q ∈ cylPatches c r top bot rev l pts := by
  induction l generalizing pts with
  | nil =>
    match pts, h with
    | [p], _ => simp [cylPatches]
  | cons a l ih =>
    match pts, h with
    | p :: q :: rest, ⟨h1, h2, h3, h4, h5⟩ =>
      obtain ⟨i1, i2⟩ := ih h5
      constructor
      · intro w hw
        rw [cylPatches, List.mem_cons] at hw
        rcases hw with rfl | hw
        · exact ⟨a, List.mem_cons_self .., p, q, h1, h2, h3, h4, rfl⟩
        · obtain ⟨b, hb, rest⟩ := i1 w hw
          exact ⟨b, List.mem_cons_of_mem _ hb, rest⟩
      · intro b hb
        rw [List.mem_cons] at hb
        rcases hb with rfl | hb
        · exact ⟨h3, p, q, by rw [cylPatches]; exact List.mem_cons_self ..⟩
        · obtain ⟨e, p', q', h⟩ := i2 b hb
          exact ⟨e, p', q', by rw [cylPatches]; exact List.mem_cons_of_mem _ h⟩

theorem Tip.exact {c : Point ℝ} {r a : ℝ} (hr : 0 < r) : Tip c r (polar c r a) a :=
  ⟨r, hr, by rw [sub_self, abs_zero]; norm_num, rfl⟩

theorem Tip.shift {c p : Point ℝ} {r a : ℝ} (h : Tip c r p a) : Tip c r p (a + 2 * π) := by
  obtain ⟨ρ, h1, h2, h3⟩ := h
  exact ⟨ρ, h1, h2, by rw [polar_add]; exact h3⟩

theorem Tip.shift' {c p : Point ℝ} {r a : ℝ} (h : Tip c r p a) : Tip c r p (a - 2 * π) := by
  obtain ⟨ρ, h1, h2, h3⟩ := h
  exact ⟨ρ, h1, h2, by rw [polar_sub]; exact h3⟩

theorem Tip.unshift {c p : Point ℝ} {r a : ℝ} (h : Tip c r p (a + 2 * π)) : Tip c r p a := by
  have := h.shift'; rwa [add_sub_cancel_right] at this

theorem polar_zero (c : Point ℝ) (r : ℝ) : polar c r 0 = pt (c.x + r) c.y := by unfold polar; simp

theorem polar_pi (c : Point ℝ) (r : ℝ) : polar c r π = pt (c.x - r) c.y := by
  unfold polar; simp [sub_eq_add_neg]

theorem polar_two_pi (c : Point ℝ) (r : ℝ) : polar c r (2 * π) = pt (c.x + r) c.y := by unfold polar; simp

/-- the angles of `SetParams` and the points between the arcs -/
theorem ranges_links {c s e : Point ℝ} {r a1 a2 : ℝ} (hr : 0 < r) (h1 : -π < a1) (h2 : a1 ≤ π) (h3 : a1 ≤ a2)
    (h4 : a2 < a1 + 2 * π) (hs : Tip c r s a1) (he : Tip c r e a2) :
    Links c r (cylRanges a1 a2) (s :: cylMids c r (cylRanges a1 a2) ++ [e]) := by
  have hp := Real.pi_pos
  have m : ∀ t : ℝ, (⟨c.x + r * cos t, c.y + r * sin t, 0⟩ : Point ℝ) = polar c r t := fun t => rfl
  have p0 : Tip c r (polar c r 0) 0 := Tip.exact hr
  have p1 : Tip c r (polar c r π) π := Tip.exact hr
  have p2 : Tip c r (polar c r 0) (2 * π) := by have := p0.shift; rwa [zero_add] at this
  unfold cylRanges
  simp only
  split_ifs <;>
    simp only [cylMids, List.tail_cons, List.map_nil, List.map_cons, List.cons_append, List.nil_append, Links, m,
      and_true] <;>
    constructorm* _ ∧ _
  all_goals try have hno := (not_or.1 ‹¬ (a2 ≤ π ∨ a1 ≥ π ∧ a2 ≤ 2 * π)›).1
  all_goals first
    | exact hs
    | exact he
    | exact hs.shift
    | exact he.shift
    | exact he.shift'
    | exact he.shift.shift'
    | exact p0
    | exact p1
    | exact p2
    | linarith

theorem ranges_lt {a1 a2 : ℝ} (h1 : a1 ≤ π) (h : a1 < a2) : ∀ g ∈ cylRanges a1 a2, g.1 < g.2 := by
  have hp := Real.pi_pos
  unfold cylRanges
  simp only
  intro g hg
  split_ifs at hg <;> (try have hno := (not_or.1 ‹¬ (a2 ≤ π ∨ a1 ≥ π ∧ a2 ≤ 2 * π)›).1) <;>
    simp only [List.mem_cons, List.not_mem_nil, or_false] at hg <;>
    rcases hg with rfl | rfl | rfl <;> simp only <;> linarith

/-- the arcs of `SetParams` are the directions from the first angle to the last, up to full turns -/
theorem ranges_cover {c : Point ℝ} {r a1 a2 : ℝ} (h2 : a1 ≤ π) (h4 : a2 < a1 + 2 * π)
    (x : Point ℝ) :
    (∃ a ∈ cylRanges a1 a2, ∃ t, a.1 ≤ t ∧ t ≤ a.2 ∧ x = polar c r t) ↔ ∃ t, a1 ≤ t ∧ t ≤ a2 ∧ x = polar c r t := by
  have hp := Real.pi_pos
  unfold cylRanges
  simp only
  constructor
  · rintro ⟨a, ha, t, t1, t2, rfl⟩
    split_ifs at ha <;> (try have hno := (not_or.1 ‹¬ (a2 ≤ π ∨ a1 ≥ π ∧ a2 ≤ 2 * π)›).1) <;>
      simp only [List.mem_cons, List.not_mem_nil, or_false] at ha <;>
      rcases ha with rfl | rfl | rfl <;> simp only at t1 t2 <;>
      first
      | exact ⟨t, by linarith, by linarith, rfl⟩
      | exact ⟨t - 2 * π, by linarith, by linarith, (polar_sub c r t).symm⟩
      | exact ⟨t + 2 * π, by linarith, by linarith, (polar_add c r t).symm⟩
  · rintro ⟨t, t1, t2, rfl⟩
    split_ifs
    all_goals
      simp only [List.mem_cons, List.not_mem_nil, or_false]
      simp only [exists_eq_or_imp, exists_eq_left]
    all_goals try have hno := (not_or.1 ‹¬ (a2 ≤ π ∨ a1 ≥ π ∧ a2 ≤ 2 * π)›).1
    all_goals
      rcases le_or_gt t 0 with c0 | c0 <;> rcases le_or_gt t π with c1 | c1 <;>
        rcases le_or_gt t (2 * π) with c2 | c2 <;>
      first
      | (exfalso; linarith)
      | exact ⟨t, by linarith, by linarith, rfl⟩
      | exact ⟨t + 2 * π, by linarith, by linarith, (polar_add c r t).symm⟩
      | exact Or.inl ⟨t, by linarith, by linarith, rfl⟩
      | exact Or.inl ⟨t + 2 * π, by linarith, by linarith, (polar_add c r t).symm⟩
      | exact Or.inr ⟨t, by linarith, by linarith, rfl⟩
      | exact Or.inr ⟨t - 2 * π, by linarith, by linarith, (polar_sub c r t).symm⟩
      | exact Or.inr (Or.inl ⟨t, by linarith, by linarith, rfl⟩)
      | exact Or.inr (Or.inr ⟨t, by linarith, by linarith, rfl⟩)
      | exact Or.inr (Or.inr ⟨t - 2 * π, by linarith, by linarith, (polar_sub c r t).symm⟩)

theorem hyp_comm (c p : Point ℝ) : hyp (c.x - p.x) (c.y - p.y) = hyp (p.x - c.x) (p.y - c.y) := by
  unfold hyp; congr 1; ring

theorem hyp_polar {c : Point ℝ} {ρ a : ℝ} (h : 0 < ρ) : hyp ((polar c ρ a).x - c.x) ((polar c ρ a).y - c.y) = ρ := by
  unfold hyp polar pt
  simp only
  rw [show (c.x + ρ * cos a - c.x) * (c.x + ρ * cos a - c.x) + (c.y + ρ * sin a - c.y) * (c.y + ρ * sin a - c.y) = ρ ^ 2 by
    have := Real.sin_sq_add_cos_sq a
    linear_combination ρ ^ 2 * this]
  exact Real.sqrt_sq h.le

/-- `SetParams` of a cylinder with two ends that are apart -/
theorem cylParams_arc {c s e : Point ℝ} {y : Cyl} (h : cylParams c s e = some y) (hne : PointMatches s e 1e-8 = false)
    {ρ ρ' a b : ℝ} (hs : s = polar c ρ a) (he : e = polar c ρ' b) (h1 : 0 < ρ) (h2 : 0 < ρ') (ha : -π < a)
    (hab : a ≤ b) (hb : b < a + 2 * π) (hb3 : b < 3 * π) :
    y.center = c ∧ y.radius = ρ ∧ Links c ρ y.ranges y.pts ∧ (a < b → ∀ g ∈ y.ranges, g.1 < g.2) ∧
    ∀ x, (∃ g ∈ y.ranges, ∃ t, g.1 ≤ t ∧ t ≤ g.2 ∧ x = polar c ρ t) ↔ ∃ t, a ≤ t ∧ t ≤ b ∧ x = polar c ρ t := by
  unfold cylParams at h
  rw [hyp_comm c s, hyp_comm c e] at h
  split at h
  · cases h
  split at h
  · cases h
  rename_i hz hm
  simp only [hne, Bool.false_eq_true, if_false] at h
  split at h
  · cases h
  rename_i hr
  have er : hyp (s.x - c.x) (s.y - c.y) = ρ := by rw [hs]; exact hyp_polar h1
  have er' : hyp (e.x - c.x) (e.y - c.y) = ρ' := by rw [he]; exact hyp_polar h2
  rw [er, er'] at hr
  rw [er] at h
  have e1 : atan2 (s.y - c.y) (s.x - c.x) = if a ≤ π then a else a - 2 * π := by
    rw [hs]; exact atan2_of_polar h1 ha (by linarith)
  have e2 : atan2 (e.y - c.y) (e.x - c.x) = if b ≤ π then b else b - 2 * π := by
    rw [he]; exact atan2_of_polar h2 (by linarith) hb3
  have hp := Real.pi_pos
  set α := atan2 (s.y - c.y) (s.x - c.x) with hα
  set β := atan2 (e.y - c.y) (e.x - c.x) with hβ
  set γ := (if β < α then β + 2 * π else β) with hγ
  have eγ : γ = α + (b - a) := by
    rw [hγ, e1, e2]
    split_ifs <;> linarith
  have hα1 : -π < α := by rw [e1]; split_ifs <;> linarith
  have hα2 : α ≤ π := by rw [e1]; split_ifs <;> linarith
  have ends : Tip c ρ s α := by
    refine ⟨ρ, h1, by rw [sub_self, abs_zero]; norm_num, ?_⟩
    rw [hs, e1]
    split_ifs
    · rfl
    · exact (polar_sub c ρ a).symm
  have ende : Tip c ρ e γ := by
    refine ⟨ρ', h2, ?_, ?_⟩
    · rw [abs_sub_comm]; exact not_lt.1 hr
    · rw [he, eγ, e1]
      split_ifs
      · congr 1; ring
      · rw [show a - 2 * π + (b - a) = b - 2 * π by ring]; exact (polar_sub c ρ' b).symm
  injection h with h
  subst h
  refine ⟨rfl, rfl, ranges_links h1 hα1 hα2 (by linarith) (by linarith) ends ende,
    fun hl => ranges_lt hα2 (by linarith), ?_⟩
  intro x
  show (∃ g ∈ cylRanges α γ, _) ↔ _
  rw [ranges_cover hα2 (by linarith) x, eγ, e1]
  split_ifs with hc
  · rw [show a + (b - a) = b by ring]
  · constructor
    · rintro ⟨t, t1, t2, rfl⟩
      exact ⟨t + 2 * π, by linarith, by linarith, (polar_add c ρ t).symm⟩
    · rintro ⟨t, t1, t2, rfl⟩
      exact ⟨t - 2 * π, by linarith, by linarith, (polar_sub c ρ t).symm⟩

/-- `SetParams` of a cylinder for a whole circle -/
theorem cylParams_circle {c s e : Point ℝ} {y : Cyl} (h : cylParams c s e = some y) (hm : PointMatches s e 1e-8 = true) :
    c.z = 0 ∧ y.center = c ∧ y.radius = hyp (s.x - c.x) (s.y - c.y) ∧ 0 < y.radius ∧ Links c y.radius y.ranges y.pts ∧
    ∀ x, (∃ g ∈ y.ranges, ∃ t, g.1 ≤ t ∧ t ≤ g.2 ∧ x = polar c y.radius t) ↔ OnCircle c y.radius x := by
  unfold cylParams at h
  rw [hyp_comm c s, hyp_comm c e] at h
  split at h
  · cases h
  rename_i hz
  split at h
  · cases h
  rename_i hcm
  push Not at hz
  rw [not_or] at hcm
  simp only at h
  split at h
  · cases h
  have hr := hyp_pos hz.1 hz.2.1 (by simpa using hcm.1)
  injection h with h
  subst h
  have hp := Real.pi_pos
  refine ⟨hz.1, rfl, rfl, hr, ?_, ?_⟩
  · simp only [Links, and_true]
    have e0 : (⟨c.x + hyp (s.x - c.x) (s.y - c.y), c.y, c.z⟩ : Point ℝ) = polar c (hyp (s.x - c.x) (s.y - c.y)) 0 := by
      rw [polar_zero, hz.1]; rfl
    have e1 : (⟨c.x - hyp (s.x - c.x) (s.y - c.y), c.y, c.z⟩ : Point ℝ) = polar c (hyp (s.x - c.x) (s.y - c.y)) π := by
      rw [polar_pi, hz.1]; rfl
    rw [e0, e1]
    have p0 := Tip.exact (c := c) (a := 0) hr
    have p1 := Tip.exact (c := c) (a := π) hr
    have p2 := p0.shift
    rw [zero_add] at p2
    exact ⟨p0, p1, by linarith, by linarith, p1, p2, by linarith, by linarith⟩
  · intro x
    rw [onCircle_polar hr]
    simp only [List.mem_cons, List.not_mem_nil, or_false, exists_eq_or_imp, exists_eq_left]
    constructor
    · rintro (⟨t, t1, t2, rfl⟩ | ⟨t, t1, t2, rfl⟩)
      · exact ⟨t, by linarith, t2, rfl⟩
      · rcases t1.eq_or_lt with rfl | t1
        · exact ⟨π, by linarith, le_refl _, rfl⟩
        · exact ⟨t - 2 * π, by linarith, by linarith, (polar_sub _ _ t).symm⟩
    · rintro ⟨t, t1, t2, rfl⟩
      rcases le_or_gt 0 t with h0 | h0
      · exact Or.inl ⟨t, h0, t2, rfl⟩
      · exact Or.inr ⟨t + 2 * π, by linarith, by linarith, (polar_add _ _ t).symm⟩

/-- the surfaces that `Instantiate` makes -/
theorem instantiate_points {y : Cyl} {c : Point ℝ} {top bot : ℝ} {rev : Bool} {l : List Patch}
    (h : cylInstantiate y top bot rev = some l) (hc : y.center = c) (hl : Links c y.radius y.ranges y.pts)
    (x : Point ℝ) :
    (∃ w ∈ l, PatchOn w x) ↔
      Upright (fun q => ∃ g ∈ y.ranges, ∃ t, g.1 ≤ t ∧ t ≤ g.2 ∧ q = polar c y.radius t) top bot x := by
  unfold cylInstantiate at h
  split at h
  · cases h
  rename_i hd
  have hlt : min top bot < max top bot := by
    rcases lt_trichotomy top bot with h | h | h
    · rw [min_eq_left h.le, max_eq_right h.le]; exact h
    · rw [h] at hd; norm_num at hd
    · rw [min_eq_right h.le, max_eq_left h.le]; exact h
  have et : (if top < bot then bot else top) = max top bot := by
    split_ifs with h
    · exact (max_eq_right h.le).symm
    · exact (max_eq_left (not_lt.1 h)).symm
  have eb : (if top < bot then top else bot) = min top bot := by
    split_ifs with h
    · exact (min_eq_left h.le).symm
    · exact (min_eq_right (not_lt.1 h)).symm
  rw [et, eb, hc] at h
  injection h with h
  subst h
  obtain ⟨m1, m2⟩ := mem_cylPatches (top := max top bot) (bot := min top bot) (rev := rev) hl
  unfold Upright
  constructor
  · rintro ⟨w, hw, hx⟩
    obtain ⟨g, hg, p, q, -, -, h3, -, rfl⟩ := m1 w hw
    rw [patch_cyl _ _ _ _ _ _ _ _ hlt h3] at hx
    obtain ⟨t, z, t1, t2, z1, z2, rfl⟩ := hx
    exact ⟨⟨g, hg, t, t1, t2, rfl⟩, z1, z2⟩
  · rintro ⟨⟨g, hg, t, t1, t2, e⟩, z1, z2⟩
    obtain ⟨h3, p, q, hw⟩ := m2 g hg
    refine ⟨_, hw, ?_⟩
    rw [patch_cyl _ _ _ _ _ _ _ _ hlt h3]
    refine ⟨t, x.z, t1, t2, z1, z2, ?_⟩
    rw [← e]
    rfl

theorem segmentWall_cyl {top bot : ℝ} {s : Seg} {rev : Bool} {l : List Patch} (h : segmentWall top bot s rev = some l)
    (hk : s.kind = .arc ∨ s.kind = .circle) :
    ∃ y, cylParams s.center s.getStart s.getEnd = some y ∧
      cylInstantiate y top bot ((s.cw && !rev) || (!s.cw && rev)) = some l := by
  unfold segmentWall at h
  split at h
  · cases h
  rcases hk with hk | hk <;> rw [hk] at h <;> simp only at h <;>
    · cases hc : cylParams s.center s.getStart s.getEnd with
      | none => rw [hc] at h; cases h
      | some y => rw [hc] at h; exact ⟨y, rfl, h⟩

end Iges.Geo
