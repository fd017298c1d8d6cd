import Mathlib.Analysis.Convex.Topology
import Mathlib.Topology.Order.Basic
import Verif.Spec.Merged
import Verif.Props.RegionCases
/-
Outlines in the shape of a box, for the cases beside C84 and C85.
-/
namespace Iges.Props.Boxes
open Iges.Geo Iges.Spec Iges.Turn Real Iges.Props.Outlines Iges.Props.Inside

/-- four lines that run round a box, counterclockwise from its lower left corner -/
structure Box (b r t l : Seg) (x0 y0 x1 y1 : ℝ) : Prop where
  made : ∀ s ∈ [b, r, t, l], Made s ∧ s.kind = .line
  b1 : b.start = pt x0 y0
  b2 : b.stop = pt x1 y0
  r1 : r.start = pt x1 y0
  r2 : r.stop = pt x1 y1
  t1 : t.start = pt x1 y1
  t2 : t.stop = pt x0 y1
  l1 : l.start = pt x0 y1
  l2 : l.stop = pt x0 y0
  hx : x0 < x1
  hy : y0 < y1

theorem on_horizontal {a b y : ℝ} (h : a < b) (p : Point ℝ) :
    OnLine (pt a y) (pt b y) p ↔ p = pt p.x y ∧ a ≤ p.x ∧ p.x ≤ b := by
  constructor
  · rintro ⟨τ, t1, t2, rfl⟩
    refine ⟨by simp [pt], ?_, ?_⟩ <;> simp only [pt] <;> nlinarith
  · rintro ⟨e, h1, h2⟩
    have hne : b - a ≠ 0 := by linarith
    refine ⟨(p.x - a) / (b - a), div_nonneg (by linarith) (by linarith), by rw [div_le_one (by linarith)]; linarith, ?_⟩
    rw [e]
    ext <;> simp only [pt] <;> field_simp <;> ring

theorem on_horizontal' {a b y : ℝ} (h : b < a) (p : Point ℝ) :
    OnLine (pt a y) (pt b y) p ↔ p = pt p.x y ∧ b ≤ p.x ∧ p.x ≤ a := by
  constructor
  · rintro ⟨τ, t1, t2, rfl⟩
    refine ⟨by simp [pt], ?_, ?_⟩ <;> simp only [pt] <;> nlinarith
  · rintro ⟨e, h1, h2⟩
    have hne : a - b ≠ 0 := by linarith
    refine ⟨(a - p.x) / (a - b), div_nonneg (by linarith) (by linarith), by rw [div_le_one (by linarith)]; linarith, ?_⟩
    rw [e]
    ext <;> simp only [pt] <;> field_simp <;> ring

theorem on_vertical {a b x : ℝ} (h : a < b) (p : Point ℝ) :
    OnLine (pt x a) (pt x b) p ↔ p = pt x p.y ∧ a ≤ p.y ∧ p.y ≤ b := by
  constructor
  · rintro ⟨τ, t1, t2, rfl⟩
    refine ⟨by simp [pt], ?_, ?_⟩ <;> simp only [pt] <;> nlinarith
  · rintro ⟨e, h1, h2⟩
    have hne : b - a ≠ 0 := by linarith
    refine ⟨(p.y - a) / (b - a), div_nonneg (by linarith) (by linarith), by rw [div_le_one (by linarith)]; linarith, ?_⟩
    rw [e]
    ext <;> simp only [pt] <;> field_simp <;> ring

theorem on_vertical' {a b x : ℝ} (h : b < a) (p : Point ℝ) :
    OnLine (pt x a) (pt x b) p ↔ p = pt x p.y ∧ b ≤ p.y ∧ p.y ≤ a := by
  constructor
  · rintro ⟨τ, t1, t2, rfl⟩
    refine ⟨by simp [pt], ?_, ?_⟩ <;> simp only [pt] <;> nlinarith
  · rintro ⟨e, h1, h2⟩
    have hne : a - b ≠ 0 := by linarith
    refine ⟨(a - p.y) / (a - b), div_nonneg (by linarith) (by linarith), by rw [div_le_one (by linarith)]; linarith, ?_⟩
    rw [e]
    ext <;> simp only [pt] <;> field_simp <;> ring

variable {b r t l : Seg} {x0 y0 x1 y1 : ℝ}

/-- the points of the sides -/
theorem Box.sides (h : Box b r t l x0 y0 x1 y1) (p : Point ℝ) :
    (Covers b p ↔ p = pt p.x y0 ∧ x0 ≤ p.x ∧ p.x ≤ x1) ∧ (Covers r p ↔ p = pt x1 p.y ∧ y0 ≤ p.y ∧ p.y ≤ y1) ∧
    (Covers t p ↔ p = pt p.x y1 ∧ x0 ≤ p.x ∧ p.x ≤ x1) ∧ (Covers l p ↔ p = pt x0 p.y ∧ y0 ≤ p.y ∧ p.y ≤ y1) := by
  have c : ∀ s ∈ [b, r, t, l], Covers s p ↔ OnLine s.start s.stop p := fun s hs =>
    (line_ends (h.made s hs).1 (h.made s hs).2).2.2.2.2 p
  rw [c b (by simp), c r (by simp), c t (by simp), c l (by simp), h.b1, h.b2, h.r1, h.r2, h.t1, h.t2, h.l1, h.l2]
  exact ⟨on_horizontal h.hx p, on_vertical h.hy p, on_horizontal' h.hx p, on_vertical' h.hy p⟩

theorem Box.off (h : Box b r t l x0 y0 x1 y1) (p : Point ℝ) (hz : p.z = 0) : OffBorder [b, r, t, l] p ↔
    (p.x < x0 ∨ x1 < p.x ∨ p.y < y0 ∨ y1 < p.y) ∨ (x0 < p.x ∧ p.x < x1 ∧ y0 < p.y ∧ p.y < y1) := by
  obtain ⟨cb, cr, ct, cl⟩ := h.sides p
  have e : ∀ x y, p = pt x y ↔ p.x = x ∧ p.y = y := by
    intro x y
    constructor
    · intro e; rw [e]; exact ⟨rfl, rfl⟩
    · rintro ⟨rfl, rfl⟩; ext <;> simp [pt, hz]
  rw [e] at cb cr ct cl
  unfold OffBorder
  simp only [List.mem_cons, List.not_mem_nil, or_false, forall_eq_or_imp, forall_eq, cb, cr, ct, cl, hz, true_and, and_true]
  have := h.hx
  have := h.hy
  constructor
  · rintro ⟨h1, h2, h3, h4⟩
    by_contra hcon
    push Not at hcon
    obtain ⟨⟨g1, g2, g3, g4⟩, g5⟩ := hcon
    have k1 : p.x ≠ x0 := fun e => h4 ⟨e, g3, g4⟩
    have k2 : p.x ≠ x1 := fun e => h2 ⟨e, g3, g4⟩
    have k3 : p.y ≠ y0 := fun e => h1 ⟨e, g1, g2⟩
    have k4 : p.y ≠ y1 := fun e => h3 ⟨e, g1, g2⟩
    exact k4 (le_antisymm g4 (g5 (lt_of_le_of_ne g1 k1.symm) (lt_of_le_of_ne g2 k2) (lt_of_le_of_ne g3 k3.symm)))
  · rintro ((g | g | g | g) | ⟨g1, g2, g3, g4⟩) <;> refine ⟨?_, ?_, ?_, ?_⟩ <;> rintro ⟨k1, k2, k3⟩ <;> linarith

theorem Box.turns (h : Box b r t l x0 y0 x1 y1) (x : ℝ × ℝ) :
    turns ([b, r, t, l].map curve) x = (ind (x0 < x.1) - ind (x1 < x.1)) * (ind (y0 ≤ x.2) - ind (y1 ≤ x.2)) := by
  have k : ∀ s ∈ [b, r, t, l], s.kind = .line := fun s hs => (h.made s hs).2
  simp only [List.map_cons, List.map_nil, turns_cons, turns_nil, curve_line (k b (by simp)), curve_line (k r (by simp)),
    curve_line (k t (by simp)), curve_line (k l (by simp)), Curve.wind, h.b1, h.b2, h.r1, h.r2, h.t1, h.t2, h.l1, h.l2, plane_pt,
    step, lineX]
  simp only [sub_self, mul_zero, add_zero]
  ring

theorem Box.proper (h : Box b r t l x0 y0 x1 y1) :
    (∀ s ∈ [b, r, t, l], Fit s) ∧ Round [b, r, t, l] ∧ Proper [b, r, t, l] := by
  have hf : ∀ s ∈ [b, r, t, l], Fit s := fun s hs => ⟨Or.inl (h.made s hs).2, (h.made s hs).1, fun k => by
    rw [(h.made s hs).2] at k; cases k⟩
  have hr : Round [b, r, t, l] := ⟨pt x0 y0, h.b1, by rw [h.b2, h.r1], by rw [h.r2, h.t1], by rw [h.t2, h.l1], h.l2⟩
  refine ⟨hf, hr, (proper_iff hf hr).2 fun p _ => ?_⟩
  rw [h.turns]
  have := h.hx
  have := h.hy
  unfold ind
  split_ifs <;> first | (exfalso; linarith) | simp

theorem Box.inside (h : Box b r t l x0 y0 x1 y1) {p : Point ℝ} (hp : OffBorder [b, r, t, l] p) :
    Inside [b, r, t, l] p ↔ x0 < p.x ∧ p.x < x1 ∧ y0 < p.y ∧ p.y < y1 := by
  obtain ⟨hf, hr, hp'⟩ := h.proper
  rw [inside_one hf hr hp' hp, h.turns]
  have o := (h.off p hp.1).1 hp
  have := h.hx
  have := h.hy
  simp only [plane]
  rcases o with o | ⟨o1, o2, o3, o4⟩
  · constructor
    · intro e
      exfalso
      rcases o with o | o | o | o
      · rw [ind_false (p := x0 < p.x) (by linarith), ind_false (p := x1 < p.x) (by linarith)] at e; simp at e
      · rw [ind_true (p := x0 < p.x) (by linarith), ind_true (p := x1 < p.x) o] at e; simp at e
      · rw [ind_false (p := y0 ≤ p.y) (by linarith), ind_false (p := y1 ≤ p.y) (by linarith)] at e; simp at e
      · rw [ind_true (p := y0 ≤ p.y) (by linarith), ind_true (p := y1 ≤ p.y) o.le] at e; simp at e
    · rintro ⟨k1, k2, k3, k4⟩
      exfalso
      rcases o with o | o | o | o <;> linarith
  · rw [ind_true o1, ind_false (by linarith), ind_true o3.le, ind_false (by linarith)]
    simp [o1, o2, o3, o4]

theorem Box.onePiece (h : Box b r t l x0 y0 x1 y1) : OnePiece [b, r, t, l] := by
  have e1 : {x : ℝ × ℝ | OffBorder [b, r, t, l] (pt x.1 x.2) ∧ Inside [b, r, t, l] (pt x.1 x.2)} = Set.Ioo x0 x1 ×ˢ Set.Ioo y0 y1 := by
    ext x
    simp only [Set.mem_ofPred_eq, Set.mem_prod, Set.mem_Ioo]
    constructor
    · rintro ⟨h1, h2⟩
      obtain ⟨a, b, c, d⟩ := (h.inside h1).1 h2
      exact ⟨⟨a, b⟩, c, d⟩
    · rintro ⟨⟨a, b⟩, c, d⟩
      have o := (h.off (pt x.1 x.2) rfl).2 (Or.inr ⟨a, b, c, d⟩)
      exact ⟨o, (h.inside o).2 ⟨a, b, c, d⟩⟩
  have e2 : {x : ℝ × ℝ | OffBorder [b, r, t, l] (pt x.1 x.2) ∧ ¬ Inside [b, r, t, l] (pt x.1 x.2)} =
      ((Set.Iio x0 ×ˢ Set.univ ∪ Set.univ ×ˢ Set.Iio y0) ∪ Set.Ioi x1 ×ˢ Set.univ) ∪ Set.univ ×ˢ Set.Ioi y1 := by
    ext x
    simp only [Set.mem_ofPred_eq, Set.mem_union, Set.mem_prod, Set.mem_Iio, Set.mem_Ioi, Set.mem_univ, and_true, true_and]
    constructor
    · rintro ⟨h1, h2⟩
      rw [h.inside h1] at h2
      rcases (h.off _ rfl).1 h1 with (g | g | g | g) | g
      · exact Or.inl (Or.inl (Or.inl g))
      · exact Or.inl (Or.inr g)
      · exact Or.inl (Or.inl (Or.inr g))
      · exact Or.inr g
      · exact absurd g h2
    · intro g
      have o := (h.off (pt x.1 x.2) rfl).2 (Or.inl (by rcases g with ((g | g) | g) | g <;> simp [pt, g]))
      refine ⟨o, fun k => ?_⟩
      obtain ⟨k1, k2, k3, k4⟩ := (h.inside o).1 k
      simp only [pt] at k1 k2 k3 k4
      rcases g with ((g | g) | g) | g <;> linarith
  unfold OnePiece
  rw [e1, e2]
  refine ⟨isPreconnected_Ioo.prod isPreconnected_Ioo, ?_⟩
  have p1 : IsPreconnected (Set.Iio x0 ×ˢ Set.univ : Set (ℝ × ℝ)) := isPreconnected_Iio.prod isPreconnected_univ
  have p2 : IsPreconnected (Set.univ ×ˢ Set.Iio y0 : Set (ℝ × ℝ)) := isPreconnected_univ.prod isPreconnected_Iio
  have p3 : IsPreconnected (Set.Ioi x1 ×ˢ Set.univ : Set (ℝ × ℝ)) := isPreconnected_Ioi.prod isPreconnected_univ
  have p4 : IsPreconnected (Set.univ ×ˢ Set.Ioi y1 : Set (ℝ × ℝ)) := isPreconnected_univ.prod isPreconnected_Ioi
  have q1 := IsPreconnected.union (x0 - 1, y0 - 1) (by simp) (by simp) p1 p2
  have q2 := IsPreconnected.union (x1 + 1, y0 - 1) (by simp) (by simp) q1 p3
  exact IsPreconnected.union (x1 + 1, y1 + 1) (by simp) (by simp) q2 p4

/-- a box of two by two with corners at whole numbers can be drawn -/
theorem ex_box (u : ℤ) (hu : -5 ≤ u ∧ u ≤ 3) : ∃ b r t l o, Drawn [b, r, t, l] o ∧ Box b r t l u u (u + 2) (u + 2) ∧ o.closed = true ∧
    o.segs = [b, r, t, l] ∧ o.lo.x = u ∧ o.lo.y = u ∧ o.hi.x = u + 2 ∧ o.hi.y = u + 2 := by
  have u1 : (-5 : ℝ) ≤ u := by exact_mod_cast hu.1
  have u2 : (u : ℝ) ≤ 3 := by exact_mod_cast hu.2
  obtain ⟨b, hb, kb, b1, b2⟩ := ex_seg (a := u) (b := u) (c := u + 2) (d := u) (by norm_num) (by nlinarith) (by nlinarith)
  obtain ⟨r, hr, kr, r1, r2⟩ := ex_seg (a := u + 2) (b := u) (c := u + 2) (d := u + 2) (by norm_num) (by nlinarith) (by nlinarith)
  obtain ⟨t, ht, kt, t1, t2⟩ := ex_seg (a := u + 2) (b := u + 2) (c := u) (d := u + 2) (by norm_num) (by nlinarith) (by nlinarith)
  obtain ⟨l, hl, kl, l1, l2⟩ := ex_seg (a := u) (b := u + 2) (c := u) (d := u) (by norm_num) (by nlinarith) (by nlinarith)
  have far1 : PointMatches (pt (u + 2) (u + 2)) (pt u u) 1e-8 = false := by
    apply no_match <;> norm_num [norm2, dist2, pt] <;> nlinarith
  have far2 : PointMatches (pt u (u + 2)) (pt u u) 1e-8 = false := by
    apply no_match <;> norm_num [norm2, dist2, pt] <;> nlinarith
  have hml : ∀ x ∈ [b, r, t, l], Made x ∧ x.kind = .line := by
    intro x hx
    simp at hx
    rcases hx with rfl | rfl | rfl | rfl
    · exact ⟨.line hb, kb⟩
    · exact ⟨.line hr, kr⟩
    · exact ⟨.line ht, kt⟩
    · exact ⟨.line hl, kl⟩
  obtain ⟨o, hd, hc⟩ := C67_drawable (l := [b, r, t, l]) (fun x hx => Or.inl (hml x hx).2)
    ⟨same_match (by rw [b2, r1]), same_match (by rw [r2, t1]), same_match (by rw [t2, l1]), trivial⟩ (by
      intro k hk hlt
      have : k = 2 ∨ k = 3 := by simp at hlt; omega
      rcases this with rfl | rfl
      · rintro ⟨f, e, hf, he, hm⟩
        simp at hf he
        subst hf he
        rw [r2, b1, far1] at hm
        cases hm
      · rintro ⟨f, e, hf, he, hm⟩
        simp at hf he
        subst hf he
        rw [t2, b1, far2] at hm
        cases hm)
  have hcl : o.closed = true := hc.2 ⟨by simp, b, l, by simp, by simp, same_match (by rw [l2, b1])⟩
  cases drawn_state hd with
  | empty e => cases e
  | circle _ _ e => cases e
  | drawing _ _ _ _ e => rw [hcl] at e; cases e
  | done lo hi h1 _ _ _ h5 _ hh he =>
    have hsegs : o.segs = [b, r, t, l] := by
      rw [h5]
      unfold orient
      rw [if_neg]
      simp only [List.map_cons, List.map_nil, List.sum_cons, List.sum_nil, windingOf, kb, kr, kt, kl, b1, b2, r1, r2, t1,
        t2, l1, l2, pt]
      rw [not_lt]
      nlinarith
    have g : (u : ℝ) ≤ u + 2 := by linarith
    have xb := line_box kb b1 b2 (by norm_num)
    have xr := line_box kr r1 r2 (by norm_num)
    have xt := line_box kt t1 t2 (by norm_num)
    have xl := line_box kl l1 l2 (by norm_num)
    simp only [min_eq_left g, max_eq_right g, min_eq_right g, max_eq_left g, min_self, max_self] at xb xr xt xl
    have ib := hh.inside b (by simp) _ xb
    have ir := hh.inside r (by simp) _ xr
    have it := hh.inside t (by simp) _ xt
    have il := hh.inside l (by simp) _ xl
    simp only [pt] at ib ir it il
    have hlx : lo.x = u := by
      obtain ⟨s, hs, v, hv, e⟩ := hh.left
      simp at hs
      rcases hs with rfl | rfl | rfl | rfl
      all_goals
        first | rw [xb] at hv | rw [xr] at hv | rw [xt] at hv | rw [xl] at hv
        injection hv with hv
        rw [← hv] at e
        simp only [pt] at e
        linarith
    have hly : lo.y = u := by
      obtain ⟨s, hs, v, hv, e⟩ := hh.bottom
      simp at hs
      rcases hs with rfl | rfl | rfl | rfl
      all_goals
        first | rw [xb] at hv | rw [xr] at hv | rw [xt] at hv | rw [xl] at hv
        injection hv with hv
        rw [← hv] at e
        simp only [pt] at e
        linarith
    have hhx : hi.x = u + 2 := by
      obtain ⟨s, hs, v, hv, e⟩ := hh.right
      simp at hs
      rcases hs with rfl | rfl | rfl | rfl
      all_goals
        first | rw [xb] at hv | rw [xr] at hv | rw [xt] at hv | rw [xl] at hv
        injection hv with hv
        rw [← hv] at e
        simp only [pt] at e
        linarith
    have hhy : hi.y = u + 2 := by
      obtain ⟨s, hs, v, hv, e⟩ := hh.top
      simp at hs
      rcases hs with rfl | rfl | rfl | rfl
      all_goals
        first | rw [xb] at hv | rw [xr] at hv | rw [xt] at hv | rw [xl] at hv
        injection hv with hv
        rw [← hv] at e
        simp only [pt] at e
        linarith
    have e1 := congrArg Prod.fst he
    have e2 := congrArg Prod.snd he
    unfold adjustBox at e1 e2
    simp only [hlx, hly, hhx, hhy] at e1 e2
    norm_num at e1 e2
    exact ⟨b, r, t, l, o, hd, ⟨hml, b1, b2, r1, r2, t1, t2, l1, l2, by linarith, by linarith⟩, hcl, hsegs,
      by rw [e1], by rw [e1], by rw [e2], by rw [e2]⟩

end Iges.Props.Boxes
