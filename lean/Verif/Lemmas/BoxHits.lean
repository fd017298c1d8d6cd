import Verif.Lemmas.Boxes
import Verif.Lemmas.MergeRegion
/-
Lines that cross or do not, and rays through an outline of six lines, for the cases beside C84.
-/
namespace Iges.Props.Boxes
open Iges.Geo Iges.Spec Iges.Turn Real Iges.Props.Outlines Iges.Props.Inside

theorem params_eq {a b c d x p : Point ℝ} {u v t w : ℝ} (h : across a b c d ≠ 0) (h1 : AtParam a b u x) (h2 : AtParam c d v x)
    (h3 : AtParam a b t p) (h4 : AtParam c d w p) : t = u ∧ w = v := by
  unfold AtParam at *
  have e1 := h1.symm.trans h2
  have e2 := h3.symm.trans h4
  simp only [pt, Point.mk.injEq, and_true] at e1 e2
  obtain ⟨e1, e1'⟩ := e1
  obtain ⟨e2, e2'⟩ := e2
  unfold across at h
  constructor
  · have : (t - u) * ((d.x - c.x) * (b.y - a.y) - (d.y - c.y) * (b.x - a.x)) = 0 := by
      linear_combination (d.x - c.x) * (e2' - e1') - (d.y - c.y) * (e2 - e1)
    rcases mul_eq_zero.1 this with e | e
    · linarith
    · exact absurd e h
  · have : (w - v) * ((d.x - c.x) * (b.y - a.y) - (d.y - c.y) * (b.x - a.x)) = 0 := by
      linear_combination (b.x - a.x) * (e2' - e1') - (b.y - a.y) * (e2 - e1)
    rcases mul_eq_zero.1 this with e | e
    · linarith
    · exact absurd e h

theorem not_zero {x : ℝ} (h : 1e-6 ≤ |x|) : x ≠ 0 := by
  rintro rfl; norm_num at h

/-- two lines that cross well within both -/
theorem meets {s o : Seg} (hs : Made s ∧ s.kind = .line) (ho : Made o ∧ o.kind = .line) {a b c d x : Point ℝ} (h1 : s.start = a)
    (h2 : s.stop = b) (h3 : o.start = c) (h4 : o.stop = d) (u v : ℝ) (hden : 1e-6 ≤ |across a b c d|) (hu : AtParam a b u x)
    (hv : AtParam c d v x) (hu' : 0.01 ≤ u ∧ u ≤ 0.99) (hv' : 0.01 ≤ v ∧ v ≤ 0.99) : intersections s o = ⟨[x], .none, true⟩ := by
  obtain ⟨-, -, -, -, cs⟩ := line_ends hs.1 hs.2
  obtain ⟨-, -, -, -, co⟩ := line_ends ho.1 ho.2
  obtain ⟨g1, -, g3⟩ := C63_meet hs.1 ho.1 hs.2 ho.2 (by rw [h1, h2, h3, h4]; exact hden)
  obtain ⟨r1, r2⟩ := g1 x ((cs x).2 ⟨u, by linarith, by linarith, by rw [h1, h2]; exact hu⟩)
    ((co x).2 ⟨v, by linarith, by linarith, by rw [h3, h4]; exact hv⟩)
  obtain ⟨p, t, w, e, k1, k2, k3, k4, k5⟩ := g3 r1
  rw [r2, List.cons.injEq] at e
  rw [← e.1, h1, h2] at k1
  rw [← e.1, h3, h4] at k2
  obtain ⟨rfl, rfl⟩ := params_eq (not_zero hden) hu hv k1 k2
  rw [if_neg] at k5
  · cases h : intersections s o
    rw [h] at r1 r2 k5
    simp only at r1 r2 k5
    rw [r1, r2, k5]
  · rintro ((g | g) | g | g) <;> rw [abs_lt] at g <;> norm_num at g hu' hv' <;> linarith

/-- two lines that cross well outside of one of them -/
theorem misses {s o : Seg} (hs : Made s ∧ s.kind = .line) (ho : Made o ∧ o.kind = .line) {a b c d : Point ℝ} (h1 : s.start = a)
    (h2 : s.stop = b) (h3 : o.start = c) (h4 : o.stop = d) (x : Point ℝ) (u v : ℝ) (hden : 1e-6 ≤ |across a b c d|)
    (hu : AtParam a b u x) (hv : AtParam c d v x) (hout : u ≤ -0.01 ∨ 1.01 ≤ u ∨ v ≤ -0.01 ∨ 1.01 ≤ v) :
    intersections s o = ⟨[], .none, false⟩ := by
  obtain ⟨g1, g2, g3⟩ := C63_meet hs.1 ho.1 hs.2 ho.2 (by rw [h1, h2, h3, h4]; exact hden)
  cases hr : (intersections s o).ret with
  | false =>
    obtain ⟨k1, k2⟩ := g2 hr
    cases h : intersections s o
    rw [h] at hr k1 k2
    simp only at hr k1 k2
    rw [hr, k1, k2]
  | true =>
    obtain ⟨p, t, w, e, k1, k2, k3, k4, -⟩ := g3 hr
    rw [h1, h2] at k1
    rw [h3, h4] at k2
    obtain ⟨rfl, rfl⟩ := params_eq (not_zero hden) hu hv k1 k2
    exfalso
    norm_num at k3 k4 hout
    rcases hout with g | g | g | g <;> linarith

/-- two parallel lines -/
theorem beside {s o : Seg} (hs : Made s ∧ s.kind = .line) (ho : Made o ∧ o.kind = .line) {a b c d : Point ℝ} (h1 : s.start = a)
    (h2 : s.stop = b) (h3 : o.start = c) (h4 : o.stop = d) (hp : across a b c d = 0) (hoff : 1e-6 < |across a b a c|) :
    intersections s o = ⟨[], .none, false⟩ := by
  obtain ⟨r, p, f, -⟩ := C63_parallel hs.1 ho.1 hs.2 ho.2 (by rw [h1, h2, h3, h4]; exact hp) (by rw [h1, h2, h3]; exact hoff)
  cases h : intersections s o
  rw [h] at r p f
  simp only at r p f
  rw [r, p, f]

/-- lines that do not meet have no common point -/
theorem none_common {s o : Seg} (hs : Made s ∧ s.kind = .line) (ho : Made o ∧ o.kind = .line) {a b c d : Point ℝ} (h1 : s.start = a)
    (h2 : s.stop = b) (h3 : o.start = c) (h4 : o.stop = d) (hden : 1e-6 ≤ |across a b c d|)
    (h : intersections s o = ⟨[], .none, false⟩) (x : Point ℝ) : ¬ (Covers s x ∧ Covers o x) := by
  rintro ⟨c1, c2⟩
  obtain ⟨g1, -, -⟩ := C63_meet hs.1 ho.1 hs.2 ho.2 (by rw [h1, h2, h3, h4]; exact hden)
  have := (g1 x c1 c2).1
  rw [h] at this
  cases this

/-- a line split at a point well within -/
theorem line_split {s : Seg} (hs : Made s ∧ s.kind = .line) {p a b : Point ℝ} (ha : s.start = a) (hb : s.stop = b) (hp : Covers s p)
    (h1 : PointMatches p a 1e-8 = false) (h2 : PointMatches p b 1e-8 = false) :
    ∃ s' t, s.split [p] = some (s', [t]) ∧ (Made s' ∧ s'.kind = .line) ∧ (Made t ∧ t.kind = .line) ∧ s'.start = a ∧ s'.stop = p ∧
      t.start = p ∧ t.stop = b := by
  subst ha hb
  obtain ⟨⟨r1, r2⟩, hr⟩ := C65_line_accepts (pts := [p]) hs.1 hs.2 (by simp) (by simpa using hp) ⟨p, by simp, h1, h2⟩
  have e := hr
  unfold Seg.split at e
  simp only [hs.2, List.length_cons, List.length_nil, List.filter_cons, List.filter_nil, h1, h2] at e
  norm_num at e
  unfold splitLine at e
  rw [Option.ite_none_right_eq_some] at e
  obtain ⟨-, e⟩ := e
  rw [Option.some.injEq, Prod.mk.injEq] at e
  obtain ⟨-, e1, e2⟩ := e
  subst e1 e2
  obtain ⟨-, hj, hk, -⟩ := C65_line hs.1 hs.2 (by simpa using hp) (by simp) hr
  obtain ⟨j1, j2, j3⟩ := hj
  obtain ⟨τ, -, -, hz⟩ := (line_ends hs.1 hs.2).2.2.2.2 p |>.1 hp
  have hz : p.z = 0 := by rw [hz]; rfl
  have hmade : ∀ t ∈ [{ s with stop := p }, (setLine p s.stop).1], Made t := fun t ht =>
    .split hs.1 hr (fun x hx => by rw [List.mem_singleton.1 hx]; exact ⟨hz, covers_facing hs.1 hp⟩) ht
  exact ⟨_, _, hr, ⟨hmade _ (by simp), hk _ (by simp)⟩, ⟨hmade _ (by simp), hk _ (by simp)⟩, j1, rfl, j2, j3⟩

/-- what a line adds to the number of crossings -/
theorem count_none {s ray : Seg} {y : ℝ} (h : intersections s ray = ⟨[], .none, false⟩) (a b : Seg) : segCount ray a s b y = 0 := by
  unfold segCount; rw [h]; rfl

theorem count_one {s ray : Seg} {y : ℝ} {x a' b' : Point ℝ} (hk : s.kind = .line) (e1 : s.start = a') (e2 : s.stop = b')
    (h : intersections s ray = ⟨[x], .none, true⟩) (h1 : PointMatches x a' 1e-8 = false) (h2 : PointMatches x b' 1e-8 = false)
    (a b : Seg) : segCount ray a s b y = 1 := by
  unfold segCount
  rw [h]
  simp only [if_true, List.map_cons, List.map_nil, List.sum_cons, List.sum_nil, add_zero]
  unfold nodeCount
  rw [if_neg (by rw [hk]; simp), e1, e2, h1, h2]
  simp

theorem inside_six {o : Outline} {p : Point ℝ} {ray s1 s2 s3 s4 s5 s6 : Seg} {n1 n2 n3 n4 n5 n6 : ℕ} (hc : o.closed = true)
    (hs : o.segs = [s1, s2, s3, s4, s5, s6]) (hray : setLine p (rayEnd o p) = (ray, true))
    (h1 : ∀ a b, segCount ray a s1 b p.y = n1) (h2 : ∀ a b, segCount ray a s2 b p.y = n2)
    (h3 : ∀ a b, segCount ray a s3 b p.y = n3) (h4 : ∀ a b, segCount ray a s4 b p.y = n4)
    (h5 : ∀ a b, segCount ray a s5 b p.y = n5) (h6 : ∀ a b, segCount ray a s6 b p.y = n6) :
    isInside o p = some ((n1 + (n2 + (n3 + (n4 + (n5 + n6))))) % 2 == 1) := by
  unfold isInside
  rw [hc]
  simp only [Bool.not_true, Bool.false_eq_true, if_false, hs, hray, List.getLast?_cons_cons, List.getLast?_singleton]
  unfold countFrom countFrom countFrom countFrom countFrom countFrom countFrom
  simp only [h1, h2, h3, h4, h5, h6, add_zero]

end Iges.Props.Boxes
