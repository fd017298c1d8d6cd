import Verif.Model.IdfSlot
import Verif.Spec.IdfSlot
import Verif.Props.IdfArc
/-
C96: a slot added to a board.
-/
namespace Iges.Props.IdfSlot
open Iges.Idf Iges.Idf.Spec Iges.Props.IdfArc Real

/-- the point with coordinates `s` along and `t` across the direction `a`, from (x, y) -/
noncomputable def at' (a x y s t : ℝ) : P2 := ⟨x + s * cos a - t * sin a, y + s * sin a + t * cos a⟩

theorem at_gap (a x y s t s' t' : ℝ) : gap2 (at' a x y s t) (at' a x y s' t') = (s - s') ^ 2 + (t - t') ^ 2 := by
  unfold gap2 at'
  simp only
  linear_combination ((s - s') ^ 2 + (t - t') ^ 2) * Real.sin_sq_add_cos_sq a

theorem at_all (a x y : ℝ) (p : P2) : ∃ s t, p = at' a x y s t := by
  refine ⟨(p.x - x) * cos a + (p.y - y) * sin a, -(p.x - x) * sin a + (p.y - y) * cos a, ?_⟩
  unfold at'
  ext
  · simp only; linear_combination (-(p.x - x)) * Real.sin_sq_add_cos_sq a
  · simp only; linear_combination (-(p.y - y)) * Real.sin_sq_add_cos_sq a

theorem at_inj {a x y s t s' t' : ℝ} (h : at' a x y s t = at' a x y s' t') : s = s' ∧ t = t' := by
  have := at_gap a x y s t s' t'
  rw [h, show gap2 (at' a x y s' t') (at' a x y s' t') = 0 by unfold gap2; ring] at this
  constructor
  · have : (s - s') ^ 2 = 0 := by nlinarith [sq_nonneg (s - s'), sq_nonneg (t - t')]
    have := pow_eq_zero_iff (two_ne_zero) |>.1 this
    linarith
  · have : (t - t') ^ 2 = 0 := by nlinarith [sq_nonneg (s - s'), sq_nonneg (t - t')]
    have := pow_eq_zero_iff (two_ne_zero) |>.1 this
    linarith

/-- turning about a point, in these coordinates -/
theorem at_turn (a x y s t s' t' θ : ℝ) : turnDeg (at' a x y s t) θ (at' a x y s' t') =
    at' a x y (s + (s' - s) * cos (θ * π / 180) - (t' - t) * sin (θ * π / 180))
      (t + (s' - s) * sin (θ * π / 180) + (t' - t) * cos (θ * π / 180)) := by
  unfold turnDeg at'
  ext <;> simp only <;> ring

/-- where the distance from the axis is `r` -/
theorem dist_iff {l r a x y θ : ℝ} (ha : θ * π / 180 = a) (hl : 0 < l) (hr : 0 < r) (s t : ℝ) :
    AtDistance r (Axis l θ x y) (at' a x y s t) ↔
      (|s| ≤ l / 2 ∧ |t| = r) ∨ (l / 2 ≤ s ∧ (s - l / 2) ^ 2 + t ^ 2 = r ^ 2) ∨ (s ≤ -(l / 2) ∧ (s + l / 2) ^ 2 + t ^ 2 = r ^ 2) := by
  have hax : ∀ q, Axis l θ x y q ↔ ∃ σ, |σ| ≤ l / 2 ∧ q = at' a x y σ 0 := by
    intro q
    unfold Axis at'
    rw [ha]
    simp
  have hg : ∀ σ, gap2 (at' a x y s t) (at' a x y σ 0) = (s - σ) ^ 2 + t ^ 2 := by
    intro σ; rw [at_gap]; ring
  unfold AtDistance
  have e1 : (∀ q, Axis l θ x y q → r ^ 2 ≤ gap2 (at' a x y s t) q) ↔ ∀ σ, |σ| ≤ l / 2 → r ^ 2 ≤ (s - σ) ^ 2 + t ^ 2 := by
    constructor
    · intro h σ hσ
      rw [← hg]; exact h _ ((hax _).2 ⟨σ, hσ, rfl⟩)
    · intro h q hq
      obtain ⟨σ, hσ, rfl⟩ := (hax _).1 hq
      rw [hg]; exact h σ hσ
  have e2 : (∃ q, Axis l θ x y q ∧ gap2 (at' a x y s t) q = r ^ 2) ↔ ∃ σ, |σ| ≤ l / 2 ∧ (s - σ) ^ 2 + t ^ 2 = r ^ 2 := by
    constructor
    · rintro ⟨q, hq, h⟩
      obtain ⟨σ, hσ, rfl⟩ := (hax _).1 hq
      exact ⟨σ, hσ, by rw [← hg]; exact h⟩
    · rintro ⟨σ, hσ, h⟩
      exact ⟨_, (hax _).2 ⟨σ, hσ, rfl⟩, by rw [hg]; exact h⟩
  rw [e1, e2]
  constructor
  · rintro ⟨h1, σ, hσ, h2⟩
    obtain ⟨g1, g2⟩ := abs_le.1 hσ
    rcases lt_or_ge s (-(l / 2)) with hs | hs
    · right; right
      refine ⟨hs.le, ?_⟩
      have h3 := h1 (-(l / 2)) (by rw [abs_neg, abs_of_pos (by linarith)])
      apply le_antisymm
      · nlinarith
      · nlinarith
    · rcases lt_or_ge (l / 2) s with hs' | hs'
      · right; left
        refine ⟨hs'.le, ?_⟩
        have h3 := h1 (l / 2) (by rw [abs_of_pos (by linarith)])
        apply le_antisymm
        · nlinarith
        · nlinarith
      · left
        have h3 := h1 s (abs_le.2 ⟨hs, hs'⟩)
        refine ⟨abs_le.2 ⟨hs, hs'⟩, ?_⟩
        have h4 : t ^ 2 = r ^ 2 := by
          apply le_antisymm
          · nlinarith [sq_nonneg (s - σ)]
          · nlinarith
        rw [← Real.sqrt_sq_eq_abs, h4, Real.sqrt_sq hr.le]
  · rintro (⟨h1, h2⟩ | ⟨h1, h2⟩ | ⟨h1, h2⟩)
    · have h4 : t ^ 2 = r ^ 2 := by rw [← sq_abs, h2]
      refine ⟨fun σ _ => by nlinarith [sq_nonneg (s - σ)], s, h1, by rw [h4]; ring⟩
    · refine ⟨fun σ hσ => ?_, l / 2, by rw [abs_of_pos (by linarith)], h2⟩
      obtain ⟨g1, g2⟩ := abs_le.1 hσ
      nlinarith
    · refine ⟨fun σ hσ => ?_, -(l / 2), by rw [abs_neg, abs_of_pos (by linarith)], by rw [← h2]; ring⟩
      obtain ⟨g1, g2⟩ := abs_le.1 hσ
      nlinarith

/-- a half turn, seen from its middle: `φ` is the angle from the start -/
theorem half {r u v : ℝ} (hr : 0 < r) : (∃ τ : ℝ, 0 ≤ τ ∧ τ ≤ 1 ∧ u = r * sin (τ * π) ∧ v = r * cos (τ * π)) ↔
    0 ≤ u ∧ u ^ 2 + v ^ 2 = r ^ 2 := by
  constructor
  · rintro ⟨τ, h0, h1, rfl, rfl⟩
    refine ⟨mul_nonneg hr.le (Real.sin_nonneg_of_nonneg_of_le_pi (by positivity) ?_), ?_⟩
    · nlinarith [Real.pi_pos]
    · linear_combination r ^ 2 * Real.sin_sq_add_cos_sq (τ * π)
  · rintro ⟨h0, h⟩
    refine ⟨arccos (v / r) / π, div_nonneg (arccos_nonneg _) pi_pos.le, (div_le_one pi_pos).2 (arccos_le_pi _), ?_⟩
    rw [div_mul_cancel₀ _ pi_ne_zero]
    have hv : |v| ≤ r := abs_le_of_sq_le_sq (by nlinarith [sq_nonneg u]) hr.le
    obtain ⟨g1, g2⟩ := abs_le.1 hv
    rw [sin_arccos, cos_arccos (by rw [le_div_iff₀ hr]; linarith) (by rw [div_le_one hr]; exact g2)]
    constructor
    · rw [show 1 - (v / r) ^ 2 = (u / r) ^ 2 by field_simp; linarith, Real.sqrt_sq (div_nonneg h0 hr.le)]
      field_simp
    · field_simp

/-- a straight side of the slot -/
theorem side {l a x y t : ℝ} (hl : 0 < l) (k : ℝ) (hk : k = 1 ∨ k = -1) (p s' : ℝ) :
    OnLine (at' a x y (k * (l / 2)) t) (at' a x y (-k * (l / 2)) t) (at' a x y p s') ↔ |p| ≤ l / 2 ∧ s' = t := by
  unfold OnLine
  have e : ∀ τ : ℝ, (⟨(at' a x y (k * (l / 2)) t).x + τ * ((at' a x y (-k * (l / 2)) t).x - (at' a x y (k * (l / 2)) t).x),
      (at' a x y (k * (l / 2)) t).y + τ * ((at' a x y (-k * (l / 2)) t).y - (at' a x y (k * (l / 2)) t).y)⟩ : P2) =
      at' a x y (k * (l / 2) * (1 - 2 * τ)) t := by
    intro τ
    unfold at'
    ext <;> simp only <;> ring
  constructor
  · rintro ⟨τ, h0, h1, h⟩
    rw [e] at h
    obtain ⟨h2, h3⟩ := at_inj h
    refine ⟨?_, h3⟩
    rw [h2, abs_le]
    rcases hk with rfl | rfl <;> constructor <;> nlinarith
  · rintro ⟨h, rfl⟩
    obtain ⟨g1, g2⟩ := abs_le.1 h
    refine ⟨(1 - k * (p / (l / 2))) / 2, ?_, ?_, ?_⟩
    · have : |p / (l / 2)| ≤ 1 := by rw [abs_div, abs_of_pos (show 0 < l / 2 by linarith)]; exact (div_le_one (by linarith)).2 h
      obtain ⟨g3, g4⟩ := abs_le.1 this
      rcases hk with rfl | rfl <;> linarith
    · have : |p / (l / 2)| ≤ 1 := by rw [abs_div, abs_of_pos (show 0 < l / 2 by linarith)]; exact (div_le_one (by linarith)).2 h
      obtain ⟨g3, g4⟩ := abs_le.1 this
      rcases hk with rfl | rfl <;> linarith
    · rw [e]
      congr 1
      rcases hk with rfl | rfl <;> field_simp <;> ring

/-- a rounded end of the slot -/
theorem cap {a x y c r : ℝ} (hr : 0 < r) (k : ℝ) (hk : k = 1 ∨ k = -1) (s t : ℝ) :
    OnArc (at' a x y c 0) (at' a x y c (k * r)) (-180) (at' a x y s t) ↔ 0 ≤ k * (s - c) ∧ (s - c) ^ 2 + t ^ 2 = r ^ 2 := by
  have hk2 : k ^ 2 = 1 := by rcases hk with rfl | rfl <;> norm_num
  rw [show (0 ≤ k * (s - c) ∧ (s - c) ^ 2 + t ^ 2 = r ^ 2) ↔ (0 ≤ k * (s - c) ∧ (k * (s - c)) ^ 2 + (k * t) ^ 2 = r ^ 2) by
    rw [mul_pow, mul_pow, hk2, one_mul, one_mul], ← half hr]
  unfold OnArc
  constructor
  · rintro ⟨τ, h0, h1, h⟩
    rw [at_turn] at h
    obtain ⟨h2, h3⟩ := at_inj h
    rw [show τ * -180 * π / 180 = -(τ * π) by ring, Real.sin_neg] at h2
    rw [show τ * -180 * π / 180 = -(τ * π) by ring, Real.cos_neg] at h3
    refine ⟨τ, h0, h1, ?_, ?_⟩
    · rw [h2]; linear_combination r * sin (τ * π) * hk2
    · rw [h3]; linear_combination r * cos (τ * π) * hk2
  · rintro ⟨τ, h0, h1, h2, h3⟩
    refine ⟨τ, h0, h1, ?_⟩
    rw [at_turn, show τ * -180 * π / 180 = -(τ * π) by ring, Real.sin_neg, Real.cos_neg]
    congr 1
    · linear_combination k * h2 - (s - c) * hk2
    · linear_combination k * h3 - t * hk2

/-- the cap made by the constructor -/
theorem capSeg (c p : P2) : arcSeg c p (-180) true = ⟨p, ⟨c.dist p * cos ((angDeg c p + -180) / 180 * π) + c.x,
      c.dist p * sin ((angDeg c p + -180) / 180 * π) + c.y⟩, c, -180, angDeg c p, c.dist p⟩ := by
  unfold arcSeg
  rw [if_neg]
  unfold fullTurn minAng
  rintro (h | h | h)
  · rw [abs_neg] at h; norm_num at h
  · norm_num at h
  · cases h

/-- the corners of the slot in the coordinates along and across its direction -/
theorem slot_at (w l θ x y : ℝ) : slotLoop w l θ x y =
    ((((Loop.empty.push (lineSeg (at' (θ * π / 180) x y (l / 2) (-(w / 2))) (at' (θ * π / 180) x y (-(l / 2)) (-(w / 2))))).1.push
      (arcSeg (at' (θ * π / 180) x y (-(l / 2)) 0) (at' (θ * π / 180) x y (-(l / 2)) (-(w / 2))) (-180) true)).1.push
      (lineSeg (at' (θ * π / 180) x y (-(l / 2)) (w / 2)) (at' (θ * π / 180) x y (l / 2) (w / 2)))).1.push
      (arcSeg (at' (θ * π / 180) x y (l / 2) 0) (at' (θ * π / 180) x y (l / 2) (w / 2)) (-180) true)).1 := by
  have e : ∀ i j : ℝ, (⟨x + i * (l / 2) * cos (θ * π / 180) + j * (w / 2 * -sin (θ * π / 180)),
      y + i * (l / 2) * sin (θ * π / 180) + j * (w / 2 * cos (θ * π / 180))⟩ : P2) = at' (θ * π / 180) x y (i * (l / 2)) (j * (w / 2)) := by
    intro i j
    unfold at'
    ext <;> simp only <;> ring
  unfold slotLoop
  simp only [Real.sin_add_pi_div_two, Real.cos_add_pi_div_two, show θ / 180 * π = θ * π / 180 by ring]
  have e0 := e 1 0
  have e1 := e (-1) 0
  have e00 := e 1 (-1)
  have e10 := e (-1) (-1)
  have e11 := e (-1) 1
  have e01 := e 1 1
  simp only [one_mul, zero_mul, neg_mul, ← sub_eq_add_neg, add_zero] at e0 e1 e00 e10 e11 e01
  simp only [← e0, ← e1, ← e00, ← e10, ← e11, ← e01, mul_neg, sub_neg_eq_add]

/-- the ends of the caps are where the straight sides begin, to within a micrometre -/
theorem cap_close {a x y c r : ℝ} (hr : 0 < r) (hr' : r ≤ 500) (t : ℝ) (ht : |t| = r) :
    Close (arcSeg (at' a x y c 0) (at' a x y c t) (-180) true).stop (at' a x y c (-t)) := by
  obtain ⟨-, -, -, h4, h5, -, h7⟩ := C72_kicad (at' a x y c 0) (at' a x y c t) (-180) (by rw [abs_neg]; norm_num) (by rw [abs_neg]; norm_num)
  rw [at_turn, show (-180 : ℝ) * π / 180 = -π by ring, Real.cos_neg, Real.sin_neg, Real.cos_pi, Real.sin_pi] at h7
  rw [at_gap] at h5
  have hrad : (arcSeg (at' a x y c 0) (at' a x y c t) (-180) true).radius ≤ 500 := by
    apply abs_le_of_sq_le_sq' _ (by norm_num) |>.2
    rw [h5]
    have : t ^ 2 = r ^ 2 := by rw [← sq_abs, ht]
    nlinarith
  rw [show at' a x y (c + (c - c) * -1 - (t - 0) * -0) (0 + (c - c) * -0 + (t - 0) * -1) = at' a x y c (-t) by congr 1 <;> ring] at h7
  unfold Close
  refine le_trans h7 ?_
  apply pow_le_pow_left₀ (by positivity)
  linarith

theorem close_matches {s : Seg} {p : P2} (h : Close p s.start) : s.matchesStart p = true := by
  unfold Close gap2 at h
  unfold Seg.matchesStart P2.matches
  rw [decide_eq_true_iff]
  norm_num at h ⊢
  nlinarith

/-- the four segments of the slot -/
theorem slot_segs {w l : ℝ} (hw : 0 < w) (hw' : w ≤ 1000) (θ x y : ℝ) : (slotLoop w l θ x y).segs =
    [lineSeg (at' (θ * π / 180) x y (l / 2) (-(w / 2))) (at' (θ * π / 180) x y (-(l / 2)) (-(w / 2))),
     arcSeg (at' (θ * π / 180) x y (-(l / 2)) 0) (at' (θ * π / 180) x y (-(l / 2)) (-(w / 2))) (-180) true,
     lineSeg (at' (θ * π / 180) x y (-(l / 2)) (w / 2)) (at' (θ * π / 180) x y (l / 2) (w / 2)),
     arcSeg (at' (θ * π / 180) x y (l / 2) 0) (at' (θ * π / 180) x y (l / 2) (w / 2)) (-180) true] ∧
    (slotLoop w l θ x y).dir =
      windOf (lineSeg (at' (θ * π / 180) x y (l / 2) (-(w / 2))) (at' (θ * π / 180) x y (-(l / 2)) (-(w / 2)))) +
      windOf (arcSeg (at' (θ * π / 180) x y (-(l / 2)) 0) (at' (θ * π / 180) x y (-(l / 2)) (-(w / 2))) (-180) true) +
      windOf (lineSeg (at' (θ * π / 180) x y (-(l / 2)) (w / 2)) (at' (θ * π / 180) x y (l / 2) (w / 2))) +
      windOf (arcSeg (at' (θ * π / 180) x y (l / 2) 0) (at' (θ * π / 180) x y (l / 2) (w / 2)) (-180) true) := by
  rw [slot_at]
  have hc := cap_close (a := θ * π / 180) (x := x) (y := y) (c := -(l / 2)) (r := w / 2) (by linarith) (by linarith) (-(w / 2))
    (by rw [abs_neg, abs_of_pos (by linarith)])
  rw [neg_neg] at hc
  generalize θ * π / 180 = a at *
  have nl : ∀ p q, (lineSeg p q).isCircle = false := by
    intro p q; unfold lineSeg Seg.isCircle fullTurn minAng; norm_num
  have na : ∀ p q, (arcSeg p q (-180) true).isCircle = false := by
    intro p q; rw [capSeg]; unfold Seg.isCircle fullTurn minAng; rw [decide_eq_false_iff_not]; simp only; rw [abs_neg]; norm_num
  have m : ∀ (s : Seg), s.matchesStart s.start = true := by
    intro s; apply close_matches; unfold Close gap2; norm_num
  have sa : ∀ c p, (arcSeg c p (-180) true).start = p := by intro c p; rw [capSeg]
  have p1 : ∀ s, (Loop.empty.push s).1 = ⟨windOf s, [s]⟩ := by intro s; unfold Loop.push Loop.empty; simp
  rw [p1]
  have p2 : ∀ (d : ℝ) (L : List Seg) (s n : Seg), s.isCircle = false → n.isCircle = false → n.matchesStart s.stop = true →
      ((⟨d, L ++ [s]⟩ : Loop).push n).1 = ⟨d + windOf n, L ++ [s] ++ [n]⟩ := by
    intro d L s n h1 h2 h3
    unfold Loop.push
    simp [h1, h2, h3]
  have q1 := p2 (windOf (lineSeg (at' a x y (l / 2) (-(w / 2))) (at' a x y (-(l / 2)) (-(w / 2))))) []
    (lineSeg (at' a x y (l / 2) (-(w / 2))) (at' a x y (-(l / 2)) (-(w / 2))))
    (arcSeg (at' a x y (-(l / 2)) 0) (at' a x y (-(l / 2)) (-(w / 2))) (-180) true) (nl _ _) (na _ _)
    (by have := m (arcSeg (at' a x y (-(l / 2)) 0) (at' a x y (-(l / 2)) (-(w / 2))) (-180) true); rw [sa] at this; exact this)
  simp only [List.nil_append] at q1
  have q2 : (lineSeg (at' a x y (-(l / 2)) (w / 2)) (at' a x y (l / 2) (w / 2))).matchesStart
      (arcSeg (at' a x y (-(l / 2)) 0) (at' a x y (-(l / 2)) (-(w / 2))) (-180) true).stop = true := close_matches hc
  rw [q1, p2 _ _ _ _ (na _ _) (nl _ _) q2, p2 _ _ _ _ (nl _ _) (na _ _)
    (by have := m (arcSeg (at' a x y (l / 2) 0) (at' a x y (l / 2) (w / 2)) (-180) true); rw [sa] at this; exact this)]
  exact ⟨rfl, rfl⟩

/-- **C96_refused**: a slot that is too narrow or too short is refused, and the board is as before. -/
theorem C96_refused (outlines : List Loop) (w l θ x y : ℝ) (h : w < 0.001 ∨ l < 0.001) :
    addSlot outlines w l θ x y = (outlines, false) := by
  unfold addSlot slotMinDia
  split
  · rfl
  · rename_i h1
    rw [if_pos (h.resolve_left h1)]

/-- **C96_partial**: a slot up to a metre wide is accepted and becomes one more outline of the board, the last one.  Its four
segments follow one another and close up, to within a micrometre, and their points are exactly the points at half the width
from the straight line of the given length and direction through the given middle. -/
theorem C96_partial (outlines : List Loop) (w l θ x y : ℝ) (hw : 0.001 ≤ w) (hl : 0.001 ≤ l) (hw' : w ≤ 1000) :
    ∃ o : Loop, addSlot outlines w l θ x y = (outlines ++ [o], true) ∧
      (∀ p, (∃ s ∈ o.segs, OnSeg s p) ↔ AtDistance (w / 2) (Axis l θ x y) p) ∧
      Chain o.segs ∧ (∃ f b, o.segs.head? = some f ∧ o.segs.getLast? = some b ∧ Close b.stop f.start) := by
  have hw0 : 0 < w := by norm_num at hw; linarith
  have hl0 : 0 < l := by norm_num at hl; linarith
  obtain ⟨hs, -⟩ := slot_segs (l := l) hw0 hw' θ x y
  refine ⟨slotLoop w l θ x y, ?_, ?_, ?_, ?_⟩
  · unfold addSlot slotMinDia
    rw [if_neg (not_lt.2 hw), if_neg (not_lt.2 hl)]
  · intro p
    obtain ⟨s, t, rfl⟩ := at_all (θ * π / 180) x y p
    rw [dist_iff rfl hl0 (by linarith), hs]
    simp only [List.mem_cons, List.not_mem_nil, or_false, exists_eq_or_imp, exists_eq_left]
    generalize θ * π / 180 = a
    unfold OnSeg
    simp only [capSeg, lineSeg]
    norm_num
    have h1 := side (a := a) (x := x) (y := y) (t := -(w / 2)) hl0 1 (Or.inl rfl) s t
    have h2 := side (a := a) (x := x) (y := y) (t := w / 2) hl0 (-1) (Or.inr rfl) s t
    have h3 := cap (a := a) (x := x) (y := y) (c := -(l / 2)) (r := w / 2) (by linarith) (-1) (Or.inr rfl) s t
    have h4 := cap (a := a) (x := x) (y := y) (c := l / 2) (r := w / 2) (by linarith) 1 (Or.inl rfl) s t
    simp only [one_mul, neg_mul, neg_neg, sub_neg_eq_add] at h1 h2 h3 h4
    rw [h1, h2, h3, h4]
    constructor
    · rintro (⟨g, rfl⟩ | ⟨g, g'⟩ | ⟨g, rfl⟩ | ⟨g, g'⟩)
      · left; exact ⟨g, by rw [abs_neg, abs_of_pos (by linarith)]⟩
      · right; right; exact ⟨by linarith, g'⟩
      · left; exact ⟨g, abs_of_pos (by linarith)⟩
      · right; left; exact ⟨by linarith, g'⟩
    · rintro (⟨g, g'⟩ | ⟨g, g'⟩ | ⟨g, g'⟩)
      · rcases (abs_eq (by linarith)).1 g' with h | h
        · right; right; left; exact ⟨g, h⟩
        · left; exact ⟨g, h⟩
      · right; right; right; exact ⟨by linarith, g'⟩
      · right; left; exact ⟨by linarith, g'⟩
  · rw [hs]
    have hc := cap_close (a := θ * π / 180) (x := x) (y := y) (c := -(l / 2)) (r := w / 2) (by linarith) (by linarith) (-(w / 2))
      (by rw [abs_neg, abs_of_pos (by linarith)])
    rw [neg_neg] at hc
    refine ⟨?_, hc, ?_, trivial⟩
    · rw [capSeg]; unfold Close gap2 lineSeg; norm_num
    · rw [capSeg]; unfold Close gap2 lineSeg; norm_num
  · rw [hs]
    refine ⟨_, _, rfl, rfl, ?_⟩
    exact cap_close (a := θ * π / 180) (x := x) (y := y) (c := l / 2) (r := w / 2) (by linarith) (by linarith) (w / 2)
      (abs_of_pos (by linarith))

/-- the middle and the end of a cap as the code computes them -/
theorem cap_shape (a x y c t : ℝ) : ∃ δ : ℝ, |δ| ≤ 2e-6 ∧
    δ = angDeg (at' a x y c 0) (at' a x y c t) * π / 180 - angRad (at' a x y c 0) (at' a x y c t) ∧
    (arcSeg (at' a x y c 0) (at' a x y c t) (-180) true).stop = at' a x y (c + t * sin δ) (-t * cos δ) ∧
    windOf (arcSeg (at' a x y c 0) (at' a x y c t) (-180) true) =
      ((at' a x y (c + t * sin δ) (-t * cos δ)).x - (at' a x y (c + t * cos δ) (t * sin δ)).x) *
        ((at' a x y (c + t * sin δ) (-t * cos δ)).y + (at' a x y (c + t * cos δ) (t * sin δ)).y) +
      ((at' a x y (c + t * cos δ) (t * sin δ)).x - (at' a x y c t).x) * ((at' a x y (c + t * cos δ) (t * sin δ)).y + (at' a x y c t).y) := by
  set C := at' a x y c 0 with hC
  set P := at' a x y c t with hP
  obtain ⟨h1, h2⟩ := polar C P
  have ax : ∀ s t, (at' a x y s t).x = x + s * cos a - t * sin a := fun _ _ => rfl
  have ay : ∀ s t, (at' a x y s t).y = y + s * sin a + t * cos a := fun _ _ => rfl
  have hCx : C.x = x + c * cos a := by rw [hC, ax]; ring
  have hCy : C.y = y + c * sin a := by rw [hC, ay]; ring
  have hv1 : C.dist P * cos (angRad C P) = -t * sin a := by
    have : P.x - C.x = -t * sin a := by rw [hC, hP]; unfold at'; simp only; ring
    linarith
  have hv2 : C.dist P * sin (angRad C P) = t * cos a := by
    have : P.y - C.y = t * cos a := by rw [hC, hP]; unfold at'; simp only; ring
    linarith
  have hd := le_trans (angDeg_err C P) tol_small
  obtain ⟨δ, hδ⟩ : ∃ δ, δ = angDeg C P * π / 180 - angRad C P := ⟨_, rfl⟩
  have e1 : (angDeg C P + -180) / 180 * π = angRad C P + δ - π := by rw [hδ]; ring
  have e2 : (angDeg C P + -180 / 2) * π / 180 = angRad C P + δ - π / 2 := by rw [hδ]; ring
  have hs : (arcSeg C P (-180) true).stop = at' a x y (c + t * sin δ) (-t * cos δ) := by
    rw [capSeg]
    simp only
    rw [e1, Real.cos_sub_pi, Real.sin_sub_pi, Real.cos_add, Real.sin_add]
    ext
    · simp only [hCx, ax]
      linear_combination (-cos δ) * hv1 + sin δ * hv2
    · simp only [hCy, ay]
      linear_combination (-cos δ) * hv2 - sin δ * hv1
  refine ⟨δ, by rw [hδ]; exact hd, hδ, hs, ?_⟩
  have hm1 : C.x + C.dist P * cos ((angDeg C P + -180 / 2) * π / 180) = (at' a x y (c + t * cos δ) (t * sin δ)).x := by
    rw [e2, Real.cos_sub_pi_div_two, Real.sin_add]
    rw [hCx, ax]
    linear_combination cos δ * hv2 + sin δ * hv1
  have hm2 : C.y + C.dist P * sin ((angDeg C P + -180 / 2) * π / 180) = (at' a x y (c + t * cos δ) (t * sin δ)).y := by
    rw [e2, Real.sin_sub_pi_div_two, Real.cos_add]
    rw [hCy, ay]
    linear_combination (-cos δ) * hv1 + sin δ * hv2
  rw [← hs]
  unfold windOf
  rw [if_pos (by rw [capSeg]; unfold minAng; norm_num)]
  simp only [capSeg] at *
  rw [hm1, hm2]

/-- the gap at the first cap is too small to turn the sign of the area -/
theorem area_pos {x y L r a δ ε T : ℝ} (hr0 : 0 < r) (hL0 : 0 < L) (b1 : |δ| ≤ 2e-6) (b0 : |ε| ≤ 2e-6) (hy : |y| ≤ 200000 * (r + L))
    (hT : T + ((x + -L * cos a - r * sin a) - (x + (-L + -r * sin δ) * cos a - - -r * cos δ * sin a)) *
      ((y + -L * sin a + r * cos a) + (y + (-L + -r * sin δ) * sin a + - -r * cos δ * cos a)) =
      8 * L * r + r ^ 2 * (2 + cos δ + sin δ + cos ε + sin ε)) : 0 < T := by
  have s1 : |sin δ| ≤ 2e-6 := le_trans Real.abs_sin_le_abs b1
  have s0 : |sin ε| ≤ 2e-6 := le_trans Real.abs_sin_le_abs b0
  have d1 : 1 - cos δ ≤ 1e-6 := by
    have := Real.one_sub_sq_div_two_le_cos (x := δ)
    have : δ ^ 2 ≤ (2e-6) ^ 2 := by rw [← sq_abs]; exact pow_le_pow_left₀ (abs_nonneg _) b1 2
    norm_num at *; linarith
  have d0 : 1 - cos ε ≤ 1e-6 := by
    have := Real.one_sub_sq_div_two_le_cos (x := ε)
    have : ε ^ 2 ≤ (2e-6) ^ 2 := by rw [← sq_abs]; exact pow_le_pow_left₀ (abs_nonneg _) b0 2
    norm_num at *; linarith
  have d1' : 0 ≤ 1 - cos δ := by linarith [Real.cos_le_one δ]
  have dx : |(x + -L * cos a - r * sin a) - (x + (-L + -r * sin δ) * cos a - - -r * cos δ * sin a)| ≤ 3e-6 * r := by
    rw [show (x + -L * cos a - r * sin a) - (x + (-L + -r * sin δ) * cos a - - -r * cos δ * sin a) =
      r * (sin δ * cos a - (1 - cos δ) * sin a) by ring, abs_mul, abs_of_pos hr0, mul_comm]
    refine mul_le_mul_of_nonneg_right ?_ hr0.le
    refine le_trans (abs_sub _ _) ?_
    rw [abs_mul, abs_mul, abs_of_nonneg d1']
    have := mul_le_mul s1 (Real.abs_cos_le_one a) (abs_nonneg _) (by norm_num)
    have := mul_le_mul d1 (Real.abs_sin_le_one a) (abs_nonneg _) (by norm_num)
    norm_num at *; linarith
  have dy : |(y + -L * sin a + r * cos a) + (y + (-L + -r * sin δ) * sin a + - -r * cos δ * cos a)| ≤ 2 * |y| + 2 * L + 3 * r := by
    rw [show (y + -L * sin a + r * cos a) + (y + (-L + -r * sin δ) * sin a + - -r * cos δ * cos a) =
      2 * y + (-2 * L) * sin a + (-r * sin δ) * sin a + (r * (1 + cos δ)) * cos a by ring]
    refine le_trans (abs_add_le _ _) ?_
    have i1 : |(r * (1 + cos δ)) * cos a| ≤ 2 * r := by
      rw [abs_mul, abs_mul, abs_of_pos hr0, abs_of_nonneg (by linarith [Real.neg_one_le_cos δ])]
      have h1 := Real.cos_le_one δ
      have h3 := Real.neg_one_le_cos δ
      have h2 := mul_le_mul (show r * (1 + cos δ) ≤ 2 * r by nlinarith) (Real.abs_cos_le_one a) (abs_nonneg _) (by linarith)
      linarith
    have i2 : |(-r * sin δ) * sin a| ≤ r := by
      rw [abs_mul, abs_mul, abs_neg, abs_of_pos hr0]
      have h2 := mul_le_mul (show r * |sin δ| ≤ r by nlinarith [Real.abs_sin_le_one δ]) (Real.abs_sin_le_one a) (abs_nonneg _) hr0.le
      linarith
    have i3 : |(-2 * L) * sin a| ≤ 2 * L := by
      rw [abs_mul, abs_mul, abs_of_pos hL0]
      norm_num
      nlinarith [Real.abs_sin_le_one a]
    have i4 := abs_add_le (2 * y + (-2 * L) * sin a) ((-r * sin δ) * sin a)
    have i5 := abs_add_le (2 * y) ((-2 * L) * sin a)
    rw [abs_mul 2 y, abs_two] at i5
    linarith
  have hp := mul_le_mul dx dy (abs_nonneg _) (by positivity)
  rw [← abs_mul] at hp
  have hp' := le_trans (le_abs_self _) hp
  have hsum : 3.9 ≤ 2 + cos δ + sin δ + cos ε + sin ε := by
    have := (abs_le.1 s1).1
    have := (abs_le.1 s0).1
    norm_num at *; linarith
  have hq : 3.9 * r ^ 2 ≤ r ^ 2 * (2 + cos δ + sin δ + cos ε + sin ε) := by nlinarith [sq_nonneg r]
  have : 3e-6 * r * (2 * |y| + 2 * L + 3 * r) ≤ 3e-6 * r * (400010 * (r + L)) :=
    mul_le_mul_of_nonneg_left (by linarith) (by positivity)
  have e1 : 3e-6 * r * (400010 * (r + L)) ≤ 2 * (r * r) + 2 * (r * L) := by
    have h1 := mul_pos hr0 hL0
    have h2 := mul_pos hr0 hr0
    norm_num
    nlinarith
  have h1 := mul_pos hr0 hL0
  have h2 := mul_pos hr0 hr0
  have e2 : 3.9 * (r * r) ≤ r ^ 2 * (2 + cos δ + sin δ + cos ε + sin ε) := by rw [← sq]; exact hq
  have e3 : (2 : ℝ) * (r * r) < 3.9 * (r * r) := by
    refine mul_lt_mul_of_pos_right (by norm_num) h2
  rw [show 8 * L * r = 8 * (r * L) by ring] at hT
  linarith

/-- **C96_clockwise**: the outline of a slot goes round clockwise, as IDF has it for cutouts, when the slot is not extremely
small for its distance from the x axis. -/
theorem C96_clockwise (w l θ x y : ℝ) (hw : 0.001 ≤ w) (hl : 0.001 ≤ l) (hw' : w ≤ 1000) (hy : |y| ≤ 100000 * (w + l))
    (outlines : List Loop) (o : Loop) (h : addSlot outlines w l θ x y = (outlines ++ [o], true)) : o.isCCW = false := by
  have hw0 : 0 < w := by norm_num at hw; linarith
  have hl0 : 0 < l := by norm_num at hl; linarith
  have ho : o = slotLoop w l θ x y := by
    unfold addSlot slotMinDia at h
    rw [if_neg (not_lt.2 hw), if_neg (not_lt.2 hl)] at h
    have := List.append_cancel_left (Prod.mk.inj h).1
    exact (List.cons.inj this).1.symm
  obtain ⟨hs, hd⟩ := slot_segs (l := l) hw0 hw' θ x y
  rw [ho]
  generalize θ * π / 180 = a at *
  obtain ⟨δ, b1, -, p1, w1⟩ := cap_shape a x y (-(l / 2)) (-(w / 2))
  obtain ⟨ε, b0, -, p0, w0⟩ := cap_shape a x y (l / 2) (w / 2)
  unfold Loop.isCCW
  rw [hs]
  simp only [List.getLast?_cons_cons, List.getLast?_singleton, Option.getD_some]
  rw [hd, w1, w0, p0]
  have nl : ∀ p q : P2, windOf (lineSeg p q) = (q.x - p.x) * (q.y + p.y) := by
    intro p q; unfold windOf lineSeg minAng; norm_num
  rw [nl, nl]
  simp only [lineSeg, Bool.not_eq_false', decide_eq_true_eq, gt_iff_lt]
  obtain ⟨L, hL⟩ : ∃ L, l / 2 = L := ⟨_, rfl⟩
  obtain ⟨r, hr⟩ : ∃ r, w / 2 = r := ⟨_, rfl⟩
  rw [hL, hr]
  have c1 := Real.sin_sq_add_cos_sq a
  have c2 := Real.sin_sq_add_cos_sq δ
  have c3 := Real.sin_sq_add_cos_sq ε
  have ax : ∀ s t, (at' a x y s t).x = x + s * cos a - t * sin a := fun _ _ => rfl
  have ay : ∀ s t, (at' a x y s t).y = y + s * sin a + t * cos a := fun _ _ => rfl
  simp only [ax, ay]
  apply area_pos (x := x) (y := y) (L := L) (r := r) (a := a) (by linarith) (by linarith) b1 b0 (by rw [← hL, ← hr]; linarith)
  linear_combination (8 * L * r + r ^ 2 * (sin δ ^ 2 + cos δ ^ 2 + cos δ + sin δ + sin ε ^ 2 + cos ε ^ 2 + cos ε + sin ε)) * c1 + r ^ 2 * c2 + r ^ 2 * c3

/-- the direction of the start of the first cap of the wide slot below, in ten-thousandths of a degree, falls between two whole
numbers; the code drops the fraction -/
theorem wide_angle (x y c : ℝ) : ∃ δ : ℝ, 5e-7 ≤ sin δ ∧
    (arcSeg (at' (30.00005 * π / 180) x y c 0) (at' (30.00005 * π / 180) x y c (-500000)) (-180) true).stop =
      at' (30.00005 * π / 180) x y (c - 500000 * sin δ) (500000 * cos δ) := by
  obtain ⟨δ, -, hδ, hs, -⟩ := cap_shape (30.00005 * π / 180) x y c (-500000)
  refine ⟨δ, ?_, by rw [hs]; congr 1 <;> ring⟩
  have hp := Real.pi_pos
  have hang : angRad (at' (30.00005 * π / 180) x y c 0) (at' (30.00005 * π / 180) x y c (-500000)) = -59.99995 * π / 180 := by
    unfold angRad at'
    have e1 : y + c * sin (30.00005 * π / 180) + -500000 * cos (30.00005 * π / 180) -
        (y + c * sin (30.00005 * π / 180) + 0 * cos (30.00005 * π / 180)) = 500000 * sin (-59.99995 * π / 180) := by
      rw [show (-59.99995 : ℝ) * π / 180 = 30.00005 * π / 180 - π / 2 by ring, Real.sin_sub_pi_div_two]; ring
    have e2 : x + c * cos (30.00005 * π / 180) - -500000 * sin (30.00005 * π / 180) -
        (x + c * cos (30.00005 * π / 180) - 0 * sin (30.00005 * π / 180)) = 500000 * cos (-59.99995 * π / 180) := by
      rw [show (-59.99995 : ℝ) * π / 180 = 30.00005 * π / 180 - π / 2 by ring, Real.cos_sub_pi_div_two]; ring
    simp only
    rw [e1, e2, Iges.Geo.atan2_polar (by norm_num)]
    · linarith
    · linarith
  have hdeg : angDeg (at' (30.00005 * π / 180) x y c 0) (at' (30.00005 * π / 180) x y c (-500000)) = -59.9999 := by
    unfold angDeg
    rw [hang, show (-59.99995 : ℝ) * π / 180 / π * 1800000 = -599999.5 by field_simp; norm_num]
    unfold toInt
    rw [if_neg (by norm_num), show ⌈(-599999.5 : ℝ)⌉ = -599999 by rw [Int.ceil_eq_iff]; norm_num]
    norm_num
  rw [hdeg, hang] at hδ
  have hδ' : δ = 0.00005 * π / 180 := by rw [hδ]; ring
  have := Real.mul_le_sin (x := δ) (by rw [hδ']; positivity) (by rw [hδ']; linarith)
  rw [hδ', show 2 / π * (0.00005 * π / 180) = 0.0001 / 180 by field_simp; norm_num] at this
  rw [hδ']
  refine le_trans ?_ this
  norm_num

/-- **C96_wide_lost**: the bound on the width is needed.  A slot a kilometre wide is accepted as well, but half of its outline is
missing, because the second straight side does not begin near enough to the end of the first cap. -/
theorem C96_wide_lost : ∃ o, addSlot [] 1000000 1 30.00005 0 0 = ([o], true) ∧ o.segs.length = 2 := by
  refine ⟨slotLoop 1000000 1 30.00005 0 0, ?_, ?_⟩
  · unfold addSlot slotMinDia
    rw [if_neg (by norm_num), if_neg (by norm_num)]; rfl
  · rw [slot_at]
    obtain ⟨δ, hδ, hst⟩ := wide_angle 0 0 (-(1 / 2))
    rw [show (1000000 : ℝ) / 2 = 500000 by norm_num]
    generalize 30.00005 * π / 180 = a at *
    have nl : ∀ p q, (lineSeg p q).isCircle = false := by
      intro p q; unfold lineSeg Seg.isCircle fullTurn minAng; norm_num
    have na : ∀ p q, (arcSeg p q (-180) true).isCircle = false := by
      intro p q; rw [capSeg]; unfold Seg.isCircle fullTurn minAng; rw [decide_eq_false_iff_not]; simp only; rw [abs_neg]; norm_num
    have far : ∀ (s : Seg) (p : P2), (1 / 1000) ^ 2 < gap2 s.start p → s.matchesStart p = false := by
      intro s p h
      unfold gap2 at h
      unfold Seg.matchesStart P2.matches
      rw [decide_eq_false_iff_not]
      norm_num at h ⊢
      nlinarith
    have g : ∀ u t, 1 ≤ 2 * u → (1 / 1000) ^ 2 < gap2 (at' a 0 0 (u - 1) t) (at' a 0 0 (-(1 / 2) - 500000 * sin δ) (500000 * cos δ)) := by
      intro u t hu
      rw [at_gap]
      norm_num at hδ ⊢
      nlinarith [sq_nonneg (t - 500000 * cos δ)]
    have g1 := g (1 / 2) 500000 (by norm_num)
    have g2 := g (3 / 2) 500000 (by norm_num)
    have p1 : ∀ s, (Loop.empty.push s).1 = ⟨windOf s, [s]⟩ := by intro s; unfold Loop.push Loop.empty; simp
    have p2 : ∀ (d : ℝ) (s n : Seg), s.isCircle = false → n.isCircle = false → n.matchesStart s.stop = true →
        ((⟨d, [s]⟩ : Loop).push n).1 = ⟨d + windOf n, [s, n]⟩ := by
      intro d s n h1 h2 h3
      unfold Loop.push
      simp [h1, h2, h3]
    have p3 : ∀ (d : ℝ) (f s n : Seg), n.matchesStart s.stop = false →
        ((⟨d, [f, s]⟩ : Loop).push n).1 = ⟨d, [f, s]⟩ := by
      intro d f s n h3
      unfold Loop.push
      simp [h3]
    have m : (arcSeg (at' a 0 0 (-(1 / 2)) 0) (at' a 0 0 (-(1 / 2)) (-500000)) (-180) true).matchesStart
        (lineSeg (at' a 0 0 (1 / 2) (-500000)) (at' a 0 0 (-(1 / 2)) (-500000))).stop = true := by
      apply close_matches
      rw [capSeg]
      unfold Close gap2 lineSeg
      norm_num
    have f1 : (lineSeg (at' a 0 0 (-(1 / 2)) 500000) (at' a 0 0 (1 / 2) 500000)).matchesStart
        (arcSeg (at' a 0 0 (-(1 / 2)) 0) (at' a 0 0 (-(1 / 2)) (-500000)) (-180) true).stop = false := by
      apply far
      rw [hst]
      have : ((1 : ℝ) / 2 - 1) = -(1 / 2) := by norm_num
      rw [this] at g1
      exact g1
    have f2 : (arcSeg (at' a 0 0 (1 / 2) 0) (at' a 0 0 (1 / 2) 500000) (-180) true).matchesStart
        (arcSeg (at' a 0 0 (-(1 / 2)) 0) (at' a 0 0 (-(1 / 2)) (-500000)) (-180) true).stop = false := by
      apply far
      rw [hst, capSeg]
      have : ((3 : ℝ) / 2 - 1) = 1 / 2 := by norm_num
      rw [this] at g2
      exact g2
    rw [p1, p2 _ _ _ (nl _ _) (na _ _) m, p3 _ _ _ _ f1, p3 _ _ _ _ f2]
    rfl

/-- an ordinary slot meets the hypotheses: 1 mm wide, 5 mm long, at 45 degrees, 100 mm from the axes -/
example : ∃ o, addSlot [] 1 5 45 100 100 = ([o], true) ∧ o.isCCW = false ∧ o.segs ≠ [] ∧
    ∀ p, (∃ s ∈ o.segs, OnSeg s p) ↔ AtDistance (1 / 2) (Axis 5 45 100 100) p := by
  obtain ⟨o, h1, h2, -, f, b, h3, -⟩ := C96_partial [] 1 5 45 100 100 (by norm_num) (by norm_num) (by norm_num)
  exact ⟨o, h1, C96_clockwise 1 5 45 100 100 (by norm_num) (by norm_num) (by norm_num) (by norm_num) [] o h1,
    (by rintro h; rw [h] at h3; cases h3), h2⟩

/-- and such points exist: the point half a millimetre beyond the end of the line is on the border -/
example : AtDistance (1 / 2) (Axis 5 0 0 0) ⟨3, 0⟩ := by
  have := (dist_iff (l := 5) (r := 1 / 2) (a := 0) (x := 0) (y := 0) (θ := 0) (by norm_num) (by norm_num) (by norm_num) 3 0).2
    (Or.inr (Or.inl (by norm_num)))
  unfold at' at this
  norm_num at this
  exact this

end Iges.Props.IdfSlot
