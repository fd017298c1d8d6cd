import Verif.Model.NurbsCurve
import Verif.Props.Nurbs
import Verif.Lemmas.Basis
import Mathlib.Tactic.LinearCombination
import Mathlib.Tactic.NormNum
import Mathlib.Tactic.Positivity
import Mathlib.Tactic.IntervalCases
import Mathlib.Analysis.Real.Sqrt
import Mathlib.Data.List.GetD
/-
C97: what a NURBS curve reports about itself is true of the curve.
-/
namespace Iges.Props

open Finset Spec

namespace NurbsCurve

theorem knot_mono {ks : List ℚ} {p n : ℕ} (h : KnotsOk ks p n) (i j : ℕ) (hij : i ≤ j) (hj : j < n + p + 1) :
    knotAt ks i ≤ knotAt ks j := by
  unfold knotAt
  rcases Nat.eq_or_lt_of_le hij with rfl | hlt
  · exact le_rfl
  · have hjl : j < ks.length := by rw [h.len]; exact hj
    have := List.pairwise_iff_getElem.mp h.up i j (by omega) hjl hlt
    rw [List.getD_eq_getElem _ _ (by omega), List.getD_eq_getElem _ _ hjl]
    exact_mod_cast this

theorem ctrlAt_mem {ps : List (Point ℚ × ℚ)} {i : ℕ} (h : i < ps.length) : ctrlAt ps i ∈ ps := by
  unfold ctrlAt; rw [List.getD_eq_getElem _ _ h]; exact List.getElem_mem h

theorem share_nonneg {ks : List ℚ} {p : ℕ} {ps : List (Point ℚ × ℚ)} (hk : KnotsOk ks p ps.length)
    (hw : ∀ x ∈ ps, 0 < x.2) {s : ℕ} {u : ℝ} (hs : s < ps.length) (h1 : knotAt ks s ≤ u) (h2 : u ≤ knotAt ks (s + 1))
    {i : ℕ} (hi : i < ps.length) : 0 ≤ share ks p ps s u i := by
  unfold share
  refine mul_nonneg ?_ (basis_nonneg h1 h2 p (fun a b c e => knot_mono hk a b c (by omega)) i)
  have := hw _ (ctrlAt_mem hi)
  exact_mod_cast this.le

theorem share_pos {ks : List ℚ} {p : ℕ} {ps : List (Point ℚ × ℚ)} (hk : KnotsOk ks p ps.length)
    (hw : ∀ x ∈ ps, 0 < x.2) {s : ℕ} {u : ℝ} (hp : p ≤ s) (hs : s < ps.length) (h0 : knotAt ks s < knotAt ks (s + 1))
    (h1 : knotAt ks s ≤ u) (h2 : u ≤ knotAt ks (s + 1)) : 0 < ∑ i ∈ range ps.length, share ks p ps s u i := by
  have hm : ∀ a b, a ≤ b → b ≤ s + p → knotAt ks a ≤ knotAt ks b := fun a b c e => knot_mono hk a b c (by omega)
  have hsum := basis_sum (u := u) h0 hs p hp hm
  have hnn := basis_nonneg h1 h2 p hm
  by_contra hc
  have hz : ∑ i ∈ range ps.length, share ks p ps s u i = 0 :=
    le_antisymm (not_lt.mp hc) (sum_nonneg fun i hi => share_nonneg hk hw hs h1 h2 (mem_range.mp hi))
  have hall := (sum_eq_zero_iff_of_nonneg fun i hi => share_nonneg hk hw hs h1 h2 (mem_range.mp hi)).mp hz
  have : ∑ i ∈ range ps.length, basis (knotAt ks) s u p i = 0 := by
    refine sum_eq_zero fun i hi => ?_
    have h := hall i hi
    unfold share at h
    rcases mul_eq_zero.mp h with h | h
    · have := hw _ (ctrlAt_mem (mem_range.mp hi))
      have h' : (ctrlAt ps i).2 = 0 := by exact_mod_cast h
      rw [h'] at this; exact absurd this (lt_irrefl _)
    · exact h
  rw [hsum] at this; exact one_ne_zero this

/-- How far the points of the curve are from a plane, if all control points are within `B` of it. -/
theorem curve_near {ks : List ℚ} {p : ℕ} {ps : List (Point ℚ × ℚ)} (hk : KnotsOk ks p ps.length)
    (hw : ∀ x ∈ ps, 0 < x.2) (n o : Point ℚ) (B : ℚ)
    (hB : ∀ x ∈ ps, |n.x * (x.1.x - o.x) + n.y * (x.1.y - o.y) + n.z * (x.1.z - o.z)| ≤ B) (u : ℝ) (q : Point ℝ)
    (hq : CurvePoint ks p ps u q) : |(n.x : ℝ) * (q.x - o.x) + n.y * (q.y - o.y) + n.z * (q.z - o.z)| ≤ B := by
  obtain ⟨s, hp, hs, h0, h1, h2, rfl⟩ := hq
  have hD := share_pos hk hw hp hs h0 h1 h2
  have hnn : ∀ i ∈ range ps.length, 0 ≤ share ks p ps s u i := fun i hi => share_nonneg hk hw hs h1 h2 (mem_range.mp hi)
  have key : (n.x : ℝ) * (mean ks p ps s u Point.x - o.x) + n.y * (mean ks p ps s u Point.y - o.y) +
      n.z * (mean ks p ps s u Point.z - o.z) =
      (∑ i ∈ range ps.length, share ks p ps s u i *
        ((n.x * ((ctrlAt ps i).1.x - o.x) + n.y * ((ctrlAt ps i).1.y - o.y) + n.z * ((ctrlAt ps i).1.z - o.z) : ℚ) : ℝ)) /
        ∑ i ∈ range ps.length, share ks p ps s u i := by
    unfold mean
    rw [eq_div_iff hD.ne']
    have e : ∀ a b : ℝ, (a / (∑ i ∈ range ps.length, share ks p ps s u i) - b) * (∑ i ∈ range ps.length, share ks p ps s u i) =
        a - b * ∑ i ∈ range ps.length, share ks p ps s u i := by
      intro a b; field_simp
    rw [add_mul, add_mul, mul_assoc, mul_assoc, mul_assoc, e, e, e]
    simp only [mul_sum, ← sum_sub_distrib, ← sum_add_distrib]
    refine sum_congr rfl fun i _ => ?_
    push_cast; ring
  rw [key, abs_div, abs_of_pos hD, div_le_iff₀ hD, mul_sum]
  refine (abs_sum_le_sum_abs _ _).trans (sum_le_sum fun i hi => ?_)
  rw [abs_mul, abs_of_nonneg (hnn i hi), mul_comm]
  refine mul_le_mul_of_nonneg_right ?_ (hnn i hi)
  have := hB _ (ctrlAt_mem (mem_range.mp hi))
  exact_mod_cast this

/-! ### The arrays after a successful call -/

theorem set_view {sqrt : ℚ → ℚ} {d d' : Nurbs} {p : ℕ} {ks : List ℚ} {ps : List (Point ℚ × ℚ)} {rational : Bool} {v0 v1 : ℚ}
    (h : d.set sqrt ps.length (p + 1) (some ks) (some (ctrlArray (if rational then 0 else 1) ps)) rational v0 v1 =
      .val (true, d')) :
    d'.coeffs = some (ctrlArray (if rational then 0 else 1) ps) ∧ d'.getNormal = hasUniquePlane sqrt (ps.map (·.1)) := by
  unfold Nurbs.set at h
  simp only at h
  split at h
  · cases h
  · split at h
    · cases h
    · obtain ⟨k0, _, h⟩ := Rd.bind_val h
      obtain ⟨kn, _, h⟩ := Rd.bind_val h
      split at h
      · cases h
      · split at h
        · cases h
        · obtain ⟨ks', h1, h⟩ := Rd.bind_val h
          obtain ⟨cs', h2, h⟩ := Rd.bind_val h
          obtain ⟨qs, h3, h⟩ := Rd.bind_val h
          have l := ctrlArray_length (if rational then 0 else 1) ps
          have e : cs' = ctrlArray (if rational then 0 else 1) ps := by
            obtain ⟨rfl, l2⟩ := firstN_val _ _ _ h2
            rw [List.take_of_length_le]
            rw [l]; cases rational <;> simp <;> omega
          subst e
          rw [Int.toNat_natCast, controlPoints_array] at h3
          cases h3
          have e2 : (outPoints (if rational then 0 else 1) ps).map (·.1) = ps.map (·.1) := by
            unfold outPoints
            generalize (if rational then (0 : Int) else 1) = p3
            by_cases hp : p3 = 0 <;> simp [hp]
          rw [e2] at h
          cases h
          refine ⟨rfl, ?_⟩
          unfold Nurbs.getNormal Nurbs.isPlanar
          cases hh : (hasUniquePlane sqrt (ps.map (·.1))) with
          | mk b n => cases b <;> simp

theorem ctrlArray_get (p3 : Int) : ∀ (ps : List (Point ℚ × ℚ)) (i : ℕ) (_ : i < ps.length),
    (ctrlArray p3 ps)[(if p3 = 0 then 4 else 3) * i]? = some (ctrlAt ps i).1.x ∧
    (ctrlArray p3 ps)[(if p3 = 0 then 4 else 3) * i + 1]? = some (ctrlAt ps i).1.y ∧
    (ctrlArray p3 ps)[(if p3 = 0 then 4 else 3) * i + 2]? = some (ctrlAt ps i).1.z
  | [], i, hi => by simp at hi
  | a :: ps, 0, _ => by by_cases h : p3 = 0 <;> simp [ctrlArray, ctrlAt, h]
  | a :: ps, i + 1, hi => by
    have ih := ctrlArray_get p3 ps i (by simpa using hi)
    by_cases h : p3 = 0
    · simp only [h, if_true, ctrlArray, List.flatMap_cons, ctrlAt, List.getD_cons_succ] at ih ⊢
      refine ⟨?_, ?_, ?_⟩
      · rw [← ih.1, show 4 * (i + 1) = 4 * i + 4 by ring]; rfl
      · rw [← ih.2.1, show 4 * (i + 1) + 1 = 4 * i + 1 + 4 by ring]; rfl
      · rw [← ih.2.2, show 4 * (i + 1) + 2 = 4 * i + 2 + 4 by ring]; rfl
    · simp only [if_neg h, ctrlArray, List.flatMap_cons, ctrlAt, List.getD_cons_succ] at ih ⊢
      refine ⟨?_, ?_, ?_⟩
      · rw [← ih.1, show 3 * (i + 1) = 3 * i + 3 by ring]; rfl
      · rw [← ih.2.1, show 3 * (i + 1) + 1 = 3 * i + 1 + 3 by ring]; rfl
      · rw [← ih.2.2, show 3 * (i + 1) + 2 = 3 * i + 2 + 3 by ring]; rfl

theorem pointAt_ctrl {d : Nurbs} {p3 : Int} {ps : List (Point ℚ × ℚ)} (h : d.coeffs = some (ctrlArray p3 ps)) (i : ℕ)
    (hi : i < ps.length) (j : Int) (hj : j = (((if p3 = 0 then 4 else 3) * i : ℕ) : Int)) :
    d.pointAt j = .val (ctrlAt ps i).1 := by
  obtain ⟨a, b, c⟩ := ctrlArray_get p3 ps i hi
  have key : ∀ (k : ℕ) (x : ℚ), (ctrlArray p3 ps)[k]? = some x → arrGet (ctrlArray p3 ps) (k : Int) = .val x := by
    intro k x hx
    unfold arrGet
    rw [if_neg (by omega), Int.toNat_natCast, hx]
  unfold Nurbs.pointAt
  rw [h, hj]
  simp only
  rw [key _ _ a]
  have e1 := key _ _ b
  have e2 := key _ _ c
  push_cast at e1 e2 ⊢
  rw [e1, e2]
  rfl

/-- A point with the coordinates as real numbers. -/
def real (p : Point ℚ) : Point ℝ := ⟨p.x, p.y, p.z⟩

theorem mean_single {ks : List ℚ} {p : ℕ} {ps : List (Point ℚ × ℚ)} (hw : ∀ x ∈ ps, 0 < x.2) {s j : ℕ} {u : ℝ}
    (hj : j < ps.length) (h : ∀ i, basis (knotAt ks) s u p i = if i = j then 1 else 0) (f : Point ℚ → ℚ) :
    mean ks p ps s u f = (f (ctrlAt ps j).1 : ℚ) := by
  have hwj : (((ctrlAt ps j).2 : ℚ) : ℝ) ≠ 0 := by
    have := hw _ (ctrlAt_mem hj)
    exact_mod_cast this.ne'
  unfold mean share
  simp only [h, mul_ite, mul_one, mul_zero, ite_mul, zero_mul]
  rw [Finset.sum_ite_eq' (range ps.length) j, Finset.sum_ite_eq' (range ps.length) j, if_pos (mem_range.mpr hj),
    if_pos (mem_range.mpr hj)]
  field_simp

end NurbsCurve

open NurbsCurve

/-- C97: after a successful `SetNURBSData` with knots that hold the curve to its first control point and a
parameter range that starts at the first knot, `GetStartPoint` gives the point of the curve at the start of the
range, moved by the transform if that is asked for. -/
theorem C97_start (sqrt : ℚ → ℚ) (d d' : Nurbs) (p : ℕ) (ks : List ℚ) (ps : List (Point ℚ × ℚ)) (rational : Bool) (v0 v1 : ℚ)
    (h : d.set sqrt ps.length (p + 1) (some ks) (some (ctrlArray (if rational then 0 else 1) ps)) rational v0 v1 =
      .val (true, d'))
    (hw : ∀ x ∈ ps, 0 < x.2) (hk : KnotsOk ks p ps.length) (hc : ClampedStart ks p) (hv : (v0 : ℝ) = knotAt ks 0) :
    ∃ a, (∀ tx, d'.startPoint tx false = .val a) ∧ d'.startPoint none true = .val a ∧
      (∀ m, d'.startPoint (some m) true = .val (m.act a)) ∧ ∀ q, CurvePoint ks p ps v0 q ↔ q = real a := by
  obtain ⟨hco, -⟩ := set_view h
  obtain ⟨-, hn, -, ho, hle, -⟩ := C33_set_curve _ _ _ _ _ _ _ _ _ _ h
  have hlen : 2 ≤ ps.length := by omega
  have hpl : p < ps.length := by omega
  have hpt : d'.pointAt 0 = .val (ctrlAt ps 0).1 := pointAt_ctrl hco 0 (by omega) 0 (by simp)
  have hst : ∀ tx xform, d'.startPoint tx xform = .val (withTransform tx xform (ctrlAt ps 0).1) := by
    intro tx xform
    unfold Nurbs.startPoint
    rw [if_neg (by omega), hpt]; rfl
  refine ⟨(ctrlAt ps 0).1, fun tx => hst tx false, hst none true, fun m => hst (some m) true, fun q => ?_⟩
  have hb : ∀ i, basis (knotAt ks) p v0 p i = if i = 0 then 1 else 0 := by
    intro i
    rw [hv, ← hc.1 p le_rfl, basis_start hc.1 hc.2 p le_rfl i]
    simp
  have hm := fun f => mean_single (ks := ks) (p := p) hw (s := p) (u := v0) (j := 0) (by omega) hb f
  have hvp : (v0 : ℝ) = knotAt ks p := by rw [hv, hc.1 p le_rfl]
  constructor
  · rintro ⟨s, hp, hs, h0, h1, h2, rfl⟩
    have : s = p := by
      by_contra hne
      have : knotAt ks (p + 1) ≤ knotAt ks s := knot_mono hk _ _ (by omega) (by omega)
      have := hc.2
      linarith
    subst this
    rw [hm, hm, hm]; rfl
  · rintro rfl
    refine ⟨p, le_rfl, hpl, hc.2, hvp.ge, ?_, ?_⟩
    · rw [hvp]; exact hc.2.le
    · rw [hm, hm, hm]; rfl

/-- C97: the same for `GetEndPoint` and the end of the range. -/
theorem C97_end (sqrt : ℚ → ℚ) (d d' : Nurbs) (p : ℕ) (ks : List ℚ) (ps : List (Point ℚ × ℚ)) (rational : Bool) (v0 v1 : ℚ)
    (h : d.set sqrt ps.length (p + 1) (some ks) (some (ctrlArray (if rational then 0 else 1) ps)) rational v0 v1 =
      .val (true, d'))
    (hw : ∀ x ∈ ps, 0 < x.2) (hk : KnotsOk ks p ps.length) (hc : ClampedEnd ks p ps.length)
    (hv : (v1 : ℝ) = knotAt ks ps.length) :
    ∃ a, (∀ tx, d'.endPoint tx false = .val a) ∧ d'.endPoint none true = .val a ∧
      (∀ m, d'.endPoint (some m) true = .val (m.act a)) ∧ ∀ q, CurvePoint ks p ps v1 q ↔ q = real a := by
  obtain ⟨hco, -⟩ := set_view h
  obtain ⟨-, hn, -, ho, hle, -, -, hr, -⟩ := C33_set_curve _ _ _ _ _ _ _ _ _ _ h
  have hlen : 2 ≤ ps.length := by omega
  obtain ⟨n, hnl⟩ : ∃ n, ps.length = n + 1 := ⟨ps.length - 1, by omega⟩
  have hpt : d'.pointAt (if d'.PROP3 = 0 then (d'.nCoeffs - 1) * 4 else (d'.nCoeffs - 1) * 3) = .val (ctrlAt ps n).1 := by
    refine pointAt_ctrl hco n (by omega) _ ?_
    rw [hn]
    cases rational
    · rw [if_neg (fun e => by simp at hr; exact hr e)]; simp; omega
    · rw [if_pos (hr.mp rfl)]; simp; omega
  have hst : ∀ tx xform, d'.endPoint tx xform = .val (withTransform tx xform (ctrlAt ps n).1) := by
    intro tx xform
    unfold Nurbs.endPoint
    rw [if_neg (by omega), hpt]; rfl
  refine ⟨(ctrlAt ps n).1, fun tx => hst tx false, hst none true, fun m => hst (some m) true, fun q => ?_⟩
  rw [hnl] at hc hv
  have hc2 : knotAt ks n < knotAt ks (n + 1) := hc.2
  have hb : ∀ i, basis (knotAt ks) n v1 p i = if i = n then 1 else 0 := by
    intro i
    rw [hv, basis_end hc.1 hc2 p le_rfl i]
  have hm := fun f => mean_single (ks := ks) (p := p) hw (s := n) (u := v1) (j := n) (by omega) hb f
  constructor
  · rintro ⟨s, hp, hs, h0, h1, h2, rfl⟩
    have : s = n := by
      by_contra hne
      have : knotAt ks (s + 1) ≤ knotAt ks n := knot_mono hk _ _ (by omega) (by omega)
      linarith
    subst this
    rw [hm, hm, hm]; rfl
  · rintro rfl
    refine ⟨n, by omega, by omega, hc2, ?_, hv.le, ?_⟩
    · rw [hv]; exact hc2.le
    · rw [hm, hm, hm]; rfl

namespace NurbsCurve

/-! ### Planes -/

/-- The product of a vector and the way from one point to another. -/
def dot (n a b : Point ℚ) : ℚ := n.x * (b.x - a.x) + n.y * (b.y - a.y) + n.z * (b.z - a.z)

theorem checkNormal {sqrt : ℚ → ℚ} (hq : GoodSqrt sqrt) (p : Point ℚ)
    (h : 1 / 10 ^ 12 ≤ p.x * p.x + p.y * p.y + p.z * p.z) :
    ∃ c, CheckNormalQ sqrt p = p.scale c ∧ |c * c * (p.x * p.x + p.y * p.y + p.z * p.z) - 1| ≤ 11 / 10 ^ 9 := by
  unfold CheckNormalQ
  simp only
  rw [if_neg (not_lt.mpr h)]
  set dN := p.x * p.x + p.y * p.y + p.z * p.z with hdN
  have hpos : 0 < dN := lt_of_lt_of_le (by norm_num) h
  split
  · obtain ⟨hs, hb⟩ := hq dN hpos
    refine ⟨1 / sqrt dN, ?_, ?_⟩
    · unfold Point.scale
      congr 1 <;> field_simp
    · have e : 1 / sqrt dN * (1 / sqrt dN) * dN - 1 = (dN - sqrt dN * sqrt dN) / (sqrt dN * sqrt dN) := by field_simp
      have hss : 0 < sqrt dN * sqrt dN := mul_pos hs hs
      rw [e, abs_div, abs_of_pos hss, div_le_iff₀ hss, abs_sub_comm]
      have := abs_le.mp hb
      refine hb.trans ?_
      have h1 : dN - dN / 10 ^ 9 ≤ sqrt dN * sqrt dN := by linarith [this.1]
      have h2 : dN * (1 - 1 / 10 ^ 9) ≤ sqrt dN * sqrt dN := by linarith
      nlinarith
  · rename_i hc
    rw [not_or] at hc
    refine ⟨1, ?_, ?_⟩
    · unfold Point.scale; cases p; simp
    · rw [abs_le]; constructor <;> [linarith [not_lt.mp hc.1]; linarith [not_lt.mp hc.2]]

/-- The normal of three points that are not on a line. -/
theorem calcNormal {sqrt : ℚ → ℚ} (hq : GoodSqrt sqrt) {a b c : Point ℚ} {r : List (Point ℚ)} (h : Bends (a :: b :: c :: r)) :
    dot (CalcNormalQ sqrt a b c) a b = 0 ∧ dot (CalcNormalQ sqrt a b c) b c = 0 ∧
    |(CalcNormalQ sqrt a b c).x * (CalcNormalQ sqrt a b c).x + (CalcNormalQ sqrt a b c).y * (CalcNormalQ sqrt a b c).y +
      (CalcNormalQ sqrt a b c).z * (CalcNormalQ sqrt a b c).z - 1| ≤ 11 / 10 ^ 9 ∧
    ∃ k, CalcNormalQ sqrt a b c = ⟨k * ((b.y - a.y) * (c.z - a.z) - (b.z - a.z) * (c.y - a.y)),
      k * ((b.z - a.z) * (c.x - a.x) - (b.x - a.x) * (c.z - a.z)),
      k * ((b.x - a.x) * (c.y - a.y) - (b.y - a.y) * (c.x - a.x))⟩ := by
  have hb := h.1
  obtain ⟨k, e, hk⟩ := checkNormal hq ⟨(b.y - a.y) * (c.z - a.z) - (b.z - a.z) * (c.y - a.y),
    (b.z - a.z) * (c.x - a.x) - (b.x - a.x) * (c.z - a.z), (b.x - a.x) * (c.y - a.y) - (b.y - a.y) * (c.x - a.x)⟩
    (by simp only; linarith [hb])
  have e' : CalcNormalQ sqrt a b c = ⟨k * ((b.y - a.y) * (c.z - a.z) - (b.z - a.z) * (c.y - a.y)),
      k * ((b.z - a.z) * (c.x - a.x) - (b.x - a.x) * (c.z - a.z)),
      k * ((b.x - a.x) * (c.y - a.y) - (b.y - a.y) * (c.x - a.x))⟩ := by
    unfold CalcNormalQ
    simp only [Point.sub]
    rw [e]
    simp only [Point.scale, Point.mk.injEq]
    exact ⟨by ring, by ring, by ring⟩
  refine ⟨?_, ?_, ?_, k, e'⟩
  · rw [e']; unfold dot; ring
  · rw [e']; unfold dot; ring
  · rw [e']
    simp only at hk ⊢
    refine le_trans (le_of_eq ?_) hk
    congr 1; ring

theorem sq3_nonneg (m : Point ℚ) : 0 ≤ m.x * m.x + m.y * m.y + m.z * m.z :=
  add_nonneg (add_nonneg (mul_self_nonneg _) (mul_self_nonneg _)) (mul_self_nonneg _)

/-- Vectors that `PointMatches` takes for equal. -/
theorem matches_near {sqrt : ℚ → ℚ} {m n : Point ℚ} (hm : m.x * m.x + m.y * m.y + m.z * m.z ≤ 2)
    (hn : n.x * n.x + n.y * n.y + n.z * n.z ≤ 2) (h : PointMatchesQ sqrt m n (1 / 10 ^ 8) = true) :
    |n.x - m.x| ≤ 18 / 10 ^ 9 ∧ |n.y - m.y| ≤ 18 / 10 ^ 9 ∧ |n.z - m.z| ≤ 18 / 10 ^ 9 := by
  have nm : |m.x * m.x + m.y * m.y + m.z * m.z| ≤ 2 := by
    rw [abs_of_nonneg (sq3_nonneg m)]; exact hm
  have nn : |n.x * n.x + n.y * n.y + n.z * n.z| ≤ 2 := by
    rw [abs_of_nonneg (sq3_nonneg n)]; exact hn
  have hbig : ¬ (|m.x * m.x + m.y * m.y + m.z * m.z| > 10 ^ 15 ∨ |n.x * n.x + n.y * n.y + n.z * n.z| > 10 ^ 15) := by
    rw [not_or]; constructor <;> intro hc <;> norm_num at hc <;> linarith
  unfold PointMatchesQ at h
  simp only [if_neg hbig] at h
  rw [if_neg (show ¬ (1 / 10 ^ 8 * (3.0001 * (1 / 10 ^ 8)) : ℚ) < 3 / 10 ^ 30 by norm_num)] at h
  split at h
  · cases h
  · rename_i hc
    have hc := not_lt.mp hc
    norm_num at hc
    refine ⟨?_, ?_, ?_⟩ <;> refine abs_le_of_sq_le_sq ?_ (by norm_num) <;> norm_num <;>
      nlinarith [sq_nonneg (n.x - m.x), sq_nonneg (n.y - m.y), sq_nonneg (n.z - m.z)]

theorem near_matches {sqrt : ℚ → ℚ} {m n : Point ℚ} (hm : m.x * m.x + m.y * m.y + m.z * m.z ≤ 2)
    (hn : n.x * n.x + n.y * n.y + n.z * n.z ≤ 2)
    (h : (n.x - m.x) * (n.x - m.x) + (n.y - m.y) * (n.y - m.y) + (n.z - m.z) * (n.z - m.z) ≤ 3 / 10 ^ 16) :
    PointMatchesQ sqrt m n (1 / 10 ^ 8) = true := by
  have nm : |m.x * m.x + m.y * m.y + m.z * m.z| ≤ 2 := by
    rw [abs_of_nonneg (sq3_nonneg m)]; exact hm
  have nn : |n.x * n.x + n.y * n.y + n.z * n.z| ≤ 2 := by
    rw [abs_of_nonneg (sq3_nonneg n)]; exact hn
  have hbig : ¬ (|m.x * m.x + m.y * m.y + m.z * m.z| > 10 ^ 15 ∨ |n.x * n.x + n.y * n.y + n.z * n.z| > 10 ^ 15) := by
    rw [not_or]; constructor <;> intro hc <;> norm_num at hc <;> linarith
  unfold PointMatchesQ
  simp only [if_neg hbig]
  rw [if_neg (show ¬ (1 / 10 ^ 8 * (3.0001 * (1 / 10 ^ 8)) : ℚ) < 3 / 10 ^ 30 by norm_num), if_neg]
  rw [gt_iff_lt, not_lt]
  refine h.trans ?_
  norm_num

/-- `m` is `n` or `-n`, but for `e` in each coordinate. -/
def Close (m n : Point ℚ) (e : ℚ) : Prop :=
  (|m.x - n.x| ≤ e ∧ |m.y - n.y| ≤ e ∧ |m.z - n.z| ≤ e) ∨ (|m.x + n.x| ≤ e ∧ |m.y + n.y| ≤ e ∧ |m.z + n.z| ≤ e)

theorem Close.trans {l m n : Point ℚ} {e f : ℚ} (h1 : Close l m e) (h2 : Close m n f) : Close l n (e + f) := by
  unfold Close at *
  simp only [abs_le] at *
  rcases h1 with ⟨a, b, c⟩ | ⟨a, b, c⟩ <;> rcases h2 with ⟨a', b', c'⟩ | ⟨a', b', c'⟩
  · left; refine ⟨⟨?_, ?_⟩, ⟨?_, ?_⟩, ⟨?_, ?_⟩⟩ <;> linarith [a.1, a.2, b.1, b.2, c.1, c.2, a'.1, a'.2, b'.1, b'.2, c'.1, c'.2]
  · right; refine ⟨⟨?_, ?_⟩, ⟨?_, ?_⟩, ⟨?_, ?_⟩⟩ <;> linarith [a.1, a.2, b.1, b.2, c.1, c.2, a'.1, a'.2, b'.1, b'.2, c'.1, c'.2]
  · right; refine ⟨⟨?_, ?_⟩, ⟨?_, ?_⟩, ⟨?_, ?_⟩⟩ <;> linarith [a.1, a.2, b.1, b.2, c.1, c.2, a'.1, a'.2, b'.1, b'.2, c'.1, c'.2]
  · left; refine ⟨⟨?_, ?_⟩, ⟨?_, ?_⟩, ⟨?_, ?_⟩⟩ <;> linarith [a.1, a.2, b.1, b.2, c.1, c.2, a'.1, a'.2, b'.1, b'.2, c'.1, c'.2]

theorem dot_small {l : Point ℚ} {a b : Point ℚ} {e : ℚ} (h : |l.x| ≤ e ∧ |l.y| ≤ e ∧ |l.z| ≤ e) :
    |dot l a b| ≤ e * (|b.x - a.x| + |b.y - a.y| + |b.z - a.z|) := by
  unfold dot
  have hx := mul_le_mul_of_nonneg_right h.1 (abs_nonneg (b.x - a.x))
  have hy := mul_le_mul_of_nonneg_right h.2.1 (abs_nonneg (b.y - a.y))
  have hz := mul_le_mul_of_nonneg_right h.2.2 (abs_nonneg (b.z - a.z))
  rw [← abs_mul] at hx hy hz
  refine (abs_add_three _ _ _).trans ?_
  linarith

theorem Close.dot {m n a b : Point ℚ} {e : ℚ} (h : Close m n e) (h0 : dot n a b = 0) :
    |dot m a b| ≤ e * (|b.x - a.x| + |b.y - a.y| + |b.z - a.z|) := by
  rcases h with h | h
  · have e1 : NurbsCurve.dot m a b = NurbsCurve.dot ⟨m.x - n.x, m.y - n.y, m.z - n.z⟩ a b := by
      have : NurbsCurve.dot m a b = NurbsCurve.dot m a b - NurbsCurve.dot n a b := by rw [h0]; ring
      rw [this]; unfold NurbsCurve.dot; ring
    rw [e1]; exact dot_small h
  · have e1 : NurbsCurve.dot m a b = NurbsCurve.dot ⟨m.x + n.x, m.y + n.y, m.z + n.z⟩ a b := by
      have : NurbsCurve.dot m a b = NurbsCurve.dot m a b + NurbsCurve.dot n a b := by rw [h0]; ring
      rw [this]; unfold NurbsCurve.dot; ring
    rw [e1]; exact dot_small h

theorem axisLength_nonneg : ∀ ps : List (Point ℚ), 0 ≤ axisLength ps
  | [] => le_rfl
  | [_] => le_rfl
  | a :: b :: r => by
    have := axisLength_nonneg (b :: r)
    unfold axisLength
    positivity

theorem drift {sqrt : ℚ → ℚ} (hq : GoodSqrt sqrt) (m : Point ℚ) : ∀ (r : List (Point ℚ)) (a b n : Point ℚ) (e : ℚ), 0 ≤ e →
    Bends (a :: b :: r) → n.x * n.x + n.y * n.y + n.z * n.z ≤ 2 → dot n a b = 0 → Close m n e →
    planeLoop sqrt n (a :: b :: r) = true →
    ∀ q ∈ a :: b :: r, |dot m a q| ≤ (e + r.length * (18 / 10 ^ 9)) * axisLength (a :: b :: r)
  | [], a, b, n, e, he, _, _, h0, hc, _, q, hq' => by
    have h1 := hc.dot h0
    have h2 := axisLength_nonneg [a, b]
    rcases List.mem_cons.mp hq' with rfl | hq'
    · have : dot m q q = 0 := by unfold dot; ring
      rw [this, abs_zero]; simp only [List.length_nil, Nat.cast_zero]; positivity
    · rw [List.mem_singleton.mp hq']
      simpa [axisLength] using h1
  | c :: r, a, b, n, e, he, hb, hn, h0, hc, hl, q, hq' => by
    have h1 := hc.dot h0
    have hL := axisLength_nonneg (a :: b :: c :: r)
    have hL' := axisLength_nonneg (b :: c :: r)
    obtain ⟨na, nb, nl, -⟩ := calcNormal hq hb
    have nl2 := (abs_le.mp nl).2
    have n2 : (CalcNormalQ sqrt a b c).x * (CalcNormalQ sqrt a b c).x + (CalcNormalQ sqrt a b c).y * (CalcNormalQ sqrt a b c).y +
        (CalcNormalQ sqrt a b c).z * (CalcNormalQ sqrt a b c).z ≤ 2 := by linarith
    unfold planeLoop at hl
    simp only at hl
    split at hl
    · rename_i hmt
      have hcl : Close n (CalcNormalQ sqrt a b c) (18 / 10 ^ 9) := by
        rcases Bool.or_eq_true _ _ |>.mp hmt with h | h
        · left
          have := matches_near hn n2 h
          exact ⟨by rw [abs_sub_comm]; exact this.1, by rw [abs_sub_comm]; exact this.2.1, by rw [abs_sub_comm]; exact this.2.2⟩
        · right
          have := matches_near hn (by simp only [Point.scale]; linarith) h
          simp only [Point.scale] at this
          refine ⟨?_, ?_, ?_⟩
          · rw [← abs_neg]; convert this.1 using 2; ring
          · rw [← abs_neg]; convert this.2.1 using 2; ring
          · rw [← abs_neg]; convert this.2.2 using 2; ring
      have ih := drift hq m r b c (CalcNormalQ sqrt a b c) (e + 18 / 10 ^ 9) (by positivity) hb.2 n2 nb (hc.trans hcl) hl
      have hlen : ((c :: r).length : ℚ) = r.length + 1 := by simp
      have hax : axisLength (a :: b :: c :: r) = |b.x - a.x| + |b.y - a.y| + |b.z - a.z| + axisLength (b :: c :: r) := rfl
      have hseg : 0 ≤ |b.x - a.x| + |b.y - a.y| + |b.z - a.z| := by positivity
      rcases List.mem_cons.mp hq' with rfl | hq'
      · have : dot m q q = 0 := by unfold dot; ring
        rw [this, abs_zero]; positivity
      · have e1 : dot m a q = dot m a b + dot m b q := by unfold dot; ring
        have h2 := ih q hq'
        have h3 : e * (|b.x - a.x| + |b.y - a.y| + |b.z - a.z|) ≤
            (e + ((c :: r).length : ℚ) * (18 / 10 ^ 9)) * (|b.x - a.x| + |b.y - a.y| + |b.z - a.z|) := by
          refine mul_le_mul_of_nonneg_right ?_ hseg
          have : (0 : ℚ) ≤ ((c :: r).length : ℚ) * (18 / 10 ^ 9) := by positivity
          linarith
        rw [e1, hax, mul_add]
        refine (abs_add_le _ _).trans (add_le_add (h1.trans h3) (h2.trans (le_of_eq ?_)))
        rw [hlen]; ring
    · cases hl

/-- All points of the polygon are near the plane through the first one with the reported normal. -/
theorem polygon_near {sqrt : ℚ → ℚ} (hq : GoodSqrt sqrt) {pts : List (Point ℚ)} {o n : Point ℚ} (hb : Bends pts)
    (ho : pts.head? = some o) (h : hasUniquePlane sqrt pts = (true, n)) :
    ∀ q ∈ pts, |dot n o q| ≤ (pts.length - 3) * (18 / 10 ^ 9) * axisLength pts := by
  match pts, hb, ho, h with
  | [], _, _, h => cases h
  | [_], _, _, h => cases h
  | [_, _], _, _, h => cases h
  | a :: b :: c :: r, hb, ho, h =>
    obtain rfl : a = o := by simpa using ho
    obtain ⟨na, nb, nl, -⟩ := calcNormal hq hb
    unfold hasUniquePlane at h
    simp only at h
    split at h
    · rename_i hl
      cases h
      have hd := drift hq (CalcNormalQ sqrt a b c) r b c (CalcNormalQ sqrt a b c) 0 le_rfl hb.2 (by linarith [(abs_le.mp nl).2]) nb
        (Or.inl (by simp)) hl
      intro q hm
      have hax : axisLength (a :: b :: c :: r) = |b.x - a.x| + |b.y - a.y| + |b.z - a.z| + axisLength (b :: c :: r) := rfl
      have hseg : 0 ≤ |b.x - a.x| + |b.y - a.y| + |b.z - a.z| := by positivity
      have hlen : ((a :: b :: c :: r).length : ℚ) - 3 = r.length := by simp; ring
      rw [hlen]
      rcases List.mem_cons.mp hm with rfl | hm
      · have : dot (CalcNormalQ sqrt q b c) q q = 0 := by unfold dot; ring
        rw [this, abs_zero]
        have := axisLength_nonneg (q :: b :: c :: r)
        positivity
      · have e1 : dot (CalcNormalQ sqrt a b c) a q = dot (CalcNormalQ sqrt a b c) b q := by
          have : dot (CalcNormalQ sqrt a b c) a q = dot (CalcNormalQ sqrt a b c) a b + dot (CalcNormalQ sqrt a b c) b q := by
            unfold dot; ring
          rw [this, na, zero_add]
        rw [e1]
        refine (hd q hm).trans ?_
        rw [zero_add, hax]
        refine mul_le_mul_of_nonneg_left ?_ (by positivity)
        linarith
    · cases h

/-! ### Points in a plane -/

theorem parallel_near {k l M : ℚ} (hM : 0 ≤ M) (hk : |k * k * M - 1| ≤ 11 / 10 ^ 9) (hl : |l * l * M - 1| ≤ 11 / 10 ^ 9) :
    (k - l) * (k - l) * M ≤ 3 / 10 ^ 16 ∨ (k + l) * (k + l) * M ≤ 3 / 10 ^ 16 := by
  have h1 := abs_le.mp hk
  have h2 := abs_le.mp hl
  have hprod : ((k - l) * (k - l) * M) * ((k + l) * (k + l) * M) ≤ (22 / 10 ^ 9) * (22 / 10 ^ 9) := by
    have e : ((k - l) * (k - l) * M) * ((k + l) * (k + l) * M) = (k * k * M - l * l * M) * (k * k * M - l * l * M) := by ring
    rw [e]
    have : |k * k * M - l * l * M| ≤ 22 / 10 ^ 9 := by rw [abs_le]; constructor <;> linarith [h1.1, h1.2, h2.1, h2.2]
    rw [← abs_mul_abs_self]
    exact mul_self_le_mul_self (abs_nonneg _) this
  have hsum : (k - l) * (k - l) * M + (k + l) * (k + l) * M ≥ 399 / 100 := by
    have e : (k - l) * (k - l) * M + (k + l) * (k + l) * M = 2 * (k * k * M) + 2 * (l * l * M) := by ring
    rw [e]; linarith [h1.1, h2.1]
  have p1 : 0 ≤ (k - l) * (k - l) * M := mul_nonneg (mul_self_nonneg _) hM
  have p2 : 0 ≤ (k + l) * (k + l) * M := mul_nonneg (mul_self_nonneg _) hM
  by_contra hc
  rw [not_or, not_le, not_le] at hc
  rcases le_total ((k - l) * (k - l) * M) ((k + l) * (k + l) * M) with h | h
  · have : 199 / 100 ≤ (k + l) * (k + l) * M := by linarith
    have := mul_le_mul hc.1.le this (by norm_num) p1
    norm_num at this hprod
    linarith
  · have : 199 / 100 ≤ (k - l) * (k - l) * M := by linarith
    have := mul_le_mul this hc.2.le (by norm_num) p1
    norm_num at this hprod
    linarith

theorem calc_in_plane {sqrt : ℚ → ℚ} (hq : GoodSqrt sqrt) {m : Point ℚ} {w : ℚ} (hm : 0 < m.x * m.x + m.y * m.y + m.z * m.z)
    {a b c : Point ℚ} {r : List (Point ℚ)} (hb : Bends (a :: b :: c :: r))
    (hin : ∀ q ∈ a :: b :: c :: r, m.x * q.x + m.y * q.y + m.z * q.z = w) :
    ∃ k, CalcNormalQ sqrt a b c = m.scale k ∧ |k * k * (m.x * m.x + m.y * m.y + m.z * m.z) - 1| ≤ 11 / 10 ^ 9 := by
  obtain ⟨-, -, nl, k, e⟩ := calcNormal hq hb
  have ha := hin a (by simp)
  have hb' := hin b (by simp)
  have hc := hin c (by simp)
  have t0 : m.x * (b.x - a.x) + m.y * (b.y - a.y) + m.z * (b.z - a.z) = 0 := by linarith
  have t1 : m.x * (c.x - a.x) + m.y * (c.y - a.y) + m.z * (c.z - a.z) = 0 := by linarith
  have e2 : CalcNormalQ sqrt a b c = m.scale (k * (m.x * ((b.y - a.y) * (c.z - a.z) - (b.z - a.z) * (c.y - a.y)) +
      m.y * ((b.z - a.z) * (c.x - a.x) - (b.x - a.x) * (c.z - a.z)) +
      m.z * ((b.x - a.x) * (c.y - a.y) - (b.y - a.y) * (c.x - a.x))) / (m.x * m.x + m.y * m.y + m.z * m.z)) := by
    rw [e]
    generalize hbx : b.x - a.x = bx at *
    generalize hby : b.y - a.y = bY at *
    generalize hbz : b.z - a.z = bz at *
    generalize hcx : c.x - a.x = cx at *
    generalize hcy : c.y - a.y = cy at *
    generalize hcz : c.z - a.z = cz at *
    unfold Point.scale
    simp only [Point.mk.injEq]
    refine ⟨?_, ?_, ?_⟩ <;> rw [mul_div_assoc', eq_div_iff hm.ne']
    · linear_combination (-(k * (m.z * cy - m.y * cz))) * t0 + (k * (m.z * bY - m.y * bz)) * t1
    · linear_combination (-(k * (m.x * cz - m.z * cx))) * t0 + (k * (m.x * bz - m.z * bx)) * t1
    · linear_combination (-(k * (m.y * cx - m.x * cy))) * t0 + (k * (m.y * bx - m.x * bY)) * t1
  refine ⟨_, e2, ?_⟩
  rw [e2] at nl
  refine le_trans (le_of_eq ?_) nl
  simp only [Point.scale]
  congr 1; ring

theorem loop_in_plane {sqrt : ℚ → ℚ} (hq : GoodSqrt sqrt) {m : Point ℚ} {w : ℚ} (hm : 0 < m.x * m.x + m.y * m.y + m.z * m.z) :
    ∀ (r : List (Point ℚ)) (a b : Point ℚ) (k : ℚ), Bends (a :: b :: r) →
    (∀ q ∈ a :: b :: r, m.x * q.x + m.y * q.y + m.z * q.z = w) →
    |k * k * (m.x * m.x + m.y * m.y + m.z * m.z) - 1| ≤ 11 / 10 ^ 9 → planeLoop sqrt (m.scale k) (a :: b :: r) = true
  | [], a, b, k, _, _, _ => rfl
  | c :: r, a, b, k, hb, hin, hk => by
    obtain ⟨l, e, hl⟩ := calc_in_plane hq hm hb hin
    unfold planeLoop
    simp only [e]
    have nk : (m.scale k).x * (m.scale k).x + (m.scale k).y * (m.scale k).y + (m.scale k).z * (m.scale k).z ≤ 2 := by
      simp only [Point.scale]; have := (abs_le.mp hk).2; linarith
    have nl : (m.scale l).x * (m.scale l).x + (m.scale l).y * (m.scale l).y + (m.scale l).z * (m.scale l).z ≤ 2 := by
      simp only [Point.scale]; have := (abs_le.mp hl).2; linarith
    have hor : (PointMatchesQ sqrt (m.scale k) (m.scale l) (1 / 10 ^ 8) ||
        PointMatchesQ sqrt (m.scale k) ((m.scale l).scale (-1)) (1 / 10 ^ 8)) = true := by
      rw [Bool.or_eq_true]
      rcases parallel_near hm.le hk hl with h | h
      · left
        refine near_matches nk nl (le_trans (le_of_eq ?_) h)
        simp only [Point.scale]; ring
      · right
        refine near_matches nk ?_ (le_trans (le_of_eq ?_) h)
        · simp only [Point.scale] at nl ⊢; linarith
        · simp only [Point.scale]; ring
    rw [if_pos hor]
    exact loop_in_plane hq hm r b c l hb.2 (fun q hq => hin q (List.mem_cons_of_mem _ hq)) hl

end NurbsCurve

/-- C97: if a curve set by `SetNURBSData` is reported to be plane, with the normal `n`, and no three consecutive
control points are on a line, then every point of the curve is near the plane through the first control point
with that normal: with three control points in it, with more at most 1.8e-8 of the length of the polygon away for
each further one. -/
theorem C97_plane_partial (sqrt : ℚ → ℚ) (hq : GoodSqrt sqrt) (d d' : Nurbs) (p : ℕ) (ks : List ℚ) (ps : List (Point ℚ × ℚ))
    (rational : Bool) (v0 v1 : ℚ) (n o : Point ℚ)
    (h : d.set sqrt ps.length (p + 1) (some ks) (some (ctrlArray (if rational then 0 else 1) ps)) rational v0 v1 =
      .val (true, d'))
    (hw : ∀ x ∈ ps, 0 < x.2) (hk : KnotsOk ks p ps.length) (hb : Bends (ps.map (·.1)))
    (ho : (ps.map (·.1)).head? = some o) (hn : d'.getNormal = (true, n)) (u : ℝ) (q : Point ℝ) (hc : CurvePoint ks p ps u q) :
    |(n.x : ℝ) * (q.x - o.x) + n.y * (q.y - o.y) + n.z * (q.z - o.z)| ≤
      (((ps.length - 3) * (18 / 10 ^ 9) * axisLength (ps.map (·.1)) : ℚ) : ℝ) := by
  have hv := (set_view h).2
  rw [hn] at hv
  have hpoly := polygon_near hq hb ho hv.symm
  rw [List.length_map] at hpoly
  exact curve_near hk hw n o _ (fun x hx => hpoly x.1 (List.mem_map_of_mem hx)) u q hc

/-- C97: if the control points lie in a plane and no three consecutive ones are on a line, the curve is
reported to be plane; the reported normal is perpendicular to the plane and of length one, but for 1.1e-8 of its
square; and the curve lies in the plane through the first control point with that normal. -/
theorem C97_plane_found (sqrt : ℚ → ℚ) (hq : GoodSqrt sqrt) (d d' : Nurbs) (p : ℕ) (ks : List ℚ) (ps : List (Point ℚ × ℚ))
    (rational : Bool) (v0 v1 : ℚ) (m : Point ℚ) (w : ℚ)
    (h : d.set sqrt ps.length (p + 1) (some ks) (some (ctrlArray (if rational then 0 else 1) ps)) rational v0 v1 =
      .val (true, d'))
    (hw : ∀ x ∈ ps, 0 < x.2) (hk : KnotsOk ks p ps.length) (h3 : 3 ≤ ps.length) (hb : Bends (ps.map (·.1)))
    (hm : m ≠ ⟨0, 0, 0⟩) (hin : ∀ x ∈ ps, m.x * x.1.x + m.y * x.1.y + m.z * x.1.z = w) :
    ∃ n, d'.getNormal = (true, n) ∧ (∃ k, n = m.scale k) ∧ |n.x * n.x + n.y * n.y + n.z * n.z - 1| ≤ 11 / 10 ^ 9 ∧
      ∀ u q, CurvePoint ks p ps u q → ∀ x ∈ ps, (n.x : ℝ) * (q.x - x.1.x) + n.y * (q.y - x.1.y) + n.z * (q.z - x.1.z) = 0 := by
  have hm' : 0 < m.x * m.x + m.y * m.y + m.z * m.z := by
    by_contra hc
    apply hm
    have hx : m.x * m.x = 0 := by nlinarith [mul_self_nonneg m.x, mul_self_nonneg m.y, mul_self_nonneg m.z]
    have hy : m.y * m.y = 0 := by nlinarith [mul_self_nonneg m.x, mul_self_nonneg m.y, mul_self_nonneg m.z]
    have hz : m.z * m.z = 0 := by nlinarith [mul_self_nonneg m.x, mul_self_nonneg m.y, mul_self_nonneg m.z]
    ext
    · exact mul_self_eq_zero.mp hx
    · exact mul_self_eq_zero.mp hy
    · exact mul_self_eq_zero.mp hz
  have hv := (set_view h).2
  have hin' : ∀ q ∈ ps.map (·.1), m.x * q.x + m.y * q.y + m.z * q.z = w := by
    intro q hq
    obtain ⟨x, hx, rfl⟩ := List.mem_map.mp hq
    exact hin x hx
  have key : ∃ k, hasUniquePlane sqrt (ps.map (·.1)) = (true, m.scale k) ∧
      |k * k * (m.x * m.x + m.y * m.y + m.z * m.z) - 1| ≤ 11 / 10 ^ 9 := by
    have hl : 3 ≤ (ps.map (·.1)).length := by rw [List.length_map]; exact h3
    generalize ps.map (·.1) = pts at hb hin' hl
    match pts, hb, hin', hl with
    | [], _, _, hl => simp at hl
    | [_], _, _, hl => simp at hl
    | [_, _], _, _, hl => simp at hl
    | a :: b :: c :: r, hb, hin', _ =>
      obtain ⟨k, e, hk⟩ := calc_in_plane hq hm' hb hin'
      refine ⟨k, ?_, hk⟩
      unfold hasUniquePlane
      simp only [e]
      rw [if_pos (loop_in_plane hq hm' r b c k hb.2 (fun q hq => hin' q (List.mem_cons_of_mem _ hq)) hk)]
  obtain ⟨k, e, hk'⟩ := key
  refine ⟨m.scale k, by rw [hv, e], ⟨k, rfl⟩, ?_, ?_⟩
  · refine le_trans (le_of_eq ?_) hk'
    simp only [Point.scale]; congr 1; ring
  · intro u q hc x hx
    have := curve_near hk hw (m.scale k) x.1 0 (fun y hy => ?_) u q hc
    · rw [Rat.cast_zero] at this
      exact abs_eq_zero.mp (le_antisymm this (abs_nonneg _))
    · have h1 := hin y hy
      have h2 := hin x hx
      have : (m.scale k).x * (y.1.x - x.1.x) + (m.scale k).y * (y.1.y - x.1.y) + (m.scale k).z * (y.1.z - x.1.z) = 0 := by
        simp only [Point.scale]
        linear_combination k * h1 - k * h2
      rw [this, abs_zero]

/-- C97: after a successful `SetNURBSData` the curve is rational if that was said, and always open and not
periodic, also if it ends where it starts. -/
theorem C97_flags (sqrt : ℚ → ℚ) (d d' : Nurbs) (nCoeff order : Int) (knot coeff : Option (List ℚ)) (rational : Bool) (v0 v1 : ℚ)
    (h : d.set sqrt nCoeff order knot coeff rational v0 v1 = .val (true, d')) :
    d'.isRational = rational ∧ d'.isClosed = false ∧ d'.isPeriodic = false ∧
      (d'.isPlanar = false → d'.vnorm = ⟨0, 0, 1⟩) := by
  unfold Nurbs.set at h
  split at h
  · split at h
    · cases h
    · split at h
      · cases h
      · obtain ⟨k0, _, h⟩ := Rd.bind_val h
        obtain ⟨kn, _, h⟩ := Rd.bind_val h
        split at h
        · cases h
        · split at h
          · cases h
          · obtain ⟨ks', h1, h⟩ := Rd.bind_val h
            obtain ⟨cs', h2, h⟩ := Rd.bind_val h
            obtain ⟨qs, h3, h⟩ := Rd.bind_val h
            cases h
            refine ⟨?_, rfl, rfl, ?_⟩
            · unfold Nurbs.isRational; cases rational <;> simp
            · unfold Nurbs.isPlanar
              have hz : ∀ l, (hasUniquePlane sqrt l).1 = false → (hasUniquePlane sqrt l).2 = ⟨0, 0, 1⟩ := by
                intro l
                unfold hasUniquePlane
                split
                · simp only; split <;> simp
                · simp
              intro hp
              refine hz _ ?_
              by_contra hne
              rw [Bool.not_eq_false] at hne
              change (if (if (hasUniquePlane sqrt (qs.map (·.1))).1 = true then (1 : Int) else 0) ≠ 0 then true else false) = false at hp
              rw [hne] at hp
              simp at hp
  · cases h

/-- A curve without data has no ends. -/
theorem C97_unset (tx : Option (Transform ℚ)) (xform : Bool) :
    Nurbs.new.startPoint tx xform = .fail ∧ Nurbs.new.endPoint tx xform = .fail ∧ Nurbs.new.isPlanar = false :=
  ⟨rfl, rfl, rfl⟩

namespace NurbsCurve

/-- A line from the origin along the x axis. -/
def linePts : List (Point ℚ × ℚ) := [(⟨0, 0, 0⟩, 1), (⟨1, 0, 0⟩, 1)]
def lineKnots : List ℚ := [0, 0, 1, 1]

theorem line_set (sqrt : ℚ → ℚ) (v0 : ℚ) (h0 : 0 ≤ v0) (h1 : v0 < 1) :
    Nurbs.new.set sqrt linePts.length (1 + 1) (some lineKnots) (some (ctrlArray (if false then 0 else 1) linePts)) false v0 1 =
      .val (true, ⟨4, 2, some lineKnots, some [0, 0, 0, 1, 0, 0], 1, 1, 0, 0, 1, 0, v0, 1, ⟨0, 0, 1⟩⟩) := by
  have e1 : ¬ (v0 < 0 ∨ v0 ≥ 1) := by rw [not_or]; exact ⟨not_lt.mpr h0, not_le.mpr h1⟩
  have e2 : ¬ ((1 : ℚ) ≤ v0 ∨ (1 : ℚ) > 1) := by rw [not_or]; exact ⟨not_le.mpr h1, lt_irrefl _⟩
  unfold Nurbs.set
  simp only
  rw [if_neg (by norm_num), if_neg (by simp [linePts])]
  have a1 : arrGet lineKnots 0 = .val 0 := rfl
  have a2 : arrGet lineKnots ((linePts.length : Int) + (1 + 1) - 1) = .val 1 := rfl
  rw [a1, a2]
  simp only [Rd.val_bind, if_neg e1, if_neg e2]
  rfl

theorem line_knots : KnotsOk lineKnots 1 linePts.length := ⟨rfl, by unfold lineKnots; norm_num⟩

theorem line_point (u : ℝ) (q : Point ℝ) (h : CurvePoint lineKnots 1 linePts u q) : q = ⟨u, 0, 0⟩ := by
  obtain ⟨s, hp, hs, h0, h1, h2, rfl⟩ := h
  have : s = 1 := by simp [linePts] at hs; omega
  subst this
  have hl : linePts.length = 2 := rfl
  unfold mean share
  rw [hl]
  simp only [sum_range_succ, sum_range_zero, zero_add, basis, ctrlAt, linePts, knotAt, lineKnots]
  norm_num

end NurbsCurve

/-- C97 fails for a parameter range that does not start at the first knot: for every such range the line from
(0, 0, 0) to (1, 0, 0) is accepted, `GetStartPoint` gives (0, 0, 0), and the curve at the start of the range is at
(v0, 0, 0). -/
theorem C97_trimmed (sqrt : ℚ → ℚ) (v0 : ℚ) (h0 : 0 < v0) (h1 : v0 < 1) : ∃ d',
    Nurbs.new.set sqrt linePts.length (1 + 1) (some lineKnots) (some (ctrlArray (if false then 0 else 1) linePts)) false v0 1 =
      .val (true, d') ∧ d'.startPoint none false = .val ⟨0, 0, 0⟩ ∧
    (∀ q, CurvePoint lineKnots 1 linePts v0 q ↔ q = ⟨(v0 : ℝ), 0, 0⟩) ∧ (⟨(v0 : ℝ), 0, 0⟩ : Point ℝ) ≠ real ⟨0, 0, 0⟩ := by
  refine ⟨_, line_set sqrt v0 h0.le h1, rfl, fun q => ⟨line_point _ q, ?_⟩, ?_⟩
  · rintro rfl
    have hc : CurvePoint lineKnots 1 linePts v0 ⟨mean lineKnots 1 linePts 1 v0 Point.x, mean lineKnots 1 linePts 1 v0 Point.y,
        mean lineKnots 1 linePts 1 v0 Point.z⟩ := by
      have r0 : (0 : ℝ) ≤ v0 := by exact_mod_cast h0.le
      have r1 : (v0 : ℝ) ≤ 1 := by exact_mod_cast h1.le
      exact ⟨1, le_rfl, by simp [linePts], by simp [knotAt, lineKnots], by simpa [knotAt, lineKnots] using r0,
        by simpa [knotAt, lineKnots] using r1, rfl⟩
    rw [← line_point _ _ hc]; exact hc
  · intro h
    have := congrArg Point.x h
    simp only [real, Rat.cast_zero] at this
    have : v0 = 0 := by exact_mod_cast this
    exact h0.ne' this

/-- C97 fails for control points on a line: those on the z axis are accepted, reported to be plane, with a
normal along the line itself. -/
theorem C97_straight_wrong_normal (sqrt : ℚ → ℚ) (h : ℚ) : ∃ d',
    Nurbs.new.set sqrt 3 2 (some [0, 0, 1, 2, 2]) (some [0, 0, 0, 0, 0, h, 0, 0, 2 * h]) false 0 2 = .val (true, d') ∧
    d'.getNormal = (true, ⟨0, 0, 1⟩) := by
  have e : hasUniquePlane sqrt [⟨0, 0, 0⟩, ⟨0, 0, h⟩, ⟨0, 0, 2 * h⟩] = (true, ⟨0, 0, 1⟩) := by
    simp [hasUniquePlane, planeLoop, CalcNormalQ, CheckNormalQ, Point.sub]
  have hh : Nurbs.new.set sqrt 3 2 (some [0, 0, 1, 2, 2]) (some [0, 0, 0, 0, 0, h, 0, 0, 2 * h]) false 0 2 =
      .val (true, ⟨5, 3, some [0, 0, 1, 2, 2], some [0, 0, 0, 0, 0, h, 0, 0, 2 * h], 2, 1,
        (if (hasUniquePlane sqrt [⟨0, 0, 0⟩, ⟨0, 0, h⟩, ⟨0, 0, 2 * h⟩]).1 then 1 else 0), 0, 1, 0, 0, 2,
        (hasUniquePlane sqrt [⟨0, 0, 0⟩, ⟨0, 0, h⟩, ⟨0, 0, 2 * h⟩]).2⟩) := by
    unfold Nurbs.set
    simp only
    rw [if_neg (by norm_num), if_neg (by norm_num)]
    have a1 : arrGet [0, 0, 1, 2, 2] 0 = .val 0 := rfl
    have a2 : arrGet [0, 0, 1, 2, 2] (3 + 2 - 1) = .val 2 := rfl
    rw [a1, a2]
    simp only [Rd.val_bind]
    rw [if_neg (by norm_num), if_neg (by norm_num)]
    rfl
  exact ⟨_, hh, by rw [e]; rfl⟩

/-- C97 fails for a plane curve whose first three control points are on a line: it is reported not to be plane. -/
theorem C97_straight_not_found (sqrt : ℚ → ℚ) : ∃ d',
    Nurbs.new.set sqrt 4 2 (some [0, 0, 1, 2, 3, 3]) (some [0, 0, 0, 1, 0, 0, 2, 0, 0, 3, 0, 1]) false 0 3 = .val (true, d') ∧
    d'.getNormal = (false, ⟨0, 0, 1⟩) := by
  have e : hasUniquePlane sqrt [⟨0, 0, 0⟩, ⟨1, 0, 0⟩, ⟨2, 0, 0⟩, ⟨3, 0, 1⟩] = (false, ⟨0, 0, 1⟩) := by
    have n1 : CalcNormalQ sqrt ⟨0, 0, 0⟩ ⟨1, 0, 0⟩ ⟨2, 0, 0⟩ = ⟨0, 0, 1⟩ := by simp [CalcNormalQ, CheckNormalQ, Point.sub]
    have n2 : CalcNormalQ sqrt ⟨1, 0, 0⟩ ⟨2, 0, 0⟩ ⟨3, 0, 1⟩ = ⟨0, -1, 0⟩ := by
      simp only [CalcNormalQ, CheckNormalQ, Point.sub]; norm_num
    have m1 : PointMatchesQ sqrt ⟨0, 0, 1⟩ ⟨0, -1, 0⟩ (1 / 10 ^ 8) = false := by
      unfold PointMatchesQ; norm_num
    have m2 : PointMatchesQ sqrt ⟨0, 0, 1⟩ ((⟨0, -1, 0⟩ : Point ℚ).scale (-1)) (1 / 10 ^ 8) = false := by
      unfold PointMatchesQ Point.scale; norm_num
    simp only [hasUniquePlane, planeLoop, n1, n2, m1, m2, Bool.or_self, if_neg Bool.false_ne_true]
  have hh : Nurbs.new.set sqrt 4 2 (some [0, 0, 1, 2, 3, 3]) (some [0, 0, 0, 1, 0, 0, 2, 0, 0, 3, 0, 1]) false 0 3 =
      .val (true, ⟨6, 4, some [0, 0, 1, 2, 3, 3], some [0, 0, 0, 1, 0, 0, 2, 0, 0, 3, 0, 1], 3, 1,
        (if (hasUniquePlane sqrt [⟨0, 0, 0⟩, ⟨1, 0, 0⟩, ⟨2, 0, 0⟩, ⟨3, 0, 1⟩]).1 then 1 else 0), 0, 1, 0, 0, 3,
        (hasUniquePlane sqrt [⟨0, 0, 0⟩, ⟨1, 0, 0⟩, ⟨2, 0, 0⟩, ⟨3, 0, 1⟩]).2⟩) := by
    unfold Nurbs.set
    simp only
    rw [if_neg (by norm_num), if_neg (by norm_num)]
    have a1 : arrGet [0, 0, 1, 2, 3, 3] 0 = .val 0 := rfl
    have a2 : arrGet [0, 0, 1, 2, 3, 3] (4 + 2 - 1) = .val 3 := rfl
    rw [a1, a2]
    simp only [Rd.val_bind]
    rw [if_neg (by norm_num), if_neg (by norm_num)]
    rfl
  exact ⟨_, hh, by rw [e]; rfl⟩

/-- After a `SetNURBSData` on a new curve that was refused because of the parameter range, asking for the ends
reads through a NULL pointer. -/
theorem C97_refused_undefined (sqrt : ℚ → ℚ) : ∃ d',
    Nurbs.new.set sqrt 2 2 (some lineKnots) (some [0, 0, 0, 1, 0, 0]) false 1 1 = .val (false, d') ∧
    ∀ tx xform, d'.startPoint tx xform = .ub ∧ d'.endPoint tx xform = .ub := by
  refine ⟨⟨4, 2, none, none, 1, 1, 0, 0, 0, 0, 0, 0, ⟨0, 0, 0⟩⟩, ?_, fun tx xform => ⟨rfl, rfl⟩⟩
  unfold Nurbs.set
  simp only
  rw [if_neg (by norm_num), if_neg (by norm_num)]
  have a1 : arrGet lineKnots 0 = .val 0 := rfl
  have a2 : arrGet lineKnots (2 + 2 - 1) = .val 1 := rfl
  rw [a1, a2]
  simp only [Rd.val_bind]
  rw [if_pos (by norm_num)]
  rfl

/-! ### The hypotheses can be met -/

theorem NurbsCurve.goodSqrt : ∃ sqrt, GoodSqrt sqrt := by
  have : ∀ x : ℚ, ∃ y : ℚ, 0 < x → 0 < y ∧ |y * y - x| ≤ x / 10 ^ 9 := by
    intro x
    by_cases hx : 0 < x
    · have hxr : (0 : ℝ) < x := by exact_mod_cast hx
      have hlt : Real.sqrt x < Real.sqrt (x * (1 + 1 / 10 ^ 9)) := Real.sqrt_lt_sqrt hxr.le (by nlinarith)
      obtain ⟨y, h1, h2⟩ := exists_rat_btwn hlt
      have hy : (0 : ℝ) < y := lt_of_le_of_lt (Real.sqrt_nonneg _) h1
      have e1 : (x : ℝ) < y * y := by
        have := mul_self_lt_mul_self (Real.sqrt_nonneg _) h1
        rwa [Real.mul_self_sqrt hxr.le] at this
      have e2 : (y : ℝ) * y < x * (1 + 1 / 10 ^ 9) := by
        have := mul_self_lt_mul_self hy.le h2
        rwa [Real.mul_self_sqrt (by positivity)] at this
      have e1' : x < y * y := by exact_mod_cast e1
      have e2' : y * y < x * (1 + 1 / 10 ^ 9) := by
        have : ((y * y : ℚ) : ℝ) < ((x * (1 + 1 / 10 ^ 9) : ℚ) : ℝ) := by push_cast; exact e2
        exact_mod_cast this
      refine ⟨y, fun _ => ⟨by exact_mod_cast hy, ?_⟩⟩
      rw [abs_le]; constructor <;> linarith
    · exact ⟨0, fun h => absurd h hx⟩
  choose f hf using this
  exact ⟨f, fun x hx => hf x hx⟩

/-- The line meets the hypotheses of `C97_start` and `C97_end`. -/
example (sqrt : ℚ → ℚ) : ∃ d', Nurbs.new.set sqrt linePts.length (1 + 1) (some lineKnots)
      (some (ctrlArray (if false then 0 else 1) linePts)) false 0 1 = .val (true, d') ∧
    (∀ x ∈ linePts, 0 < x.2) ∧ KnotsOk lineKnots 1 linePts.length ∧ ClampedStart lineKnots 1 ∧
    ClampedEnd lineKnots 1 linePts.length ∧ ((0 : ℚ) : ℝ) = knotAt lineKnots 0 ∧ ((1 : ℚ) : ℝ) = knotAt lineKnots linePts.length := by
  refine ⟨_, line_set sqrt 0 le_rfl (by norm_num), by simp [linePts], line_knots, ⟨?_, by simp [knotAt, lineKnots]⟩,
    ⟨?_, by simp [knotAt, lineKnots, linePts]⟩, by simp [knotAt, lineKnots], by simp [knotAt, lineKnots, linePts]⟩
  · intro i hi
    interval_cases i <;> simp [knotAt, lineKnots]
  · intro i hi
    interval_cases i <;> simp [knotAt, lineKnots, linePts]

namespace NurbsCurve

/-- A quarter of a circle and a bit more, in a slanted plane. -/
def slantPts : List (Point ℚ × ℚ) := [(⟨0, 0, 0⟩, 1), (⟨1, 0, 1⟩, 1 / 2), (⟨1, 1, 1⟩, 1), (⟨2, 3, 2⟩, 2)]
def slantKnots : List ℚ := [0, 0, 0, 1, 2, 2, 2]

end NurbsCurve

/-- A rational curve of four control points in a slanted plane meets the hypotheses of `C97_plane_found`, and with
them those of `C97_plane_partial`. -/
example (sqrt : ℚ → ℚ) : (∃ d', Nurbs.new.set sqrt slantPts.length (2 + 1) (some slantKnots)
      (some (ctrlArray (if true then 0 else 1) slantPts)) true 0 2 = .val (true, d')) ∧
    (∀ x ∈ slantPts, 0 < x.2) ∧ KnotsOk slantKnots 2 slantPts.length ∧ 3 ≤ slantPts.length ∧ Bends (slantPts.map (·.1)) ∧
    (⟨1, 0, -1⟩ : Point ℚ) ≠ ⟨0, 0, 0⟩ ∧ ∀ x ∈ slantPts, (1 : ℚ) * x.1.x + 0 * x.1.y + (-1) * x.1.z = 0 := by
  refine ⟨?_, by simp [slantPts], ⟨rfl, by unfold slantKnots; norm_num⟩, by simp [slantPts], ?_, by simp, by simp [slantPts]⟩
  · have hh : ∃ q : Bool × Point ℚ, Nurbs.new.set sqrt slantPts.length (2 + 1) (some slantKnots)
        (some (ctrlArray (if true then 0 else 1) slantPts)) true 0 2 =
        .val (true, ⟨7, 4, some slantKnots, some (ctrlArray 0 slantPts), 3, 2, (if q.1 then 1 else 0), 0, 0, 0, 0, 2, q.2⟩) := by
      refine ⟨hasUniquePlane sqrt (slantPts.map (·.1)), ?_⟩
      unfold Nurbs.set
      simp only
      rw [if_neg (by norm_num), if_neg (by simp [slantPts])]
      have a1 : arrGet slantKnots 0 = .val 0 := rfl
      have a2 : arrGet slantKnots ((slantPts.length : Int) + (2 + 1) - 1) = .val 2 := rfl
      rw [a1, a2]
      simp only [Rd.val_bind]
      rw [if_neg (by norm_num), if_neg (by norm_num)]
      rfl
    obtain ⟨q, hq⟩ := hh
    exact ⟨_, hq⟩
  · simp only [slantPts, List.map, Bends]; norm_num

end Iges.Props
