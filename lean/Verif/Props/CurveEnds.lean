import Verif.Model.CurveEnds
import Verif.Spec.CurveEnds
import Mathlib.Tactic.NormNum
import Mathlib.Tactic.Linarith
import Mathlib.Tactic.Positivity
import Mathlib.Tactic.Ring
/-
C98: ends of curves, with and without transform, and closed curves.
-/
namespace Iges.Props

open Spec Ends

namespace CurveEnds

theorem matches_iff (sqrt : ℚ → ℚ) {p q : Point ℚ} {res : ℚ} (hp : Moderate p) (hq : Moderate q) (hr : 1 / 10 ^ 15 ≤ res) :
    PointMatchesQ sqrt p q res = true ↔ sqDist p q ≤ 3.0001 * res ^ 2 := by
  have np : |p.x * p.x + p.y * p.y + p.z * p.z| ≤ 10 ^ 15 := by
    rw [abs_of_nonneg (add_nonneg (add_nonneg (mul_self_nonneg _) (mul_self_nonneg _)) (mul_self_nonneg _))]; exact hp
  have nq : |q.x * q.x + q.y * q.y + q.z * q.z| ≤ 10 ^ 15 := by
    rw [abs_of_nonneg (add_nonneg (add_nonneg (mul_self_nonneg _) (mul_self_nonneg _)) (mul_self_nonneg _))]; exact hq
  have hbig : ¬ (|p.x * p.x + p.y * p.y + p.z * p.z| > 10 ^ 15 ∨ |q.x * q.x + q.y * q.y + q.z * q.z| > 10 ^ 15) := by
    rw [not_or]; exact ⟨not_lt.mpr np, not_lt.mpr nq⟩
  have hr2 : ¬ res * (3.0001 * res) < 3 / 10 ^ 30 := by
    have : (1 / 10 ^ 15 : ℚ) * (1 / 10 ^ 15) ≤ res * res := mul_self_le_mul_self (by norm_num) hr
    norm_num at this ⊢
    linarith
  unfold PointMatchesQ sqDist
  simp only [if_neg hbig, if_neg hr2]
  have e : res * (3.0001 * res) = 3.0001 * res ^ 2 := by ring
  rw [e]
  split
  · rename_i h; constructor
    · intro h'; cases h'
    · intro h'; exact absurd h (not_lt.mpr h')
  · rename_i h; exact ⟨fun _ => not_lt.mp h, fun _ => rfl⟩

/-- The matrix, if there is one. -/
def move (tx : Option (Transform ℚ)) (p : Point ℚ) : Point ℚ :=
  match tx with
  | some m => m.act p
  | none => p

theorem withTransform_true (tx : Option (Transform ℚ)) (p : Point ℚ) : withTransform tx true p = move tx p := by
  unfold withTransform move; cases tx <;> rfl

theorem withTransform_false (tx : Option (Transform ℚ)) (p : Point ℚ) : withTransform tx false p = p := rfl

theorem nurbs_start (d : Nurbs) (tx : Option (Transform ℚ)) :
    d.startPoint tx true = d.startPoint tx false >>= fun p => pure (move tx p) := by
  unfold Nurbs.startPoint
  split
  · rfl
  · cases h : d.pointAt 0 with
    | val p => simp only [Rd.val_bind, withTransform_true]; rfl
    | fail => rfl
    | ub => rfl
    | exn => rfl

theorem nurbs_end (d : Nurbs) (tx : Option (Transform ℚ)) :
    d.endPoint tx true = d.endPoint tx false >>= fun p => pure (move tx p) := by
  unfold Nurbs.endPoint
  split
  · rfl
  · cases h : d.pointAt (if d.PROP3 = 0 then (d.nCoeffs - 1) * 4 else (d.nCoeffs - 1) * 3) with
    | val p => simp only [Rd.val_bind, withTransform_true]; rfl
    | fail => rfl
    | ub => rfl
    | exn => rfl

end CurveEnds

open CurveEnds

/-- C98: the ends of an arc, conic, line or NURBS curve with its transform are those without it, moved by the
transform; without a transform they are the same. -/
theorem C98_simple (c : Curve) :
    c.startPoint true = c.startPoint false >>= (fun p => pure (match c.tx with | some m => m.act p | none => p)) ∧
    c.endPoint true = c.endPoint false >>= (fun p => pure (match c.tx with | some m => m.act p | none => p)) := by
  obtain ⟨dat, tx⟩ := c
  cases dat with
  | arc a => exact ⟨congrArg Rd.val (withTransform_true _ _), congrArg Rd.val (withTransform_true _ _)⟩
  | conic a => exact ⟨congrArg Rd.val (withTransform_true _ _), congrArg Rd.val (withTransform_true _ _)⟩
  | line a => exact ⟨congrArg Rd.val (withTransform_true _ _), congrArg Rd.val (withTransform_true _ _)⟩
  | nurbs d => exact ⟨nurbs_start d tx, nurbs_end d tx⟩

/-- C98: the ends without transform are where the data of the curve put them: an arc starts and ends at its height, at
distances from its centre that agree to within twice the resolution if the arc was accepted by `Arc.check`. -/
theorem C98_ends (tx : Option (Transform ℚ)) :
    (∀ l : Line, (Curve.mk (.line l) tx).startPoint false = .val ⟨l.X1, l.Y1, l.Z1⟩ ∧
      (Curve.mk (.line l) tx).endPoint false = .val ⟨l.X2, l.Y2, l.Z2⟩) ∧
    (∀ k : Conic, (Curve.mk (.conic k) tx).startPoint false = .val ⟨k.X1, k.Y1, k.ZT⟩ ∧
      (Curve.mk (.conic k) tx).endPoint false = .val ⟨k.X2, k.Y2, k.ZT⟩) ∧
    (∀ (E : PdEnv) (a : Arc), a.check E = true → ∃ p q, (Curve.mk (.arc a) tx).startPoint false = .val p ∧
      (Curve.mk (.arc a) tx).endPoint false = .val q ∧ (p.x, p.y) = (a.xStart, a.yStart) ∧ (q.x, q.y) = (a.xEnd, a.yEnd) ∧
      p.z = a.zOffset ∧ q.z = a.zOffset ∧
      |sqDist ⟨a.xCenter, a.yCenter, a.zOffset⟩ q - sqDist ⟨a.xCenter, a.yCenter, a.zOffset⟩ p| ≤ 2 * E.res) := by
  refine ⟨fun l => ⟨rfl, rfl⟩, fun k => ⟨rfl, rfl⟩, fun E a h => ⟨_, _, rfl, rfl, rfl, rfl, rfl, rfl, ?_⟩⟩
  unfold Arc.check at h
  simp only at h
  split at h
  · cases h
  · split at h
    · cases h
    · rename_i hc
      refine le_trans (le_of_eq ?_) (not_lt.mp hc)
      simp only [sqDist, withTransform_false]
      congr 1; ring

/-- C98: changing the unit of the model - of the curve and of the shift of its transform - moves its ends by the factor
of the units. -/
theorem C98_rescale (sf : ℚ) (tx : Option (Transform ℚ)) (xform : Bool) (c c' : Simple)
    (h : (∃ a, c = .arc a ∧ c' = .arc (a.rescale sf)) ∨ (∃ k, c = .conic k ∧ c' = .conic (k.rescale sf)) ∨
      (∃ l, c = .line l ∧ c' = .line (l.rescale sf))) :
    (Curve.mk c' (tx.map fun m => ⟨m.R, m.T.scale sf⟩)).startPoint xform =
      (Curve.mk c tx).startPoint xform >>= (fun p => pure (p.scale sf)) ∧
    (Curve.mk c' (tx.map fun m => ⟨m.R, m.T.scale sf⟩)).endPoint xform =
      (Curve.mk c tx).endPoint xform >>= (fun p => pure (p.scale sf)) := by
  have key : ∀ p : Point ℚ, withTransform (tx.map fun m => ⟨m.R, m.T.scale sf⟩) xform (p.scale sf) =
      (withTransform tx xform p).scale sf := by
    intro p
    unfold withTransform
    cases xform
    · rfl
    · cases tx with
      | none => rfl
      | some m =>
        simp only [if_true, Option.map_some, Transform.act, Mat.act, Point.add, Point.scale, Point.mk.injEq]
        exact ⟨by ring, by ring, by ring⟩
  have hs : ∀ x y z : ℚ, withTransform (tx.map fun m => ⟨m.R, m.T.scale sf⟩) xform ⟨x * sf, y * sf, z * sf⟩ =
      (withTransform tx xform ⟨x, y, z⟩).scale sf := by
    intro x y z
    rw [← key]
    simp only [Point.scale]
  rcases h with ⟨a, rfl, rfl⟩ | ⟨a, rfl, rfl⟩ | ⟨a, rfl, rfl⟩ <;>
    exact ⟨congrArg Rd.val (hs _ _ _), congrArg Rd.val (hs _ _ _)⟩

/-- C98: the ends of a composite curve with its transform are where the first and the last segment, each with its own
transform, start and end, moved by the transform of the composite curve. -/
theorem C98_composite (k : Compo) (f l : Curve) (hf : k.segs.head? = some f) (hl : k.segs.getLast? = some l) :
    k.startPoint true = f.startPoint true >>= (fun p => pure (match k.tx with | some m => m.act p | none => p)) ∧
    k.endPoint true = l.endPoint true >>= (fun p => pure (match k.tx with | some m => m.act p | none => p)) := by
  unfold Compo.startPoint Compo.endPoint
  simp only [hf, hl, withTransform_true]
  exact ⟨rfl, rfl⟩

/-- C98, in part: asking a composite curve for its ends without its transform leaves out only that transform, if the
segments have none of their own. -/
theorem C98_composite_partial (k : Compo) (h : ∀ c ∈ k.segs, c.tx = none) :
    k.startPoint true = k.startPoint false >>= (fun p => pure (match k.tx with | some m => m.act p | none => p)) ∧
    k.endPoint true = k.endPoint false >>= (fun p => pure (match k.tx with | some m => m.act p | none => p)) := by
  have key : ∀ r : Rd (Point ℚ), (r >>= fun p => pure (move k.tx p)) =
      (r >>= fun p => pure (withTransform k.tx false p)) >>= fun p => pure (move k.tx p) := by
    intro r; cases r <;> rfl
  have id' : ∀ r : Rd (Point ℚ), (r >>= fun p => pure p) = r := by intro r; cases r <;> rfl
  constructor
  · unfold Compo.startPoint
    cases hh : k.segs.head? with
    | none => rfl
    | some c =>
      have hc := h c (List.mem_of_mem_head? hh)
      have e := (C98_simple c).1
      rw [hc] at e
      rw [id'] at e
      simp only [e, withTransform_true]
      exact key _
  · unfold Compo.endPoint
    cases hh : k.segs.getLast? with
    | none => rfl
    | some c =>
      have hc := h c (List.mem_of_mem_getLast? hh)
      have e := (C98_simple c).2
      rw [hc] at e
      rw [id'] at e
      simp only [e, withTransform_true]
      exact key _

/-- C98 fails for segments with transforms of their own: a composite curve without a transform, of a line that is
moved by `t`, starts in different places with and without `xform`. -/
theorem C98_own_transform (t : ℚ) (ht : t ≠ 0) :
    (Compo.mk [⟨.line ⟨0, 0, 0, 1, 0, 0⟩, some ⟨Mat.one, ⟨t, 0, 0⟩⟩⟩] none).startPoint true = .val ⟨t, 0, 0⟩ ∧
    (Compo.mk [⟨.line ⟨0, 0, 0, 1, 0, 0⟩, some ⟨Mat.one, ⟨t, 0, 0⟩⟩⟩] none).startPoint false = .val ⟨0, 0, 0⟩ ∧
    (⟨t, 0, 0⟩ : Point ℚ) ≠ ⟨0, 0, 0⟩ := by
  refine ⟨?_, rfl, by simpa using ht⟩
  simp [Compo.startPoint, Curve.startPoint, withTransform, Transform.act, Mat.act, Mat.one, Point.add, pure]

/-- C98: a composite curve of two or more segments is reported to be closed exactly if its ends, as reported, meet to
within the resolution (the exact bound is `√3.0001` of it), for any transform that keeps distances. -/
theorem C98_closed (sqrt : ℚ → ℚ) (res : ℚ) (hr : 1 / 10 ^ 15 ≤ res) (k : Compo) (f l : Curve) (p1 p2 s e : Point ℚ)
    (hn : 2 ≤ k.segs.length) (hf : k.segs.head? = some f) (hl : k.segs.getLast? = some l)
    (h1 : f.startPoint true = .val p1) (h2 : l.endPoint true = .val p2) (m1 : Moderate p1) (m2 : Moderate p2)
    (htx : ∀ m, k.tx = some m → Rigid m) (hs : k.startPoint true = .val s) (he : k.endPoint true = .val e)
    (hseg : ∃ c ∈ k.segs, 0 < c.nSegments) :
    k.isClosed sqrt res = .val (decide (sqDist s e ≤ 3.0001 * res ^ 2)) := by
  have hd : sqDist s e = sqDist p1 p2 := by
    obtain ⟨a, b⟩ := C98_composite k f l hf hl
    rw [hs, h1] at a
    rw [he, h2] at b
    cases htx' : k.tx with
    | none =>
      rw [htx'] at a b
      cases a; cases b; rfl
    | some m =>
      rw [htx'] at a b
      cases a; cases b
      exact htx m htx' p1 p2
  unfold Compo.isClosed
  simp only [hf, hl, h1, h2]
  rw [if_neg (fun h => by omega), if_pos (by
    obtain ⟨c, hc, hp⟩ := hseg
    exact List.any_eq_true.mpr ⟨c, hc, by simpa using hp⟩)]
  rw [hd]
  congr 1
  rw [Bool.eq_iff_iff, matches_iff sqrt m1 m2 hr, decide_eq_true_iff]

/-- C98: an arc is reported to be closed exactly if its ends meet and its radius is not zero, to within the
resolution. -/
theorem C98_arc_closed (sqrt : ℚ → ℚ) (res : ℚ) (hr : 1 / 10 ^ 15 ≤ res) (a : Arc) (tx : Option (Transform ℚ))
    (m0 : Moderate ⟨a.xCenter, a.yCenter, 0⟩) (m1 : Moderate ⟨a.xStart, a.yStart, 0⟩) (m2 : Moderate ⟨a.xEnd, a.yEnd, 0⟩) :
    Curve.isClosed sqrt res ⟨.arc a, tx⟩ = true ↔
      3.0001 * res ^ 2 < sqDist ⟨a.xCenter, a.yCenter, 0⟩ ⟨a.xStart, a.yStart, 0⟩ ∧
      sqDist ⟨a.xStart, a.yStart, 0⟩ ⟨a.xEnd, a.yEnd, 0⟩ ≤ 3.0001 * res ^ 2 := by
  unfold Curve.isClosed
  simp only
  rw [← matches_iff sqrt m1 m2 hr, ← not_le, ← matches_iff sqrt m0 m1 hr]
  split <;> simp_all

/-- C98: a composite curve of one arc that is closed is closed. -/
theorem C98_one_arc (sqrt : ℚ → ℚ) (res : ℚ) (hr : 1 / 10 ^ 15 ≤ res) (a : Arc) (tx ktx : Option (Transform ℚ))
    (p1 p2 : Point ℚ) (htx : ∀ m, tx = some m → Rigid m)
    (h1 : (Curve.mk (.arc a) tx).startPoint true = .val p1) (h2 : (Curve.mk (.arc a) tx).endPoint true = .val p2)
    (m1 : Moderate p1) (m2 : Moderate p2) (n1 : Moderate ⟨a.xStart, a.yStart, 0⟩) (n2 : Moderate ⟨a.xEnd, a.yEnd, 0⟩)
    (h : Curve.isClosed sqrt res ⟨.arc a, tx⟩ = true) :
    Compo.isClosed sqrt res ⟨[⟨.arc a, tx⟩], ktx⟩ = .val true := by
  have hend : sqDist ⟨a.xStart, a.yStart, 0⟩ ⟨a.xEnd, a.yEnd, 0⟩ ≤ 3.0001 * res ^ 2 := by
    rw [← matches_iff sqrt n1 n2 hr]
    unfold Curve.isClosed at h
    simp only at h
    split at h
    · cases h
    · exact h
  have hd : sqDist p1 p2 = sqDist ⟨a.xStart, a.yStart, 0⟩ ⟨a.xEnd, a.yEnd, 0⟩ := by
    have e0 : sqDist ⟨a.xStart, a.yStart, a.zOffset⟩ ⟨a.xEnd, a.yEnd, a.zOffset⟩ =
        sqDist ⟨a.xStart, a.yStart, 0⟩ ⟨a.xEnd, a.yEnd, 0⟩ := by unfold sqDist; ring
    rw [← e0]
    cases tx with
    | none => cases h1; cases h2; rfl
    | some m => cases h1; cases h2; exact htx m rfl _ _
  unfold Compo.isClosed
  simp only [List.head?_cons, List.getLast?_singleton, h1, h2]
  rw [if_neg (by simp [Curve.etype]), if_pos (by simp [Curve.nSegments])]
  rw [(matches_iff sqrt m1 m2 hr).mpr (hd ▸ hend)]

/-- C98 fails for other segments: an ellipse that is closed - and says so - makes a composite curve that is
not; so does every curve but an arc. -/
theorem C98_one_other (sqrt : ℚ → ℚ) (res : ℚ) (c : Curve) (ktx : Option (Transform ℚ)) (h : c.etype ≠ 100) :
    Compo.isClosed sqrt res ⟨[c], ktx⟩ = .val false := by
  unfold Compo.isClosed
  simp only [List.head?_cons, List.getLast?_singleton]
  rw [if_pos ⟨rfl, h⟩]

/-- C98: an ellipse is closed exactly if its ends are equal; a hyperbola, a parabola and a line never are. -/
theorem C98_conic (sqrt : ℚ → ℚ) (res : ℚ) (k : Conic) (tx : Option (Transform ℚ)) :
    (Curve.isClosed sqrt res ⟨.conic k, tx⟩ = true ↔ k.getForm = 1 ∧
      (Curve.mk (.conic k) tx).startPoint false = (Curve.mk (.conic k) tx).endPoint false) ∧
    ∀ l, Curve.isClosed sqrt res ⟨.line l, tx⟩ = false := by
  refine ⟨?_, fun l => rfl⟩
  unfold Curve.isClosed Curve.startPoint Curve.endPoint
  simp only [withTransform_false, Rd.val.injEq, Point.mk.injEq, and_true]
  split <;> simp_all

/-- The closed ellipse `x²/4 + y² = 1` from and to (2, 0). -/
example (sqrt : ℚ → ℚ) (res : ℚ) : Curve.isClosed sqrt res ⟨.conic ⟨1 / 4, 0, 1, 0, 0, -1, 0, 2, 0, 2, 0⟩, none⟩ = true ∧
    Compo.isClosed sqrt res ⟨[⟨.conic ⟨1 / 4, 0, 1, 0, 0, -1, 0, 2, 0, 2, 0⟩, none⟩], none⟩ = .val false := by
  refine ⟨?_, C98_one_other _ _ _ _ (by simp [Curve.etype])⟩
  simp only [Curve.isClosed, Conic.getForm]
  norm_num

/-- A half circle and its diameter, moved as a whole, meet the hypotheses of `C98_closed`. -/
example : ∃ (k : Compo) (f l : Curve) (p1 p2 s e : Point ℚ) (m : Transform ℚ), 2 ≤ k.segs.length ∧
    k.segs.head? = some f ∧ k.segs.getLast? = some l ∧
    f.startPoint true = .val p1 ∧ l.endPoint true = .val p2 ∧ Moderate p1 ∧ Moderate p2 ∧ k.tx = some m ∧ Rigid m ∧
    k.startPoint true = .val s ∧ k.endPoint true = .val e ∧ (∃ c ∈ k.segs, 0 < c.nSegments) ∧ sqDist s e ≤ 3.0001 * (1 / 1000) ^ 2 := by
  refine ⟨⟨[⟨.arc ⟨0, 0, 0, 1, 0, -1, 0⟩, none⟩, ⟨.line ⟨-1, 0, 0, 1, 0, 0⟩, none⟩], some ⟨⟨0, -1, 0, 1, 0, 0, 0, 0, 1⟩, ⟨5, 6, 7⟩⟩⟩,
    _, _, ⟨1, 0, 0⟩, ⟨1, 0, 0⟩, ⟨5, 7, 7⟩, ⟨5, 7, 7⟩, ⟨⟨0, -1, 0, 1, 0, 0, 0, 0, 1⟩, ⟨5, 6, 7⟩⟩, by simp, rfl, rfl, rfl, rfl, ?_, ?_, rfl, ?_, ?_, ?_, ?_, ?_⟩
  · norm_num [Moderate]
  · norm_num [Moderate]
  · intro p q
    simp only [sqDist, Transform.act, Mat.act, Point.add]; ring
  · simp only [Compo.startPoint, List.head?_cons, Curve.startPoint, withTransform, Rd.val_bind, Transform.act, Mat.act, Point.add]
    norm_num [pure]
  · simp only [Compo.endPoint, List.getLast?_cons_cons, List.getLast?_singleton, Curve.endPoint, withTransform, Rd.val_bind, Transform.act, Mat.act, Point.add]
    norm_num [pure]
  · exact ⟨_, List.mem_cons_self, by simp [Curve.nSegments]⟩
  · norm_num [sqDist]

/-- A full circle of radius 1 meets the hypotheses of `C98_arc_closed` and `C98_one_arc`. -/
example (sqrt : ℚ → ℚ) : Curve.isClosed sqrt (1 / 1000) ⟨.arc ⟨0, 0, 0, 1, 0, 1, 0⟩, none⟩ = true ∧
    Moderate ⟨0, 0, 0⟩ ∧ Moderate ⟨1, 0, 0⟩ := by
  have a : Moderate ⟨0, 0, 0⟩ := by norm_num [Moderate]
  have b : Moderate ⟨1, 0, 0⟩ := by norm_num [Moderate]
  exact ⟨(C98_arc_closed sqrt _ (by norm_num) ⟨0, 0, 0, 1, 0, 1, 0⟩ none a b b).mpr (by norm_num [sqDist]), a, b⟩

end Iges.Props
