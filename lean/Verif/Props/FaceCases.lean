import Verif.Props.FaceCurves
import Verif.Props.Board

/-! C70 for a whole face (`GetTrimmedPlane`), and the arcs whose curves go wrong. -/
namespace Iges.Props.Face
open Iges Iges.Geo Iges.Spec Iges.Props.Walls Iges.Props.Inside Real

theorem loop_parts {lo hi : Point ℝ} {h : ℝ} {rev : Bool} {l : List Seg} {o : List PlaneCurve × List Curve}
    (ho : loopCurves lo hi h rev l = some o) :
    (∀ x, (∃ c ∈ o.1, ∃ p, PlaneCurveOn c p ∧ x = faceAt (facePlane lo hi h rev) p) ↔
      ∃ s ∈ l, ∃ b, curveOnPlane lo.x hi.x lo.y rev s = some b ∧
        ∃ c ∈ b, ∃ p, PlaneCurveOn c p ∧ x = faceAt (facePlane lo hi h rev) p) ∧
    (∀ x, (∃ c ∈ o.2, CurveOn c x) ↔ ∃ s ∈ l, ∃ n, getCurves h s = some n ∧ ∃ c ∈ n, CurveOn c x) ∧
    ∀ s ∈ l, (∃ b, curveOnPlane lo.x hi.x lo.y rev s = some b) ∧ ∃ n, getCurves h s = some n := by
  induction l generalizing o with
  | nil =>
    simp only [loopCurves, Option.some.injEq] at ho
    subst ho
    simp
  | cons s l ih =>
    unfold loopCurves at ho
    cases hb : curveOnPlane lo.x hi.x lo.y rev s with
    | none => rw [hb] at ho; cases ho
    | some b =>
    cases hn : getCurves h s with
    | none => rw [hb, hn] at ho; cases ho
    | some n =>
    cases hr : loopCurves lo hi h rev l with
    | none => rw [hb, hn, hr] at ho; cases ho
    | some r =>
    rw [hb, hn, hr] at ho
    simp only [Option.bind_some, Option.map_some, Option.some.injEq] at ho
    subst ho
    obtain ⟨i1, i2, i3⟩ := ih hr
    refine ⟨fun x => ?_, fun x => ?_, ?_⟩
    · have := i1 x
      simp only [List.mem_append, or_and_right, exists_or, List.mem_cons, exists_eq_left, hb, Option.some.injEq] at this ⊢
      rw [this]
      simp
    · have := i2 x
      simp only [List.mem_append, or_and_right, exists_or, List.mem_cons, exists_eq_left, hn, Option.some.injEq] at this ⊢
      rw [this]
      simp
    · intro t ht
      rcases List.mem_cons.1 ht with rfl | ht
      · exact ⟨⟨b, hb⟩, n, hn⟩
      · exact i3 t ht

theorem loop_some {lo hi : Point ℝ} {h : ℝ} {rev : Bool} (l : List Seg) :
    (loopCurves lo hi h rev l).isSome ↔ ∀ s ∈ l, s.kind ≠ .none := by
  induction l with
  | nil => simp [loopCurves]
  | cons s l ih =>
    unfold loopCurves
    have e1 : (curveOnPlane lo.x hi.x lo.y rev s).isSome ↔ s.kind ≠ .none := by
      unfold curveOnPlane; cases s.kind <;> simp
    have e2 : (getCurves h s).isSome ↔ s.kind ≠ .none := by
      unfold getCurves; cases s.kind <;> simp
    simp only [List.mem_cons, forall_eq_or_imp]
    by_cases hk : s.kind = .none
    · have : curveOnPlane lo.x hi.x lo.y rev s = none := by unfold curveOnPlane; rw [hk]
      simp [this, hk]
    · obtain ⟨b, hb⟩ := Option.isSome_iff_exists.1 (e1.2 hk)
      obtain ⟨n, hn⟩ := Option.isSome_iff_exists.1 (e2.2 hk)
      simp [hb, hn, hk, ih]

/-- the loops of segments of the inner boundaries, in order -/
def loops (b : Board) : List (List Seg) := b.cutouts ++ b.holes.map fun s => [s]

theorem mapM_forall {α β : Type} {f : α → Option β} {l : List α} {m : List β} (h : l.mapM f = some m) :
    List.Forall₂ (fun a b => f a = some b) l m := by
  induction l generalizing m with
  | nil => simp at h; subst h; exact .nil
  | cons a l ih =>
    rw [List.mapM_cons] at h
    cases ha : f a with
    | none => simp [ha] at h
    | some b =>
      cases hl : l.mapM f with
      | none => simp [ha, hl] at h
      | some n =>
        simp [ha, hl] at h
        subst h
        exact .cons ha (ih hl)

theorem mapM_isSome {α β : Type} {f : α → Option β} (l : List α) : (l.mapM f).isSome ↔ ∀ a ∈ l, (f a).isSome := by
  induction l with
  | nil => simp
  | cons a l ih =>
    rw [List.mapM_cons]
    cases ha : f a with
    | none => simp [ha]
    | some b =>
      cases hl : l.mapM f with
      | none => rw [hl] at ih; simp [ha]; simpa using ih
      | some n => rw [hl] at ih; simp [ha]; simpa using ih

theorem trimmed_parts {b : Board} {h : ℝ} {rev : Bool} {f : Face} (hf : trimmedPlane b h rev = some f) :
    let x := calcBox b.outline.lo b.outline.hi b.outline.segs
    f.plane = facePlane x.1 x.2 h rev ∧ loopCurves x.1 x.2 h rev b.outline.segs = some f.outer ∧
      List.Forall₂ (fun l o => loopCurves x.1 x.2 h rev l = some o) (loops b) f.inner := by
  intro x
  unfold trimmedPlane at hf
  split at hf
  · cases hf
  split at hf
  · cases hf
  simp only at hf
  cases h1 : loopCurves x.1 x.2 h rev b.outline.segs with
  | none => rw [h1] at hf; cases hf
  | some o =>
  cases h2 : b.cutouts.mapM (loopCurves x.1 x.2 h rev) with
  | none => rw [h1, h2] at hf; cases hf
  | some c =>
  cases h3 : b.holes.mapM (fun s => loopCurves x.1 x.2 h rev [s]) with
  | none => rw [h1, h2, h3] at hf; cases hf
  | some d =>
  rw [h1, h2, h3] at hf
  simp only [Option.bind_some, Option.map_some, Option.some.injEq] at hf
  subst hf
  refine ⟨rfl, rfl, ?_⟩
  unfold loops
  refine List.rel_append (mapM_forall h2) ?_
  rw [List.forall₂_map_left_iff]
  exact mapM_forall h3

/-- C70. `GetTrimmedPlane` succeeds if and only if the outline is closed and has a segment and every segment of the outline,
the cutouts and the holes has a type. -/
theorem C70_face_made (b : Board) (h : ℝ) (rev : Bool) : (trimmedPlane b h rev).isSome ↔
    b.outline.closed = true ∧ b.outline.segs ≠ [] ∧
      ∀ s ∈ b.outline.segs ++ b.holes ++ b.cutouts.flatten, s.kind ≠ .none := by
  have e : (∀ s ∈ b.outline.segs ++ b.holes ++ b.cutouts.flatten, s.kind ≠ .none) ↔
      (∀ s ∈ b.outline.segs, s.kind ≠ .none) ∧ (∀ l ∈ b.cutouts, ∀ s ∈ l, s.kind ≠ .none) ∧
        ∀ s ∈ b.holes, s.kind ≠ .none := by
    simp only [List.mem_append, List.mem_flatten]
    constructor
    · intro h
      exact ⟨fun s hs => h s (Or.inl (Or.inl hs)), fun l hl s hs => h s (Or.inr ⟨l, hl, hs⟩), fun s hs => h s (Or.inl (Or.inr hs))⟩
    · rintro ⟨h1, h2, h3⟩ s ((hs | hs) | ⟨l, hl, hs⟩)
      · exact h1 s hs
      · exact h3 s hs
      · exact h2 l hl s hs
  rw [e]
  unfold trimmedPlane
  cases b.outline.closed
  · simp
  by_cases hn : b.outline.segs = []
  · simp [hn]
  simp only [hn, Bool.not_true, Bool.false_eq_true, if_false, ne_eq, not_false_eq_true, true_and]
  generalize calcBox b.outline.lo b.outline.hi b.outline.segs = x
  have o1 := loop_some (lo := x.1) (hi := x.2) (h := h) (rev := rev) b.outline.segs
  have o2 : (b.cutouts.mapM (loopCurves x.1 x.2 h rev)).isSome ↔ ∀ l ∈ b.cutouts, ∀ s ∈ l, s.kind ≠ .none := by
    rw [mapM_isSome]; simp only [loop_some]
  have o3 : (b.holes.mapM fun s => loopCurves x.1 x.2 h rev [s]).isSome ↔ ∀ s ∈ b.holes, s.kind ≠ .none := by
    rw [mapM_isSome]; simp only [loop_some, List.mem_singleton, forall_eq]
  rw [← o2, ← o3]
  simp only [← ne_eq]
  rw [← o1]
  cases loopCurves x.1 x.2 h rev b.outline.segs <;> cases b.cutouts.mapM (loopCurves x.1 x.2 h rev) <;>
    cases (b.holes.mapM fun s => loopCurves x.1 x.2 h rev [s]) <;> simp

theorem fits_union {α : Type} {ε : ℝ} {l : List α} {P Q : α → Point ℝ → Prop} {tol : α → ℝ}
    (h : ∀ a ∈ l, Fits (tol a) (P a) (Q a)) (h0 : ∀ a ∈ l, 0 ≤ tol a) (hε : ∀ a ∈ l, tol a ≤ ε) :
    Fits ε (fun x => ∃ a ∈ l, P a x) (fun x => ∃ a ∈ l, Q a x) := by
  have sq : ∀ a ∈ l, tol a ^ 2 ≤ ε ^ 2 := fun a ha => pow_le_pow_left₀ (h0 a ha) (hε a ha) 2
  constructor
  · rintro p ⟨a, ha, hp⟩
    obtain ⟨q, hq, hd⟩ := (h a ha).1 p hp
    exact ⟨q, ⟨a, ha, hq⟩, hd.trans (sq a ha)⟩
  · rintro q ⟨a, ha, hq⟩
    obtain ⟨p, hp, hd⟩ := (h a ha).2 q hq
    exact ⟨p, ⟨a, ha, hp⟩, hd.trans (sq a ha)⟩

theorem endTol_nonneg (s : Seg) : 0 ≤ endTol s := by
  unfold endTol
  split
  · exact le_max_of_le_left (by norm_num)
  · exact le_rfl

/-- what is asked of the segments of a board -/
def Fine (ε : ℝ) (s : Seg) : Prop :=
  Made s ∧ 0 < s.length ∧ (s.kind = .arc → s.cw = false → s.startAngle ≤ π) ∧ endTol s ≤ ε

theorem loop_fits {lo hi : Point ℝ} {h ε : ℝ} {rev : Bool} {l : List Seg} {o : List PlaneCurve × List Curve}
    (hw : 0 < hi.x - lo.x) (hs : hi.y - lo.y = hi.x - lo.x) (hm : ∀ s ∈ l, Fine ε s)
    (ho : loopCurves lo hi h rev l = some o) :
    Fits ε (fun x => ∃ c ∈ o.1, ∃ p, PlaneCurveOn c p ∧ x = faceAt (facePlane lo hi h rev) p)
      (AtHeight (fun p => ∃ s ∈ l, Covers s p) h) ∧
    Fits ε (fun x => ∃ c ∈ o.2, CurveOn c x) (AtHeight (fun p => ∃ s ∈ l, Covers s p) h) := by
  obtain ⟨p1, p2, p3⟩ := loop_parts ho
  have eh : AtHeight (fun p => ∃ s ∈ l, Covers s p) h = fun x => ∃ s ∈ l, AtHeight (Covers s) h x := by
    funext x
    unfold AtHeight
    apply propext
    constructor
    · rintro ⟨⟨s, hs, hc⟩, hz⟩; exact ⟨s, hs, hc, hz⟩
    · rintro ⟨s, hs, hc, hz⟩; exact ⟨⟨s, hs, hc⟩, hz⟩
  rw [eh]
  constructor
  · have e : (fun x => ∃ c ∈ o.1, ∃ p, PlaneCurveOn c p ∧ x = faceAt (facePlane lo hi h rev) p) = _ := funext fun x => propext (p1 x)
    rw [e]
    refine fits_union (tol := endTol) ?_ (fun s _ => endTol_nonneg s) (fun s hx => (hm s hx).2.2.2)
    intro s hx
    obtain ⟨b, hb⟩ := (p3 s hx).1
    have := C70_plane_fit (h := h) (hm s hx).1 hw hs hb
    convert this using 2
    simp [hb]
  · have e : (fun x => ∃ c ∈ o.2, CurveOn c x) = _ := funext fun x => propext (p2 x)
    rw [e]
    refine fits_union (tol := endTol) ?_ (fun s _ => endTol_nonneg s) (fun s hx => (hm s hx).2.2.2)
    intro s hx
    obtain ⟨n, hn⟩ := (p3 s hx).2
    have := C70_curves_fit_partial (hm s hx).1 (hm s hx).2.1 (hm s hx).2.2.1 hn
    convert this using 2
    simp [hn]

theorem adjust_square (lo hi : Point ℝ) :
    (adjustBox lo hi).2.y - (adjustBox lo hi).1.y = (adjustBox lo hi).2.x - (adjustBox lo hi).1.x := by
  unfold adjustBox
  simp only
  ring

theorem calc_square {lo hi : Point ℝ} {l : List Seg} (h : l ≠ []) :
    (calcBox lo hi l).2.y - (calcBox lo hi l).1.y = (calcBox lo hi l).2.x - (calcBox lo hi l).1.x := by
  cases l with
  | nil => exact absurd rfl h
  | cons s l => exact adjust_square _ _

/-- C70. The boundaries of a face: the curves of the outer boundary are the outline, and those of the inner boundaries are
the cutouts and then the holes, in order; both in space and, through the surface, in the parameter plane. -/
theorem C70_face_partial {b : Board} {h ε : ℝ} {rev : Bool} {f : Face} (hf : trimmedPlane b h rev = some f)
    (hw : (calcBox b.outline.lo b.outline.hi b.outline.segs).1.x < (calcBox b.outline.lo b.outline.hi b.outline.segs).2.x)
    (hm : ∀ s ∈ b.outline.segs ++ b.holes ++ b.cutouts.flatten, Made s ∧ 0 < s.length ∧
      (s.kind = .arc → s.cw = false → s.startAngle ≤ π) ∧ endTol s ≤ ε) :
    (Fits ε (fun x => ∃ c ∈ f.outer.1, ∃ p, PlaneCurveOn c p ∧ x = faceAt f.plane p)
        (AtHeight (fun p => ∃ s ∈ b.outline.segs, Covers s p) h) ∧
      Fits ε (fun x => ∃ c ∈ f.outer.2, CurveOn c x) (AtHeight (fun p => ∃ s ∈ b.outline.segs, Covers s p) h)) ∧
    List.Forall₂ (fun l o => Fits ε (fun x => ∃ c ∈ o.1, ∃ p, PlaneCurveOn c p ∧ x = faceAt f.plane p)
          (AtHeight (fun p => ∃ s ∈ l, Covers s p) h) ∧
        Fits ε (fun x => ∃ c ∈ o.2, CurveOn c x) (AtHeight (fun p => ∃ s ∈ l, Covers s p) h))
      (b.cutouts ++ b.holes.map fun s => [s]) f.inner := by
  have hne := ((C70_face_made b h rev).1 (by rw [hf]; rfl)).2.1
  obtain ⟨e1, e2, e3⟩ := trimmed_parts hf
  have hs := calc_square (lo := b.outline.lo) (hi := b.outline.hi) hne
  have hw' := sub_pos.2 hw
  rw [e1]
  refine ⟨loop_fits hw' hs (fun s hx => hm s (by simp [hx])) e2, ?_⟩
  have sub : ∀ l ∈ loops b, ∀ s ∈ l, Fine ε s := by
    intro l hl s hx
    refine hm s ?_
    unfold loops at hl
    simp only [List.mem_append, List.mem_map, List.mem_flatten] at hl ⊢
    rcases hl with hl | ⟨t, ht, rfl⟩
    · exact Or.inr ⟨l, hl, hx⟩
    · rw [List.mem_singleton] at hx
      subst hx
      exact Or.inl (Or.inr ht)
  unfold loops at sub e3
  clear hf hm
  generalize (b.cutouts ++ b.holes.map fun s => [s]) = L at e3 sub ⊢
  generalize f.inner = I at e3 ⊢
  induction e3 with
  | nil => exact .nil
  | cons ho _ ih =>
    exact .cons (loop_fits hw' hs (sub _ List.mem_cons_self) ho) (ih fun l hl => sub l (List.mem_cons_of_mem _ hl))

/-- what is left of the clockwise arc from the top to the left of the unit circle when it is split at the bottom, turned
round: the right half of the circle, from the bottom to the top, whose angles run from 3π/2 to 5π/2 -/
theorem ex_turned : ∃ s, Made s ∧ s.kind = .arc ∧ s.cw = false ∧ s.sang = 3 * π / 2 ∧ s.eang = 5 * π / 2 ∧
    s.center = pt 0 0 ∧ s.radius = 1 ∧ s.start = pt 0 (-1) ∧ s.stop = pt 0 1 := by
  obtain ⟨s, h, k, hr⟩ := ex_arc (x := 0) (y := 1) (u := -1) (v := 0) (by norm_num) (by norm_num) (by norm_num) true
  have hpi := pi_pos
  obtain ⟨-, -, -, -, -, hcen, -, e⟩ := setArc_cases h
  rcases e with ⟨e, -⟩ | ⟨-, -, hs, he, hcw, -, h1, h2⟩
  · rw [k] at e; cases e
  have e1 : s.sang = 5 * π / 2 := by
    rw [h1]
    simp only [pt, sub_zero]
    rw [atan2_up, atan2_back, if_pos ⟨trivial, by linarith⟩]; ring
  have e2 : s.eang = π := by
    rw [h2]
    simp only [pt, sub_zero]
    rw [if_neg (by simp), atan2_back]
  have m1 : PointMatches (pt 0 (-1)) s.start 1e-8 = false := by rw [hs]; apart
  have m2 : PointMatches (pt 0 (-1)) s.stop 1e-8 = false := by rw [he]; apart
  have hp1 : arcParam s (pt 0 (-1)) = 3 * π / 2 := by
    unfold arcParam Seg.startAngle
    rw [hcen, hcw, e2]
    simp only [pt, sub_zero, if_true]
    rw [atan2_down, if_pos (by linarith)]; ring
  have t1 : arcTakes s (pt 0 (-1)) := by
    refine ⟨?_, ?_⟩
    · unfold onCircle
      rw [hcen, hr]
      norm_num [pt]
    · rw [hp1]
      unfold Seg.endAngle
      rw [hcw, e1]
      simp
      linarith
  have sp1 : s.split [pt 0 (-1)] = some ({ s with stop := pt 0 (-1), eang := 3 * π / 2 },
      [subArc s (pt 0 (-1)) s.stop (3 * π / 2) s.eang]) := by
    unfold Seg.split
    simp only [k, List.filter_cons, m1, m2, List.filter_nil]
    simp only [Bool.or_self, Bool.not_false, if_true, splitArc, hp1, if_pos t1]
    simp [k]
  have made : Made { s with stop := pt 0 (-1), eang := 3 * π / 2 } := by
    refine .split (.arc h) sp1 ?_ List.mem_cons_self
    intro p hp
    rw [List.mem_singleton.1 hp]
    refine ⟨rfl, ?_⟩
    unfold Facing Seg.startAngle Seg.endAngle
    rw [k, hcw, e1, e2, hcen]
    refine ⟨3 * π / 2, 1, by simp; linarith, by simp; linarith, one_pos, ?_⟩
    unfold polar
    rw [show 3 * π / 2 = -(π / 2) + 2 * π by ring, Real.cos_add_two_pi, Real.sin_add_two_pi]
    simp [pt]
  refine ⟨_, made.reverse, ?_⟩
  unfold Seg.reverse
  simp only [k, hcw]
  exact ⟨trivial, rfl, trivial, e1, hcen, hr, trivial, hs⟩

/-- C70. An arc that runs counterclockwise and starts at an angle greater than half a turn, as splitting a clockwise arc and
turning a piece round leaves it: the curves in space go round the whole circle, while those in the parameter plane are
the arc. -/
theorem C70_curves_wrong : ∃ s l, Made s ∧ 0 < s.length ∧ getCurves 0 s = some l ∧
    ¬ Fits 1 (fun x => ∃ c ∈ l, CurveOn c x) (AtHeight (Covers s) 0) ∧
    ∀ lo hi rev b, 0 < hi.x - lo.x → hi.y - lo.y = hi.x - lo.x → curveOnPlane lo.x hi.x lo.y rev s = some b →
      Fits (1e-8) (fun x => ∃ c ∈ b, ∃ p, PlaneCurveOn c p ∧ x = faceAt (facePlane lo hi 0 rev) p) (AtHeight (Covers s) 0) := by
  obtain ⟨s, hm, hk, hcw, h1, h2, hc, hr, hs, he⟩ := ex_turned
  have hp := pi_pos
  have g1 : s.startAngle = 3 * π / 2 := by unfold Seg.startAngle; rw [hcw]; exact h1
  have g2 : s.endAngle = 5 * π / 2 := by unfold Seg.endAngle; rw [hcw]; exact h2
  refine ⟨s, curveArc 0 s, hm, ?_, ?_, ?_, ?_⟩
  · unfold Seg.length
    rw [hk, hr, g1, g2]
    simp only
    linarith
  · unfold getCurves; rw [hk]
  · rintro ⟨hf, -⟩
    have el : curveArc 0 s = [.arc ⟨0, 0, 0, 0, -1, 1, 0, none⟩, .arc ⟨0, 0, 0, 1, 0, -1, 0, none⟩,
        .arc ⟨0, 0, 0, -1, 0, 0, 1, none⟩] := by
      unfold curveArc
      rw [hcw, hc, hr, hs, he, h1, h2]
      simp only [Bool.false_eq_true, if_false]
      unfold arcStops
      simp only [pt]
      rw [if_neg (by intro h; linarith [h.2]), if_neg (by intro h; linarith), if_neg (by linarith), if_neg (by linarith)]
      simp [arcsThrough]
    have hon : CurveOn (.arc ⟨0, 0, 0, 1, 0, -1, 0, none⟩) ⟨-1, 0, 0⟩ := by
      have := (arc_up (c := pt 0 0) (p := pt 1 0) (q := pt (-1) 0) (ρ := 1) (ρ' := 1) (a := 0) (b := π) (h := 0)
        (by unfold polar; simp [pt]) (by unfold polar; simp [pt]) one_pos one_pos hp (by linarith) ⟨-1, 0, 0⟩).2
        ⟨π, hp.le, le_rfl, by unfold polar lift; simp [pt]⟩
      exact this
    obtain ⟨q, ⟨hq, hz⟩, hd⟩ := hf ⟨-1, 0, 0⟩ ⟨_, by rw [el]; simp, hon⟩
    rw [covers_arc hk, g1, g2, hc, hr] at hq
    obtain ⟨t, t1, t2, e⟩ := hq
    have hx := congrArg Point.x e
    simp only [polar, pt, one_mul, zero_add] at hx
    have hy := congrArg Point.y e
    simp only [polar, pt, one_mul, zero_add] at hy
    have := Real.cos_nonneg_of_mem_Icc (x := t - 2 * π) ⟨by linarith, by linarith⟩
    rw [Real.cos_sub_two_pi] at this
    unfold dist2 at hd
    rw [hx, hy] at hd
    have h3 := Real.sin_sq_add_cos_sq t
    simp only at hd
    nlinarith [sq_nonneg (0 - q.z)]
  · intro lo hi rev b hw hsq hb
    have := C70_plane_fit (h := 0) hm hw hsq hb
    rw [endTol_arc hk, hr] at this
    have e : slack 1 = 1e-8 := by unfold slack; norm_num
    rw [e] at this
    exact this

theorem fold_wide (l : List Seg) (b : Point ℝ × Point ℝ) (h : b.1.x < b.2.x) :
    (l.foldl (fun b t => joinBox b.1 b.2 (boxOr t b.1 b.2)) b).1.x < (l.foldl (fun b t => joinBox b.1 b.2 (boxOr t b.1 b.2)) b).2.x := by
  induction l generalizing b with
  | nil => exact h
  | cons s l ih =>
    refine ih _ ?_
    unfold joinBox
    simp only
    split_ifs <;> linarith

theorem calc_wide {lo hi : Point ℝ} {s : Seg} {l : List Seg} (h : (boxOr s lo hi).1.x < (boxOr s lo hi).2.x) :
    (calcBox lo hi (s :: l)).1.x < (calcBox lo hi (s :: l)).2.x := by
  have hw := fold_wide l _ h
  unfold calcBox
  simp only
  generalize l.foldl (fun b t => joinBox b.1 b.2 (boxOr t b.1 b.2)) (boxOr s lo hi) = b at hw ⊢
  unfold adjustBox
  simp only
  have h1 : ⌊b.1.x⌋ < ⌈b.2.x⌉ := by
    have a1 := Int.floor_le b.1.x
    have a2 := Int.le_ceil b.2.x
    have : (⌊b.1.x⌋ : ℝ) < ⌈b.2.x⌉ := by linarith
    exact_mod_cast this
  have h2 : 0 < max (if (⌈b.2.x⌉ - ⌊b.1.x⌋) % 2 ≠ 0 then ⌈b.2.x⌉ - ⌊b.1.x⌋ + 1 else ⌈b.2.x⌉ - ⌊b.1.x⌋)
      (if (⌈b.2.y⌉ - ⌊b.1.y⌋) % 2 ≠ 0 then ⌈b.2.y⌉ - ⌊b.1.y⌋ + 1 else ⌈b.2.y⌉ - ⌊b.1.y⌋) := by
    refine lt_max_of_lt_left ?_
    split_ifs <;> omega
  have h3 : (0 : ℝ) < ((max (if (⌈b.2.x⌉ - ⌊b.1.x⌋) % 2 ≠ 0 then ⌈b.2.x⌉ - ⌊b.1.x⌋ + 1 else ⌈b.2.x⌉ - ⌊b.1.x⌋)
      (if (⌈b.2.y⌉ - ⌊b.1.y⌋) % 2 ≠ 0 then ⌈b.2.y⌉ - ⌊b.1.y⌋ + 1 else ⌈b.2.y⌉ - ⌊b.1.y⌋) : ℤ) : ℝ) := by exact_mod_cast h2
  linarith

/-- C70. The condition on the start angle holds for every arc set by `SetParams`, and for what is left when such an arc, if
it runs counterclockwise, is turned round and back. -/
theorem C70_set_arc {c a b : Point ℝ} {cw : Bool} {s : Seg} (h : setArc c a b cw = (s, true)) (hk : s.kind = .arc)
    (hcw : s.cw = false) : s.startAngle ≤ π ∧ s.reverse.reverse.startAngle ≤ π := by
  obtain ⟨-, -, -, -, -, -, -, h'⟩ := setArc_cases h
  rcases h' with ⟨h', -⟩ | ⟨-, -, -, -, e, -, h4, -⟩
  · rw [hk] at h'; cases h'
  rw [hcw] at e
  subst e
  rw [if_neg (by simp)] at h4
  have e1 : s.startAngle ≤ π := by
    unfold Seg.startAngle; rw [hcw]; simp only [Bool.false_eq_true, if_false]; rw [h4]; exact atan2_le _ _
  refine ⟨e1, ?_⟩
  unfold Seg.reverse
  simp only [hk]
  unfold Seg.startAngle at e1 ⊢
  simpa [hcw] using e1

/-- C70: an arc that runs counterclockwise through three quarters of the circle, and a clockwise one. -/
example : ∀ cw, ∃ s l, Made s ∧ s.kind = .arc ∧ s.cw = cw ∧ 0 < s.length ∧ (s.kind = .arc → s.cw = false → s.startAngle ≤ π) ∧
    getCurves 3 s = some l := by
  intro cw
  obtain ⟨s, hs, hk, hr⟩ := ex_arc (x := 1) (y := 0) (u := 0) (v := -1) (by norm_num) (by norm_num) (by norm_num) cw
  have hp := Real.pi_pos
  obtain ⟨-, -, -, -, -, e1, e2, h'⟩ := setArc_cases hs
  rcases h' with ⟨h', -⟩ | ⟨-, hab, h1, h2, h3, -, h4, h5⟩
  · rw [hk] at h'; cases h'
  have a1 : atan2 ((pt 0 (-1)).y - (pt 0 0).y) ((pt 0 (-1)).x - (pt 0 0).x) = -(π / 2) := by
    simpa [pt] using atan2_down
  have a2 : atan2 ((pt 1 0).y - (pt 0 0).y) ((pt 1 0).x - (pt 0 0).x) = 0 := by
    simpa [pt] using atan2_fwd
  rw [a1, a2] at h4 h5
  refine ⟨s, curveArc 3 s, .arc hs, hk, h3, ?_, fun _ hc => (C70_set_arc hs hk hc).1, by unfold getCurves; rw [hk]⟩
  unfold Seg.length Seg.endAngle Seg.startAngle
  rw [hk, hr, h3]
  cases cw
  · rw [if_neg (by simp)] at h4
    rw [if_pos ⟨rfl, by linarith⟩] at h5
    simp only [Bool.false_eq_true, if_false]
    rw [h4, h5]; linarith
  · rw [if_neg (by intro h; linarith [h.2])] at h4
    rw [if_neg (by simp)] at h5
    simp only [if_true]
    rw [h4, h5]; linarith

/-- C70: the square board with a hole: the hypotheses of `C70_face_partial` hold and the face is made. -/
example : ∃ (b : Board) (f : Face), trimmedPlane b 0.8 true = some f ∧
    (calcBox b.outline.lo b.outline.hi b.outline.segs).1.x < (calcBox b.outline.lo b.outline.hi b.outline.segs).2.x ∧
    b.holes ≠ [] ∧
    ∀ s ∈ b.outline.segs ++ b.holes ++ b.cutouts.flatten, Made s ∧ 0 < s.length ∧
      (s.kind = .arc → s.cw = false → s.startAngle ≤ π) ∧ endTol s ≤ 0 := by
  obtain ⟨b, r, t, l, o, -, hm, hc, hs, -, -, -, -, b1, b2, r1, r2, t1, t2, l1, l2⟩ := ex_square
  obtain ⟨h, hh, kh, ch, rh⟩ := ex_circle (x := 1) (r := 1 / 2) (by norm_num) (by norm_num)
  have all : ∀ s ∈ o.segs ++ [h] ++ ([] : List (List Seg)).flatten, Made s ∧ 0 < s.length ∧
      (s.kind = .arc → s.cw = false → s.startAngle ≤ π) ∧ endTol s ≤ 0 ∧ s.kind ≠ .none := by
    intro s hx
    simp only [hs, List.flatten_nil, List.append_nil, List.mem_append, List.mem_singleton] at hx
    rcases hx with hx | rfl
    · obtain ⟨m1, m2⟩ := hm s hx
      refine ⟨m1, ?_, by rw [m2]; simp, (endTol_line m2).le, by rw [m2]; simp⟩
      unfold Seg.length
      rw [m2]
      simp only [List.mem_cons, List.not_mem_nil, or_false] at hx
      rcases hx with rfl | rfl | rfl | rfl <;> simp only [b1, b2, r1, r2, t1, t2, l1, l2, hyp, pt] <;>
        apply Real.sqrt_pos.2 <;> norm_num
    · refine ⟨.arc hh, ?_, by rw [kh]; simp, (endTol_circle kh).le, by rw [kh]; simp⟩
      unfold Seg.length
      rw [kh, rh]
      have := Real.pi_pos
      simp only
      positivity
  have hsome := (C70_face_made ⟨o, [h], []⟩ 0.8 true).2 ⟨hc, by simp [hs], fun s hx => (all s hx).2.2.2.2⟩
  obtain ⟨f, hf⟩ := Option.isSome_iff_exists.1 hsome
  refine ⟨⟨o, [h], []⟩, f, hf, ?_, by simp, fun s hx => ⟨(all s hx).1, (all s hx).2.1, (all s hx).2.2.1, (all s hx).2.2.2.1⟩⟩
  simp only [hs]
  apply calc_wide
  unfold boxOr Seg.box
  rw [(hm b (by simp)).2, b1, b2]
  norm_num [pt, endBox]

end Iges.Props.Face
