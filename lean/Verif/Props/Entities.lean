import Verif.Lemmas.EntityBody
import Mathlib.Tactic.LinearCombination
/-
C29, C37-C40: entities with a fixed number of parameters.
-/
namespace Iges.Props
open Iges

/-- The four numbers that decide whether an arc survives: the centre, start and end point. -/
def Arc.coords (a : Arc) : List ℚ := [a.zOffset, a.xCenter, a.yCenter, a.xStart, a.yStart, a.xEnd, a.yEnd]

/-- Squared distance of the start point from the centre. -/
def Arc.startSq (a : Arc) : ℚ := (a.xStart - a.xCenter) ^ 2 + (a.yStart - a.yCenter) ^ 2
/-- Squared distance of the end point from the centre. -/
def Arc.endSq (a : Arc) : ℚ := (a.xEnd - a.xCenter) ^ 2 + (a.yEnd - a.yCenter) ^ 2

/-- The same values in the same roles. -/
structure ArcNear (res : ℚ) (a b : Arc) : Prop where
  z : Spec.Near res a.zOffset b.zOffset
  xc : Spec.Near res a.xCenter b.xCenter
  yc : Spec.Near res a.yCenter b.yCenter
  xs : Spec.Near res a.xStart b.xStart
  ys : Spec.Near res a.yStart b.yStart
  xe : Spec.Near res a.xEnd b.xEnd
  ye : Spec.Near res a.yEnd b.yEnd

theorem big_ok {x M : ℚ} (h : |x| ≤ M) (hM : M ≤ 10 ^ 7) : |x| ≤ 10 ^ (300 : ℤ) := by
  refine h.trans (hM.trans ?_)
  have : (10 : ℚ) ^ (7 : ℤ) ≤ 10 ^ (300 : ℤ) := zpow_le_zpow_right₀ (by norm_num) (by norm_num)
  exact le_trans (by norm_num) this

theorem near_err {res M x y : ℚ} (h : Spec.Near res x y) (hx : |x| ≤ M) :
    |y - x| ≤ Spec.coordErr res M := by
  unfold Spec.coordErr
  rcases lt_or_ge |x| (1 / 10 ^ 8) with hs | hs
  · rw [h.1 hs]
    rw [zero_sub, abs_neg]
    exact le_max_of_le_right hs.le
  · refine (h.2.1 hs).trans (le_max_of_le_left (max_le_max (le_refl _) ?_))
    exact div_le_div_of_nonneg_right hx (by norm_num)

theorem realItems_ok {r : ℚ} (hr : 0 < r) {xs : List ℚ} (h : ∀ x ∈ xs, |x| ≤ 10 ^ (300 : ℤ)) :
    ∀ it ∈ xs.map (Item.real · r), it.Ok := by
  intro it hit
  obtain ⟨x, hx, rfl⟩ := List.mem_map.mp hit
  exact ⟨hr, h x hx⟩

theorem realItems_cost (r : ℚ) (xs : List ℚ) : ((xs.map (Item.real · r)).map Item.cost).sum = 2 * xs.length := by
  induction xs with
  | nil => rfl
  | cons a l ih => simp only [List.map_cons, List.sum_cons, ih, Item.cost, List.length_cons]; omega

/-- The cycle of an entity whose parameters after the leading integers are reals of one resolution. -/
theorem realCycle {E : PdEnv} {de i0 etype : Int} {pre : List Int} {r : ℚ} {xs : List ℚ} {ex : List ExtraRef}
    {α : Type} {R : α → Prop} {body : Src → Cur → Rd (α × Cur)} (hset : Setting E de i0 ex (2 * xs.length))
    (het : 100 ≤ etype ∧ etype ≤ 999) (hpre : ∀ n ∈ pre, 0 ≤ n ∧ n < 10 ^ 10) (hl : pre.length ≤ 4) (hr : 0 < r)
    (hne : xs ≠ []) (hb : ∀ x ∈ xs, |x| ≤ 10 ^ (300 : ℤ))
    (hbody : ∀ T s c rest, SrcOf E s →
      Ready T s c (pre.map Param.int ++ (xs.map (fun x => Param.real (realText E.est r x)) ++ rest)) →
      Reads T s rest R (body s c)) :
    Spec.PdCycle (2 * xs.length + 2 * ex.length + 4) de i0 (formatPD E de (etype :: pre) (realGroups E.pd (E.last ex) r xs) ex [] 9999999 i0)
      (fun a b ls => readPDWith E etype de a b ls body)
      (fun q => R q.1 ∧ q.2.1 = secA ex ++ secB ex ∧ q.2.2 = []) := by
  refine pdCycle hset.env (items := xs.map (Item.real · r)) hset.de het ?_ ?_ (realItems_ok hr hb)
    (realGroups_ok _ _ hr xs hb) (realGroups_flatten _ _ _ _) hset.extras ⟨hset.first, ?_⟩ hset.room ?_ ?_
  · have := preText_length E.pd (etype :: pre) 10 (by norm_num) (by
      intro n hn
      rcases List.mem_cons.mp hn with rfl | hn
      · constructor <;> omega
      · exact hpre n hn)
    simp only [List.length_cons] at this
    omega
  · simpa using hne
  · have := hset.room; omega
  · rw [realItems_cost]
  · intro T s c rest hs h
    refine hbody T s c rest hs ?_
    simpa only [List.map_map, Function.comp_def, Item.param] using h

theorem sqErr {u v M e : ℚ} (hu : |u| ≤ 2 * M) (hv : |v - u| ≤ 2 * e) (he : 0 ≤ e) :
    |v ^ 2 - u ^ 2| ≤ 8 * M * e + 4 * e ^ 2 := by
  have h1 : v ^ 2 - u ^ 2 = (v - u) * (2 * u + (v - u)) := by ring
  rw [h1, abs_mul]
  have h2 : |2 * u + (v - u)| ≤ 4 * M + 2 * e := by
    refine (abs_add_le _ _).trans ?_
    rw [abs_mul, abs_of_pos (by norm_num : (0 : ℚ) < 2)]
    linarith
  calc |v - u| * |2 * u + (v - u)| ≤ (2 * e) * (4 * M + 2 * e) := mul_le_mul hv h2 (abs_nonneg _) (by linarith)
    _ = 8 * M * e + 4 * e ^ 2 := by ring

theorem diffErr {x y x' y' e : ℚ} (hx : |x' - x| ≤ e) (hy : |y' - y| ≤ e) : |(x' - y') - (x - y)| ≤ 2 * e := by
  have : (x' - y') - (x - y) = (x' - x) - (y' - y) := by ring
  rw [this]
  refine (abs_sub _ _).trans ?_
  linarith

theorem diffBound {x y M : ℚ} (hx : |x| ≤ M) (hy : |y| ≤ M) : |x - y| ≤ 2 * M := (abs_sub _ _).trans (by linarith)

theorem pointMatches_far {sqrt : ℚ → ℚ} {b : Arc} {res : ℚ} (sm2 : b.xCenter * b.xCenter ≤ 2 * 10 ^ 14)
    (sm3 : b.yCenter * b.yCenter ≤ 2 * 10 ^ 14) (sm4 : b.xStart * b.xStart ≤ 2 * 10 ^ 14)
    (sm5 : b.yStart * b.yStart ≤ 2 * 10 ^ 14) (hst : 13 * res ^ 2 + 1 / 10 ^ 29 < Arc.startSq b) :
    PointMatchesQ sqrt ⟨b.xCenter, b.yCenter, 0⟩ ⟨b.xStart, b.yStart, 0⟩ (2 * res) = false := by
  unfold PointMatchesQ
  have hnb : ¬ (|b.xCenter * b.xCenter + b.yCenter * b.yCenter + 0 * 0| > 10 ^ 15 ∨
      |b.xStart * b.xStart + b.yStart * b.yStart + 0 * 0| > 10 ^ 15) := by
    have n1 := mul_self_nonneg b.xCenter
    have n2 := mul_self_nonneg b.yCenter
    have n3 := mul_self_nonneg b.xStart
    have n4 := mul_self_nonneg b.yStart
    rw [abs_of_nonneg (by linarith), abs_of_nonneg (by linarith)]
    push Not
    constructor <;> linarith
  simp only [if_neg hnb]
  have f3 : (b.xStart - b.xCenter) * (b.xStart - b.xCenter) + (b.yStart - b.yCenter) * (b.yStart - b.yCenter) + (0 - 0) * (0 - 0) = Arc.startSq b := by
    unfold Arc.startSq; ring
  rw [f3]
  have r0 : (0 : ℚ) ≤ res ^ 2 := sq_nonneg _
  have f4 : 2 * res * (3.0001 * (2 * res)) = 12.0004 * res ^ 2 := by ring
  have f5 : (3 / 10 ^ 30 : ℚ) < 1 / 10 ^ 29 := by norm_num
  have f6 : (12.0004 : ℚ) * res ^ 2 ≤ 13 * res ^ 2 := mul_le_mul_of_nonneg_right (by norm_num) r0
  rw [f4]
  have hgt : (if 12.0004 * res ^ 2 < 3 / 10 ^ 30 then (3 / 10 ^ 30 : ℚ) else 12.0004 * res ^ 2) < Arc.startSq b := by
    generalize res ^ 2 = t at *
    split
    · linarith
    · have : (0 : ℚ) < 1 / 10 ^ 29 := by norm_num
      linarith
  simp [hgt]

theorem arc_check {E : PdEnv} (hres : 0 < E.res) {rr : ℚ} (hrr : rr ≤ 501 / 500 * E.res) {a b : Arc} {M : ℚ} (hM : M ≤ 10 ^ 7)
    (hb : ∀ x ∈ Arc.coords a, |x| ≤ M)
    (hrad : |Arc.endSq a - Arc.startSq a| + (32 * M * Spec.coordErr E.res M + 16 * Spec.coordErr E.res M ^ 2) ≤ 2 * rr)
    (hmin : rr + 13 * rr ^ 2 + 1 / 10 ^ 29 < Arc.startSq a) (h : ArcNear E.res a b) :
    b.check { E with res := rr } = true := by
  simp only [Arc.coords, List.mem_cons, List.not_mem_nil, or_false, forall_eq_or_imp, forall_eq] at hb
  obtain ⟨_, b2, b3, b4, b5, b6, b7⟩ := hb
  have hM0 : 0 ≤ M := (abs_nonneg _).trans b2
  have e2 := near_err h.xc b2
  have e3 := near_err h.yc b3
  have e4 := near_err h.xs b4
  have e5 := near_err h.ys b5
  have e6 := near_err h.xe b6
  have e7 := near_err h.ye b7
  have her : E.res / 1000 ≤ Spec.coordErr E.res M := le_max_of_le_left (le_max_left _ _)
  have he0 : 0 ≤ Spec.coordErr E.res M := by refine le_trans ?_ her; positivity
  generalize Spec.coordErr E.res M = e at *
  have q1 := sqErr (diffBound b4 b2) (diffErr e4 e2) he0
  have q2 := sqErr (diffBound b5 b3) (diffErr e5 e3) he0
  have q3 := sqErr (diffBound b6 b2) (diffErr e6 e2) he0
  have q4 := sqErr (diffBound b7 b3) (diffErr e7 e3) he0
  have hMe : 0 ≤ M * e := mul_nonneg hM0 he0
  have habs := abs_nonneg (Arc.endSq a - Arc.startSq a)
  have he1 : e ≤ 126 := by
    by_contra hc
    push Not at hc
    have : 126 * e ≤ e ^ 2 := by rw [sq]; exact mul_le_mul_of_nonneg_right hc.le he0
    linarith
  have small : ∀ x y : ℚ, |x| ≤ M → |y - x| ≤ e → y * y ≤ 2 * 10 ^ 14 := by
    intro x y hx hy
    have h1 : |y| ≤ 10 ^ 7 + 126 := by
      have : y = x + (y - x) := by ring
      rw [this]
      exact (abs_add_le _ _).trans (by linarith)
    rw [← abs_mul_abs_self]
    calc |y| * |y| ≤ (10 ^ 7 + 126) * (10 ^ 7 + 126) := mul_le_mul h1 h1 (abs_nonneg _) (by norm_num)
      _ ≤ _ := by norm_num
  have sm2 := small _ _ b2 e2
  have sm3 := small _ _ b3 e3
  have sm4 := small _ _ b4 e4
  have sm5 := small _ _ b5 e5
  rw [abs_le] at q1 q2 q3 q4
  have hd1 : Arc.startSq b - Arc.startSq a ≤ 16 * M * e + 8 * e ^ 2 ∧ -(16 * M * e + 8 * e ^ 2) ≤ Arc.startSq b - Arc.startSq a := by
    unfold Arc.startSq; constructor <;> linarith
  have hd2 : Arc.endSq b - Arc.endSq a ≤ 16 * M * e + 8 * e ^ 2 ∧ -(16 * M * e + 8 * e ^ 2) ≤ Arc.endSq b - Arc.endSq a := by
    unfold Arc.endSq; constructor <;> linarith
  unfold Arc.check
  have f1 : (b.xStart - b.xCenter) * (b.xStart - b.xCenter) + (b.yStart - b.yCenter) * (b.yStart - b.yCenter) = Arc.startSq b := by
    unfold Arc.startSq; ring
  have f2 : (b.xEnd - b.xCenter) * (b.xEnd - b.xCenter) + (b.yEnd - b.yCenter) * (b.yEnd - b.yCenter) = Arc.endSq b := by
    unfold Arc.endSq; ring
  have hlast : |Arc.endSq b - Arc.startSq b| ≤ 2 * rr := by
    obtain ⟨l1, l2⟩ := abs_le.mp (le_refl |Arc.endSq a - Arc.startSq a|)
    rw [abs_le]
    constructor <;> linarith
  have hst : 13 * rr ^ 2 + 1 / 10 ^ 29 < Arc.startSq b := by linarith
  simp only [f1, f2]
  rw [if_neg, if_neg (not_lt.mpr hlast)]
  simp [pointMatches_far (sqrt := E.sqrt) sm2 sm3 sm4 sm5 hst]

/-- C29, circular arcs: the parameters are written and read back with the same values in the same
roles, if the arc keeps some distance from the consistency checks of the reader: the squared radii
agree up to `2 rr - (32 M e + 16 e²)`, where `M` bounds the coordinates and `e` their deviation, and
the radius is larger than the resolution.  The reader's resolution `rr`, itself read from the file, may differ
from the writer's.  Missing: `C29_arc_refused` shows that the reader refuses
some arcs with exactly equal radii. -/
theorem C29_arc_partial (E : PdEnv) (de i0 : Int) (a : Arc) (xs : List ExtraRef) (rr M : ℚ)
    (hset : Setting E de i0 xs 14) (hrr : rr ≤ 501 / 500 * E.res) (hM : M ≤ 10 ^ 7) (hb : ∀ x ∈ Arc.coords a, |x| ≤ M)
    (hrad : |Arc.endSq a - Arc.startSq a| + (32 * M * Spec.coordErr E.res M + 16 * Spec.coordErr E.res M ^ 2) ≤ 2 * rr)
    (hmin : rr + 13 * rr ^ 2 + 1 / 10 ^ 29 < Arc.startSq a) :
    Spec.PdCycle (14 + 2 * xs.length + 4) de i0 (a.format E de xs [] i0) (Arc.readPD { E with res := rr } de)
      (fun r => ArcNear E.res a r.1 ∧ r.2.1 = secA xs ++ secB xs ∧ r.2.2 = []) := by
  have hr := hset.env.res
  have hb' : ∀ x ∈ Arc.coords a, |x| ≤ 10 ^ (300 : ℤ) := fun x hx => big_ok (hb x hx) hM
  refine pdCycle_bind (realCycle (R := ArcNear E.res a) (body := Arc.readParams) (xs := Arc.coords a) hset (by decide)
    (by simp) (by simp) hr (by simp [Arc.coords]) hb' ?_) ?_
  · intro T s c rest hs h
    simp only [Arc.coords, List.mem_cons, List.not_mem_nil, or_false, forall_eq_or_imp, forall_eq] at hb'
    obtain ⟨b1, b2, b3, b4, b5, b6, b7⟩ := hb'
    refine Reads.real hset.env hs h hr b1 fun y1 c n1 h => ?_
    refine Reads.real hset.env hs h hr b2 fun y2 c n2 h => ?_
    refine Reads.real hset.env hs h hr b3 fun y3 c n3 h => ?_
    refine Reads.real hset.env hs h hr b4 fun y4 c n4 h => ?_
    refine Reads.real hset.env hs h hr b5 fun y5 c n5 h => ?_
    refine Reads.real hset.env hs h hr b6 fun y6 c n6 h => ?_
    refine Reads.real hset.env hs h hr b7 fun y7 c n7 h => ?_
    exact Reads.ret h ⟨n1, n2, n3, n4, n5, n6, n7⟩
  · rintro r ⟨h1, h2⟩
    refine ⟨r, ?_, h1, h2⟩
    rw [Rd.need_true (arc_check hr hrr hM hb hrad hmin h1)]
    rfl

/-- C29, lines. -/
theorem C29_line (E : PdEnv) (de i0 : Int) (l : Line) (xs : List ExtraRef) (hset : Setting E de i0 xs 12)
    (hb : ∀ x ∈ [l.X1, l.Y1, l.Z1, l.X2, l.Y2, l.Z2], |x| ≤ 10 ^ (300 : ℤ)) :
    Spec.PdCycle (12 + 2 * xs.length + 4) de i0 (l.format E de xs [] i0) (Line.readPD E de)
      (fun r => (Spec.Near E.res l.X1 r.1.X1 ∧ Spec.Near E.res l.Y1 r.1.Y1 ∧ Spec.Near E.res l.Z1 r.1.Z1 ∧
        Spec.Near E.res l.X2 r.1.X2 ∧ Spec.Near E.res l.Y2 r.1.Y2 ∧ Spec.Near E.res l.Z2 r.1.Z2) ∧
        r.2.1 = secA xs ++ secB xs ∧ r.2.2 = []) := by
  have hr := hset.env.res
  refine realCycle (R := fun b : Line => Spec.Near E.res l.X1 b.X1 ∧ Spec.Near E.res l.Y1 b.Y1 ∧
    Spec.Near E.res l.Z1 b.Z1 ∧ Spec.Near E.res l.X2 b.X2 ∧ Spec.Near E.res l.Y2 b.Y2 ∧ Spec.Near E.res l.Z2 b.Z2)
    (xs := [l.X1, l.Y1, l.Z1, l.X2, l.Y2, l.Z2]) hset (by decide) (by simp) (by simp) hr (by simp) hb ?_
  intro T s c rest hs h
  simp only [List.mem_cons, List.not_mem_nil, or_false, forall_eq_or_imp, forall_eq] at hb
  obtain ⟨b1, b2, b3, b4, b5, b6⟩ := hb
  refine Reads.real hset.env hs h hr b1 fun y1 c n1 h => ?_
  refine Reads.real hset.env hs h hr b2 fun y2 c n2 h => ?_
  refine Reads.real hset.env hs h hr b3 fun y3 c n3 h => ?_
  refine Reads.real hset.env hs h hr b4 fun y4 c n4 h => ?_
  refine Reads.real hset.env hs h hr b5 fun y5 c n5 h => ?_
  refine Reads.real hset.env hs h hr b6 fun y6 c n6 h => ?_
  exact Reads.ret h ⟨n1, n2, n3, n4, n5, n6⟩

/-- The same values in the same roles. -/
def ConicNear (k b : Conic) : Prop :=
      Spec.Near (1 / 10 ^ 10) k.A b.A ∧
      Spec.Near (1 / 10 ^ 10) k.B b.B ∧
      Spec.Near (1 / 10 ^ 10) k.C b.C ∧
      Spec.Near (1 / 10 ^ 10) k.D b.D ∧
      Spec.Near (1 / 10 ^ 10) k.E b.E ∧
      Spec.Near (1 / 10 ^ 10) k.F b.F ∧
      Spec.Near (1 / 10 ^ 10) k.ZT b.ZT ∧
      Spec.Near (1 / 10 ^ 10) k.X1 b.X1 ∧
      Spec.Near (1 / 10 ^ 10) k.Y1 b.Y1 ∧
      Spec.Near (1 / 10 ^ 10) k.X2 b.X2 ∧
      Spec.Near (1 / 10 ^ 10) k.Y2 b.Y2

/-- C29, conics: all eleven numbers, written with the resolution `1e-10`. -/
theorem C29_conic (E : PdEnv) (de i0 : Int) (k : Conic) (xs : List ExtraRef) (hset : Setting E de i0 xs 22)
    (hb : ∀ x ∈ [k.A, k.B, k.C, k.D, k.E, k.F, k.ZT, k.X1, k.Y1, k.X2, k.Y2], |x| ≤ 10 ^ (300 : ℤ)) :
    Spec.PdCycle (22 + 2 * xs.length + 4) de i0 (k.format E de xs [] i0) (Conic.readPD E de)
      (fun r => ConicNear k r.1 ∧ r.2.1 = secA xs ++ secB xs ∧ r.2.2 = []) := by
  have hr : (0 : ℚ) < (1 / 10 ^ 10) := by norm_num
  refine realCycle (R := ConicNear k) (body := Conic.readParams) (xs := [k.A, k.B, k.C, k.D, k.E, k.F, k.ZT, k.X1, k.Y1, k.X2, k.Y2]) hset (by decide) (by simp) (by simp) hr (by simp) hb ?_
  intro T s c rest hs h
  simp only [List.mem_cons, List.not_mem_nil, or_false, forall_eq_or_imp, forall_eq] at hb
  obtain ⟨b0, b1, b2, b3, b4, b5, b6, b7, b8, b9, b10⟩ := hb
  refine Reads.real hset.env hs h hr b0 fun y0 c n0 h => ?_
  refine Reads.real hset.env hs h hr b1 fun y1 c n1 h => ?_
  refine Reads.real hset.env hs h hr b2 fun y2 c n2 h => ?_
  refine Reads.real hset.env hs h hr b3 fun y3 c n3 h => ?_
  refine Reads.real hset.env hs h hr b4 fun y4 c n4 h => ?_
  refine Reads.real hset.env hs h hr b5 fun y5 c n5 h => ?_
  refine Reads.real hset.env hs h hr b6 fun y6 c n6 h => ?_
  refine Reads.real hset.env hs h hr b7 fun y7 c n7 h => ?_
  refine Reads.real hset.env hs h hr b8 fun y8 c n8 h => ?_
  refine Reads.real hset.env hs h hr b9 fun y9 c n9 h => ?_
  refine Reads.real hset.env hs h hr b10 fun y10 c n10 h => ?_
  exact Reads.ret h ⟨n0, n1, n2, n3, n4, n5, n6, n7, n8, n9, n10⟩

/-- The same values in the same roles. -/
def TxNear (res : ℚ) (t b : Transform ℚ) : Prop :=
      Spec.Near res t.R.v00 b.R.v00 ∧
      Spec.Near res t.R.v01 b.R.v01 ∧
      Spec.Near res t.R.v02 b.R.v02 ∧
      Spec.Near res t.T.x b.T.x ∧
      Spec.Near res t.R.v10 b.R.v10 ∧
      Spec.Near res t.R.v11 b.R.v11 ∧
      Spec.Near res t.R.v12 b.R.v12 ∧
      Spec.Near res t.T.y b.T.y ∧
      Spec.Near res t.R.v20 b.R.v20 ∧
      Spec.Near res t.R.v21 b.R.v21 ∧
      Spec.Near res t.R.v22 b.R.v22 ∧
      Spec.Near res t.T.z b.T.z

/-- C29, transformation matrices: rows of the matrix with the component of the translation. -/
theorem C29_transform (E : PdEnv) (de i0 : Int) (t : Transform ℚ) (xs : List ExtraRef) (hset : Setting E de i0 xs 24)
    (hb : ∀ x ∈ [t.R.v00, t.R.v01, t.R.v02, t.T.x, t.R.v10, t.R.v11, t.R.v12, t.T.y, t.R.v20, t.R.v21, t.R.v22, t.T.z], |x| ≤ 10 ^ (300 : ℤ)) :
    Spec.PdCycle (24 + 2 * xs.length + 4) de i0 (txFormat E de t xs [] i0) (txReadPD E de)
      (fun r => TxNear E.res t r.1 ∧ r.2.1 = secA xs ++ secB xs ∧ r.2.2 = []) := by
  have hr : (0 : ℚ) < E.res := hset.env.res
  refine realCycle (R := TxNear E.res t) (body := txReadParams) (xs := [t.R.v00, t.R.v01, t.R.v02, t.T.x, t.R.v10, t.R.v11, t.R.v12, t.T.y, t.R.v20, t.R.v21, t.R.v22, t.T.z]) hset (by decide) (by simp) (by simp) hr (by simp) hb ?_
  intro T s c rest hs h
  simp only [List.mem_cons, List.not_mem_nil, or_false, forall_eq_or_imp, forall_eq] at hb
  obtain ⟨b0, b1, b2, b3, b4, b5, b6, b7, b8, b9, b10, b11⟩ := hb
  refine Reads.real hset.env hs h hr b0 fun y0 c n0 h => ?_
  refine Reads.real hset.env hs h hr b1 fun y1 c n1 h => ?_
  refine Reads.real hset.env hs h hr b2 fun y2 c n2 h => ?_
  refine Reads.real hset.env hs h hr b3 fun y3 c n3 h => ?_
  refine Reads.real hset.env hs h hr b4 fun y4 c n4 h => ?_
  refine Reads.real hset.env hs h hr b5 fun y5 c n5 h => ?_
  refine Reads.real hset.env hs h hr b6 fun y6 c n6 h => ?_
  refine Reads.real hset.env hs h hr b7 fun y7 c n7 h => ?_
  refine Reads.real hset.env hs h hr b8 fun y8 c n8 h => ?_
  refine Reads.real hset.env hs h hr b9 fun y9 c n9 h => ?_
  refine Reads.real hset.env hs h hr b10 fun y10 c n10 h => ?_
  refine Reads.real hset.env hs h hr b11 fun y11 c n11 h => ?_
  exact Reads.ret h ⟨n0, n1, n2, n3, n4, n5, n6, n7, n8, n9, n10, n11⟩

/-- The same values in the same roles. -/
def RevolutionNear (k b : Revolution) : Prop :=
      b.L = k.L ∧
      b.C = k.C ∧
      Spec.Near (1 / 10 ^ 15) k.SA b.SA ∧
      Spec.Near (1 / 10 ^ 15) k.TA b.TA

/-- C29, surfaces of revolution: the two pointers exactly, the angles to 15 digits. -/
theorem C29_revolution (E : PdEnv) (de i0 : Int) (k : Revolution) (xs : List ExtraRef) (hset : Setting E de i0 xs 4)
    (hL : 1 ≤ k.L ∧ k.L ≤ 9999997) (hC : 1 ≤ k.C ∧ k.C ≤ 9999997)
    (hb : ∀ x ∈ [k.SA, k.TA], |x| ≤ 10 ^ (300 : ℤ)) :
    Spec.PdCycle (4 + 2 * xs.length + 4) de i0 (k.format E de xs [] i0) (Revolution.readPD E de)
      (fun r => RevolutionNear k r.1 ∧ r.2.1 = secA xs ++ secB xs ∧ r.2.2 = []) := by
  have hr : (0 : ℚ) < (1 / 10 ^ 15) := by norm_num
  refine realCycle (R := RevolutionNear k) (body := Revolution.readParams) (xs := [k.SA, k.TA]) hset (by decide) (by simp; omega) (by simp) hr (by simp) hb ?_
  intro T s c rest hs h
  simp only [List.mem_cons, List.not_mem_nil, or_false, forall_eq_or_imp, forall_eq] at hb
  obtain ⟨b0, b1⟩ := hb
  refine Reads.int hset.env hs h (by omega) fun c h => ?_
  refine Reads.need (by omega) ?_
  refine Reads.int hset.env hs h (by omega) fun c h => ?_
  refine Reads.need (by omega) ?_
  refine Reads.real hset.env hs h hr b0 fun y0 c n0 h => ?_
  refine Reads.real hset.env hs h hr b1 fun y1 c n1 h => ?_
  exact Reads.ret h ⟨rfl, rfl, n0, n1⟩

/-- The same values in the same roles. -/
def TabCylNear (res : ℚ) (k b : TabCyl) : Prop :=
      b.DE = k.DE ∧
      Spec.Near res k.LX b.LX ∧
      Spec.Near res k.LY b.LY ∧
      Spec.Near res k.LZ b.LZ

/-- C29, tabulated cylinders. -/
theorem C29_tabulated (E : PdEnv) (de i0 : Int) (k : TabCyl) (xs : List ExtraRef) (hset : Setting E de i0 xs 6)
    (hD : goodDE k.DE)
    (hb : ∀ x ∈ [k.LX, k.LY, k.LZ], |x| ≤ 10 ^ (300 : ℤ)) :
    Spec.PdCycle (6 + 2 * xs.length + 4) de i0 (k.format E de xs [] i0) (TabCyl.readPD E de)
      (fun r => TabCylNear E.res k r.1 ∧ r.2.1 = secA xs ++ secB xs ∧ r.2.2 = []) := by
  have hr : (0 : ℚ) < E.res := hset.env.res
  refine realCycle (R := TabCylNear E.res k) (body := TabCyl.readParams) (xs := [k.LX, k.LY, k.LZ]) hset (by decide) (by have := hD; unfold goodDE at this; simp; omega) (by simp) hr (by simp) hb ?_
  intro T s c rest hs h
  simp only [List.mem_cons, List.not_mem_nil, or_false, forall_eq_or_imp, forall_eq] at hb
  obtain ⟨b0, b1, b2⟩ := hb
  have hD' := hD
  unfold goodDE at hD'
  refine Reads.int hset.env hs h (by omega) fun c h => ?_
  refine Reads.need (by omega) ?_
  refine Reads.real hset.env hs h hr b0 fun y0 c n0 h => ?_
  refine Reads.real hset.env hs h hr b1 fun y1 c n1 h => ?_
  refine Reads.real hset.env hs h hr b2 fun y2 c n2 h => ?_
  exact Reads.ret h ⟨rfl, n0, n1, n2⟩

/-- The same values in the same roles. -/
def SubInstanceNear (res : ℚ) (k b : SubInstance) : Prop :=
      b.DE = k.DE ∧
      Spec.Near res k.X b.X ∧
      Spec.Near res k.Y b.Y ∧
      Spec.Near res k.Z b.Z ∧
      Spec.Near res k.S b.S

/-- C30, subfigure instances (entity 408). -/
theorem C30_subfigure_instance (E : PdEnv) (de i0 : Int) (k : SubInstance) (xs : List ExtraRef) (hset : Setting E de i0 xs 8)
    (hD : goodDE k.DE)
    (hb : ∀ x ∈ [k.X, k.Y, k.Z, k.S], |x| ≤ 10 ^ (300 : ℤ)) :
    Spec.PdCycle (8 + 2 * xs.length + 4) de i0 (k.format E de xs [] i0) (SubInstance.readPD E de)
      (fun r => SubInstanceNear E.res k r.1 ∧ r.2.1 = secA xs ++ secB xs ∧ r.2.2 = []) := by
  have hr : (0 : ℚ) < E.res := hset.env.res
  refine realCycle (R := SubInstanceNear E.res k) (body := SubInstance.readParams) (xs := [k.X, k.Y, k.Z, k.S]) hset (by decide) (by have := hD; unfold goodDE at this; simp; omega) (by simp) hr (by simp) hb ?_
  intro T s c rest hs h
  simp only [List.mem_cons, List.not_mem_nil, or_false, forall_eq_or_imp, forall_eq] at hb
  obtain ⟨b0, b1, b2, b3⟩ := hb
  have hD' := hD
  unfold goodDE at hD'
  refine Reads.int hset.env hs h (by omega) fun c h => ?_
  refine Reads.need (by omega) ?_
  refine Reads.real hset.env hs h hr b0 fun y0 c n0 h => ?_
  refine Reads.real hset.env hs h hr b1 fun y1 c n1 h => ?_
  refine Reads.real hset.env hs h hr b2 fun y2 c n2 h => ?_
  refine Reads.realOr hset.env hs h hr b3 fun y3 c n3 h => ?_
  exact Reads.ret h ⟨rfl, n0, n1, n2, n3⟩

/-! ### Cylinders and extrusions -/

theorem near_ge {res rr x y : ℚ} (h : Spec.Near res x y) (h0 : 0 < res) (h8 : 1 / 10 ^ 8 ≤ x) (h2 : 2 * rr ≤ x) :
    rr ≤ y := by
  have hx : 0 < x := lt_of_lt_of_le (by norm_num) h8
  have := h.2.2 (by rwa [abs_of_pos hx])
  rw [abs_of_pos hx, abs_le] at this
  linarith [this.1]

theorem unit_comp {a b c : ℚ} (h : |a * a + b * b + c * c - 1| ≤ 1 / 10 ^ 8) : |a| ≤ 2 ∧ |b| ≤ 2 ∧ |c| ≤ 2 := by
  rw [abs_le] at h
  have ha := mul_self_nonneg a
  have hb := mul_self_nonneg b
  have hc := mul_self_nonneg c
  refine ⟨?_, ?_, ?_⟩ <;> rw [abs_le] <;> constructor <;> nlinarith

theorem two_big {x : ℚ} (h : |x| ≤ 2) : |x| ≤ 10 ^ (300 : ℤ) := big_ok h (by norm_num)

theorem coordErr_two {res : ℚ} (h0 : 0 < res) (h : res ≤ 10) : 0 ≤ Spec.coordErr res 2 ∧ Spec.coordErr res 2 ≤ 1 / 100 := by
  unfold Spec.coordErr
  constructor
  · exact le_max_of_le_right (by norm_num)
  · refine max_le (max_le ?_ ?_) ?_
    · linarith
    · norm_num
    · norm_num

/-- C29, right circular cylinders: height, radius and position within the written precision, the axis
direction within eight times the deviation of its components.  The hypotheses keep height and radius
above the resolution and the axis of unit length. -/
structure CylinderNear (res : ℚ) (k b : Cylinder) : Prop where
  H : Spec.Near res k.H b.H
  R : Spec.Near res k.R b.R
  X1 : Spec.Near res k.X1 b.X1
  Y1 : Spec.Near res k.Y1 b.Y1
  Z1 : Spec.Near res k.Z1 b.Z1
  I1 : |b.I1 - k.I1| ≤ 8 * Spec.coordErr res 2 + 1 / 10 ^ 7
  J1 : |b.J1 - k.J1| ≤ 8 * Spec.coordErr res 2 + 1 / 10 ^ 7
  K1 : |b.K1 - k.K1| ≤ 8 * Spec.coordErr res 2 + 1 / 10 ^ 7

theorem C29_cylinder (E : PdEnv) (de i0 : Int) (k : Cylinder) (rr : ℚ) (xs : List ExtraRef) (hset : Setting E de i0 xs 16)
    (hsq : SqrtOk E.sqrt) (hres : E.res ≤ 10)
    (hH : 1 / 10 ^ 8 ≤ k.H ∧ 2 * rr ≤ k.H) (hR : 1 / 10 ^ 8 ≤ k.R ∧ 2 * rr ≤ k.R)
    (hunit : |k.I1 * k.I1 + k.J1 * k.J1 + k.K1 * k.K1 - 1| ≤ 1 / 10 ^ 8)
    (hb : ∀ x ∈ [k.H, k.R, k.X1, k.Y1, k.Z1], |x| ≤ 10 ^ (300 : ℤ)) :
    Spec.PdCycle (16 + 2 * xs.length + 4) de i0 (k.format E de xs [] i0) (Cylinder.readPD { E with res := rr } de)
      (fun r => CylinderNear E.res k r.1 ∧ r.2.1 = secA xs ++ secB xs ∧ r.2.2 = []) := by
  have hr := hset.env.res
  obtain ⟨ui, uj, uk⟩ := unit_comp hunit
  simp only [List.mem_cons, List.not_mem_nil, or_false, forall_eq_or_imp, forall_eq] at hb
  obtain ⟨b0, b1, b2, b3, b4⟩ := hb
  refine realCycle (R := CylinderNear E.res k) (body := Cylinder.readParams { E with res := rr })
    (xs := [k.H, k.R, k.X1, k.Y1, k.Z1, k.I1, k.J1, k.K1]) hset (by decide) (by simp) (by simp) hr (by simp) ?_ ?_
  · simp only [List.mem_cons, List.not_mem_nil, or_false, forall_eq_or_imp, forall_eq]
    exact ⟨b0, b1, b2, b3, b4, two_big ui, two_big uj, two_big uk⟩
  intro T s c rest hs h
  obtain ⟨e0, e1⟩ := coordErr_two hr hres
  refine Reads.real hset.env hs h hr b0 fun y0 c n0 h => ?_
  simp only [if_neg (not_lt.mpr (near_ge n0 hr hH.1 hH.2)), Rd.val_bind]
  refine Reads.real hset.env hs h hr b1 fun y1 c n1 h => ?_
  simp only [if_neg (not_lt.mpr (near_ge n1 hr hR.1 hR.2)), Rd.val_bind]
  refine Reads.realOr hset.env hs h hr b2 fun y2 c n2 h => ?_
  refine Reads.realOr hset.env hs h hr b3 fun y3 c n3 h => ?_
  refine Reads.realOr hset.env hs h hr b4 fun y4 c n4 h => ?_
  refine Reads.realOr hset.env hs h hr (two_big ui) fun y5 c n5 h => ?_
  refine Reads.realOr hset.env hs h hr (two_big uj) fun y6 c n6 h => ?_
  refine Reads.realOr hset.env hs h hr (two_big uk) fun y7 c n7 h => ?_
  obtain ⟨m1, m2, m3⟩ := checkNormalQ_near (p := ⟨k.I1, k.J1, k.K1⟩) (q := ⟨y5, y6, y7⟩) hsq e0 e1 hunit
    (near_err n5 ui) (near_err n6 uj) (near_err n7 uk)
  exact Reads.ret h ⟨n0, n1, n2, n3, n4, m1, m2, m3⟩

/-- C29, solids of linear extrusion: the curve exactly, the length within the written precision, the
direction as for cylinders. -/
structure ExtrusionNear (res : ℚ) (k b : Extrusion) : Prop where
  PTR : b.PTR = k.PTR
  L : Spec.Near res k.L b.L
  I1 : |b.I1 - k.I1| ≤ 8 * Spec.coordErr res 2 + 1 / 10 ^ 7
  J1 : |b.J1 - k.J1| ≤ 8 * Spec.coordErr res 2 + 1 / 10 ^ 7
  K1 : |b.K1 - k.K1| ≤ 8 * Spec.coordErr res 2 + 1 / 10 ^ 7

theorem C29_extrusion (E : PdEnv) (de i0 : Int) (k : Extrusion) (xs : List ExtraRef) (hset : Setting E de i0 xs 10)
    (hsq : SqrtOk E.sqrt) (hres : E.res ≤ 10) (hP : goodDE k.PTR)
    (hunit : |k.I1 * k.I1 + k.J1 * k.J1 + k.K1 * k.K1 - 1| ≤ 1 / 10 ^ 8) (hb : |k.L| ≤ 10 ^ (300 : ℤ)) :
    Spec.PdCycle (10 + 2 * xs.length + 4) de i0 (k.format E de xs [] i0) (Extrusion.readPD E de)
      (fun r => ExtrusionNear E.res k r.1 ∧ r.2.1 = secA xs ++ secB xs ∧ r.2.2 = []) := by
  have hr := hset.env.res
  obtain ⟨ui, uj, uk⟩ := unit_comp hunit
  obtain ⟨e0, e1⟩ := coordErr_two hr hres
  unfold goodDE at hP
  have hb' : ∀ x ∈ [k.L, k.I1, k.J1, k.K1], |x| ≤ 10 ^ (300 : ℤ) := by
    simp only [List.mem_cons, List.not_mem_nil, or_false, forall_eq_or_imp, forall_eq]
    exact ⟨hb, two_big ui, two_big uj, two_big uk⟩
  have hP' : -2147483648 ≤ k.PTR ∧ k.PTR ≤ 2147483647 := by omega
  refine pdCycle (pre := []) hset.env (R := ExtrusionNear E.res k) (body := Extrusion.readParams E)
    (items := .int k.PTR :: [k.L, k.I1, k.J1, k.K1].map (Item.real · E.res)) hset.de (by decide) ?_ (by simp) ?_ ?_ ?_
    hset.extras ⟨hset.first, ?_⟩ hset.room ?_ ?_
  · have := preText_length E.pd [164] 10 (by norm_num) (by simp)
    simp only [List.length_cons, List.length_nil] at this
    omega
  · intro it hit
    rcases List.mem_cons.mp hit with rfl | hit
    · exact hP'
    · exact realItems_ok hr hb' it hit
  · intro g hg
    rcases List.mem_cons.mp hg with rfl | hg
    · exact Or.inl ⟨_, _, rfl, hP'⟩
    · exact realGroups_ok _ _ hr _ hb' g hg
  · rfl
  · have := hset.room; omega
  · rw [List.map_cons, List.sum_cons, realItems_cost]
    simp [Item.cost]
  · intro T s c rest hs h
    refine Reads.int hset.env hs h (by omega) fun c h => ?_
    refine Reads.need (by omega) ?_
    refine Reads.real hset.env hs h hr hb fun y0 c n0 h => ?_
    refine Reads.realOr hset.env hs h hr (two_big ui) fun y5 c n5 h => ?_
    refine Reads.realOr hset.env hs h hr (two_big uj) fun y6 c n6 h => ?_
    refine Reads.realOr hset.env hs h hr (two_big uk) fun y7 c n7 h => ?_
    obtain ⟨m1, m2, m3⟩ := checkNormalQ_near (p := ⟨k.I1, k.J1, k.K1⟩) (q := ⟨y5, y6, y7⟩) hsq e0 e1 hunit
      (near_err n5 ui) (near_err n6 uj) (near_err n7 uk)
    exact Reads.ret h ⟨rfl, n0, m1, m2, m3⟩

/-! ### C40 -/

/-- C40 fails: for every cylinder with a good height and a radius below half the resolution the reader
keeps the radius and replaces the height by the resolution. -/
theorem C40_radius_repair_hits_height (E : PdEnv) (de i0 : Int) (k : Cylinder) (xs : List ExtraRef)
    (hset : Setting E de i0 xs 16)
    (hH : 1 / 10 ^ 8 ≤ k.H ∧ 2 * E.res ≤ k.H) (hR : 1 / 10 ^ 8 ≤ k.R ∧ 2 * k.R ≤ E.res)
    (hb : ∀ x ∈ [k.H, k.R, k.X1, k.Y1, k.Z1, k.I1, k.J1, k.K1], |x| ≤ 10 ^ (300 : ℤ)) :
    Spec.PdCycle (16 + 2 * xs.length + 4) de i0 (k.format E de xs [] i0) (Cylinder.readPD E de)
      (fun r => r.1.H = E.res ∧ Spec.Near E.res k.R r.1.R ∧ r.1.R < E.res) := by
  have hr := hset.env.res
  have key := realCycle (etype := 154) (pre := []) (R := fun b : Cylinder => b.H = E.res ∧ Spec.Near E.res k.R b.R ∧ b.R < E.res)
    (body := Cylinder.readParams E)
    (xs := [k.H, k.R, k.X1, k.Y1, k.Z1, k.I1, k.J1, k.K1]) hset (by decide) (by simp) (by simp) hr (by simp) hb ?_
  · obtain ⟨datas, h1, hm, h2, h3, b, hb, h4⟩ := key
    exact ⟨datas, h1, hm, h2, h3, b, hb.1, h4⟩
  intro T s c rest hs h
  simp only [List.mem_cons, List.not_mem_nil, or_false, forall_eq_or_imp, forall_eq] at hb
  obtain ⟨b0, b1, b2, b3, b4, b5, b6, b7⟩ := hb
  refine Reads.real hset.env hs h hr b0 fun y0 c n0 h => ?_
  simp only [if_neg (not_lt.mpr (near_ge n0 hr hH.1 hH.2)), Rd.val_bind]
  refine Reads.real hset.env hs h hr b1 fun y1 c n1 h => ?_
  have hpos : 0 < k.R := lt_of_lt_of_le (by norm_num) hR.1
  have hy : 0 < y1 ∧ y1 < E.res := by
    have := n1.2.2 (by rw [abs_of_pos hpos]; exact hR.1)
    rw [abs_of_pos hpos, abs_le] at this
    constructor <;> linarith [this.1, this.2, hR.2]
  simp only [if_pos hy.2, if_pos hy.1, Rd.val_bind]
  refine Reads.realOr hset.env hs h hr b2 fun y2 c n2 h => ?_
  refine Reads.realOr hset.env hs h hr b3 fun y3 c n3 h => ?_
  refine Reads.realOr hset.env hs h hr b4 fun y4 c n4 h => ?_
  refine Reads.realOr hset.env hs h hr b5 fun y5 c n5 h => ?_
  refine Reads.realOr hset.env hs h hr b6 fun y6 c n6 h => ?_
  refine Reads.realOr hset.env hs h hr b7 fun y7 c n7 h => ?_
  exact Reads.ret h ⟨rfl, n1, hy.2⟩

/-- The part of C40 that holds: a height below half the resolution is repaired and a good radius is
left as read. -/
theorem C40_height_repaired_partial (E : PdEnv) (de i0 : Int) (k : Cylinder) (xs : List ExtraRef)
    (hset : Setting E de i0 xs 16)
    (hH : 1 / 10 ^ 8 ≤ k.H ∧ 2 * k.H ≤ E.res) (hR : 1 / 10 ^ 8 ≤ k.R ∧ 2 * E.res ≤ k.R)
    (hb : ∀ x ∈ [k.H, k.R, k.X1, k.Y1, k.Z1, k.I1, k.J1, k.K1], |x| ≤ 10 ^ (300 : ℤ)) :
    Spec.PdCycle (16 + 2 * xs.length + 4) de i0 (k.format E de xs [] i0) (Cylinder.readPD E de)
      (fun r => r.1.H = E.res ∧ Spec.Near E.res k.R r.1.R) := by
  have hr := hset.env.res
  have key := realCycle (etype := 154) (pre := []) (R := fun b : Cylinder => b.H = E.res ∧ Spec.Near E.res k.R b.R)
    (body := Cylinder.readParams E)
    (xs := [k.H, k.R, k.X1, k.Y1, k.Z1, k.I1, k.J1, k.K1]) hset (by decide) (by simp) (by simp) hr (by simp) hb ?_
  · obtain ⟨datas, h1, hm, h2, h3, b, hb, h4⟩ := key
    exact ⟨datas, h1, hm, h2, h3, b, hb.1, h4⟩
  intro T s c rest hs h
  simp only [List.mem_cons, List.not_mem_nil, or_false, forall_eq_or_imp, forall_eq] at hb
  obtain ⟨b0, b1, b2, b3, b4, b5, b6, b7⟩ := hb
  refine Reads.real hset.env hs h hr b0 fun y0 c n0 h => ?_
  have hpos : 0 < k.H := lt_of_lt_of_le (by norm_num) hH.1
  have hy : 0 < y0 ∧ y0 < E.res := by
    have := n0.2.2 (by rw [abs_of_pos hpos]; exact hH.1)
    rw [abs_of_pos hpos, abs_le] at this
    constructor <;> linarith [this.1, this.2, hH.2]
  simp only [if_pos hy.2, if_pos hy.1, Rd.val_bind]
  refine Reads.real hset.env hs h hr b1 fun y1 c n1 h => ?_
  simp only [if_neg (not_lt.mpr (near_ge n1 hr hR.1 hR.2)), Rd.val_bind]
  refine Reads.realOr hset.env hs h hr b2 fun y2 c n2 h => ?_
  refine Reads.realOr hset.env hs h hr b3 fun y3 c n3 h => ?_
  refine Reads.realOr hset.env hs h hr b4 fun y4 c n4 h => ?_
  refine Reads.realOr hset.env hs h hr b5 fun y5 c n5 h => ?_
  refine Reads.realOr hset.env hs h hr b6 fun y6 c n6 h => ?_
  refine Reads.realOr hset.env hs h hr b7 fun y7 c n7 h => ?_
  exact Reads.ret h ⟨rfl, n1⟩

/-! ### C37 -/

/-- C37 fails: every form number is accepted for a transformation matrix. -/
theorem C37_any_form_accepted (form : Int) : txFormOk form = true := by
  unfold txFormOk
  simp only [decide_eq_true_eq]
  omega

/-- The part of C37 that holds: the five legal forms are accepted. -/
theorem C37_legal_forms_accepted_partial (form : Int) (_ : form = 0 ∨ form = 1 ∨ form = 10 ∨ form = 11 ∨ form = 12) :
    txFormOk form = true := C37_any_form_accepted form

/-! ### C38, C39: conics -/

/-- C38: the form reported for a conic is decided by the determinant of the conic, the determinant of
its quadratic part and its trace, as the IGES specification says: ellipse, hyperbola, parabola. -/
theorem C38_classification (k : Conic) :
    (k.getForm = 1 ↔ 0 < (Spec.conicQuad k.A k.B k.C).det ∧
      (Spec.conicMatrix k.A k.B k.C k.D k.E k.F).det * (Spec.conicQuad k.A k.B k.C).trace < 0) ∧
    (k.getForm = 2 ↔ (Spec.conicQuad k.A k.B k.C).det < 0 ∧ (Spec.conicMatrix k.A k.B k.C k.D k.E k.F).det ≠ 0) ∧
    (k.getForm = 3 ↔ (Spec.conicQuad k.A k.B k.C).det = 0 ∧ (Spec.conicMatrix k.A k.B k.C k.D k.E k.F).det ≠ 0) := by
  have e1 : (Spec.conicMatrix k.A k.B k.C k.D k.E k.F).det = k.A * (k.C * k.F - k.E * k.E / 4) -
      k.B * (k.B * k.F / 2 - k.D * k.E / 4) / 2 + k.D * (k.B * k.E / 4 - k.C * k.D / 2) / 2 := by
    simp only [Spec.conicMatrix, Matrix.det_fin_three, Matrix.of_apply, Matrix.cons_val', Matrix.cons_val_zero,
      Matrix.cons_val_one, Matrix.cons_val]
    ring
  have e2 : (Spec.conicQuad k.A k.B k.C).det = k.A * k.C - k.B * k.B / 4 := by
    simp only [Spec.conicQuad, Matrix.det_fin_two_of]
    ring
  have e3 : (Spec.conicQuad k.A k.B k.C).trace = k.A + k.C := by
    simp [Spec.conicQuad, Matrix.trace_fin_two]
  rw [e1, e2, e3]
  unfold Conic.getForm
  simp only
  generalize k.A * (k.C * k.F - k.E * k.E / 4) - k.B * (k.B * k.F / 2 - k.D * k.E / 4) / 2 +
    k.D * (k.B * k.E / 4 - k.C * k.D / 2) / 2 = q1
  generalize k.A * k.C - k.B * k.B / 4 = q2
  generalize k.A + k.C = q3
  refine ⟨?_, ?_, ?_⟩ <;> (split_ifs with h1 h2 h3 <;> simp_all) <;> (try intro) <;> (try linarith)

/-- C38: the form does not change when the equation is multiplied by a constant other than zero. -/
theorem C38_scale_invariant (k : Conic) (l : ℚ) (hl : l ≠ 0) :
    Conic.getForm { k with A := k.A * l, B := k.B * l, C := k.C * l, D := k.D * l, E := k.E * l, F := k.F * l } =
      k.getForm := by
  unfold Conic.getForm
  simp only
  have e1 : k.A * l * (k.C * l * (k.F * l) - k.E * l * (k.E * l) / 4) -
      k.B * l * (k.B * l * (k.F * l) / 2 - k.D * l * (k.E * l) / 4) / 2 +
      k.D * l * (k.B * l * (k.E * l) / 4 - k.C * l * (k.D * l) / 2) / 2 =
      l ^ 3 * (k.A * (k.C * k.F - k.E * k.E / 4) - k.B * (k.B * k.F / 2 - k.D * k.E / 4) / 2 +
    k.D * (k.B * k.E / 4 - k.C * k.D / 2) / 2) := by ring
  have e2 : k.A * l * (k.C * l) - k.B * l * (k.B * l) / 4 = l ^ 2 * (k.A * k.C - k.B * k.B / 4) := by ring
  have e3 : k.A * l + k.C * l = l * (k.A + k.C) := by ring
  rw [e1, e2, e3]
  generalize k.A * (k.C * k.F - k.E * k.E / 4) - k.B * (k.B * k.F / 2 - k.D * k.E / 4) / 2 +
    k.D * (k.B * k.E / 4 - k.C * k.D / 2) / 2 = q1
  generalize k.A * k.C - k.B * k.B / 4 = q2
  generalize k.A + k.C = q3
  have l2 : 0 < l ^ 2 := by positivity
  have l4 : 0 < l ^ 4 := by positivity
  have p1 : (l ^ 2 * q2 > 0) ↔ q2 > 0 := by simp [l2]
  have p2 : (l ^ 2 * q2 < 0) ↔ q2 < 0 := by rw [mul_neg_iff]; constructor <;> intro h <;> [skip; skip] <;> grind
  have p3 : (l ^ 3 * q1 * (l * q3) < 0) ↔ q1 * q3 < 0 := by
    have : l ^ 3 * q1 * (l * q3) = l ^ 4 * (q1 * q3) := by ring
    rw [this, mul_neg_iff]; grind
  have p4 : (l ^ 3 * q1 ≠ 0) ↔ q1 ≠ 0 := by simp [hl]
  have p5 : (l ^ 2 * q2 = 0) ↔ q2 = 0 := by simp [hl]
  simp only [p1, p2, p3, p4, p5]

/-- What `rescale` does to a point on the conic, exactly: it stays on the conic only for the factors 0
and 1 and for one further factor that depends on the point. -/
theorem C39_rescale_residue (k : Conic) (sf x y : ℚ)
    (h : Spec.conicEq k.A k.B k.C k.D k.E k.F x y = 0) :
    Spec.conicEq (k.rescale sf).A (k.rescale sf).B (k.rescale sf).C (k.rescale sf).D (k.rescale sf).E (k.rescale sf).F
      (x * sf) (y * sf) = sf * (sf - 1) * (sf * (k.A * x ^ 2 + k.B * x * y + k.C * y ^ 2) - k.F) := by
  unfold Spec.conicEq at *
  simp only [Conic.rescale]
  linear_combination (sf ^ 2) * h

/-- C39 fails: the unit circle at the origin, converted with the factor 2, no longer holds its end
point. -/
theorem C39_end_point_leaves_conic : ∃ (k : Conic) (sf : ℚ), sf ≠ 0 ∧
    Spec.conicEq k.A k.B k.C k.D k.E k.F k.X1 k.Y1 = 0 ∧
    Spec.conicEq k.A k.B k.C k.D k.E k.F k.X2 k.Y2 = 0 ∧
    let r := k.rescale sf
    Spec.conicEq r.A r.B r.C r.D r.E r.F r.X1 r.Y1 ≠ 0 ∧ Spec.conicEq r.A r.B r.C r.D r.E r.F r.X2 r.Y2 ≠ 0 :=
  ⟨⟨1, 0, 1, 0, 0, -1, 0, 1, 0, 0, 1⟩, 2, by norm_num [Spec.conicEq, Conic.rescale]⟩

/-- The part of C39 that holds: pairs of lines through the origin (no linear or constant terms) keep
their points for every factor, and every conic does for the factor 1. -/
theorem C39_homogeneous_partial (k : Conic) (sf : ℚ) (hk : (k.D = 0 ∧ k.E = 0 ∧ k.F = 0) ∨ sf = 1)
    (h1 : Spec.conicEq k.A k.B k.C k.D k.E k.F k.X1 k.Y1 = 0) (h2 : Spec.conicEq k.A k.B k.C k.D k.E k.F k.X2 k.Y2 = 0) :
    let r := k.rescale sf
    Spec.conicEq r.A r.B r.C r.D r.E r.F r.X1 r.Y1 = 0 ∧ Spec.conicEq r.A r.B r.C r.D r.E r.F r.X2 r.Y2 = 0 := by
  constructor
  · refine (C39_rescale_residue k sf k.X1 k.Y1 h1).trans ?_
    rcases hk with ⟨hd, he, hf⟩ | rfl
    · have : k.A * k.X1 ^ 2 + k.B * k.X1 * k.Y1 + k.C * k.Y1 ^ 2 = 0 := by
        rw [← h1]; simp [Spec.conicEq, hd, he, hf]
      rw [this, hf]; ring
    · ring
  · refine (C39_rescale_residue k sf k.X2 k.Y2 h2).trans ?_
    rcases hk with ⟨hd, he, hf⟩ | rfl
    · have : k.A * k.X2 ^ 2 + k.B * k.X2 * k.Y2 + k.C * k.Y2 ^ 2 = 0 := by
        rw [← h2]; simp [Spec.conicEq, hd, he, hf]
      rw [this, hf]; ring
    · ring

/-! ### Colours and names -/

/-- A percentage that is kept: up to 99.99, or exactly 100. -/
def Percent (x : ℚ) : Prop := (0 ≤ x ∧ x ≤ 9999 / 100) ∨ x = 100

/-- `100.` is written without error for the resolution 0.1. -/
theorem text100 {est : ℚ → ℚ → Nat} (he : EstOk est) :
    ∃ a : Dec, (strtod (dToE (realText est (1 / 10) 100))).val = .dec a ∧ a.toRat = 100 := by
  have h : est 100 (1 / 10) = 8 ∨ est 100 (1 / 10) = 9 := by
    have h1 := he 100 (1 / 10) (by norm_num)
    unfold DigitEstimate at h1
    have h2 : (Int.log 10 (max (|(100 : ℚ)| / (1 / 10)) 10)).toNat = 3 := by decide +kernel
    simp only [h2] at h1
    omega
  have ha : ¬ |(100 : ℚ)| < 1 / 10 ^ 8 := by decide +kernel
  unfold realText
  simp only [if_neg ha]
  rcases h with h | h
  · rw [h]
    exact ⟨⟨1000, -1⟩, by decide +kernel, by norm_num [Dec.toRat]⟩
  · rw [h]
    exact ⟨⟨1000, -1⟩, by decide +kernel, by norm_num [Dec.toRat]⟩

/-- C30-like, colours (entity 314): percentages and name, for a name that fits a line; without a name
only if there are no optional pointers, see `C30_colour_extras_misread`. -/
structure ColourNear (k b : Colour) : Prop where
  red : Spec.Near (1 / 10) k.red b.red
  green : Spec.Near (1 / 10) k.green b.green
  blue : Spec.Near (1 / 10) k.blue b.blue
  cname : b.cname = k.cname

theorem percent_kept {x y : ℚ} (hp : Percent x) (hn : Spec.Near (1 / 10) x y) (h100 : x = 100 → y = 100) :
    ¬ (y < 0 ∨ y > 100) := by
  rcases hp with ⟨h0, h1⟩ | rfl
  · rcases lt_or_ge |x| (1 / 10 ^ 8) with hs | hs
    · rw [hn.1 hs]; norm_num
    · have h2 := hn.2.2 hs
      have h3 := hn.2.1 hs
      rw [abs_of_nonneg h0, abs_le] at h2
      rw [abs_of_nonneg h0] at h3
      have h4 : max ((1 / 10 : ℚ) / 1000) (x / 10 ^ 15) ≤ 1 / 1000 := max_le (by norm_num) (by
        rw [div_le_div_iff₀ (by norm_num) (by norm_num)]; linarith)
      have h5 := (abs_le.mp (h3.trans h4)).2
      push Not
      constructor <;> linarith [h2.1]
  · rw [h100 rfl]; norm_num

theorem percent_big {x : ℚ} (hp : Percent x) : |x| ≤ 10 ^ (300 : ℤ) := by
  refine big_ok (M := 100) ?_ (by norm_num)
  rcases hp with ⟨h0, h1⟩ | rfl
  · rw [abs_of_nonneg h0]; linarith
  · norm_num

theorem clamp_id {k : Colour} (h1 : ¬ (k.red < 0 ∨ k.red > 100)) (h2 : ¬ (k.green < 0 ∨ k.green > 100))
    (h3 : ¬ (k.blue < 0 ∨ k.blue > 100)) : k.clamp = k := by
  unfold Colour.clamp
  rw [if_neg h1, if_neg h2, if_neg h3]

theorem percent_range {x : ℚ} (hp : Percent x) : ¬ (x < 0 ∨ x > 100) := by
  rcases hp with ⟨h0, h1⟩ | rfl
  · push Not; constructor <;> linarith
  · norm_num

theorem C30_colour_partial (E : PdEnv) (de i0 : Int) (k : Colour) (xs : List ExtraRef) (hset : Setting E de i0 xs 8)
    (hnum : ∀ a : Dec, a.toRat = 100 → E.num (.dec a) = 100)
    (hr : Percent k.red) (hg : Percent k.green) (hb : Percent k.blue)
    (hname : '\n' ∉ k.cname ∧ k.cname.length ≤ 60) (hx : k.cname = [] → xs = []) :
    Spec.PdCycle (8 + 2 * xs.length + 4) de i0 (k.format E de xs [] i0) (Colour.readPD E de)
      (fun r => ColourNear k r.1 ∧ r.2.1 = secA xs ++ secB xs ∧ r.2.2 = []) := by
  have r0 : (0 : ℚ) < 1 / 10 := by norm_num
  have hres : ∀ x ∈ [k.red, k.green, k.blue], |x| ≤ 10 ^ (300 : ℤ) := by
    simp only [List.mem_cons, List.not_mem_nil, or_false, forall_eq_or_imp, forall_eq]
    exact ⟨percent_big hr, percent_big hg, percent_big hb⟩
  have h100 : ∀ x : ℚ, x = 100 → E.num (strtod (dToE (realText E.est (1 / 10) x))).val = 100 := by
    rintro x rfl
    obtain ⟨a, h1, h2⟩ := text100 hset.env.est
    rw [h1]; exact hnum a h2
  have hfmt : k.clamp = k := clamp_id (percent_range hr) (percent_range hg) (percent_range hb)
  unfold Colour.format
  simp only [hfmt]
  have hpre : (preText E.pd [314]).length ≤ 64 := by
    have := preText_length E.pd [314] 10 (by norm_num) (by simp)
    simp only [List.length_cons, List.length_nil] at this
    omega
  have hend : ∀ y1 y2 y3 : ℚ, Spec.Near (1 / 10) k.red y1 → Spec.Near (1 / 10) k.green y2 → Spec.Near (1 / 10) k.blue y3 →
      y1 = E.num (strtod (dToE (realText E.est (1 / 10) k.red))).val →
      y2 = E.num (strtod (dToE (realText E.est (1 / 10) k.green))).val →
      y3 = E.num (strtod (dToE (realText E.est (1 / 10) k.blue))).val →
      ColourNear k (Colour.clamp ⟨y1, y2, y3, k.cname⟩) := by
    intro y1 y2 y3 n1 n2 n3 v1 v2 v3
    rw [clamp_id (percent_kept hr n1 fun e => by rw [v1]; exact h100 _ e)
      (percent_kept hg n2 fun e => by rw [v2]; exact h100 _ e)
      (percent_kept hb n3 fun e => by rw [v3]; exact h100 _ e)]
    exact ⟨n1, n2, n3, rfl⟩
  by_cases hc : k.cname = []
  · rw [if_pos hc]
    have hx := hx hc
    subst hx
    refine pdCycleX (pre := []) hset.env (R := ColourNear k) (body := Colour.readParams)
      (items := [k.red, k.green, k.blue].map (Item.real · (1 / 10))) hset.de (by decide) hpre (by simp)
      (realItems_ok r0 hres) (realGroups_ok _ _ r0 _ hres) rfl hset.extras ⟨hset.first, ?_⟩ hset.room ?_ ?_
    · have := hset.room; omega
    · rw [realItems_cost]; simp only [List.length_cons, List.length_nil]; omega
    · intro T s c hs h
      refine Reads.realVal hset.env hs h r0 (percent_big hr) fun y1 c n1 v1 h => ?_
      refine Reads.realVal hset.env hs h r0 (percent_big hg) fun y2 c n2 v2 h => ?_
      refine Reads.realVal hset.env hs h r0 (percent_big hb) fun y3 c n3 v3 h => ?_
      have he : c.eor = true := h.2
      simp only [he, if_true, Rd.val_bind]
      rw [← hc]
      exact Reads.ret h (hend _ _ _ n1 n2 n3 v1 v2 v3)
  · rw [if_neg hc]
    have hcn : (Item.hitem k.cname).Ok := by
      refine ⟨hc, hname.1, ?_⟩
      have := natStr_length_le (n := k.cname.length) (k := 2) (by norm_num) (by omega)
      omega
    refine pdCycle (pre := []) hset.env (R := ColourNear k) (body := Colour.readParams)
      (items := [k.red, k.green, k.blue].map (Item.real · (1 / 10)) ++ [.hitem k.cname]) hset.de (by decide) hpre (by simp) ?_ ?_ ?_
      hset.extras ⟨hset.first, ?_⟩ hset.room ?_ ?_
    · intro it hit
      rcases List.mem_append.mp hit with hit | hit
      · exact realItems_ok r0 hres it hit
      · rw [List.mem_singleton.mp hit]; exact hcn
    · intro g hg
      rcases List.mem_append.mp hg with hg | hg
      · exact realGroups_ok _ _ r0 _ hres g hg
      · rw [List.mem_singleton.mp hg]; exact Or.inl ⟨_, _, rfl, hcn⟩
    · rfl
    · have := hset.room; omega
    · rw [List.map_append, List.sum_append, realItems_cost]
      simp [Item.cost]
    · intro T s c rest hs h
      refine Reads.realVal hset.env hs h r0 (percent_big hr) fun y1 c n1 v1 h => ?_
      refine Reads.realVal hset.env hs h r0 (percent_big hg) fun y2 c n2 v2 h => ?_
      refine Reads.realVal hset.env hs h r0 (percent_big hb) fun y3 c n3 v3 h => ?_
      have he := h.eor
      simp only [he]
      refine Reads.str hset.env hs h fun c h => ?_
      exact Reads.ret h (hend _ _ _ n1 n2 n3 v1 v2 v3)

/-- C30-like, names (entity 406 form 15): any string without line ends. -/
theorem C30_name (E : PdEnv) (de i0 : Int) (name : Str) (xs : List ExtraRef)
    (hset : Setting E de i0 xs (hCost name)) (hname : '\n' ∉ name) :
    Spec.PdCycle (hCost name + 2 * xs.length + 4) de i0 (nameFormat E de name xs [] i0) (nameReadPD E de)
      (fun r => r.1 = name ∧ r.2.1 = secA xs ++ secB xs ∧ r.2.2 = []) := by
  refine pdCycle (pre := [1]) hset.env (R := fun t => t = name) (body := nameReadParams)
    (items := [.str name]) hset.de (by decide) ?_ (by simp) ?_ ?_ rfl hset.extras ⟨hset.first, ?_⟩ hset.room ?_ ?_
  · have := preText_length E.pd [406, 1] 10 (by norm_num) (by simp)
    simp only [List.length_cons, List.length_nil] at this
    omega
  · intro it hit
    rw [List.mem_singleton.mp hit]; exact hname
  · intro g hg
    rw [List.mem_singleton.mp hg]; exact Or.inl ⟨_, _, rfl, hname⟩
  · have := hset.room; omega
  · simp [Item.cost]
  · intro T s c rest hs h
    refine Reads.int hset.env hs h (by omega) fun c h => ?_
    refine Reads.need rfl ?_
    refine Reads.str hset.env hs h fun c h => ?_
    exact Reads.ret h rfl

end Iges.Props
