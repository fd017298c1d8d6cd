import Verif.Lemmas.Surface

/-! Curves that turn about a centre piece by piece (C70). -/
namespace Iges.Geo
open Iges.Spec Iges.Props Real

/-- a curve as a set of points with a first and a last one -/
structure Piece where
  on : Point ℝ → Prop
  first : Point ℝ
  last : Point ℝ

def curvePiece (c : Curve) : Piece := ⟨CurveOn c, curveFirst c, curveLast c⟩

noncomputable def planePiece (d : Point ℝ × Point ℝ × Point ℝ × Point ℝ) (c : PlaneCurve) : Piece :=
  ⟨fun q => ∃ p, PlaneCurveOn c p ∧ q = faceAt d p, faceAt d (planeFirst c), faceAt d (planeLast c)⟩

/-- The pieces turn about `c` at height `h` from the direction `θ` on, counterclockwise for `k = 1`, at distances from `c`
that are `r` up to `ε`. -/
def Swept (c : Point ℝ) (r ε h k : ℝ) : ℝ → List Piece → ℝ → Prop
  | θ, [], θ' => θ = θ'
  | θ, x :: l, θ' => ∃ φ ρ ρ', 0 ≤ φ ∧ |ρ - r| ≤ ε ∧ |ρ' - r| ≤ ε ∧
      (∀ q, x.on q ↔ ∃ t, 0 ≤ t ∧ t ≤ φ ∧ q = lift (polar c ρ (θ + k * t)) h) ∧
      x.first = lift (polar c ρ θ) h ∧ x.last = lift (polar c ρ' (θ + k * φ)) h ∧ Swept c r ε h k (θ + k * φ) l θ'

theorem swept_points {c : Point ℝ} {r ε h k θ θ' : ℝ} {l : List Piece} (hl : Swept c r ε h k θ l θ') :
    ∃ ψ, 0 ≤ ψ ∧ θ' = θ + k * ψ ∧
      (∀ x ∈ l, ∀ q, x.on q → ∃ t ρ, 0 ≤ t ∧ t ≤ ψ ∧ |ρ - r| ≤ ε ∧ q = lift (polar c ρ (θ + k * t)) h) ∧
      (l ≠ [] → ∀ t, 0 ≤ t → t ≤ ψ → ∃ ρ, |ρ - r| ≤ ε ∧ ∃ x ∈ l, x.on (lift (polar c ρ (θ + k * t)) h)) := by
  induction l generalizing θ with
  | nil => exact ⟨0, le_rfl, by simpa [Swept] using hl.symm, by simp, by simp⟩
  | cons x l ih =>
    obtain ⟨φ, ρ, ρ', hφ, hρ, hρ', hon, -, -, hrest⟩ := hl
    obtain ⟨ψ, hψ, e, i1, i2⟩ := ih hrest
    refine ⟨φ + ψ, by linarith, by rw [e]; ring, ?_, ?_⟩
    · intro y hy q hq
      rcases List.mem_cons.1 hy with rfl | hy
      · obtain ⟨t, t1, t2, rfl⟩ := (hon q).1 hq
        exact ⟨t, ρ, t1, by linarith, hρ, rfl⟩
      · obtain ⟨t, σ, t1, t2, hσ, rfl⟩ := i1 y hy q hq
        exact ⟨φ + t, σ, by linarith, by linarith, hσ, by rw [show θ + k * φ + k * t = θ + k * (φ + t) by ring]⟩
    · intro _ t t1 t2
      by_cases ht : t ≤ φ
      · exact ⟨ρ, hρ, x, List.mem_cons_self, (hon _).2 ⟨t, t1, ht, rfl⟩⟩
      · rw [not_le] at ht
        cases l with
        | nil =>
          have e' : θ + k * φ = θ' := hrest
          -- nothing is left: the rest of the turn is a multiple of zero
          by_cases hk : k = 0
          · refine ⟨ρ, hρ, x, List.mem_cons_self, (hon _).2 ⟨0, le_rfl, hφ, by rw [hk]; simp⟩⟩
          · have : ψ = 0 := by
              have : k * ψ = 0 := by linarith
              rcases mul_eq_zero.1 this with h | h
              · exact absurd h hk
              · exact h
            linarith
        | cons y l =>
          obtain ⟨σ, hσ, z, hz, hon'⟩ := i2 (by simp) (t - φ) (by linarith) (by linarith)
          refine ⟨σ, hσ, z, List.mem_cons_of_mem _ hz, ?_⟩
          rw [show θ + k * t = θ + k * φ + k * (t - φ) by ring]
          exact hon'

theorem swept_fits {c : Point ℝ} {r ε h k θ θ' : ℝ} {l : List Piece} (hk : k = 1 ∨ k = -1) (hne : l ≠ [])
    (hl : Swept c r ε h k θ l θ') {Q : Point ℝ → Prop}
    (hQ : ∀ q, Q q ↔ ∃ t, min θ θ' ≤ t ∧ t ≤ max θ θ' ∧ q = lift (polar c r t) h) : Fits ε (fun q => ∃ x ∈ l, x.on q) Q := by
  obtain ⟨ψ, hψ, e, h1, h2⟩ := swept_points hl
  have hin : ∀ t, 0 ≤ t → t ≤ ψ → min θ θ' ≤ θ + k * t ∧ θ + k * t ≤ max θ θ' := by
    intro t t1 t2
    rcases hk with rfl | rfl
    · exact ⟨min_le_of_left_le (by linarith), le_max_of_le_right (by linarith)⟩
    · exact ⟨min_le_of_right_le (by linarith), le_max_of_le_left (by linarith)⟩
  have hout : ∀ t, min θ θ' ≤ t → t ≤ max θ θ' → ∃ u, 0 ≤ u ∧ u ≤ ψ ∧ t = θ + k * u := by
    intro t t1 t2
    rcases hk with rfl | rfl
    · rw [min_eq_left (by linarith)] at t1
      rw [max_eq_right (by linarith)] at t2
      exact ⟨t - θ, by linarith, by linarith, by ring⟩
    · rw [min_eq_right (by linarith)] at t1
      rw [max_eq_left (by linarith)] at t2
      exact ⟨θ - t, by linarith, by linarith, by ring⟩
  have sq : ∀ ρ, |ρ - r| ≤ ε → (ρ - r) ^ 2 ≤ ε ^ 2 := fun ρ h =>
    sq_le_sq' (by linarith [abs_le.1 h]) (by linarith [abs_le.1 h])
  constructor
  · rintro p ⟨x, hx, hp⟩
    obtain ⟨t, ρ, t1, t2, hρ, rfl⟩ := h1 x hx p hp
    exact ⟨_, (hQ _).2 ⟨_, (hin t t1 t2).1, (hin t t1 t2).2, rfl⟩, (lift_polar_dist _ _ _ _ _).le.trans (sq ρ hρ)⟩
  · intro q hq
    obtain ⟨t, t1, t2, rfl⟩ := (hQ q).1 hq
    obtain ⟨u, u1, u2, rfl⟩ := hout t t1 t2
    obtain ⟨ρ, hρ, x, hx, hon⟩ := h2 hne u u1 u2
    exact ⟨_, ⟨x, hx, hon⟩, (lift_polar_dist _ _ _ _ _).le.trans (sq ρ hρ)⟩

/-- Each of the points is at its angle; the angles increase by less than a full turn. -/
def Near (c : Point ℝ) (r ε : ℝ) (p : ℝ × ℝ) (a : ℝ) : Prop := ∃ ρ, 0 < ρ ∧ |ρ - r| ≤ ε ∧ pt p.1 p.2 = polar c ρ a

def StopsAt (c : Point ℝ) (r ε : ℝ) : ℝ → List (ℝ × ℝ) → ℝ → Prop
  | _, [], _ => False
  | a, [p], b => Near c r ε p a ∧ a = b
  | a, p :: q :: l, b => Near c r ε p a ∧ ∃ a', a < a' ∧ a' < a + 2 * π ∧ StopsAt c r ε a' (q :: l) b

theorem StopsAt.first {c : Point ℝ} {r ε a b : ℝ} {p : ℝ × ℝ} {l : List (ℝ × ℝ)} (h : StopsAt c r ε a (p :: l) b) :
    Near c r ε p a := by
  cases l with
  | nil => exact h.1
  | cons q l => exact h.1

/-- the arcs through the points turn about the centre; `c'` is the centre before the transform -/
theorem through_swept {c c' : Point ℝ} {r ε h e k : ℝ} {tx : Option (Transform ℝ)}
    (hF : ∀ ρ t, (tx.getD Transform.one).act (lift (polar c' ρ t) h) = lift (polar c ρ (e + k * t)) h) (hc : c'.z = 0)
    {l : List (ℝ × ℝ)} {a b : ℝ} (hl : StopsAt c' r ε a l b) :
    Swept c r ε h k (e + k * a) ((arcsThrough h c'.x c'.y tx l).map curvePiece) (e + k * b) := by
  induction l generalizing a with
  | nil => exact hl.elim
  | cons p l ih =>
    cases l with
    | nil => obtain ⟨-, rfl⟩ := hl; simp [arcsThrough, Swept]
    | cons q l =>
      obtain ⟨⟨ρ, hρ, hr, hp⟩, a', h1, h2, hrest⟩ := hl
      obtain ⟨ρ', hρ', hr', hq⟩ := hrest.first
      have ec : pt c'.x c'.y = c' := by unfold pt; ext <;> simp [hc]
      refine ⟨a' - a, ρ, ρ', by linarith, hr, hr', ?_, ?_, ?_, ?_⟩
      · intro x
        simp only [curvePiece, CurveOn]
        rw [ec, hp, hq]
        constructor
        · rintro ⟨y, hy, rfl⟩
          obtain ⟨t, t1, t2, rfl⟩ := (onArc_polar hρ hρ' h1 h2).1 hy
          refine ⟨t - a, by linarith, by linarith, ?_⟩
          rw [hF, show e + k * a + k * (t - a) = e + k * t by ring]
        · rintro ⟨t, t1, t2, rfl⟩
          refine ⟨_, (onArc_polar hρ hρ' h1 h2).2 ⟨a + t, by linarith, by linarith, rfl⟩, ?_⟩
          rw [hF, show e + k * a + k * t = e + k * (a + t) by ring]
      · simp only [curvePiece, curveFirst]
        rw [← hF, ← hp]; rfl
      · simp only [curvePiece, curveLast]
        rw [show e + k * a + k * (a' - a) = e + k * a' by ring, ← hF, ← hq]; rfl
      · rw [show e + k * a + k * (a' - a) = e + k * a' by ring]
        exact ih hrest

theorem runs_through {h x y : ℝ} {tx : Option (Transform ℝ)} (p q : ℝ × ℝ) (l : List (ℝ × ℝ)) :
    Runs ((tx.getD Transform.one).act ⟨p.1, p.2, h⟩) (arcsThrough h x y tx (p :: l ++ [q]))
      ((tx.getD Transform.one).act ⟨q.1, q.2, h⟩) := by
  induction l generalizing p with
  | nil => simp [arcsThrough, Runs, curveFirst, curveLast]
  | cons p' l ih =>
    simp only [List.cons_append, arcsThrough, Runs, curveFirst, curveLast]
    exact ⟨trivial, ih p'⟩

theorem near_pole {c : Point ℝ} {r ε : ℝ} (hr : 0 < r) (hε : 0 ≤ ε) :
    Near c r ε (c.x + r, c.y) 0 ∧ Near c r ε (c.x - r, c.y) π ∧ Near c r ε (c.x + r, c.y) (2 * π) := by
  have z : |r - r| ≤ ε := by simpa using hε
  exact ⟨⟨r, hr, z, (polar_zero c r).symm⟩, ⟨r, hr, z, (polar_pi c r).symm⟩, ⟨r, hr, z, (polar_two_pi c r).symm⟩⟩

/-- the stops of `getCurveArc` for a start angle of at most π -/
theorem arcStops_at {c : Point ℝ} {r ε a0 a1 : ℝ} {p0 p1 : ℝ × ℝ} (hr : 0 < r) (hε : 0 ≤ ε) (h0 : Near c r ε p0 a0)
    (h1 : Near c r ε p1 a1) (ha : -π < a0) (ha' : a0 ≤ π) (hab : a0 < a1) (hb : a1 < a0 + 2 * π) :
    StopsAt c r ε a0 (arcStops c.x c.y r p0 p1 a0 a1) a1 := by
  obtain ⟨z, p, tp⟩ := near_pole (c := c) hr hε
  have hp := Real.pi_pos
  unfold arcStops
  simp only
  split_ifs with c1 c2 c3 c4 c5 c6 c7
  · exact ⟨h0, a1, hab, hb, h1, rfl⟩
  · exact ⟨h0, π, c1.2, by linarith, p, a1, by linarith, by linarith, h1, rfl⟩
  · exact ⟨h0, π, c1.2, by linarith, p, 2 * π, by linarith, by linarith, tp, a1, by linarith, by linarith, h1, rfl⟩
  · exact ⟨h0, a1, hab, hb, h1, rfl⟩
  · exact ⟨h0, 2 * π, by linarith, by linarith, tp, a1, by linarith, by linarith, h1, rfl⟩
  · exact ⟨h0, a1, hab, hb, h1, rfl⟩
  all_goals
    have hneg : a0 < 0 := by
      by_contra hc
      rw [not_lt] at hc
      rcases lt_or_eq_of_le ha' with h | h
      · exact c1 ⟨hc, h⟩
      · exact c4 h
  · exact ⟨h0, 0, hneg, by linarith, z, a1, by linarith, by linarith, h1, rfl⟩
  · exact ⟨h0, 0, hneg, by linarith, z, π, by linarith, by linarith, p, a1, by linarith, by linarith, h1, rfl⟩

theorem arcStops_form (xc yc r : ℝ) (p0 p1 : ℝ × ℝ) (a0 a1 : ℝ) : ∃ m, arcStops xc yc r p0 p1 a0 a1 = p0 :: m ++ [p1] := by
  unfold arcStops
  simp only
  split_ifs
  · exact ⟨[], rfl⟩
  · exact ⟨[_], rfl⟩
  · exact ⟨[_, _], rfl⟩
  · exact ⟨[], rfl⟩
  · exact ⟨[_], rfl⟩
  · exact ⟨[], rfl⟩
  · exact ⟨[_], rfl⟩
  · exact ⟨[_, _], rfl⟩

/-- A face over a square: the parameters are the coordinates, moved and scaled. -/
theorem face_point {lo hi : Point ℝ} {h : ℝ} {rev : Bool} (hw : 0 < hi.x - lo.x) (hs : hi.y - lo.y = hi.x - lo.x)
    (x y : ℝ) : faceAt (facePlane lo hi h rev) (onFace lo.x lo.y (1 / (hi.x - lo.x)) rev x y) = lift (pt x y) h := by
  have hn : hi.x - lo.x ≠ 0 := hw.ne'
  have e1 : ∀ z : ℝ, z * (1 / (hi.x - lo.x)) * (hi.x - lo.x) = z := by intro z; field_simp
  cases rev
  · unfold faceAt facePlane onFace along lift pt Point.add Point.scale
    simp only [Bool.false_eq_true, if_false]
    ext
    · simp only
      linear_combination e1 (x - lo.x)
    · simp only
      linear_combination (y - lo.y) * (1 / (hi.x - lo.x)) * hs + e1 (y - lo.y)
    · simp only; ring
  · unfold faceAt facePlane onFace along lift pt Point.add Point.scale
    simp only [if_true]
    ext
    · simp only
      linear_combination e1 (x - lo.x)
    · simp only
      linear_combination (y - lo.y) * (1 / (hi.x - lo.x)) * hs + e1 (y - lo.y)
    · simp only; ring

/-- the sense of turning on the face: a reversed face is seen from below -/
theorem face_turn (offX offY scale : ℝ) (rev : Bool) (x y cx cy τ : ℝ) :
    turn (pt (onFace offX offY scale rev cx cy).1 (onFace offX offY scale rev cx cy).2) τ
        (pt (onFace offX offY scale rev x y).1 (onFace offX offY scale rev x y).2) =
      (let q := turn (pt cx cy) (if rev then -τ else τ) (pt x y)
       pt (onFace offX offY scale rev q.x q.y).1 (onFace offX offY scale rev q.x q.y).2) := by
  cases rev
  · unfold turn onFace pt
    ext <;> simp <;> ring
  · unfold turn onFace pt
    ext <;> simp <;> ring

theorem pt_eq {p q : ℝ × ℝ} (h : pt p.1 p.2 = pt q.1 q.2) : p = q := by
  unfold pt at h
  injection h with h1 h2
  exact Prod.ext h1 h2

/-- The arcs given to `s1303`: each starts at its angle and covers the angle that comes with it. -/
def PiecesAt (c : Point ℝ) (r ε offX offY scale : ℝ) (rev : Bool) (k : ℝ) : ℝ → List ((ℝ × ℝ) × ℝ) → ℝ → Prop
  | a, [], b => a = b
  | a, x :: l, b => 0 ≤ x.2 ∧ (∃ p, x.1 = onFace offX offY scale rev p.1 p.2 ∧ Near c r ε p a) ∧
      PiecesAt c r ε offX offY scale rev k (a + k * x.2) l b

theorem pieces_swept {lo hi c : Point ℝ} {h r ε k : ℝ} {rev up : Bool} (hw : 0 < hi.x - lo.x)
    (hs : hi.y - lo.y = hi.x - lo.x) (hc : c.z = 0) (hk : k = if up = rev then -1 else 1) {l : List ((ℝ × ℝ) × ℝ)} {a b : ℝ}
    (hl : PiecesAt c r ε lo.x lo.y (1 / (hi.x - lo.x)) rev k a l b) :
    Swept c r ε h k a
      ((l.map fun x => PlaneCurve.arc x.1 (onFace lo.x lo.y (1 / (hi.x - lo.x)) rev c.x c.y) x.2 up).map
        (planePiece (facePlane lo hi h rev))) b := by
  induction l generalizing a with
  | nil => exact hl
  | cons x l ih =>
    obtain ⟨hφ, ⟨p, hp, ρ, hρ, hr, hpp⟩, hrest⟩ := hl
    have ec : pt c.x c.y = c := by unfold pt; ext <;> simp [hc]
    have key : ∀ t, (turn (pt (onFace lo.x lo.y (1 / (hi.x - lo.x)) rev c.x c.y).1
          (onFace lo.x lo.y (1 / (hi.x - lo.x)) rev c.x c.y).2) (if up then t else -t) (pt x.1.1 x.1.2)) =
        pt (onFace lo.x lo.y (1 / (hi.x - lo.x)) rev (polar c ρ (a + k * t)).x (polar c ρ (a + k * t)).y).1
           (onFace lo.x lo.y (1 / (hi.x - lo.x)) rev (polar c ρ (a + k * t)).x (polar c ρ (a + k * t)).y).2 := by
      intro t
      have ek : (if rev then -(if up then t else -t) else (if up then t else -t)) = k * t := by
        rw [hk]; cases rev <;> cases up <;> simp
      rw [hp, face_turn, ek, ec, hpp, turn_polar]
    have lp : ∀ q : Point ℝ, q.z = 0 → faceAt (facePlane lo hi h rev) (onFace lo.x lo.y (1 / (hi.x - lo.x)) rev q.x q.y) =
        lift q h := by
      intro q hq
      rw [face_point hw hs]; rfl
    refine ⟨x.2, ρ, ρ, hφ, hr, hr, ?_, ?_, ?_, ih hrest⟩
    · intro q
      simp only [planePiece, PlaneCurveOn]
      constructor
      · rintro ⟨y, ⟨t, t1, t2, e⟩, rfl⟩
        rw [key] at e
        refine ⟨t, t1, t2, ?_⟩
        rw [pt_eq e]
        exact lp _ rfl
      · rintro ⟨t, t1, t2, rfl⟩
        exact ⟨_, ⟨t, t1, t2, (key t).symm⟩, (lp _ rfl).symm⟩
    · simp only [planePiece, planeFirst]
      rw [hp, face_point hw hs, hpp]
    · simp only [planePiece, planeLast]
      have := key x.2
      rw [this]
      exact lp _ rfl

/-- `copPieces` counterclockwise, and turned round -/
theorem copPieces_at {c : Point ℝ} {r ε offX offY scale s e : ℝ} {rev : Bool} {p0 p1 : ℝ × ℝ} (hr : 0 < r) (hε : 0 ≤ ε)
    (h0 : Near c r ε p0 s) (h1 : Near c r ε p1 e) (hs : s ≤ π) (hse : s ≤ e) (he : e < s + 2 * π) :
    let l := copPieces (onFace offX offY scale rev p0.1 p0.2) (onFace offX offY scale rev c.x c.y) (r * scale) s e
    l ≠ [] ∧ PiecesAt c r ε offX offY scale rev 1 s l e ∧
    copBack (onFace offX offY scale rev p1.1 p1.2) l ≠ [] ∧
    PiecesAt c r ε offX offY scale rev (-1) e (copBack (onFace offX offY scale rev p1.1 p1.2) l) s := by
  obtain ⟨z, p, tp⟩ := near_pole (c := c) hr hε
  have hp := Real.pi_pos
  have er : ((onFace offX offY scale rev c.x c.y).1 + r * scale, (onFace offX offY scale rev c.x c.y).2) =
      onFace offX offY scale rev (c.x + r) c.y := by
    unfold onFace; ext <;> simp; ring
  have el : ((onFace offX offY scale rev c.x c.y).1 - r * scale, (onFace offX offY scale rev c.x c.y).2) =
      onFace offX offY scale rev (c.x - r) c.y := by
    unfold onFace; ext <;> simp; ring
  unfold copPieces
  simp only [er, el]
  have mk : ∀ {q : ℝ × ℝ} {a a' : ℝ}, Near c r ε q a → a = a' →
      ∃ p, onFace offX offY scale rev q.1 q.2 = onFace offX offY scale rev p.1 p.2 ∧ Near c r ε p a' :=
    fun {q a a'} h e => ⟨q, rfl, e ▸ h⟩
  have one : ∀ φ, 0 ≤ φ → s + φ = e →
      PiecesAt c r ε offX offY scale rev 1 s [(onFace offX offY scale rev p0.1 p0.2, φ)] e ∧
      PiecesAt c r ε offX offY scale rev (-1) e (copBack (onFace offX offY scale rev p1.1 p1.2)
        [(onFace offX offY scale rev p0.1 p0.2, φ)]) s := by
    intro φ h e1
    refine ⟨⟨h, mk h0 rfl, by simp only [PiecesAt]; linarith⟩, ?_⟩
    simp only [copBack, List.tail, List.map, List.nil_append, List.zip, List.zipWith, List.reverse_cons, List.reverse_nil]
    exact ⟨h, mk h1 rfl, by simp only [PiecesAt]; linarith⟩
  have two : ∀ (x y φ χ b : ℝ), Near c r ε (x, y) b → 0 ≤ φ → 0 ≤ χ → s + φ = b → b + χ = e →
      PiecesAt c r ε offX offY scale rev 1 s [(onFace offX offY scale rev p0.1 p0.2, φ), (onFace offX offY scale rev x y, χ)] e ∧
      PiecesAt c r ε offX offY scale rev (-1) e (copBack (onFace offX offY scale rev p1.1 p1.2)
        [(onFace offX offY scale rev p0.1 p0.2, φ), (onFace offX offY scale rev x y, χ)]) s := by
    intro x y φ χ b hq h h' e1 e2
    refine ⟨⟨h, mk h0 rfl, h', mk hq (by simp only; linarith), by simp only [PiecesAt]; linarith⟩, ?_⟩
    simp only [copBack, List.tail, List.map, List.nil_append, List.cons_append, List.zip, List.zipWith, List.reverse_cons,
      List.reverse_nil]
    exact ⟨h', mk h1 rfl, h, mk hq (by simp only; linarith), by simp only [PiecesAt]; linarith⟩
  have three : ∀ (x y x' y' φ χ ω b b' : ℝ), Near c r ε (x, y) b → Near c r ε (x', y') b' → 0 ≤ φ → 0 ≤ χ → 0 ≤ ω →
      s + φ = b → b + χ = b' → b' + ω = e →
      PiecesAt c r ε offX offY scale rev 1 s [(onFace offX offY scale rev p0.1 p0.2, φ), (onFace offX offY scale rev x y, χ),
        (onFace offX offY scale rev x' y', ω)] e ∧
      PiecesAt c r ε offX offY scale rev (-1) e (copBack (onFace offX offY scale rev p1.1 p1.2)
        [(onFace offX offY scale rev p0.1 p0.2, φ), (onFace offX offY scale rev x y, χ),
        (onFace offX offY scale rev x' y', ω)]) s := by
    intro x y x' y' φ χ ω b b' hq hq' h h' h'' e1 e2 e3
    refine ⟨⟨h, mk h0 rfl, h', mk hq (by simp only; linarith), h'', mk hq' (by simp only; linarith),
      by simp only [PiecesAt]; linarith⟩, ?_⟩
    simp only [copBack, List.tail, List.map, List.nil_append, List.cons_append, List.zip, List.zipWith, List.reverse_cons,
      List.reverse_nil]
    exact ⟨h'', mk h1 rfl, h', mk hq' (by simp only; linarith), h, mk hq (by simp only; linarith),
      by simp only [PiecesAt]; linarith⟩
  have ne : ∀ x (l : List ((ℝ × ℝ) × ℝ)), copBack (onFace offX offY scale rev p1.1 p1.2) (x :: l) ≠ [] := by
    intro x l
    unfold copBack
    simp only [List.tail_cons, ne_eq, List.reverse_eq_nil_iff]
    intro h
    have := congrArg List.length h
    simp at this
  split_ifs with c1 c2 c3 c4 c5 c6 c7
  · obtain ⟨g1, g2⟩ := one (e - s) (by linarith) (by ring)
    exact ⟨by simp, g1, ne _ _, g2⟩
  · obtain ⟨g1, g2⟩ := two (c.x + r) c.y (-s) e 0 z (by linarith) (by linarith) (by ring) (by ring)
    exact ⟨by simp, g1, ne _ _, g2⟩
  · obtain ⟨g1, g2⟩ := three (c.x + r) c.y (c.x - r) c.y (-s) π (e - π) 0 π z p (by linarith) (by linarith) (by linarith)
      (by ring) (by ring) (by ring)
    exact ⟨by simp, g1, ne _ _, g2⟩
  · obtain ⟨g1, g2⟩ := one (e - s) (by linarith) (by ring)
    exact ⟨by simp, g1, ne _ _, g2⟩
  · have := (not_or.1 c4).1
    obtain ⟨g1, g2⟩ := two (c.x - r) c.y (π - s) (e - π) π p (by linarith) (by linarith) (by ring) (by ring)
    exact ⟨by simp, g1, ne _ _, g2⟩
  · obtain ⟨g1, g2⟩ := three (c.x - r) c.y (c.x + r) c.y (π - s) π (e - 2 * π) π (2 * π) p tp (by linarith) (by linarith)
      (by linarith) (by ring) (by ring) (by ring)
    exact ⟨by simp, g1, ne _ _, g2⟩
  · obtain ⟨g1, g2⟩ := one (e - s) (by linarith) (by ring)
    exact ⟨by simp, g1, ne _ _, g2⟩
  · obtain ⟨g1, g2⟩ := two (c.x + r) c.y (2 * π - s) (e - 2 * π) (2 * π) tp (by linarith) (by linarith) (by ring) (by ring)
    exact ⟨by simp, g1, ne _ _, g2⟩

/-- gaps between pieces that turn about the same centre -/
theorem swept_runs {d : Point ℝ × Point ℝ × Point ℝ × Point ℝ} {c : Point ℝ} {r ε h k θ θ' ρ ρ' : ℝ} {l : List PlaneCurve}
    (hl : Swept c r ε h k θ (l.map (planePiece d)) θ') (h1 : |ρ - r| ≤ ε) (h2 : |ρ' - r| ≤ ε) :
    RunsOn (2 * ε) d (lift (polar c ρ θ) h) l (lift (polar c ρ' θ') h) := by
  have gap : ∀ a b t, |a - r| ≤ ε → |b - r| ≤ ε → dist2 (lift (polar c a t) h) (lift (polar c b t) h) ≤ (2 * ε) ^ 2 := by
    intro a b t ha hb
    rw [lift_polar_dist]
    rw [abs_le] at ha hb
    exact sq_le_sq' (by linarith) (by linarith)
  induction l generalizing θ ρ with
  | nil =>
    have : θ = θ' := hl
    rw [this]
    exact gap _ _ _ h1 h2
  | cons x l ih =>
    obtain ⟨φ, a, b, -, ha, hb, -, hf, hla, hrest⟩ := hl
    have hf' : faceAt d (planeFirst x) = lift (polar c a θ) h := hf
    have hla' : faceAt d (planeLast x) = lift (polar c b (θ + k * φ)) h := hla
    refine ⟨?_, ?_⟩
    · rw [hf']; exact gap _ _ _ h1 ha
    · rw [hla']; exact ih hrest hb

end Iges.Geo
