import Verif.Props.Vertices
import Verif.Spec.Nurbs
/-
C33: NURBS curves and surfaces.
-/
namespace Iges.Props
open Iges

/-! ### Sizes -/

theorem firstN_val : ∀ (n : Nat) (a b : List ℚ), firstN n a = .val b → b = a.take n ∧ b.length = n
  | 0, a, b, h => by cases h; simp
  | n + 1, [], b, h => by cases h
  | n + 1, x :: xs, b, h => by
    obtain ⟨ys, h1, h2⟩ := Rd.bind_val h
    cases h2
    obtain ⟨rfl, l⟩ := firstN_val n xs ys h1
    exact ⟨by simp, by simp [l]⟩

theorem firstN_all : ∀ (a : List ℚ), firstN a.length a = .val a
  | [] => rfl
  | x :: xs => by simp [firstN, firstN_all xs]

theorem firstN_short : ∀ (n : Nat) (a : List ℚ), a.length < n → firstN n a = .ub
  | 0, a, h => by simp at h
  | n + 1, [], _ => rfl
  | n + 1, x :: xs, h => by simp [firstN, firstN_short n xs (by simpa using h)]

/-- C33: a successful `SetNURBSData` of a curve stores exactly the data given, and the sizes agree. -/
theorem C33_set_curve (sqrt : ℚ → ℚ) (d d' : Nurbs) (nCoeff order : Int) (knot coeff : Option (List ℚ))
    (rational : Bool) (v0 v1 : ℚ) (h : d.set sqrt nCoeff order knot coeff rational v0 v1 = .val (true, d')) :
    Spec.CurveSizes d' ∧ d'.nCoeffs = nCoeff ∧ d'.M + 1 = order ∧ 2 ≤ order ∧ order ≤ nCoeff ∧
      (∃ ks, knot = some ks ∧ d'.knots = some (ks.take (nCoeff + order).toNat)) ∧
      (∃ cs, coeff = some cs ∧ d'.coeffs = some (cs.take ((if rational then 4 else 3) * nCoeff).toNat)) ∧
      (rational = true ↔ d'.PROP3 = 0) ∧ d'.V0 = v0 ∧ d'.V1 = v1 ∧ v0 < v1 := by
  unfold Nurbs.set at h
  split at h
  · rename_i ks cs
    split at h
    · cases h
    · split at h
      · cases h
      · obtain ⟨k0, _, h⟩ := Rd.bind_val h
        obtain ⟨kn, _, h⟩ := Rd.bind_val h
        split at h
        · cases h
        · split at h
          · cases h
          · rename_i hv
            obtain ⟨ks', h1, h⟩ := Rd.bind_val h
            obtain ⟨cs', h2, h⟩ := Rd.bind_val h
            obtain ⟨ps, _, h⟩ := Rd.bind_val h
            cases h
            obtain ⟨rfl, l1⟩ := firstN_val _ _ _ h1
            obtain ⟨rfl, l2⟩ := firstN_val _ _ _ h2
            simp only at l1 l2
            refine ⟨⟨?_, ?_, ?_, ?_⟩, rfl, by simp only; omega, by omega, by omega, ⟨ks, rfl, rfl⟩, ⟨cs, rfl, ?_⟩, ?_, rfl, rfl, ?_⟩
            · simp only; rw [l1]; omega
            · simp only; omega
            · simp only; omega
            · simp only; rw [l2]; cases rational <;> simp <;> omega
            · simp only; cases rational <;> simp [mul_comm]
            · cases rational <;> simp
            · rcases not_or.mp hv with ⟨a, _⟩; exact not_le.mp a
  · cases h

/-- The result of a `SetNURBSData` call that fails because of its pointers, order or number of points:
nothing has changed. -/
theorem C33_set_curve_refused (sqrt : ℚ → ℚ) (d d' : Nurbs) (nCoeff order : Int) (knot coeff : Option (List ℚ))
    (rational : Bool) (v0 v1 : ℚ) (h : d.set sqrt nCoeff order knot coeff rational v0 v1 = .val (false, d'))
    (hbad : knot = none ∨ coeff = none ∨ order < 2 ∨ nCoeff < order) : d' = d := by
  unfold Nurbs.set at h
  split at h
  · split at h
    · cases h; rfl
    · split at h
      · cases h; rfl
      · rename_i h1 h2
        rcases hbad with h | h | h | h
        · cases h
        · cases h
        · exact absurd h h1
        · exact absurd h h2
  · cases h; rfl

/-- A call that fails at the parameter range has stored the sizes, and nothing else. -/
theorem set_range (sqrt : ℚ → ℚ) (d d' : Nurbs) (nCoeff order : Int) (knot coeff : Option (List ℚ))
    (rational : Bool) (v0 v1 : ℚ) (h : d.set sqrt nCoeff order knot coeff rational v0 v1 = .val (false, d'))
    (hk : knot ≠ none) (hc : coeff ≠ none) (ho : 2 ≤ order) (hn : order ≤ nCoeff) :
    d' = { d with nKnots := nCoeff + order, nCoeffs := nCoeff, K := nCoeff - 1, M := order - 1 } := by
  unfold Nurbs.set at h
  split at h
  · rw [if_neg (by omega), if_neg (by omega)] at h
    obtain ⟨k0, _, h⟩ := Rd.bind_val h
    obtain ⟨kn, _, h⟩ := Rd.bind_val h
    split at h
    · cases h; rfl
    · split at h
      · cases h; rfl
      · obtain ⟨ks', h1, h⟩ := Rd.bind_val h
        obtain ⟨cs', h2, h⟩ := Rd.bind_val h
        obtain ⟨ps, _, h⟩ := Rd.bind_val h
        cases h
  · rename_i hx
    obtain ⟨k, rfl⟩ := Option.ne_none_iff_exists'.mp hk
    obtain ⟨c, rfl⟩ := Option.ne_none_iff_exists'.mp hc
    exact absurd rfl (hx k c rfl)

/-- C33 fails: if the parameter range of a call is refused, a curve that has data keeps the old arrays
with the new sizes; if these are larger, writing the curve reads past the end of its knots. -/
theorem C33_refused_range_breaks_curve (sqrt : ℚ → ℚ) (E : PdEnv) (de index : Int) (d d' : Nurbs) (nCoeff order : Int)
    (knot coeff : Option (List ℚ)) (rational : Bool) (v0 v1 : ℚ) (xs : List ExtraRef) (cs : List Str)
    (hd : Spec.CurveSizes d) (hdata : d.knots ≠ none) (hflags : isFlag d.PROP1 ∧ isFlag d.PROP2 ∧ isFlag d.PROP3 ∧ isFlag d.PROP4)
    (h : d.set sqrt nCoeff order knot coeff rational v0 v1 = .val (false, d'))
    (hk : knot ≠ none) (hc : coeff ≠ none) (ho : 2 ≤ order) (hn : order ≤ nCoeff)
    (hbig : d.nKnots < nCoeff + order) (hi : 1 ≤ index ∧ index ≤ 9999999) :
    ¬ Spec.CurveSizes d' ∧ d'.format E de xs cs index = .ub := by
  have := set_range sqrt d d' nCoeff order knot coeff rational v0 v1 h hk hc ho hn
  subst this
  unfold Spec.CurveSizes at hd
  obtain ⟨ks, hks⟩ := Option.ne_none_iff_exists'.mp hdata
  cases hcs : d.coeffs with
  | none => rw [hks, hcs] at hd; exact absurd hd id
  | some c =>
    rw [hks, hcs] at hd
    obtain ⟨h1, h2, h3, h4⟩ := hd
    unfold isFlag at hflags
    constructor
    · unfold Spec.CurveSizes
      simp only [hks]
      rintro ⟨e, _⟩
      omega
    · unfold Nurbs.format
      simp only [hks]
      rw [if_neg (by omega), if_neg (by omega), if_neg (by omega), if_neg (by omega), if_neg (by omega),
        firstN_short _ _ (by omega)]
      rfl

/-- A curve as it is built by calls to `SetNURBSData`, none of which is refused because of the parameter
range `v0, v1`. -/
inductive Built (sqrt : ℚ → ℚ) : Nurbs → Prop
  | new : Built sqrt Nurbs.new
  | set {d d' : Nurbs} {nCoeff order : Int} {knot coeff : Option (List ℚ)} {rational : Bool} {v0 v1 : ℚ} {b : Bool} :
      Built sqrt d → d.set sqrt nCoeff order knot coeff rational v0 v1 = .val (b, d') →
      (b = true ∨ knot = none ∨ coeff = none ∨ order < 2 ∨ nCoeff < order) → Built sqrt d'

/-- C33 for calls that are not refused because of their range: the sizes always agree. -/
theorem C33_sizes_partial (sqrt : ℚ → ℚ) (d : Nurbs) (h : Built sqrt d) : Spec.CurveSizes d := by
  induction h with
  | new => trivial
  | @set d d' nCoeff order knot coeff rational v0 v1 b _ hs hb ih =>
    cases b with
    | true => exact (C33_set_curve _ _ _ _ _ _ _ _ _ _ hs).1
    | false =>
      rw [C33_set_curve_refused _ _ _ _ _ _ _ _ _ _ hs (by simpa using hb)]
      exact ih

/-- C33 fails: the data of a curve cannot be read through the API: `GetNURBSData` reports that there are
none, or dereferences a NULL pointer; after every successful `SetNURBSData` it does the latter. -/
theorem C33_get_undefined (sqrt : ℚ → ℚ) (d d' : Nurbs) (nCoeff order : Int) (knot coeff : Option (List ℚ))
    (rational : Bool) (v0 v1 : ℚ) (h : d.set sqrt nCoeff order knot coeff rational v0 v1 = .val (true, d')) :
    d'.get = .ub := by
  obtain ⟨_, _, _, _, _, ⟨ks, _, h2⟩, _⟩ := C33_set_curve _ _ _ _ _ _ _ _ _ _ h
  unfold Nurbs.get
  rw [h2]

theorem intIf_val {s : Src} {p : Int → Prop} [DecidablePred p] {c c' : Cur} {n : Int} (h : s.intIf p c = .val (n, c')) : p n := by
  obtain ⟨⟨m, c1⟩, h1, h⟩ := Rd.bind_val h
  obtain ⟨_, h2, h⟩ := Rd.bind_val h
  cases h
  unfold Rd.need at h2
  split at h2
  · assumption
  · cases h2

theorem packPoints_length (p3 : Int) (ps : List (Point ℚ × ℚ)) :
    (packPoints p3 ps).length = (if p3 = 0 then 4 else 3) * ps.length := by
  unfold packPoints
  split <;> simp only [List.length_flatMap, List.length_cons, List.length_nil, List.map_const', List.sum_replicate, smul_eq_mul] <;> ring

theorem readPDWith_val {α : Type} {E : PdEnv} {etype de pdata count : Int} {ls : List Str}
    {body : Src → Cur → Rd (α × Cur)} {r : α × List Int × List Str}
    (h : readPDWith E etype de pdata count ls body = .val r) : ∃ s c c', body s c = .val (r.1, c') := by
  unfold readPDWith at h
  cases hp : readPDText etype de pdata count E.pd E.rd ls with
  | ub => rw [hp] at h; cases h
  | exn => rw [hp] at h; cases h
  | ok o =>
    rw [hp] at h
    cases o with
    | none => cases h
    | some data =>
      simp only [Rd.lift_ok] at h
      split at h
      · cases h
      · split at h
        · cases h
        · obtain ⟨⟨a, c'⟩, h1, h⟩ := Rd.bind_val h
          have : r.1 = a := by
            split at h
            · cases h; rfl
            · obtain ⟨_, _, h⟩ := Rd.bind_val h
              cases h; rfl
          rw [this]
          exact ⟨_, _, c', h1⟩

/-- C33: whatever a file contains, a curve that was read successfully has sizes that agree with its data. -/
theorem C33_read_curve (E : PdEnv) (de pdata count : Int) (ls : List Str) (d : Nurbs) (xs : List Int) (cs : List Str)
    (h : Nurbs.readPD E de pdata count ls = .val (d, xs, cs)) :
    Spec.CurveSizes d ∧ d.knots ≠ none ∧ 1 ≤ d.K ∧ 1 ≤ d.M ∧
      isFlag d.PROP1 ∧ isFlag d.PROP2 ∧ isFlag d.PROP3 ∧ isFlag d.PROP4 := by
  obtain ⟨s, c, c', h⟩ := readPDWith_val h
  obtain ⟨⟨K, c1⟩, k1, h⟩ := Rd.bind_val h
  obtain ⟨⟨M, c2⟩, k2, h⟩ := Rd.bind_val h
  obtain ⟨⟨p1, c3⟩, k3, h⟩ := Rd.bind_val h
  obtain ⟨⟨p2, c4⟩, k4, h⟩ := Rd.bind_val h
  obtain ⟨⟨p3, c5⟩, k5, h⟩ := Rd.bind_val h
  obtain ⟨⟨p4, c6⟩, k6, h⟩ := Rd.bind_val h
  obtain ⟨⟨ks, c7⟩, k7, h⟩ := Rd.bind_val h
  obtain ⟨⟨ws, c8⟩, k8, h⟩ := Rd.bind_val h
  obtain ⟨⟨ps, c9⟩, k9, h⟩ := Rd.bind_val h
  obtain ⟨⟨v0, c10⟩, k10, h⟩ := Rd.bind_val h
  obtain ⟨⟨v1, c11⟩, k11, h⟩ := Rd.bind_val h
  obtain ⟨⟨n, c12⟩, k12, h⟩ := Rd.bind_val h
  cases h
  have hK : 1 ≤ K := intIf_val k1
  have hM : 1 ≤ M := intIf_val k2
  have l7 := readN_length k7
  have l8 := readN_length k8
  have l9 := readN_length k9
  refine ⟨⟨?_, by simp only; omega, rfl, ?_⟩, by simp, hK, hM, intIf_val k3, intIf_val k4, intIf_val k5, intIf_val k6⟩
  · rw [l7]; simp only; omega
  · rw [packPoints_length, List.length_zip, l8, l9]
    simp only
    rw [Nat.min_self]
    push_cast
    split <;> omega

/-! ### Round trips -/

theorem oneEach_flatten (pd last : Char) : ∀ xs : List Item, (oneEach pd last xs).flatten = closeItems pd last xs
  | [] => rfl
  | [_] => rfl
  | x :: y :: xs => by
    have := oneEach_flatten pd last (y :: xs)
    simp only [oneEach, List.flatten_cons, this, closeItems, List.singleton_append]

theorem oneEach_ok (pd last : Char) : ∀ xs : List Item, (∀ x ∈ xs, x.Ok) → ∀ g ∈ oneEach pd last xs, GroupOk g
  | [], _, g, hg => by simp [oneEach] at hg
  | [x], hx, g, hg => by
    simp only [oneEach, List.mem_singleton] at hg
    exact Or.inl ⟨_, _, hg, hx x (by simp)⟩
  | x :: y :: xs, hx, g, hg => by
    simp only [oneEach, List.mem_cons] at hg
    rcases hg with rfl | hg
    · exact Or.inl ⟨_, _, rfl, hx x (by simp)⟩
    · exact oneEach_ok pd last (y :: xs) (fun z hz => hx z (List.mem_cons_of_mem _ hz)) g hg

/-- The cycle of an entity whose parameters after the leading integers are reals, each with its
resolution. -/
theorem realsCycle {E : PdEnv} {de i0 etype : Int} {pre : List Int} {vs : List (ℚ × ℚ)} {ex : List ExtraRef}
    {α : Type} {R : α → Prop} {body : Src → Cur → Rd (α × Cur)} (hset : Setting E de i0 ex (2 * vs.length))
    (het : 100 ≤ etype ∧ etype ≤ 999) (hfit : (preText E.pd (etype :: pre)).length ≤ 64) (hne : vs ≠ [])
    (hb : ∀ v ∈ vs, 0 < v.2 ∧ |v.1| ≤ 10 ^ (300 : ℤ))
    (hbody : ∀ T s c rest, SrcOf E s →
      Ready T s c (pre.map Param.int ++ (vs.flatMap (fun v => [Param.real (realText E.est v.2 v.1)]) ++ rest)) →
      Reads T s rest R (body s c)) :
    Spec.PdCycle (2 * vs.length + 2 * ex.length + 4) de i0
      (formatPD E de (etype :: pre) (oneEach E.pd (E.last ex) (vs.map fun v => .real v.1 v.2)) ex [] 9999999 i0)
      (fun a b ls => readPDWith E etype de a b ls body)
      (fun q => R q.1 ∧ q.2.1 = secA ex ++ secB ex ∧ q.2.2 = []) := by
  have hok : ∀ it ∈ vs.map (fun v => Item.real v.1 v.2), it.Ok := by
    intro it hit
    obtain ⟨v, hv, rfl⟩ := List.mem_map.mp hit
    exact hb v hv
  have hcost : ((vs.map (fun v => Item.real v.1 v.2)).map Item.cost).sum = 2 * vs.length := by
    clear hok hb hbody hset hne
    induction vs with
    | nil => rfl
    | cons a l ih => simp only [List.map_cons, List.sum_cons, ih, Item.cost, List.length_cons]; omega
  refine pdCycle hset.env (items := vs.map fun v => .real v.1 v.2) hset.de het hfit (by simpa using hne) hok
    (oneEach_ok _ _ _ hok) (oneEach_flatten _ _ _) hset.extras ⟨hset.first, ?_⟩ hset.room ?_ ?_
  · have := hset.room; omega
  · rw [hcost]
  · intro T s c rest hs h
    refine hbody T s c rest hs ?_
    rw [← List.map_eq_flatMap]
    simpa only [List.map_map, Function.comp_def, Item.param] using h

/-- The same when the reader refuses the text. -/
theorem realsRefused {E : PdEnv} {de i0 etype : Int} {pre : List Int} {vs : List (ℚ × ℚ)} {ex : List ExtraRef}
    {α : Type} {body : Src → Cur → Rd (α × Cur)} (hset : Setting E de i0 ex (2 * vs.length))
    (het : 100 ≤ etype ∧ etype ≤ 999) (hfit : (preText E.pd (etype :: pre)).length ≤ 64) (hne : vs ≠ [])
    (hb : ∀ v ∈ vs, 0 < v.2 ∧ |v.1| ≤ 10 ^ (300 : ℤ))
    (hbody : ∀ T s c rest, SrcOf E s →
      Ready T s c (pre.map Param.int ++ (vs.flatMap (fun v => [Param.real (realText E.est v.2 v.1)]) ++ rest)) →
      body s c = .fail) :
    Spec.PdRefused de i0
      (formatPD E de (etype :: pre) (oneEach E.pd (E.last ex) (vs.map fun v => .real v.1 v.2)) ex [] 9999999 i0)
      (fun a b ls => readPDWith E etype de a b ls body) := by
  have hok : ∀ it ∈ vs.map (fun v => Item.real v.1 v.2), it.Ok := by
    intro it hit
    obtain ⟨v, hv, rfl⟩ := List.mem_map.mp hit
    exact hb v hv
  have hcost : ((vs.map (fun v => Item.real v.1 v.2)).map Item.cost).sum = 2 * vs.length := by
    clear hok hb hbody hset hne
    induction vs with
    | nil => rfl
    | cons a l ih => simp only [List.map_cons, List.sum_cons, ih, Item.cost, List.length_cons]; omega
  have := roomFor_extras_le ex
  have hroom := hset.room
  obtain ⟨n, datas, j, hf, hn, hpos, _, h64, hnl, htext, hfind, hsz, _, hready⟩ := pd_written hset.env
    (items := vs.map fun v => .real v.1 v.2) (limit := 9999999) hset.de het hfit (by simpa using hne) hok
    (oneEach_ok _ _ _ hok) (oneEach_flatten _ _ _) hset.extras ⟨hset.first, by omega⟩
    (by unfold roomOf; rw [hcost]; push_cast at *; omega)
  refine ⟨datas, ?_, fun d hd => ⟨h64 d hd, hnl d hd⟩, by rw [hf, hn], fun more => ?_⟩
  · rintro rfl; simp at hpos
  · have h1 := htext more
    rw [show n - i0 = (datas.length : Int) by omega] at h1
    have h2 := hbody _ ⟨datas.flatten, E.pd, E.rd, E.num⟩ ⟨4, false⟩ _ ⟨rfl, rfl, rfl, hsz⟩
      (by rw [← List.map_eq_flatMap]; simpa only [List.map_map, Function.comp_def, Item.param] using hready)
    simp only [readPDWith, h1, Rd.lift_ok, hfind]
    rw [if_neg (by decide), h2]
    rfl

section
variable {E : PdEnv} {T : Str} {s : Src}

/-- The encoding of a real of resolution `r`. -/
def encReal (E : PdEnv) (r x : ℚ) : Param := .real (realText E.est r x)

theorem Ready.reals (hE : E.Ok) (hs : SrcOf E s) {r : ℚ} (hr : 0 < r) {c : Cur} (ks : List ℚ) (rest : List Param)
    (hb : ∀ k ∈ ks, |k| ≤ 10 ^ (300 : ℤ)) (h : Ready T s c (ks.flatMap (fun k => [encReal E r k]) ++ rest)) :
    ∃ ys c', readN s.real ks.length c = .val (ys, c') ∧ List.Forall₂ (Spec.Near r) ks ys ∧ Ready T s c' rest :=
  readN_list _ (fun k => [encReal E r k]) _ ks
    (fun k hk _ _ h => Ready.real hE hs none h hr (hb k hk)) c rest h

theorem Ready.vertex (hE : E.Ok) (hs : SrcOf E s) {r : ℚ} (hr : 0 < r) {c : Cur} {p : Point ℚ} {rest : List Param}
    (hx : |p.x| ≤ 10 ^ (300 : ℤ)) (hy : |p.y| ≤ 10 ^ (300 : ℤ)) (hz : |p.z| ≤ 10 ^ (300 : ℤ))
    (h : Ready T s c (encReal E r p.x :: encReal E r p.y :: encReal E r p.z :: rest)) :
    ∃ q c', readVertex s c = .val (q, c') ∧ PointNear r p q ∧ Ready T s c' rest := by
  obtain ⟨x, c1, e1, n1, h⟩ := Ready.real hE hs none h hr hx
  obtain ⟨y, c2, e2, n2, h⟩ := Ready.real hE hs none h hr hy
  obtain ⟨z, c3, e3, n3, h⟩ := Ready.real hE hs none h hr hz
  exact ⟨⟨x, y, z⟩, c3, by simp [readVertex, e1, e2, e3], ⟨n1, n2, n3⟩, h⟩

theorem near_pos {r x y : ℚ} (h : Spec.Near r x y) (hx : 1 / 10 ^ 8 ≤ x) : 0 < y := by
  have hp : 0 < x := lt_of_lt_of_le (by norm_num) hx
  have := h.2.2 (by rwa [abs_of_pos hp])
  rw [abs_of_pos hp, abs_le] at this
  linarith [this.1]

theorem near_nonpos {r x y : ℚ} (h : Spec.Near r x y) (hx : x < 1 / 10 ^ 8) : y ≤ 0 := by
  rcases lt_or_ge |x| (1 / 10 ^ 8) with h1 | h1
  · rw [h.1 h1]
  · have hneg : x < 0 := by
      by_contra hc
      rw [abs_of_nonneg (not_lt.mp hc)] at h1
      exact absurd hx (not_lt.mpr h1)
    have := h.2.2 h1
    rw [abs_of_neg hneg, abs_le] at this
    linarith [this.2]

theorem Ready.weight (hE : E.Ok) (hs : SrcOf E s) {r : ℚ} (hr : 0 < r) {c : Cur} {w : ℚ} {rest : List Param}
    (hb : |w| ≤ 10 ^ (300 : ℤ)) (hw : 1 / 10 ^ 8 ≤ w) (h : Ready T s c (encReal E r w :: rest)) :
    ∃ y c', readWeight s c = .val (y, c') ∧ Spec.Near r w y ∧ Ready T s c' rest := by
  obtain ⟨y, c1, e1, n1, h⟩ := Ready.real hE hs none h hr hb
  refine ⟨y, c1, ?_, n1, h⟩
  simp only [readWeight, e1, Rd.val_bind]
  rw [Rd.need_true (not_le.mpr (near_pos n1 hw))]
  rfl

theorem Ready.badWeight (hE : E.Ok) (hs : SrcOf E s) {r : ℚ} (hr : 0 < r) {c : Cur} {w : ℚ} {rest : List Param}
    (hb : |w| ≤ 10 ^ (300 : ℤ)) (hw : w < 1 / 10 ^ 8) (h : Ready T s c (encReal E r w :: rest)) :
    readWeight s c = .fail := by
  obtain ⟨y, c1, e1, n1, h⟩ := Ready.real hE hs none h hr hb
  simp only [readWeight, e1, Rd.val_bind]
  rw [Rd.need_false (not_not.mpr (near_nonpos n1 hw))]
  rfl

theorem Ready.badWeights (hE : E.Ok) (hs : SrcOf E s) {r : ℚ} (hr : 0 < r) : ∀ (ws : List ℚ) (c : Cur) (rest : List Param),
    (∀ w ∈ ws, |w| ≤ 10 ^ (300 : ℤ)) → (∃ w ∈ ws, w < 1 / 10 ^ 8) →
    Ready T s c (ws.flatMap (fun w => [encReal E r w]) ++ rest) → readN (readWeight s) ws.length c = .fail
  | [], _, _, _, h, _ => by obtain ⟨w, hw, _⟩ := h; simp at hw
  | w :: ws, c, rest, hb, hbad, h => by
    rcases lt_or_ge w (1 / 10 ^ 8) with hw | hw
    · rw [List.length_cons, readN, Ready.badWeight hE hs hr (hb w (by simp)) hw h]; rfl
    · obtain ⟨y, c', e, _, h'⟩ := Ready.weight hE hs hr (hb w (by simp)) hw h
      have := Ready.badWeights hE hs hr ws c' rest (fun v hv => hb v (List.mem_cons_of_mem _ hv))
        (by
          obtain ⟨v, hv, hlt⟩ := hbad
          rcases List.mem_cons.mp hv with rfl | hv
          · exact absurd hlt (not_lt.mpr hw)
          · exact ⟨v, hv, hlt⟩) h'
      rw [List.length_cons, readN, e, Rd.val_bind]
      simp only [this]
      rfl

end

/-- The weights that are written: those of the array, or 1. -/
def outPoints (p3 : Int) (ps : List (Point ℚ × ℚ)) : List (Point ℚ × ℚ) := if p3 = 0 then ps else ps.map fun p => (p.1, 1)

theorem controlPoints_array (p3 : Int) : ∀ ps : List (Point ℚ × ℚ),
    controlPoints p3 ps.length (Spec.ctrlArray p3 ps) = .val (outPoints p3 ps)
  | [] => by unfold outPoints; split <;> rfl
  | p :: ps => by
    have ih := controlPoints_array p3 ps
    simp only [Spec.ctrlArray, List.flatMap_cons, List.length_cons] at ih ⊢
    unfold controlPoints
    unfold outPoints at *
    by_cases h : p3 = 0
    · simp only [h, if_true, List.cons_append, List.nil_append] at ih ⊢
      rw [ih]; rfl
    · simp only [if_neg h, List.cons_append, List.nil_append] at ih ⊢
      rw [ih]; rfl

theorem ctrlArray_length (p3 : Int) (ps : List (Point ℚ × ℚ)) :
    (Spec.ctrlArray p3 ps).length = (if p3 = 0 then 4 else 3) * ps.length := by
  unfold Spec.ctrlArray
  by_cases h : p3 = 0 <;>
    simp only [h, if_true, if_false, List.length_flatMap, List.length_cons, List.length_nil, List.map_const', List.sum_replicate, smul_eq_mul] <;> ring

theorem packPoints_eq (p3 : Int) (ps : List (Point ℚ × ℚ)) : packPoints p3 ps = Spec.ctrlArray p3 ps := by
  unfold packPoints Spec.ctrlArray
  split <;> rfl

/-- Every array of the right length is the array of some control points. -/
theorem ctrlArray_surj (p3 : Int) : ∀ (n : Nat) (cs : List ℚ), cs.length = (if p3 = 0 then 4 else 3) * n →
    ∃ ps : List (Point ℚ × ℚ), ps.length = n ∧ cs = Spec.ctrlArray p3 ps
  | 0, cs, h => ⟨[], rfl, by rw [Nat.mul_zero] at h; rw [List.length_eq_zero_iff.mp h]; rfl⟩
  | n + 1, cs, h => by
    by_cases hp : p3 = 0
    · simp only [hp, if_true] at h
      match cs, h with
      | x :: y :: z :: w :: r, h =>
        obtain ⟨ps, l, e⟩ := ctrlArray_surj p3 n r (by simp only [hp, if_true]; simp only [List.length_cons] at h; omega)
        exact ⟨(⟨x, y, z⟩, w) :: ps, by simp [l], by simp [Spec.ctrlArray, hp, e]⟩
      | [], h => simp only [List.length_nil] at h; omega
      | [_], h => simp only [List.length_cons, List.length_nil] at h; omega
      | [_, _], h => simp only [List.length_cons, List.length_nil] at h; omega
      | [_, _, _], h => simp only [List.length_cons, List.length_nil] at h; omega
    · simp only [hp, if_false] at h
      match cs, h with
      | x :: y :: z :: r, h =>
        obtain ⟨ps, l, e⟩ := ctrlArray_surj p3 n r (by simp only [hp, if_false]; simp only [List.length_cons] at h; omega)
        exact ⟨(⟨x, y, z⟩, 1) :: ps, by simp [l], by simp [Spec.ctrlArray, hp, e]⟩
      | [], h => simp only [List.length_nil] at h; omega
      | [_], h => simp only [List.length_cons, List.length_nil] at h; omega
      | [_, _], h => simp only [List.length_cons, List.length_nil] at h; omega

theorem flag_size {n : Int} (h : isFlag n) : (intStr n).length = 1 := by rcases h with rfl | rfl <;> rfl

theorem flag_range {n : Int} (h : isFlag n) : -2147483648 ≤ n ∧ n ≤ 2147483647 := by rcases h with rfl | rfl <;> decide

/-- What is kept of a curve by a write and a read: the sizes and flags exactly, knots, control points and
parameter range to fifteen digits, the weights of a rational curve to `1e-9` or fifteen digits, and
the normal of a planar curve up to rounding (that of another curve is `(0, 0, 1)`). -/
structure CurveNear (d : Nurbs) (ks : List ℚ) (ps : List (Point ℚ × ℚ)) (b : Nurbs) : Prop where
  K : b.K = d.K
  M : b.M = d.M
  nKnots : b.nKnots = d.nKnots
  nCoeffs : b.nCoeffs = d.nCoeffs
  PROP1 : b.PROP1 = d.PROP1
  PROP2 : b.PROP2 = d.PROP2
  PROP3 : b.PROP3 = d.PROP3
  PROP4 : b.PROP4 = d.PROP4
  knots : ∃ ks', b.knots = some ks' ∧ List.Forall₂ (Spec.Near (1 / 10 ^ 15)) ks ks'
  points : ∃ ps', b.coeffs = some (Spec.ctrlArray d.PROP3 ps') ∧
    List.Forall₂ (Spec.CtrlNear d.PROP3 (1 / 10 ^ 15) (1 / 10 ^ 6)) ps ps'
  V0 : Spec.Near (1 / 10 ^ 15) d.V0 b.V0
  V1 : Spec.Near (1 / 10 ^ 15) d.V1 b.V1
  planar : d.PROP1 = 1 → |b.vnorm.x - d.vnorm.x| ≤ 1 / 10 ^ 6 ∧ |b.vnorm.y - d.vnorm.y| ≤ 1 / 10 ^ 6 ∧
    |b.vnorm.z - d.vnorm.z| ≤ 1 / 10 ^ 6
  nonplanar : d.PROP1 = 0 → b.vnorm = ⟨0, 0, 1⟩

theorem Nurbs.reals_length (d : Nurbs) (ks : List ℚ) (ps : List (Point ℚ × ℚ)) :
    (d.reals ks ps).length = ks.length + 4 * ps.length + 5 := by
  simp only [Nurbs.reals, List.length_append, List.length_map, List.length_flatMap, List.length_cons, List.length_nil,
    List.map_const', List.sum_replicate, smul_eq_mul]
  omega

/-- A curve with consistent data, as the theorems below take it. -/
structure GoodCurve (d : Nurbs) (ks : List ℚ) (ps : List (Point ℚ × ℚ)) : Prop where
  knots : d.knots = some ks
  coeffs : d.coeffs = some (Spec.ctrlArray d.PROP3 ps)
  sizes : Spec.CurveSizes d
  K : 1 ≤ d.K
  M : 1 ≤ d.M
  flags : isFlag d.PROP1 ∧ isFlag d.PROP2 ∧ isFlag d.PROP3 ∧ isFlag d.PROP4
  small : ∀ x ∈ ks ++ Spec.ctrlArray d.PROP3 ps ++ [d.V0, d.V1, d.vnorm.x, d.vnorm.y, d.vnorm.z], |x| ≤ 10 ^ (300 : ℤ)

theorem GoodCurve.lengths {d : Nurbs} {ks : List ℚ} {ps : List (Point ℚ × ℚ)} (h : GoodCurve d ks ps) :
    (ks.length : Int) = 2 + d.K + d.M ∧ (ps.length : Int) = d.K + 1 ∧ d.nKnots = 2 + d.K + d.M ∧ d.nCoeffs = 1 + d.K := by
  have hs := h.sizes
  unfold Spec.CurveSizes at hs
  rw [h.knots, h.coeffs] at hs
  obtain ⟨h1, h2, h3, h4⟩ := hs
  rw [ctrlArray_length] at h4
  refine ⟨by omega, ?_, by omega, by omega⟩
  split at h4 <;> push_cast at h4 <;> omega

theorem outPoints_length (p3 : Int) (ps : List (Point ℚ × ℚ)) : (outPoints p3 ps).length = ps.length := by
  unfold outPoints; split <;> simp

theorem GoodCurve.format {d : Nurbs} {ks : List ℚ} {ps : List (Point ℚ × ℚ)} (h : GoodCurve d ks ps) (E : PdEnv)
    (de i0 : Int) (xs : List ExtraRef) (cs : List Str) (hi : 1 ≤ i0 ∧ i0 ≤ 9999999) :
    d.format E de xs cs i0 = formatPD E de [126, d.K, d.M, d.PROP1, d.PROP2, d.PROP3, d.PROP4]
        (oneEach E.pd (E.last xs) ((d.reals ks (outPoints d.PROP3 ps)).map fun v => .real v.1 v.2)) xs cs 9999999 i0 := by
  obtain ⟨h1, h2, h3, h4⟩ := h.lengths
  obtain ⟨f1, f2, f3, f4⟩ := h.flags
  have := h.K
  have := h.M
  have e1 : d.nKnots.toNat = ks.length := by omega
  have e2 : d.nCoeffs.toNat = ps.length := by omega
  unfold isFlag at f1 f2 f3 f4
  unfold Nurbs.format
  rw [h.knots, h.coeffs]
  simp only
  rw [if_neg (by omega), if_neg (by omega), if_neg (by omega), if_neg (by omega), if_neg (by omega), e1, e2, firstN_all,
    controlPoints_array]
  rfl

theorem outPoints_small {p3 : Int} {ps : List (Point ℚ × ℚ)} (hs : ∀ x ∈ Spec.ctrlArray p3 ps, |x| ≤ 10 ^ (300 : ℤ)) :
    ∀ p ∈ outPoints p3 ps, |p.1.x| ≤ 10 ^ (300 : ℤ) ∧ |p.1.y| ≤ 10 ^ (300 : ℤ) ∧ |p.1.z| ≤ 10 ^ (300 : ℤ) ∧
      |p.2| ≤ 10 ^ (300 : ℤ) := by
  intro p hp
  have one : |(1 : ℚ)| ≤ 10 ^ (300 : ℤ) := two_big (by norm_num)
  have key : ∀ q ∈ ps, |q.1.x| ≤ 10 ^ (300 : ℤ) ∧ |q.1.y| ≤ 10 ^ (300 : ℤ) ∧ |q.1.z| ≤ 10 ^ (300 : ℤ) ∧
      (p3 = 0 → |q.2| ≤ 10 ^ (300 : ℤ)) := by
    intro q hq
    have mem : ∀ x ∈ (if p3 = 0 then [q.1.x, q.1.y, q.1.z, q.2] else [q.1.x, q.1.y, q.1.z]),
        x ∈ Spec.ctrlArray p3 ps := fun x hx => List.mem_flatMap.mpr ⟨q, hq, hx⟩
    refine ⟨hs _ (mem _ ?_), hs _ (mem _ ?_), hs _ (mem _ ?_), fun h0 => hs _ (mem _ ?_)⟩
    · split <;> simp
    · split <;> simp
    · split <;> simp
    · rw [if_pos h0]; simp
  unfold outPoints at hp
  split at hp
  · rename_i h0
    obtain ⟨a, b, c, e⟩ := key p hp
    exact ⟨a, b, c, e h0⟩
  · obtain ⟨q, hq, rfl⟩ := List.mem_map.mp hp
    obtain ⟨a, b, c, _⟩ := key q hq
    exact ⟨a, b, c, one⟩

theorem GoodCurve.reals {d : Nurbs} {ks : List ℚ} {ps : List (Point ℚ × ℚ)} (h : GoodCurve d ks ps) :
    ∀ v ∈ d.reals ks (outPoints d.PROP3 ps), 0 < v.2 ∧ |v.1| ≤ 10 ^ (300 : ℤ) := by
  have hs := h.small
  simp only [List.mem_append, List.mem_cons, List.not_mem_nil, or_false] at hs
  have hp := outPoints_small (p3 := d.PROP3) (ps := ps) fun x hx => hs x (Or.inl (Or.inr hx))
  intro v hv
  simp only [Nurbs.reals, List.mem_append, List.mem_map, List.mem_flatMap, List.mem_cons, List.not_mem_nil, or_false] at hv
  rcases hv with ((⟨k, hk, rfl⟩ | ⟨p, hp', rfl⟩) | ⟨p, hp', hv⟩) | hv
  · exact ⟨by norm_num, hs k (Or.inl (Or.inl hk))⟩
  · exact ⟨by norm_num, (hp p hp').2.2.2⟩
  · obtain ⟨a, b, c, _⟩ := hp p hp'
    rcases hv with rfl | rfl | rfl
    exacts [⟨by norm_num, a⟩, ⟨by norm_num, b⟩, ⟨by norm_num, c⟩]
  · rcases hv with rfl | rfl | rfl | rfl | rfl <;> exact ⟨by norm_num, hs _ (Or.inr (by simp))⟩

theorem GoodCurve.fits {d : Nurbs} {ks : List ℚ} {ps : List (Point ℚ × ℚ)} (h : GoodCurve d ks ps) (pd : Char)
    (hk : d.K < 10 ^ 7) (hm : d.M < 10 ^ 7) :
    (preText pd [126, d.K, d.M, d.PROP1, d.PROP2, d.PROP3, d.PROP4]).length ≤ 64 := by
  obtain ⟨f1, f2, f3, f4⟩ := h.flags
  have := h.K
  have := h.M
  have a1 := intStr_small (n := 126) (by decide) (k := 3) (by decide) (by decide)
  have a2 := intStr_small (n := d.K) (by omega) (k := 7) hk (by decide)
  have a3 := intStr_small (n := d.M) (by omega) (k := 7) hm (by decide)
  simp only [preText, List.length_append, List.length_cons, List.length_nil, flag_size f1, flag_size f2, flag_size f3, flag_size f4]
  omega

theorem forall2_zip {α β γ : Type} {P : α → β → Prop} {Q : α → γ → Prop} {as : List α} {bs : List β} {cs : List γ}
    (h1 : List.Forall₂ P as bs) (h2 : List.Forall₂ Q as cs) :
    List.Forall₂ (fun a (q : β × γ) => P a q.1 ∧ Q a q.2) as (bs.zip cs) := by
  induction h1 generalizing cs with
  | nil => cases h2; exact .nil
  | cons h _ ih =>
    cases h2 with
    | cons h' h2 => exact .cons ⟨h, h'⟩ (ih h2)

/-- C33: a curve with consistent sizes and weights of at least `1e-8` is read back with the same data. -/
theorem C33_curve (E : PdEnv) (de i0 : Int) (d : Nurbs) (ks : List ℚ) (ps : List (Point ℚ × ℚ)) (xs : List ExtraRef)
    (hset : Setting E de i0 xs (2 * (ks.length + 4 * ps.length + 5))) (hd : GoodCurve d ks ps)
    (hw : d.PROP3 = 0 → ∀ p ∈ ps, 1 / 10 ^ 8 ≤ p.2) (hsq : SqrtOk E.sqrt)
    (hunit : d.PROP1 = 1 → |d.vnorm.x * d.vnorm.x + d.vnorm.y * d.vnorm.y + d.vnorm.z * d.vnorm.z - 1| ≤ 1 / 10 ^ 8) :
    Spec.PdCycle (2 * (ks.length + 4 * ps.length + 5) + 2 * xs.length + 4) de i0 (d.format E de xs [] i0) (Nurbs.readPD E de)
      (fun r => CurveNear d ks ps r.1 ∧ r.2.1 = secA xs ++ secB xs ∧ r.2.2 = []) := by
  have hE := hset.env
  have hroom := hset.room
  have hfirst := hset.first
  obtain ⟨l1, l2, l3, l4⟩ := hd.lengths
  have hK := hd.K
  have hM := hd.M
  obtain ⟨f1, f2, f3, f4⟩ := hd.flags
  rw [hd.format E de i0 xs [] (by omega)]
  set os := outPoints d.PROP3 ps with hos
  have hol : os.length = ps.length := outPoints_length _ _
  have hbs := hd.reals
  rw [← hos] at hbs
  have hlen : (d.reals ks os).length = ks.length + 4 * ps.length + 5 := by rw [Nurbs.reals_length, hol]
  have hw' : ∀ p ∈ os, 1 / 10 ^ 8 ≤ p.2 := by
    intro p hp
    rw [hos] at hp
    unfold outPoints at hp
    split at hp
    · rename_i h0; exact hw h0 p hp
    · obtain ⟨q, _, rfl⟩ := List.mem_map.mp hp; norm_num
  refine PdCycle.mono (realsCycle (R := CurveNear d ks ps) (by rw [hlen]; exact hset) (by decide)
    (hd.fits E.pd (by omega) (by omega)) (by intro h; rw [h] at hlen; simp at hlen) hbs ?_) (by rw [hlen])
  intro T s c rest hs h
  have hk : ∀ k ∈ ks, |k| ≤ 10 ^ (300 : ℤ) := fun k hk => (hbs (k, _) (by
    simp only [Nurbs.reals, List.mem_append, List.mem_map]; exact Or.inl (Or.inl (Or.inl ⟨k, hk, rfl⟩)))).2
  have hwb : ∀ p ∈ os, |p.2| ≤ 10 ^ (300 : ℤ) := fun p hp => (hbs (p.2, _) (by
    simp only [Nurbs.reals, List.mem_append, List.mem_map]; exact Or.inl (Or.inl (Or.inr ⟨p, hp, rfl⟩)))).2
  have hpb : ∀ p ∈ os, |p.1.x| ≤ 10 ^ (300 : ℤ) ∧ |p.1.y| ≤ 10 ^ (300 : ℤ) ∧ |p.1.z| ≤ 10 ^ (300 : ℤ) := by
    intro p hp
    refine ⟨(hbs (p.1.x, 1 / 10 ^ 15) ?_).2, (hbs (p.1.y, 1 / 10 ^ 15) ?_).2, (hbs (p.1.z, 1 / 10 ^ 15) ?_).2⟩ <;>
      (simp only [Nurbs.reals, List.mem_append, List.mem_flatMap]
       exact Or.inl (Or.inr ⟨p, hp, by simp⟩))
  have hvb : |d.V0| ≤ 10 ^ (300 : ℤ) ∧ |d.V1| ≤ 10 ^ (300 : ℤ) ∧ |d.vnorm.x| ≤ 10 ^ (300 : ℤ) ∧ |d.vnorm.y| ≤ 10 ^ (300 : ℤ) ∧
      |d.vnorm.z| ≤ 10 ^ (300 : ℤ) := by
    refine ⟨(hbs (d.V0, 1 / 10 ^ 15) ?_).2, (hbs (d.V1, 1 / 10 ^ 15) ?_).2, (hbs (d.vnorm.x, 1 / 10 ^ 15) ?_).2,
      (hbs (d.vnorm.y, 1 / 10 ^ 15) ?_).2, (hbs (d.vnorm.z, 1 / 10 ^ 15) ?_).2⟩ <;>
      (simp only [Nurbs.reals, List.mem_append]
       exact Or.inr (by simp))
  obtain ⟨b0, b1, b2, b3, b4⟩ := hvb
  have h15 : (0 : ℚ) < 1 / 10 ^ 15 := by norm_num
  have h6 : (0 : ℚ) < 1 / 10 ^ 6 := by norm_num
  refine Reads.intIf hE hs h (by omega) hK fun c h => ?_
  refine Reads.intIf hE hs h (by omega) hM fun c h => ?_
  refine Reads.intIf hE hs h (flag_range f1) f1 fun c h => ?_
  refine Reads.intIf hE hs h (flag_range f2) f2 fun c h => ?_
  refine Reads.intIf hE hs h (flag_range f3) f3 fun c h => ?_
  refine Reads.intIf hE hs h (flag_range f4) f4 fun c h => ?_
  simp only [List.map_nil, Nurbs.reals, List.flatMap_append, List.append_assoc, List.flatMap_map,
    List.flatMap_assoc] at h
  refine Reads.list (fun k => [encReal E (1 / 10 ^ 15) k]) (Spec.Near (1 / 10 ^ 15)) ks (by omega) h
    (fun k hk' c rest h => Ready.real hE hs none h h15 (hk k hk')) fun ks' c nk h => ?_
  refine Reads.list (fun p : Point ℚ × ℚ => [encReal E (1 / 10 ^ 6) p.2]) (fun p w => Spec.Near (1 / 10 ^ 6) p.2 w) os
    (by omega) h (fun p hp c rest h => Ready.weight hE hs h6 (hwb p hp) (hw' p hp) h) fun ws c nw h => ?_
  refine Reads.list (fun p : Point ℚ × ℚ => [encReal E (1 / 10 ^ 15) p.1.x, encReal E (1 / 10 ^ 15) p.1.y, encReal E (1 / 10 ^ 15) p.1.z])
    (fun p q => PointNear (1 / 10 ^ 15) p.1 q) os
    (by omega) (by simpa only [List.flatMap_cons, List.flatMap_nil, List.append_nil, List.cons_append, List.nil_append, encReal] using h)
    (fun p hp c rest h => Ready.vertex hE hs h15 (hpb p hp).1 (hpb p hp).2.1 (hpb p hp).2.2 h) fun qs c np h => ?_
  refine Reads.real hE hs h h15 b0 fun v0 c n0 h => ?_
  refine Reads.real hE hs h h15 b1 fun v1 c n1 h => ?_
  have heor : c.eor = false := h.eor
  obtain ⟨n, c', e, nn, h⟩ := Ready.vertex (p := d.vnorm) hE hs h15 b2 b3 b4 h
  simp only [readNormalOr, heor, Bool.false_eq_true, if_false, e, Rd.val_bind]
  refine Reads.ret h ⟨rfl, rfl, l3.symm, by simp only; omega, rfl, rfl, rfl, rfl, ⟨ks', rfl, nk⟩,
    ⟨qs.zip ws, by simp only [packPoints_eq], ?_⟩, n0, n1, fun hp => ?_, fun hp => ?_⟩
  · have hz := forall2_zip np nw
    by_cases h0 : d.PROP3 = 0
    · have : os = ps := by rw [hos, outPoints, if_pos h0]
      rw [this] at hz
      exact hz.imp fun a q hq => ⟨hq.1.x, hq.1.y, hq.1.z, fun _ => hq.2⟩
    · have : os = ps.map fun p => (p.1, 1) := by rw [hos, outPoints, if_neg h0]
      rw [this, List.forall₂_map_left_iff] at hz
      exact hz.imp fun a q hq => ⟨hq.1.x, hq.1.y, hq.1.z, fun h => absurd h h0⟩
  · simp only [hp, if_true]
    obtain ⟨ui, uj, uk⟩ := unit_comp (hunit hp)
    obtain ⟨e0, e1⟩ := coordErr_two h15 (by norm_num)
    obtain ⟨m1, m2, m3⟩ := checkNormalQ_near (p := d.vnorm) (q := n) hsq e0 e1 (hunit hp)
      (near_err nn.x ui) (near_err nn.y uj) (near_err nn.z uk)
    have hsmall : 8 * Spec.coordErr (1 / 10 ^ 15) 2 + 1 / 10 ^ 7 ≤ 1 / 10 ^ 6 := by
      unfold Spec.coordErr
      norm_num
    exact ⟨m1.trans hsmall, m2.trans hsmall, m3.trans hsmall⟩
  · simp [hp]

/-- C33 fails: `SetNURBSData` takes any weights, but a rational curve with a weight below `1e-8`
(negative ones included) is written and then refused by the reader. -/
theorem C33_small_weight_refused (E : PdEnv) (de i0 : Int) (d : Nurbs) (ks : List ℚ) (ps : List (Point ℚ × ℚ))
    (xs : List ExtraRef) (hset : Setting E de i0 xs (2 * (ks.length + 4 * ps.length + 5))) (hd : GoodCurve d ks ps)
    (hr : d.PROP3 = 0) (hw : ∃ p ∈ ps, p.2 < 1 / 10 ^ 8) :
    Spec.PdRefused de i0 (d.format E de xs [] i0) (Nurbs.readPD E de) := by
  have hE := hset.env
  have hroom := hset.room
  have hfirst := hset.first
  obtain ⟨l1, l2, l3, l4⟩ := hd.lengths
  have hK := hd.K
  have hM := hd.M
  obtain ⟨f1, f2, f3, f4⟩ := hd.flags
  rw [hd.format E de i0 xs [] (by omega)]
  have hbs := hd.reals
  have hos : outPoints d.PROP3 ps = ps := by rw [outPoints, if_pos hr]
  rw [hos] at hbs ⊢
  have hlen : (d.reals ks ps).length = ks.length + 4 * ps.length + 5 := Nurbs.reals_length d ks ps
  refine realsRefused (by rw [hlen]; exact hset) (by decide)
    (hd.fits E.pd (by omega) (by omega)) (by intro h; rw [h] at hlen; simp at hlen) hbs ?_
  intro T s c rest hs h
  have hk : ∀ k ∈ ks, |k| ≤ 10 ^ (300 : ℤ) := fun k hk => (hbs (k, _) (by
    simp only [Nurbs.reals, List.mem_append, List.mem_map]; exact Or.inl (Or.inl (Or.inl ⟨k, hk, rfl⟩)))).2
  have hwb : ∀ p ∈ ps, |p.2| ≤ 10 ^ (300 : ℤ) := fun p hp => (hbs (p.2, _) (by
    simp only [Nurbs.reals, List.mem_append, List.mem_map]; exact Or.inl (Or.inl (Or.inr ⟨p, hp, rfl⟩)))).2
  obtain ⟨c1, e1, h⟩ := Ready.intIf (hs.ok hE) (p := (1 ≤ ·)) h (by omega) hK
  obtain ⟨c2, e2, h⟩ := Ready.intIf (hs.ok hE) (p := (1 ≤ ·)) h (by omega) hM
  obtain ⟨c3, e3, h⟩ := Ready.intIf (hs.ok hE) h (flag_range f1) f1
  obtain ⟨c4, e4, h⟩ := Ready.intIf (hs.ok hE) h (flag_range f2) f2
  obtain ⟨c5, e5, h⟩ := Ready.intIf (hs.ok hE) h (flag_range f3) f3
  obtain ⟨c6, e6, h⟩ := Ready.intIf (hs.ok hE) h (flag_range f4) f4
  simp only [List.map_nil, Nurbs.reals, List.flatMap_append, List.append_assoc, List.flatMap_map, List.flatMap_assoc] at h
  obtain ⟨ys, c7, e7, _, h⟩ := Ready.reals hE hs (by norm_num) ks _ hk h
  have e8 := Ready.badWeights (r := 1 / 10 ^ 6) hE hs (by norm_num) (ps.map (·.2)) c7 _ (by
      intro w hw'; obtain ⟨p, hp, rfl⟩ := List.mem_map.mp hw'; exact hwb p hp)
    (by obtain ⟨p, hp, hlt⟩ := hw; exact ⟨p.2, List.mem_map_of_mem hp, hlt⟩)
    (by rw [List.flatMap_map]; exact h)
  rw [List.length_map] at e8
  rw [show ks.length = (2 + d.K + d.M).toNat by omega] at e7
  rw [show ps.length = (d.K + 1).toNat by omega] at e8
  simp only [Nurbs.readParams, e1, e2, e3, e4, e5, e6, e7, e8, Rd.val_bind, Rd.fail_bind]

/-- A quarter of a circle as a rational curve. -/
def exCurve : Nurbs :=
  ⟨6, 3, some [0, 0, 0, 1, 1, 1], some [1, 0, 0, 1, 1, 1, 0, 7071 / 10000, 0, 1, 0, 1], 2, 2, 1, 0, 0, 0, 0, 1, ⟨0, 0, 1⟩⟩

theorem exCurve_good (w : ℚ) (h : |w| ≤ 1000) :
    GoodCurve { exCurve with coeffs := some [1, 0, 0, 1, 1, 1, 0, w, 0, 1, 0, 1] } [0, 0, 0, 1, 1, 1]
      [(⟨1, 0, 0⟩, 1), (⟨1, 1, 0⟩, w), (⟨0, 1, 0⟩, 1)] where
  knots := rfl
  coeffs := rfl
  sizes := ⟨rfl, rfl, rfl, rfl⟩
  K := by show (1 : Int) ≤ 2; decide
  M := by show (1 : Int) ≤ 2; decide
  flags := ⟨Or.inr rfl, Or.inl rfl, Or.inl rfl, Or.inl rfl⟩
  small := by
    have : ∀ x ∈ [0, 0, 0, 1, 1, 1] ++ [1, 0, 0, 1, 1, 1, 0, w, 0, 1, 0, 1] ++ [0, 1, 0, 0, (1 : ℚ)], |x| ≤ 1000 := by
      simp [h]
    exact fun x hx => small_ok (this x hx)

example := C33_curve _ _ _ _ _ _ _ ((exSetting exSqrt.choose).mono (by decide)) (exCurve_good (7071 / 10000) (by norm_num [abs_le]))
  (by intro _ p hp; simp only [List.mem_cons, List.not_mem_nil, or_false] at hp; rcases hp with rfl | rfl | rfl <;> norm_num)
  exSqrt.choose_spec (by intro _; norm_num [exCurve])

example := C33_small_weight_refused _ _ _ _ _ _ _ ((exSetting id).mono (by decide)) (exCurve_good (-1) (by norm_num))
  rfl ⟨(⟨1, 1, 0⟩, -1), by simp, by norm_num⟩

/-- A call that succeeds. -/
example : ∃ d', Nurbs.new.set id 3 3 (some [0, 0, 0, 1, 1, 1]) (some [1, 0, 0, 1, 1, 1, 0, 1, 0, 1, 0, 1]) true 0 1 =
    .val (true, d') := ⟨_, rfl⟩

/-- The curve above, then a call with the range `2, 3` outside of its seven knots. -/
example := C33_refused_range_breaks_curve id (exEnv id 1) 1 1
  { exCurve with coeffs := some [1, 0, 0, 1, 1, 1, 0, 1, 0, 1, 0, 1] } _ 4 3 (some [0, 0, 0, 0, 1, 1, 1]) (some []) true 2 3 [] []
  (exCurve_good 1 (by norm_num)).sizes (by simp [exCurve]) (exCurve_good 1 (by norm_num)).flags rfl (by simp) (by simp) (by decide)
  (by decide) (by decide) (by decide)

/-! ### Surfaces -/

/-- C33: a successful `SetNURBSData` of a surface stores exactly the data given, and the sizes agree. -/
theorem C33_set_surface (d d' : NurbsSurf) (nCoeff1 nCoeff2 order1 order2 : Int) (knot1 knot2 coeff : Option (List ℚ))
    (rational per1 per2 : Bool) (u0 u1 v0 v1 : ℚ)
    (h : d.set nCoeff1 nCoeff2 order1 order2 knot1 knot2 coeff rational per1 per2 u0 u1 v0 v1 = .val (true, d')) :
    Spec.SurfSizes d' ∧ d'.nCoeffs1 = nCoeff1 ∧ d'.nCoeffs2 = nCoeff2 ∧ d'.M1 + 1 = order1 ∧ d'.M2 + 1 = order2 ∧
      (∃ ks, knot1 = some ks ∧ d'.knots1 = some (ks.take (nCoeff1 + order1).toNat)) ∧
      (∃ ks, knot2 = some ks ∧ d'.knots2 = some (ks.take (nCoeff2 + order2).toNat)) ∧
      (∃ cs, coeff = some cs ∧ d'.coeffs = some (cs.take ((if rational then 4 else 3) * (nCoeff1 * nCoeff2)).toNat)) ∧
      (rational = true ↔ d'.PROP3 = 0) ∧ d'.U0 = u0 ∧ d'.U1 = u1 ∧ d'.V0 = v0 ∧ d'.V1 = v1 ∧ u0 < u1 ∧ v0 < v1 := by
  unfold NurbsSurf.set at h
  split at h
  · rename_i ks1 ks2 cs
    split at h
    · cases h
    · split at h
      · cases h
      · obtain ⟨k0, _, h⟩ := Rd.bind_val h
        obtain ⟨kn, _, h⟩ := Rd.bind_val h
        split at h
        · cases h
        · split at h
          · cases h
          · rename_i hu
            obtain ⟨k0, _, h⟩ := Rd.bind_val h
            obtain ⟨kn, _, h⟩ := Rd.bind_val h
            split at h
            · cases h
            · split at h
              · cases h
              · rename_i hv
                obtain ⟨ks1', h1, h⟩ := Rd.bind_val h
                obtain ⟨ks2', h2, h⟩ := Rd.bind_val h
                obtain ⟨cs', h3, h⟩ := Rd.bind_val h
                cases h
                obtain ⟨rfl, l1⟩ := firstN_val _ _ _ h1
                obtain ⟨rfl, l2⟩ := firstN_val _ _ _ h2
                obtain ⟨rfl, l3⟩ := firstN_val _ _ _ h3
                simp only at l1 l2 l3
                have hpos : 0 ≤ nCoeff1 * nCoeff2 := Int.mul_nonneg (by omega) (by omega)
                refine ⟨⟨?_, ?_, ?_, ?_, ?_, ?_, ?_⟩, rfl, rfl, by simp only; omega, by simp only; omega,
                  ⟨ks1, rfl, rfl⟩, ⟨ks2, rfl, rfl⟩, ⟨cs, rfl, ?_⟩, ?_, rfl, rfl, rfl, rfl, ?_, ?_⟩
                · simp only; rw [l1]; omega
                · simp only; rw [l2]; omega
                · simp only; omega
                · simp only; omega
                · simp only; omega
                · simp only; omega
                · simp only; rw [l3]
                  generalize nCoeff1 * nCoeff2 = q at *
                  cases rational <;> simp <;> omega
                · simp only; cases rational <;> simp [mul_comm]
                · cases rational <;> simp
                · rcases not_or.mp hu with ⟨a, _⟩; exact not_le.mp a
                · rcases not_or.mp hv with ⟨a, _⟩; exact not_le.mp a
  · cases h

/-- C33 fails for surfaces in the same ways as for curves: after a successful call the data cannot be
read through the API. -/
theorem C33_get_surface_undefined (d d' : NurbsSurf) (nCoeff1 nCoeff2 order1 order2 : Int)
    (knot1 knot2 coeff : Option (List ℚ)) (rational per1 per2 : Bool) (u0 u1 v0 v1 : ℚ)
    (h : d.set nCoeff1 nCoeff2 order1 order2 knot1 knot2 coeff rational per1 per2 u0 u1 v0 v1 = .val (true, d')) :
    d'.get = .ub := by
  obtain ⟨_, _, _, _, _, ⟨ks, _, h2⟩, _⟩ := C33_set_surface _ _ _ _ _ _ _ _ _ _ _ _ _ _ _ _ h
  unfold NurbsSurf.get
  rw [h2]

/-- A surface set successfully, then a call refused for its range leaves the arrays of the first with the
sizes of the second; writing it reads past the end of the knots. -/
theorem C33_refused_range_breaks_surface : ∃ (d d' : NurbsSurf),
    NurbsSurf.new.set 2 2 2 2 (some [0, 0, 1, 1]) (some [0, 0, 1, 1]) (some [0, 0, 0, 1, 0, 0, 0, 1, 0, 1, 1, 0]) false false false
      0 1 0 1 = .val (true, d) ∧
    d.set 3 2 2 2 (some [0, 0, 1, 1, 1]) (some [0, 0, 1, 1]) (some []) false false false 5 6 0 1 = .val (false, d') ∧
    ¬ Spec.SurfSizes d' ∧ ∀ E de xs cs, d'.format E de xs cs 1 = .ub := by
  refine ⟨_, _, rfl, rfl, ?_, fun E de xs cs => ?_⟩
  · intro h
    have := h.1
    revert this
    decide
  · unfold NurbsSurf.format
    simp only
    rfl

/-- C33: whatever a file contains, a surface that was read successfully has sizes that agree with its data. -/
theorem C33_read_surface (E : PdEnv) (de pdata count : Int) (ls : List Str) (d : NurbsSurf) (xs : List Int) (cs : List Str)
    (h : NurbsSurf.readPD E de pdata count ls = .val (d, xs, cs)) :
    Spec.SurfSizes d ∧ d.knots1 ≠ none ∧ 1 ≤ d.K1 ∧ 1 ≤ d.K2 ∧ 1 ≤ d.M1 ∧ 1 ≤ d.M2 ∧
      isFlag d.PROP1 ∧ isFlag d.PROP2 ∧ isFlag d.PROP3 ∧ isFlag d.PROP4 ∧ isFlag d.PROP5 := by
  obtain ⟨s, c, c', h⟩ := readPDWith_val h
  obtain ⟨⟨K1, c1⟩, k1, h⟩ := Rd.bind_val h
  obtain ⟨⟨K2, c2⟩, k2, h⟩ := Rd.bind_val h
  obtain ⟨⟨M1, c3⟩, k3, h⟩ := Rd.bind_val h
  obtain ⟨⟨M2, c4⟩, k4, h⟩ := Rd.bind_val h
  obtain ⟨⟨p1, c5⟩, k5, h⟩ := Rd.bind_val h
  obtain ⟨⟨p2, c6⟩, k6, h⟩ := Rd.bind_val h
  obtain ⟨⟨p3, c7⟩, k7, h⟩ := Rd.bind_val h
  obtain ⟨⟨p4, c8⟩, k8, h⟩ := Rd.bind_val h
  obtain ⟨⟨p5, c9⟩, k9, h⟩ := Rd.bind_val h
  obtain ⟨⟨ks1, c10⟩, k10, h⟩ := Rd.bind_val h
  obtain ⟨⟨ks2, c11⟩, k11, h⟩ := Rd.bind_val h
  obtain ⟨⟨ws, c12⟩, k12, h⟩ := Rd.bind_val h
  obtain ⟨⟨ps, c13⟩, k13, h⟩ := Rd.bind_val h
  obtain ⟨⟨u0, c14⟩, k14, h⟩ := Rd.bind_val h
  obtain ⟨⟨u1, c15⟩, k15, h⟩ := Rd.bind_val h
  obtain ⟨⟨v0, c16⟩, k16, h⟩ := Rd.bind_val h
  obtain ⟨⟨v1, c17⟩, k17, h⟩ := Rd.bind_val h
  cases h
  have h1 : 1 ≤ K1 := intIf_val k1
  have h2 : 1 ≤ K2 := intIf_val k2
  have h3 : 1 ≤ M1 := intIf_val k3
  have h4 : 1 ≤ M2 := intIf_val k4
  have l10 := readN_length k10
  have l11 := readN_length k11
  have l12 := readN_length k12
  have l13 := readN_length k13
  have hpos : 0 ≤ (K1 + 1) * (K2 + 1) := Int.mul_nonneg (by omega) (by omega)
  refine ⟨⟨?_, ?_, by simp only; omega, by simp only; omega, rfl, rfl, ?_⟩, by simp, h1, h2, h3, h4,
    intIf_val k5, intIf_val k6, intIf_val k7, intIf_val k8, intIf_val k9⟩
  · rw [l10]; simp only; omega
  · rw [l11]; simp only; omega
  · rw [packPoints_length, List.length_zip, l12, l13]
    simp only
    rw [Nat.min_self]
    generalize (K1 + 1) * (K2 + 1) = q at *
    push_cast
    split <;> omega

/-- What is kept of a surface by a write and a read: the sizes and flags exactly, knots, control points and
parameter ranges to `1e-11` or fifteen digits, the weights of a rational surface to `1e-9` or fifteen digits. -/
structure SurfNear (d : NurbsSurf) (ks1 ks2 : List ℚ) (ps : List (Point ℚ × ℚ)) (b : NurbsSurf) : Prop where
  K1 : b.K1 = d.K1
  K2 : b.K2 = d.K2
  M1 : b.M1 = d.M1
  M2 : b.M2 = d.M2
  nKnots1 : b.nKnots1 = d.nKnots1
  nKnots2 : b.nKnots2 = d.nKnots2
  nCoeffs1 : b.nCoeffs1 = d.nCoeffs1
  nCoeffs2 : b.nCoeffs2 = d.nCoeffs2
  PROP1 : b.PROP1 = d.PROP1
  PROP2 : b.PROP2 = d.PROP2
  PROP3 : b.PROP3 = d.PROP3
  PROP4 : b.PROP4 = d.PROP4
  PROP5 : b.PROP5 = d.PROP5
  knots1 : ∃ ks', b.knots1 = some ks' ∧ List.Forall₂ (Spec.Near (1 / 10 ^ 8)) ks1 ks'
  knots2 : ∃ ks', b.knots2 = some ks' ∧ List.Forall₂ (Spec.Near (1 / 10 ^ 8)) ks2 ks'
  points : ∃ ps', b.coeffs = some (Spec.ctrlArray d.PROP3 ps') ∧
    List.Forall₂ (Spec.CtrlNear d.PROP3 (1 / 10 ^ 8) (1 / 10 ^ 6)) ps ps'
  U0 : Spec.Near (1 / 10 ^ 8) d.U0 b.U0
  U1 : Spec.Near (1 / 10 ^ 8) d.U1 b.U1
  V0 : Spec.Near (1 / 10 ^ 8) d.V0 b.V0
  V1 : Spec.Near (1 / 10 ^ 8) d.V1 b.V1

theorem NurbsSurf.reals_length (d : NurbsSurf) (ks1 ks2 : List ℚ) (ps : List (Point ℚ × ℚ)) :
    (d.reals ks1 ks2 ps).length = ks1.length + ks2.length + 4 * ps.length + 4 := by
  simp only [NurbsSurf.reals, List.length_append, List.length_map, List.length_flatMap, List.length_cons, List.length_nil,
    List.map_const', List.sum_replicate, smul_eq_mul]
  omega

/-- A surface with consistent data. -/
structure GoodSurf (d : NurbsSurf) (ks1 ks2 : List ℚ) (ps : List (Point ℚ × ℚ)) : Prop where
  knots1 : d.knots1 = some ks1
  knots2 : d.knots2 = some ks2
  coeffs : d.coeffs = some (Spec.ctrlArray d.PROP3 ps)
  sizes : Spec.SurfSizes d
  K1 : 1 ≤ d.K1
  K2 : 1 ≤ d.K2
  M1 : 1 ≤ d.M1
  M2 : 1 ≤ d.M2
  flags : isFlag d.PROP1 ∧ isFlag d.PROP2 ∧ isFlag d.PROP3 ∧ isFlag d.PROP4 ∧ isFlag d.PROP5
  small : ∀ x ∈ ks1 ++ ks2 ++ Spec.ctrlArray d.PROP3 ps ++ [d.U0, d.U1, d.V0, d.V1], |x| ≤ 10 ^ (300 : ℤ)

theorem GoodSurf.lengths {d : NurbsSurf} {ks1 ks2 : List ℚ} {ps : List (Point ℚ × ℚ)} (h : GoodSurf d ks1 ks2 ps) :
    (ks1.length : Int) = 2 + d.K1 + d.M1 ∧ (ks2.length : Int) = 2 + d.K2 + d.M2 ∧
      (ps.length : Int) = (d.K1 + 1) * (d.K2 + 1) ∧ d.nKnots1 = 2 + d.K1 + d.M1 ∧ d.nKnots2 = 2 + d.K2 + d.M2 ∧
      d.nCoeffs1 = d.K1 + 1 ∧ d.nCoeffs2 = d.K2 + 1 := by
  have hs := h.sizes
  unfold Spec.SurfSizes at hs
  rw [h.knots1, h.knots2, h.coeffs] at hs
  obtain ⟨h1, h2, h3, h4, h5, h6, h7⟩ := hs
  rw [ctrlArray_length, h5, h6] at h7
  refine ⟨by omega, by omega, ?_, by omega, by omega, h5, h6⟩
  generalize (d.K1 + 1) * (d.K2 + 1) = q at *
  split at h7 <;> push_cast at h7 <;> omega

theorem GoodSurf.format {d : NurbsSurf} {ks1 ks2 : List ℚ} {ps : List (Point ℚ × ℚ)} (h : GoodSurf d ks1 ks2 ps) (E : PdEnv)
    (de i0 : Int) (xs : List ExtraRef) (cs : List Str) (hi : 1 ≤ i0 ∧ i0 ≤ 9999999) :
    d.format E de xs cs i0 = formatPD E de [128, d.K1, d.K2, d.M1, d.M2, d.PROP1, d.PROP2, d.PROP3, d.PROP4, d.PROP5]
        (oneEach E.pd (E.last xs) ((d.reals ks1 ks2 (outPoints d.PROP3 ps)).map fun v => .real v.1 v.2)) xs cs 9999999 i0 := by
  obtain ⟨h1, h2, h3, h4, h5, h6, h7⟩ := h.lengths
  obtain ⟨f1, f2, f3, f4, f5⟩ := h.flags
  have := h.K1
  have := h.K2
  have := h.M1
  have := h.M2
  have e1 : d.nKnots1.toNat = ks1.length := by omega
  have e2 : d.nKnots2.toNat = ks2.length := by omega
  have e3 : ((d.K1 + 1) * (d.K2 + 1)).toNat = ps.length := by rw [← h3]; simp
  unfold isFlag at f1 f2 f3 f4 f5
  unfold NurbsSurf.format
  rw [h.knots1, h.knots2, h.coeffs]
  simp only
  rw [if_neg (by omega), if_neg (by omega), if_neg (by omega), if_neg (by omega), if_neg (by rw [h6, h7]; simp), e1, e2, e3,
    firstN_all, firstN_all, controlPoints_array]
  rfl

theorem GoodSurf.reals {d : NurbsSurf} {ks1 ks2 : List ℚ} {ps : List (Point ℚ × ℚ)} (h : GoodSurf d ks1 ks2 ps) :
    ∀ v ∈ d.reals ks1 ks2 (outPoints d.PROP3 ps), 0 < v.2 ∧ |v.1| ≤ 10 ^ (300 : ℤ) := by
  have hs := h.small
  simp only [List.mem_append, List.mem_cons, List.not_mem_nil, or_false] at hs
  have hp := outPoints_small (p3 := d.PROP3) (ps := ps) fun x hx => hs x (Or.inl (Or.inr hx))
  intro v hv
  simp only [NurbsSurf.reals, List.mem_append, List.mem_map, List.mem_flatMap, List.mem_cons, List.not_mem_nil, or_false] at hv
  rcases hv with (((⟨k, hk, rfl⟩ | ⟨k, hk, rfl⟩) | ⟨p, hp', rfl⟩) | ⟨p, hp', hv⟩) | hv
  · exact ⟨by norm_num, hs k (Or.inl (Or.inl (Or.inl hk)))⟩
  · exact ⟨by norm_num, hs k (Or.inl (Or.inl (Or.inr hk)))⟩
  · exact ⟨by simp only; split <;> norm_num, (hp p hp').2.2.2⟩
  · obtain ⟨a, b, c, _⟩ := hp p hp'
    rcases hv with rfl | rfl | rfl
    exacts [⟨by norm_num, a⟩, ⟨by norm_num, b⟩, ⟨by norm_num, c⟩]
  · rcases hv with rfl | rfl | rfl | rfl <;> exact ⟨by norm_num, hs _ (Or.inr (by simp))⟩

theorem GoodSurf.fits {d : NurbsSurf} {ks1 ks2 : List ℚ} {ps : List (Point ℚ × ℚ)} (h : GoodSurf d ks1 ks2 ps) (pd : Char)
    (hk1 : d.K1 < 10 ^ 7) (hm1 : d.M1 < 10 ^ 7) (hk2 : d.K2 < 10 ^ 7) (hm2 : d.M2 < 10 ^ 7) :
    (preText pd [128, d.K1, d.K2, d.M1, d.M2, d.PROP1, d.PROP2, d.PROP3, d.PROP4, d.PROP5]).length ≤ 64 := by
  obtain ⟨f1, f2, f3, f4, f5⟩ := h.flags
  have := h.K1
  have := h.K2
  have := h.M1
  have := h.M2
  have a1 := intStr_small (n := 128) (by decide) (k := 3) (by decide) (by decide)
  have a2 := intStr_small (n := d.K1) (by omega) (k := 7) hk1 (by decide)
  have a3 := intStr_small (n := d.M1) (by omega) (k := 7) hm1 (by decide)
  have a4 := intStr_small (n := d.K2) (by omega) (k := 7) hk2 (by decide)
  have a5 := intStr_small (n := d.M2) (by omega) (k := 7) hm2 (by decide)
  simp only [preText, List.length_append, List.length_cons, List.length_nil, flag_size f1, flag_size f2, flag_size f3, flag_size f4, flag_size f5]
  omega

/-- C33: a surface with consistent sizes and weights of at least `1e-8` is read back with the same data. -/
theorem C33_surface (E : PdEnv) (de i0 : Int) (d : NurbsSurf) (ks1 ks2 : List ℚ) (ps : List (Point ℚ × ℚ)) (xs : List ExtraRef)
    (hset : Setting E de i0 xs (2 * (ks1.length + ks2.length + 4 * ps.length + 4))) (hd : GoodSurf d ks1 ks2 ps)
    (hw : d.PROP3 = 0 → ∀ p ∈ ps, 1 / 10 ^ 8 ≤ p.2) :
    Spec.PdCycle (2 * (ks1.length + ks2.length + 4 * ps.length + 4) + 2 * xs.length + 4) de i0 (d.format E de xs [] i0) (NurbsSurf.readPD E de)
      (fun r => SurfNear d ks1 ks2 ps r.1 ∧ r.2.1 = secA xs ++ secB xs ∧ r.2.2 = []) := by
  have hE := hset.env
  have hroom := hset.room
  have hfirst := hset.first
  obtain ⟨l1, l2, l3, l4, l5, l6, l7⟩ := hd.lengths
  have hK1 := hd.K1
  have hK2 := hd.K2
  have hM1 := hd.M1
  have hM2 := hd.M2
  obtain ⟨f1, f2, f3, f4, f5⟩ := hd.flags
  rw [hd.format E de i0 xs [] (by omega)]
  set os := outPoints d.PROP3 ps with hos
  have hol : os.length = ps.length := outPoints_length _ _
  have hn : ((d.K1 + 1) * (d.K2 + 1)).toNat = os.length := by rw [← l3, hol]; simp
  have hbs := hd.reals
  rw [← hos] at hbs
  have hlen : (d.reals ks1 ks2 os).length = ks1.length + ks2.length + 4 * ps.length + 4 := by rw [NurbsSurf.reals_length, hol]
  have hw' : ∀ p ∈ os, 1 / 10 ^ 8 ≤ p.2 := by
    intro p hp
    rw [hos] at hp
    unfold outPoints at hp
    split at hp
    · rename_i h0; exact hw h0 p hp
    · obtain ⟨q, _, rfl⟩ := List.mem_map.mp hp; norm_num
  refine PdCycle.mono (realsCycle (R := SurfNear d ks1 ks2 ps) (by rw [hlen]; exact hset) (by decide)
    (hd.fits E.pd (by omega) (by omega) (by omega) (by omega)) (by intro h; rw [h] at hlen; simp at hlen) hbs ?_) (by rw [hlen])
  intro T s c rest hs h
  have hsm := hd.small
  simp only [List.mem_append, List.mem_cons, List.not_mem_nil, or_false] at hsm
  have hp := outPoints_small (p3 := d.PROP3) (ps := ps) fun x hx => hsm x (Or.inl (Or.inr hx))
  rw [← hos] at hp
  have h8 : (0 : ℚ) < 1 / 10 ^ 8 := by norm_num
  have hwr : (0 : ℚ) < if d.PROP3 = 0 then 1 / 10 ^ 6 else 1 / 10 := by split <;> norm_num
  refine Reads.intIf hE hs h (by omega) hK1 fun c h => ?_
  refine Reads.intIf hE hs h (by omega) hK2 fun c h => ?_
  refine Reads.intIf hE hs h (by omega) hM1 fun c h => ?_
  refine Reads.intIf hE hs h (by omega) hM2 fun c h => ?_
  refine Reads.intIf hE hs h (flag_range f1) f1 fun c h => ?_
  refine Reads.intIf hE hs h (flag_range f2) f2 fun c h => ?_
  refine Reads.intIf hE hs h (flag_range f3) f3 fun c h => ?_
  refine Reads.intIf hE hs h (flag_range f4) f4 fun c h => ?_
  refine Reads.intIf hE hs h (flag_range f5) f5 fun c h => ?_
  simp only [List.map_nil, NurbsSurf.reals, List.flatMap_append, List.append_assoc, List.flatMap_map,
    List.flatMap_assoc] at h
  refine Reads.list (fun k => [encReal E (1 / 10 ^ 8) k]) (Spec.Near (1 / 10 ^ 8)) ks1 (by omega) h
    (fun k hk' c rest h => Ready.real hE hs none h h8 (hsm k (Or.inl (Or.inl (Or.inl hk'))))) fun ks1' c nk1 h => ?_
  refine Reads.list (fun k => [encReal E (1 / 10 ^ 8) k]) (Spec.Near (1 / 10 ^ 8)) ks2 (by omega) h
    (fun k hk' c rest h => Ready.real hE hs none h h8 (hsm k (Or.inl (Or.inl (Or.inr hk'))))) fun ks2' c nk2 h => ?_
  refine Reads.list (fun p : Point ℚ × ℚ => [encReal E (if d.PROP3 = 0 then 1 / 10 ^ 6 else 1 / 10) p.2])
    (fun p w => Spec.Near (if d.PROP3 = 0 then 1 / 10 ^ 6 else 1 / 10) p.2 w) os
    hn h (fun p hp' c rest h => Ready.weight hE hs hwr (hp p hp').2.2.2 (hw' p hp') h) fun ws c nw h => ?_
  refine Reads.list (fun p : Point ℚ × ℚ => [encReal E (1 / 10 ^ 8) p.1.x, encReal E (1 / 10 ^ 8) p.1.y, encReal E (1 / 10 ^ 8) p.1.z])
    (fun p q => PointNear (1 / 10 ^ 8) p.1 q) os
    hn (by simpa only [List.flatMap_cons, List.flatMap_nil, List.append_nil, List.cons_append, List.nil_append, encReal] using h)
    (fun p hp' c rest h => Ready.vertex hE hs h8 (hp p hp').1 (hp p hp').2.1 (hp p hp').2.2.1 h) fun qs c np h => ?_
  refine Reads.real hE hs h h8 (hsm _ (Or.inr (by simp))) fun u0 c n0 h => ?_
  refine Reads.real hE hs h h8 (hsm _ (Or.inr (by simp))) fun u1 c n1 h => ?_
  refine Reads.real hE hs h h8 (hsm _ (Or.inr (by simp))) fun v0 c n2 h => ?_
  refine Reads.real hE hs h h8 (hsm _ (Or.inr (by simp))) fun v1 c n3 h => ?_
  refine Reads.ret h ⟨rfl, rfl, rfl, rfl, l4.symm, l5.symm, l6.symm, l7.symm, rfl, rfl, rfl, rfl, rfl, ⟨ks1', rfl, nk1⟩,
    ⟨ks2', rfl, nk2⟩, ⟨qs.zip ws, by simp only [packPoints_eq], ?_⟩, n0, n1, n2, n3⟩
  have hz := forall2_zip np nw
  by_cases h0 : d.PROP3 = 0
  · have : os = ps := by rw [hos, outPoints, if_pos h0]
    rw [this] at hz
    exact hz.imp fun a q hq => ⟨hq.1.x, hq.1.y, hq.1.z, fun _ => by have := hq.2; rwa [if_pos h0] at this⟩
  · have : os = ps.map fun p => (p.1, 1) := by rw [hos, outPoints, if_neg h0]
    rw [this, List.forall₂_map_left_iff] at hz
    exact hz.imp fun a q hq => ⟨hq.1.x, hq.1.y, hq.1.z, fun h => absurd h h0⟩

/-- A bilinear polynomial surface. -/
def exSurf : NurbsSurf :=
  ⟨4, 4, 2, 2, some [0, 0, 1, 1], some [0, 0, 1, 1], some [0, 0, 0, 1, 0, 0, 0, 1, 0, 1, 1, 1 / 3], 1, 1, 1, 1, 0, 0, 1, 0, 0, 0, 1, 0, 1⟩

example := C33_surface _ _ _ exSurf [0, 0, 1, 1] [0, 0, 1, 1] [(⟨0, 0, 0⟩, 1), (⟨1, 0, 0⟩, 1), (⟨0, 1, 0⟩, 1), (⟨1, 1, 1 / 3⟩, 1)] _
  ((exSetting id).mono (by decide))
  { knots1 := rfl, knots2 := rfl, coeffs := rfl, sizes := ⟨rfl, rfl, rfl, rfl, rfl, rfl, rfl⟩, K1 := by decide, K2 := by decide,
    M1 := by decide, M2 := by decide, flags := ⟨Or.inl rfl, Or.inl rfl, Or.inr rfl, Or.inl rfl, Or.inl rfl⟩,
    small := fun x hx => small_ok (by revert x; decide +kernel) }
  (by intro h; cases h)

end Iges.Props
