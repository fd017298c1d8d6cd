import Verif.Lemmas.Inside
import Verif.Props.Outline
/-
C68: `IsInside` against the even-odd rule.
-/
namespace Iges.Props.Inside
open Iges.Geo Iges.Spec Real Iges.Props.Outlines

theorem polar_box {c : Point ℝ} {r ρ a e : ℝ} {lo hi : Point ℝ} (h : |ρ - r| ≤ e)
    (hb : InBox 1 (lo, hi) (polar c r a)) : InBox (1 + e) (lo, hi) (polar c ρ a) := by
  obtain ⟨h1, h2, h3, h4⟩ := hb
  simp only [polar, pt] at h1 h2 h3 h4
  have hx : |(ρ - r) * cos a| ≤ e := by
    rw [abs_mul]
    calc _ ≤ |ρ - r| * 1 := mul_le_mul_of_nonneg_left (abs_cos_le_one a) (abs_nonneg _)
      _ ≤ _ := by linarith
  have hy : |(ρ - r) * sin a| ≤ e := by
    rw [abs_mul]
    calc _ ≤ |ρ - r| * 1 := mul_le_mul_of_nonneg_left (abs_sin_le_one a) (abs_nonneg _)
      _ ≤ _ := by linarith
  obtain ⟨x1, x2⟩ := abs_le.1 hx
  obtain ⟨y1, y2⟩ := abs_le.1 hy
  refine ⟨?_, ?_, ?_, ?_⟩ <;> simp only [polar, pt] <;> nlinarith

theorem box_norm {lo hi q : Point ℝ} {e : ℝ} (he : e ≤ 2)
    (hs : -10 ^ 7 ≤ lo.x ∧ -10 ^ 7 ≤ lo.y ∧ hi.x ≤ 10 ^ 7 ∧ hi.y ≤ 10 ^ 7) (h : InBox e (lo, hi) q) (hz : q.z = 0) :
    norm2 q ≤ 10 ^ 15 := by
  obtain ⟨a, b, c, d⟩ := hs
  obtain ⟨h1, h2, h3, h4⟩ := h
  simp only at h1 h2 h3 h4
  apply norm_small _ _ hz <;> rw [abs_le] <;> constructor <;> linarith

theorem held {lo hi : Point ℝ} {s : Seg} (hm : Made s) (hi' : ∀ q, Covers s q → InBox 1 (lo, hi) q)
    (hs : -10 ^ 7 ≤ lo.x ∧ -10 ^ 7 ≤ lo.y ∧ hi.x ≤ 10 ^ 7 ∧ hi.y ≤ 10 ^ 7) (hk : s.kind ≠ .none) (hb : boxTol s ≤ 1) :
    Held lo hi s := by
  refine ⟨hm, hi', ?_⟩
  cases h : s.kind with
  | none => exact absurd h hk
  | circle => exact Or.inl rfl
  | line =>
    right
    obtain ⟨-, -, z1, z2, cs⟩ := line_ends hm h
    constructor
    · exact box_norm (by norm_num) hs (hi' _ ((cs _).2 ⟨0, by norm_num, by norm_num, by ext <;> simp [pt, z1]⟩)) z1
    · exact box_norm (by norm_num) hs (hi' _ ((cs _).2 ⟨1, by norm_num, by norm_num, by ext <;> simp [pt, z2]⟩)) z2
  | arc =>
    right
    have ha := (made_ok hm).arc h
    have htol : boxTol s = slack s.radius := by unfold boxTol; rw [h]; rfl
    rw [htol] at hb
    have key : ∀ q a, EndAt s.center s.radius q a → s.startAngle ≤ a → a ≤ s.endAngle → norm2 q ≤ 10 ^ 15 := by
      rintro q a ⟨ρ, -, h1, rfl⟩ h2 h3
      exact box_norm (by norm_num) hs (polar_box (h1.trans hb) (hi' _ ((covers_arc h _).2 ⟨a, h2, h3, rfl⟩))) rfl
    have hle := ha.le
    constructor
    · apply key _ _ ha.first <;> unfold Seg.startAngle Seg.endAngle at * <;> split <;> simp_all
    · apply key _ _ ha.last <;> unfold Seg.startAngle Seg.endAngle at * <;> split <;> simp_all

theorem count_sum {lo hi p : Point ℝ} {X : ℝ} {ray : Seg} (hr : RayTo p X ray) (f : Frame lo hi p X) (first prev : Seg)
    (l : List Seg) (h : ∀ s ∈ l, Held lo hi s ∧ Clear (hi.x - lo.x) p s) :
    countFrom ray p.y first prev l = (l.map fun s => (hitSet ray s).ncard).sum := by
  induction l generalizing prev with
  | nil => rfl
  | cons s l ih =>
    unfold countFrom
    rw [count_seg hr f (h s (by simp)).1 (h s (by simp)).2, ih s fun t ht => h t (by simp [ht])]
    rfl

theorem ray_ok {o : Outline} {p : Point ℝ} (hz : p.z = 0) (hx : o.lo.x ≤ p.x ∧ p.x ≤ o.hi.x) (hy : o.lo.y ≤ p.y ∧ p.y ≤ o.hi.y)
    (hs : -10 ^ 7 ≤ o.lo.x ∧ -10 ^ 7 ≤ o.lo.y ∧ o.hi.x ≤ 10 ^ 7 ∧ o.hi.y ≤ 10 ^ 7) :
    Frame o.lo o.hi p (rayEnd o p).x ∧ RayTo p (rayEnd o p).x (setLine p (rayEnd o p)).1 := by
  have hf : Frame o.lo o.hi p (rayEnd o p).x := by
    refine ⟨hx, hy, ?_, hs⟩
    unfold rayEnd
    simp only
    split
    · exact Or.inl rfl
    · exact Or.inr rfl
  refine ⟨hf, ?_⟩
  obtain ⟨w1, w2⟩ := hf.width
  obtain ⟨a, b, c, d⟩ := hs
  have hmt : PointMatches p (rayEnd o p) 1e-8 = false := by
    apply no_match (by norm_num)
    · apply norm_small _ _ hz <;> rw [abs_le] <;> constructor <;> linarith
    · apply norm_small _ _ rfl
      · rw [abs_le]; rcases hf.side with h | h <;> rw [h] <;> constructor <;> linarith
      · show |p.y| ≤ _
        rw [abs_le]; constructor <;> linarith
    · unfold dist2
      have : 25 ≤ (p.x - (rayEnd o p).x) ^ 2 := by
        rw [← sq_abs, abs_sub_comm]; nlinarith
      nlinarith [sq_nonneg (p.y - (rayEnd o p).y), sq_nonneg (p.z - (rayEnd o p).z)]
  have he : setLine p (rayEnd o p) = ({ Seg.init with start := p, stop := rayEnd o p, kind := .line }, true) := by
    rcases setLine_cases p (rayEnd o p) with h | h
    · unfold setLine at h
      rw [if_neg (by rw [hz]; simp [rayEnd]), if_neg (by rw [hmt]; simp)] at h
      simp at h
    · exact h.2.2.2
  have hm : Made (setLine p (rayEnd o p)).1 := .line (by rw [he])
  refine ⟨hm, by rw [he], by rw [he], by rw [he]; rfl, hz, w2⟩

theorem odd_sum_add (l : List Seg) (f g h : Seg → ℕ) (hh : ∀ s ∈ l, h s = f s + g s) :
    (l.map h).sum = (l.map f).sum + (l.map g).sum := by
  induction l with
  | nil => rfl
  | cons s l ih =>
    simp only [List.map_cons, List.sum_cons]
    rw [hh s (by simp), ih fun t ht => hh t (by simp [ht])]
    omega

/-- an outline whose segments lie in its box and make up a circle or a closed chain -/
structure Shape (o : Outline) : Prop where
  closed : o.closed = true
  made : ∀ s ∈ o.segs, Made s
  inside : ∀ s ∈ o.segs, ∀ q, Covers s q → InBox (boxTol s) (o.lo, o.hi) q
  loop : (∃ c, o.segs = [c] ∧ c.kind = .circle) ∨ (o.segs ≠ [] ∧ Pieces o.segs ∧ Chained o.segs ∧ EndsMeet o.segs)

theorem inside_shape {o : Outline} (ho : Shape o) {p : Point ℝ} (hz : p.z = 0) (hx : o.lo.x ≤ p.x ∧ p.x ≤ o.hi.x)
    (hy : o.lo.y ≤ p.y ∧ p.y ≤ o.hi.y)
    (hs : -10 ^ 7 ≤ o.lo.x ∧ -10 ^ 7 ≤ o.lo.y ∧ o.hi.x ≤ 10 ^ 7 ∧ o.hi.y ≤ 10 ^ 7)
    (hc : ∀ s ∈ o.segs, Clear (o.hi.x - o.lo.x) p s) :
    isInside o p = some (open Classical in decide (EvenOdd o.segs p)) := by
  classical
  obtain ⟨hf, hr⟩ := ray_ok hz hx hy hs
  have hw : 0 ≤ o.hi.x - o.lo.x := by linarith
  have htol : ∀ s ∈ o.segs, s.kind ≠ .none ∧ boxTol s ≤ 1 := by
    intro s h
    have := (hc s h).2
    split at this
    · exact this.elim
    · rename_i k; exact ⟨by simp [k], by unfold boxTol; rw [k]; norm_num⟩
    · rename_i k; exact ⟨by simp [k], this.2.2.1⟩
    · rename_i k; exact ⟨by simp [k], by unfold boxTol; rw [k]; norm_num⟩
  have hh : ∀ s ∈ o.segs, Held o.lo o.hi s ∧ Clear (o.hi.x - o.lo.x) p s := by
    intro s h
    refine ⟨held (ho.made s h) (fun q hq => ?_) hs (htol s h).1 (htol s h).2, hc s h⟩
    obtain ⟨a, b, c, d⟩ := ho.inside s h q hq
    have := (htol s h).2
    exact ⟨by linarith, by linarith, by linarith, by linarith⟩
  -- the number of points at the height of `p` is even
  have heven : Even ((o.segs.map fun s => (level p s).ncard).sum) := by
    rcases ho.loop with ⟨c, e, k⟩ | ⟨hne, hp, hch, f, e, hf, he, hm⟩
    · have := (level_finite (ho.made c (by rw [e]; simp)) (hc c (by rw [e]; simp))).2
      rcases this with ⟨-, h⟩ | ⟨h, -⟩
      · rw [e]; simpa using h
      · exact absurd k h
    · have hnorm : ∀ s ∈ o.segs, norm2 s.start ≤ 10 ^ 15 ∧ norm2 s.stop ≤ 10 ^ 15 := by
        intro s h
        rcases (hh s h).1.ends with k | k
        · rcases hp s h with k' | k' <;> rw [k'] at k <;> cases k
        · exact k
      obtain ⟨f', e', hf', he', hodd⟩ := chain_parity o.segs hne ho.made hp hc hnorm hch
      have e1 : f' = f := by rw [hf] at hf'; exact (Option.some.inj hf').symm
      have e2 : e' = e := by rw [he] at he'; exact (Option.some.inj he').symm
      subst e1 e2
      have me : e' ∈ o.segs := List.mem_of_getLast? he
      have mf : f' ∈ o.segs := List.mem_of_head? hf
      have hk : e'.kind ≠ .circle := by rcases hp e' me with k | k <;> simp [k]
      have := side_of_match (hnorm e' me).2 (hnorm f' mf).1 hm (clear_stop hk (hc e' me))
      rw [← Nat.not_odd_iff_even, hodd, this]
      simp
  have hparts := odd_sum_add o.segs (fun s => (leftOf p s).ncard) (fun s => (rightOf p s).ncard)
    (fun s => (level p s).ncard) fun s h => level_parts hw (ho.made s h) (hc s h)
  rw [hparts] at heven
  obtain ⟨s0, l0, hl⟩ : ∃ s l, o.segs = s :: l := by
    rcases ho.loop with ⟨c, e, -⟩ | ⟨hne, -⟩
    · exact ⟨c, [], e⟩
    · exact List.exists_cons_of_ne_nil hne
  obtain ⟨e0, he0⟩ : ∃ e, o.segs.getLast? = some e := by
    cases h : o.segs.getLast? with
    | none => rw [List.getLast?_eq_none_iff, hl] at h; cases h
    | some e => exact ⟨e, rfl⟩
  have hval : isInside o p = some (countFrom (setLine p (rayEnd o p)).1 p.y s0 e0 o.segs % 2 == 1) := by
    unfold isInside
    rw [ho.closed]
    simp only [Bool.not_true, Bool.false_eq_true, if_false]
    rw [hl] at he0 ⊢
    rw [he0]
  rw [hval, count_sum hr hf s0 e0 o.segs hh]
  congr 1
  have hsides : (Odd ((o.segs.map fun s => (hitSet (setLine p (rayEnd o p)).1 s).ncard).sum)) ↔ EvenOdd o.segs p := by
    unfold EvenOdd
    rcases hf.side with h | h
    · rw [List.map_congr_left fun s hs => by rw [(hit_side hr hf (hh s hs).1 (hh s hs).2).1 h]]
    · rw [List.map_congr_left fun s hs => by rw [(hit_side hr hf (hh s hs).1 (hh s hs).2).2 h]]
      rw [Nat.even_add'] at heven
      exact heven.symm
  rw [Bool.eq_iff_iff, beq_iff_eq, decide_eq_true_iff, ← hsides, Nat.odd_iff]

theorem drawn_shape {l : List Seg} {o : Outline} (h : Drawn l o) (hm : ∀ s ∈ l, Made s) (hc : o.closed = true) : Shape o := by
  obtain ⟨-, hcont, hcov⟩ := C67_contents h
  have hmem : ∀ s ∈ o.segs, Made s ∧ ∃ t ∈ l, (∀ q, Covers s q ↔ Covers t q) ∧ boxTol s = boxTol t := by
    intro s hs
    rcases hcont hc with e | e
    · rw [e] at hs
      exact ⟨hm s hs, s, hs, fun q => Iff.rfl, rfl⟩
    · rw [e.mem_iff, List.mem_map] at hs
      obtain ⟨t, ht, rfl⟩ := hs
      refine ⟨.reverse (hm t ht), t, ht, fun q => ?_, ?_⟩
      · exact C61_reverse (hm t ht) q
      · unfold boxTol Seg.reverse; cases hk : t.kind <;> simp [hk]
  obtain ⟨-, hbox, -⟩ := C67_box h hm hc
  refine ⟨hc, fun s hs => (hmem s hs).1, fun s hs q hq => ?_, ?_⟩
  · obtain ⟨-, t, ht, h1, h2⟩ := hmem s hs
    rw [h2]
    exact hbox t ht q ((h1 q).1 hq)
  · rcases C67_chain h with ⟨-, e⟩ | ⟨c, e, k, -⟩ | ⟨h1, h2, h3, h4⟩
    · rw [hc] at e; cases e
    · exact Or.inl ⟨c, e, k⟩
    · exact Or.inr ⟨h1, h2, h3, (h4.1 hc).2⟩

/-- C68 (partial). For a closed outline that has been drawn segment by segment and a point of its bounding box in general
position to the segments, `IsInside` reports without error whether the point is inside by the even-odd rule.  Missing:
points close to the outline, points at the height of a corner or of the top or the bottom of a circle, and outlines that
reach further than ten million from the origin.  For some of the points missing the answer is wrong: see
`C68_edge_outside` and `C68_beside_circle`. -/
theorem C68_inside_partial {l : List Seg} {o : Outline} (h : Drawn l o) (hm : ∀ s ∈ l, Made s) (hc : o.closed = true)
    {p : Point ℝ} (hz : p.z = 0) (hx : o.lo.x ≤ p.x ∧ p.x ≤ o.hi.x) (hy : o.lo.y ≤ p.y ∧ p.y ≤ o.hi.y)
    (hs : -10 ^ 7 ≤ o.lo.x ∧ -10 ^ 7 ≤ o.lo.y ∧ o.hi.x ≤ 10 ^ 7 ∧ o.hi.y ≤ 10 ^ 7)
    (hclear : ∀ s ∈ o.segs, Clear (o.hi.x - o.lo.x) p s) :
    isInside o p = some (open Classical in decide (EvenOdd o.segs p)) :=
  inside_shape (drawn_shape h hm hc) hz hx hy hs hclear

/-- C68. `IsInside` reports an error just when the outline is not closed. -/
theorem C68_error (o : Outline) (p : Point ℝ) : isInside o p = none ↔ o.closed = false := by
  unfold isInside
  cases o.closed
  · simp
  · simp only [Bool.not_true, Bool.false_eq_true, if_false]
    split <;> simp

/-- a circle: the even-odd rule says that the point is nearer to the centre than the radius -/
theorem evenOdd_circle {c : Seg} (hk : c.kind = .circle) {p : Point ℝ}
    (hc : 1e-8 ≤ |c.radius ^ 2 - (p.y - c.center.y) ^ 2|) (hon : planar2 p c.center ≠ c.radius ^ 2) :
    EvenOdd [c] p ↔ planar2 p c.center < c.radius ^ 2 := by
  have hcov : ∀ q, q ∈ leftOf p c ↔ q.z = 0 ∧ q.y = p.y ∧ q.x < p.x ∧ planar2 q c.center = c.radius ^ 2 := by
    intro q
    unfold leftOf Covers OnCircle
    simp only [Set.mem_ofPred_eq, hk]
    tauto
  unfold EvenOdd
  simp only [List.map_cons, List.map_nil, List.sum_cons, List.sum_nil, add_zero]
  unfold planar2 at *
  by_cases hneg : c.radius ^ 2 - (p.y - c.center.y) ^ 2 < 0
  · have he : leftOf p c = ∅ := by
      ext q
      rw [hcov]
      simp only [Set.mem_empty_iff_false, iff_false]
      rintro ⟨-, h1, -, h2⟩
      rw [h1] at h2
      nlinarith [sq_nonneg (q.x - c.center.x)]
    rw [he, Set.ncard_empty]
    simp only [Nat.not_odd_zero, false_iff, not_lt]
    nlinarith [sq_nonneg (p.x - c.center.x)]
  · obtain ⟨h, hh, hsq⟩ : ∃ h : ℝ, 0 < h ∧ h ^ 2 = c.radius ^ 2 - (p.y - c.center.y) ^ 2 := by
      rw [not_lt] at hneg
      refine ⟨√(c.radius ^ 2 - (p.y - c.center.y) ^ 2), Real.sqrt_pos.2 (lt_of_le_of_ne hneg ?_), Real.sq_sqrt hneg⟩
      intro e
      rw [← e] at hc
      norm_num at hc
    have hmem : ∀ q, q ∈ leftOf p c ↔ (q = ⟨c.center.x - h, p.y, 0⟩ ∨ q = ⟨c.center.x + h, p.y, 0⟩) ∧ q.x < p.x := by
      intro q
      rw [hcov]
      constructor
      · rintro ⟨h1, h2, h3, h4⟩
        refine ⟨?_, h3⟩
        rw [h2] at h4
        have : (q.x - c.center.x - h) * (q.x - c.center.x + h) = 0 := by linear_combination h4 - hsq
        rcases mul_eq_zero.1 this with g | g
        · right; ext
          · simp only; linarith
          · exact h2
          · exact h1
        · left; ext
          · simp only; linarith
          · exact h2
          · exact h1
      · rintro ⟨h1 | h1, h3⟩
        · refine ⟨by rw [h1], by rw [h1], h3, by rw [h1]; simp only; linear_combination hsq⟩
        · refine ⟨by rw [h1], by rw [h1], h3, by rw [h1]; simp only; linear_combination hsq⟩
    by_cases h1 : c.center.x - h < p.x
    · by_cases h2 : c.center.x + h < p.x
      · have he : leftOf p c = {⟨c.center.x - h, p.y, 0⟩, ⟨c.center.x + h, p.y, 0⟩} := by
          ext q
          rw [hmem]
          simp only [Set.mem_insert_iff, Set.mem_singleton_iff, and_iff_left_iff_imp]
          rintro (rfl | rfl) <;> assumption
        rw [he, Set.ncard_pair (by intro e; have := congrArg Point.x e; simp only at this; linarith)]
        constructor
        · intro h; exact absurd h (by decide)
        · intro h3
          exfalso
          nlinarith
      · have he : leftOf p c = {⟨c.center.x - h, p.y, 0⟩} := by
          ext q
          rw [hmem]
          simp only [Set.mem_singleton_iff]
          constructor
          · rintro ⟨rfl | rfl, h3⟩
            · rfl
            · exact absurd h3 h2
          · rintro rfl; exact ⟨Or.inl rfl, h1⟩
        rw [he, Set.ncard_singleton]
        simp only [odd_one, true_iff]
        have h3 : p.x ≠ c.center.x + h := by
          intro e; apply hon; rw [e]; linear_combination hsq
        have h4 : p.x < c.center.x + h := lt_of_le_of_ne (not_lt.1 h2) h3
        nlinarith
    · have he : leftOf p c = ∅ := by
        ext q
        rw [hmem]
        simp only [Set.mem_empty_iff_false, iff_false]
        rintro ⟨rfl | rfl, h3⟩ <;> simp only at h3 <;> linarith
      rw [he, Set.ncard_empty]
      simp only [Nat.not_odd_zero, false_iff, not_lt]
      nlinarith

/-- C68 (partial). An outline made of one circle: for a point of its bounding box `IsInside` reports whether the point is
nearer to the centre than the radius.  Missing: points close to the circle and points at the height of its top or bottom;
for some of the latter the answer is wrong, see `C68_beside_circle`. -/
theorem C68_circle_partial {c : Seg} {o : Outline} (h : Drawn [c] o) (hm : Made c) (hk : c.kind = .circle)
    {p : Point ℝ} (hz : p.z = 0) (hx : o.lo.x ≤ p.x ∧ p.x ≤ o.hi.x) (hy : o.lo.y ≤ p.y ∧ p.y ≤ o.hi.y)
    (hs : -10 ^ 7 ≤ o.lo.x ∧ -10 ^ 7 ≤ o.lo.y ∧ o.hi.x ≤ 10 ^ 7 ∧ o.hi.y ≤ 10 ^ 7)
    (hclear : Clear (o.hi.x - o.lo.x) p c) :
    isInside o p = some (open Classical in decide (planar2 p c.center < c.radius ^ 2)) := by
  classical
  have hcl : o.closed = true ∧ o.segs = [c] := by
    cases drawn_state h with
    | empty e => cases e
    | circle s b e k h1 h2 => injection e with e _; subst e; exact ⟨h2, h1⟩
    | drawing _ hp => rcases hp c (by simp) with k | k <;> rw [hk] at k <;> cases k
    | done lo hi hp => rcases hp c (by simp) with k | k <;> rw [hk] at k <;> cases k
  have hc : 1e-8 ≤ |c.radius ^ 2 - (p.y - c.center.y) ^ 2| := by
    have := hclear.2; rw [hk] at this; exact this
  have hon : planar2 p c.center ≠ c.radius ^ 2 := by
    intro e
    have hcov : Covers c p := by unfold Covers OnCircle; rw [hk]; exact ⟨e, hz⟩
    have := hclear.1 p hcov rfl
    rw [sub_self, abs_zero] at this
    have hw : 0 ≤ o.hi.x - o.lo.x := by linarith
    nlinarith
  rw [C68_inside_partial h (by simpa using hm) hcl.1 hz hx hy hs (by rw [hcl.2]; simpa using hclear), hcl.2]
  congr 1
  exact decide_eq_decide.2 (evenOdd_circle hk hc hon)

end Iges.Props.Inside
