import Verif.Lemmas.MergeDone
import Verif.Lemmas.Boxes
/-
C83, C84: borders that run along each other.
-/
namespace Iges.Props
open Iges.Geo Iges.Spec Iges.Turn Real Iges.Props.Boxes Iges.Props.Inside

namespace MergeEdge

theorem candidate_flag (c u v : Point ℝ) (full : Bool) (p q : Point ℝ) (t : ℝ) : (candidate c u v full p q t).2.1 ≠ .encircles := by
  unfold candidate
  dsimp only
  split <;> simp

theorem hits_ite {c : Prop} {_ : Decidable c} {a b : Hits} (ha : a.flag ≠ .encircles) (hb : b.flag ≠ .encircles) :
    (if c then a else b).flag ≠ .encircles := by split <;> assumption

theorem flag_ite {c : Prop} {_ : Decidable c} {a b : Flag} (ha : a ≠ .encircles) (hb : b ≠ .encircles) :
    (if c then a else b) ≠ .encircles := by split <;> assumption

/-- go through the branches -/
macro "flags" : tactic => `(tactic| (repeat' first | apply hits_ite | apply flag_ite) <;> first | assumption | (simp; done))

theorem pickCircle_flag {q : Point ℝ × Flag × ℝ} {rest : List (Point ℝ × Flag × ℝ)} (h : q.2.1 ≠ .encircles) :
    (pickCircle q rest).flag ≠ .encircles := by
  unfold pickCircle
  split
  · exact h
  · dsimp only
    flags

theorem pickArc_flag {a : ℝ} {tg : Prop} {q : Point ℝ × Flag × ℝ} {rest on : List (Point ℝ × Flag × ℝ)} (h : q.2.1 ≠ .encircles) :
    (pickArc a tg q rest on).flag ≠ .encircles := by
  unfold pickArc
  split
  · simp
  · apply hits_ite
    · simp
    · split
      · dsimp only
        flags
      · exact h

theorem arcLine_flag (arc : Seg) (u v p q m0 m1 : Point ℝ) : (arcLine arc u v p q m0 m1).flag ≠ .encircles := by
  unfold arcLine
  dsimp only
  apply hits_ite
  · flags
  · apply hits_ite
    · simp
    · split
      · simp
      · rename_i x rest hc
        have hx : x.2.1 ≠ .encircles := by
          have : x ∈ x :: rest := by simp
          rw [← hc] at this
          have two : ∀ {c : Prop} [Decidable c] {y : Point ℝ × Flag × ℝ}, x ∈ (if c then [y] else []) → x = y := by
            intro c _ y h
            split at h <;> simp at h
            exact h
          rcases List.mem_append.1 this with h | h <;> rw [two h] <;> intro e <;> exact candidate_flag _ _ _ _ _ _ _ e
        apply hits_ite
        · exact pickCircle_flag hx
        · exact pickArc_flag hx

theorem checkArcs_flag (s t : Seg) : (checkArcs s t).flag ≠ .encircles := by
  unfold checkArcs
  dsimp only
  flags

theorem checkLines_flag (s t : Seg) : (checkLines s t).flag ≠ .encircles := by
  unfold checkLines
  dsimp only
  flags

theorem encircles_circles {s t : Seg} (h : (intersections s t).flag = .encircles) (hs : s.kind ≠ .circle) : False := by
  revert h
  unfold intersections checkArcLine
  split <;> simp_all [checkArcs_flag, checkLines_flag, arcLine_flag]

theorem pairHits_bad {s : Seg} {m : List Seg} {opsub : Bool} {i j : ℕ} {acc : List (Point ℝ)} (hs : s.kind ≠ .circle)
    (h : ∃ t ∈ m, ¬ (((intersections s t).ret = true → (intersections s t).flag.fine = true) ∧
      ((intersections s t).ret = false → (intersections s t).flag = .none))) : pairHits s opsub i acc j m = .bad := by
  induction m generalizing acc j with
  | nil => simp at h
  | cons t m ih =>
    unfold pairHits
    dsimp only
    have enc : ¬ (opsub = true ∧ (intersections s t).flag = .encircles) := fun e => encircles_circles e.2 hs
    rw [if_neg enc]
    obtain ⟨u, hu, hb⟩ := h
    cases hret : (intersections s t).ret with
    | true =>
      simp only [if_true]
      by_cases hf : (intersections s t).flag.fine = false
      · rw [if_pos hf]
      · rw [if_neg hf]
        rcases List.mem_cons.1 hu with rfl | hu
        · rw [hret] at hb
          simp at hb
          exact absurd hb hf
        · rw [ih ⟨u, hu, hb⟩]
    | false =>
      simp only [Bool.false_eq_true, if_false]
      by_cases hf : (intersections s t).flag = .none
      · rw [if_pos hf]
        rcases List.mem_cons.1 hu with rfl | hu
        · rw [hret] at hb
          simp at hb
          exact absurd hf hb
        · exact ih ⟨u, hu, hb⟩
      · rw [if_neg hf]

theorem pairHits_not_apart {s : Seg} {m : List Seg} {opsub : Bool} {i j : ℕ} {acc : List (Point ℝ)} (hs : s.kind ≠ .circle) :
    pairHits s opsub i acc j m ≠ .apart := by
  induction m generalizing acc j with
  | nil => unfold pairHits; simp
  | cons t m ih =>
    unfold pairHits
    dsimp only
    have enc : ¬ (opsub = true ∧ (intersections s t).flag = .encircles) := fun e => encircles_circles e.2 hs
    rw [if_neg enc]
    split
    · split
      · simp
      · split
        · simp
        · rename_i h; exact ih
    · split
      · exact ih
      · simp

theorem shapeHits_bad {l m : List Seg} {opsub : Bool} {i : ℕ} (hl : ∀ s ∈ l, s.kind ≠ .circle) (h : ¬ Clean l m) :
    shapeHits m opsub i l = .bad := by
  induction l generalizing i with
  | nil => exact absurd (fun s hs => by simp at hs) h
  | cons s l ih =>
    unfold shapeHits
    by_cases hc : ∃ t ∈ m, ¬ (((intersections s t).ret = true → (intersections s t).flag.fine = true) ∧
      ((intersections s t).ret = false → (intersections s t).flag = .none))
    · rw [pairHits_bad (hl s (by simp)) hc]
    · have hna := pairHits_not_apart (m := m) (opsub := opsub) (i := i) (j := 0) (acc := []) (hl s (by simp))
      have hr := ih (i := i + 1) (fun s hs => hl s (by simp [hs])) (by
        intro hcl
        apply h
        intro u hu t ht
        rcases List.mem_cons.1 hu with rfl | hu
        · by_contra hb
          exact hc ⟨t, ht, hb⟩
        · exact hcl u hu t ht)
      cases hp : pairHits s opsub i [] 0 m with
      | points r => simp only [hr]
      | bad => rfl
      | apart => exact absurd hp hna

theorem ne_flat {p q : Point ℝ} (h : p ≠ q) (h1 : p.z = 0) (h2 : q.z = 0) : q.x - p.x ≠ 0 ∨ q.y - p.y ≠ 0 := by
  by_contra hc
  push Not at hc
  apply h
  ext
  · linarith [hc.1]
  · linarith [hc.2]
  · rw [h1, h2]

/-- two lines of one direction that have an end in common -/
theorem edge {s t : Seg} (hs : Made s) (ht : Made t) (ks : s.kind = .line) (kt : t.kind = .line)
    (hpar : across s.start s.stop t.start t.stop = 0)
    (ns : s.start ≠ s.stop) (nt : t.start ≠ t.stop) (he : s.start = t.start ∨ s.start = t.stop ∨ s.stop = t.start ∨ s.stop = t.stop) :
    (intersections s t).ret = true ∧ (intersections s t).flag = .edge := by
  obtain ⟨-, -, z1, z2, -⟩ := line_ends hs ks
  obtain ⟨gs, ge, z1', z2', -⟩ := line_ends ht kt
  have n1 := ne_flat ns z1 z2
  have n2 := ne_flat nt z1' z2'
  have hi : intersections s t = checkLines s t := by unfold intersections; rw [ks, kt]
  rw [hi]
  unfold checkLines
  simp only [gs, ge]
  unfold across at hpar
  have hnum : (s.stop.x - s.start.x) * (t.start.y - s.start.y) - (s.stop.y - s.start.y) * (t.start.x - s.start.x) = 0 := by
    rcases he with e | e | e | e
    · rw [e]; ring
    · rw [e] at hpar ⊢; linarith
    · rw [← e]; ring
    · rw [e] at hpar ⊢; linarith
  rw [hpar, hnum, if_pos (by norm_num), if_neg (by norm_num)]
  have q1 : ∀ {a b : ℝ}, (a ≠ 0 ∨ b ≠ 0) → |a| ≥ |b| → a ≠ 0 := by
    rintro a b h hab rfl
    rcases h with h | h
    · exact h rfl
    · exact h (abs_eq_zero.1 (le_antisymm (by simpa using hab) (abs_nonneg _)))
  have q2 : ∀ {a b : ℝ}, (a ≠ 0 ∨ b ≠ 0) → ¬ |a| ≥ |b| → b ≠ 0 := by
    rintro a b h hab rfl
    apply hab
    simp
  have g1 : s.stop.x - s.start.x ≠ 0 ∨ s.stop.y - s.start.y ≠ 0 := n1
  have g2 : t.stop.x - t.start.x ≠ 0 ∨ t.stop.y - t.start.y ≠ 0 := n2
  rw [if_neg]
  · repeat' split
    all_goals simp
  · rintro ⟨h1, h2, h3, h4⟩
    rcases he with e | e | e | e
    · apply h1; left; rw [e]; split <;> norm_num
    · apply h1; right; rw [e]; split
      · rename_i c; rw [div_self (q1 g2 c)]; norm_num
      · rename_i c; rw [div_self (q2 g2 c)]; norm_num
    · apply h2; left; rw [e]; split <;> norm_num
    · apply h2; right; rw [e]; split
      · rename_i c; rw [div_self (q1 g2 c)]; norm_num
      · rename_i c; rw [div_self (q2 g2 c)]; norm_num

theorem circleHits_bad {l : List Seg} {c : Seg} {opsub : Bool} {i : ℕ} (hl : ∀ s ∈ l, s.kind ≠ .circle) (h : ¬ Clean l [c]) :
    circleHits c opsub i l = .bad := by
  induction l generalizing i with
  | nil => exact absurd (fun s hs => by simp at hs) h
  | cons s l ih =>
    have enc : ¬ (opsub = true ∧ (intersections s c).flag = .encircles) := fun e => encircles_circles e.2 (hl s (by simp))
    have hr : (((intersections s c).ret = true → (intersections s c).flag.fine = true) ∧
        ((intersections s c).ret = false → (intersections s c).flag = .none)) → circleHits c opsub (i + 1) l = .bad := by
      intro hok
      refine ih (fun s hs => hl s (by simp [hs])) fun hcl => h fun u hu t ht => ?_
      rcases List.mem_cons.1 hu with rfl | hu
      · obtain rfl := List.mem_singleton.1 ht; exact hok
      · exact hcl u hu t ht
    unfold circleHits
    dsimp only
    rw [if_neg enc]
    cases hret : (intersections s c).ret with
    | true =>
      simp only [if_true]
      by_cases hf : (intersections s c).flag.fine = false
      · rw [if_pos hf]
      · rw [if_neg hf, hr (by rw [hret]; simpa using hf)]
    | false =>
      simp only [Bool.false_eq_true, if_false]
      by_cases hf : (intersections s c).flag = .none
      · rw [if_pos hf, hr (by rw [hret]; simpa using hf)]
      · rw [if_neg hf]

/-- an arc of the circle -/
theorem arc_edge {s c : Seg} (ks : s.kind = .arc) (kc : c.kind = .circle) (hc : s.center = c.center) (hr : s.radius = c.radius)
    (h1 : 0.001 ≤ c.radius) : (intersections s c).ret = true ∧ (intersections s c).flag = .edge := by
  have hi : intersections s c = checkArcs s c := by unfold intersections; rw [ks, kc]
  have h0 : hyp (c.center.x - c.center.x) (c.center.y - c.center.y) = 0 := by unfold hyp; simp
  rw [hi]
  unfold checkArcs
  dsimp only
  norm_num at h1
  rw [hc, hr, h0, if_neg (by rintro (h | h | h) <;> linarith), if_neg, if_pos ⟨C51_reflexive _ _, by norm_num⟩, if_neg (by rw [ks]; simp),
    if_pos kc]
  · exact ⟨rfl, rfl⟩
  · rw [abs_lt]
    rintro ⟨h, -⟩
    norm_num at h
    linarith

theorem join_closed (o : Outline) (l : List Seg) (i : ℕ) (p q : Point ℝ) (sp : Seg) : (joinArc o l i p q sp).out.closed = o.closed := by
  unfold joinArc
  dsimp only
  repeat' split
  all_goals rfl

theorem splits_closed (o : Outline) (i j : ℕ) (p q : Point ℝ) (a b : Bool) (sp : Seg) :
    (splitAndJoin o i j p q a b sp).out.closed = o.closed := by
  unfold splitAndJoin
  dsimp only
  generalize (if a then _ else _ : List Seg × Bool) = r
  split
  · rfl
  · generalize (if b then _ else _ : List Seg × Bool) = t
    split
    · rfl
    · exact join_closed ..

theorem change_closed (o : Outline) (c : Seg) (opsub : Bool) (p q : Point ℝ × ℕ) (a b : Bool) :
    (changeOutline o c opsub p q a b).out.closed = o.closed := by
  unfold changeOutline
  dsimp only
  split
  · rfl
  split
  · split <;> rfl
  split
  · split <;> rfl
  · exact splits_closed ..

theorem out_closed (o : Outline) (a : Option Seg) (opsub : Bool) : (opCircle o a opsub).out.closed = o.closed := by
  unfold opCircle
  dsimp only
  split
  · rfl
  split
  · rfl
  split
  · rfl
  split
  · rfl
  · rfl
  split
  · rfl
  · split
    · split
      · rfl
      · split <;> exact change_closed ..
    · rfl
  · rfl

end MergeEdge

open MergeEdge in
/-- C83. A closed outline of lines and arcs and a circle.  If `GetIntersections` reports that a segment runs along the circle or touches
it, without points, then joining and cutting out report an error, and the outline stays as it is. -/
theorem C83_refused_edge {o : Outline} {c : Seg} (opsub : Bool) (hk : ∀ s ∈ o.segs, s.kind = .line ∨ s.kind = .arc) (ho : o.closed = true)
    (kc : c.kind = .circle) (h : ¬ Clean o.segs [c]) :
    (opCircle o (some c) opsub).ret = false ∧ (opCircle o (some c) opsub).error = true ∧ (opCircle o (some c) opsub).out.segs = o.segs ∧
      (opCircle o (some c) opsub).out.closed = true := by
  unfold opCircle
  simp only [ho, Bool.true_eq_false, if_false, kc, ne_eq, not_true_eq_false,
    circleHits_bad (fun s hs => by rcases hk s hs with k | k <;> rw [k] <;> simp) h]
  simp

open MergeEdge in
/-- C83. If an arc of the outline is an arc of the circle, joining and cutting out report an error, and the outline stays as it is. -/
theorem C83_edge {o : Outline} {c s : Seg} (opsub : Bool) (hk : ∀ s ∈ o.segs, s.kind = .line ∨ s.kind = .arc) (ho : o.closed = true)
    (kc : c.kind = .circle) (hs : s ∈ o.segs) (ks : s.kind = .arc) (hc : s.center = c.center) (hr : s.radius = c.radius)
    (h1 : 0.001 ≤ c.radius) :
    (opCircle o (some c) opsub).ret = false ∧ (opCircle o (some c) opsub).error = true ∧ (opCircle o (some c) opsub).out.segs = o.segs ∧
      (opCircle o (some c) opsub).out.closed = true := by
  obtain ⟨e1, e2⟩ := arc_edge ks kc hc hr h1
  refine C83_refused_edge opsub hk ho kc fun hcl => ?_
  have := (hcl s hs c (by simp)).1 e1
  rw [e2] at this
  cases this

open MergeEdge in
/-- C83: the hole that has been cut out of the square, or joined to it, is cut out or joined again: an error. -/
example (opsub again : Bool) : ∃ o c, (∀ s ∈ o.segs, s.kind = .line ∨ s.kind = .arc) ∧ o.closed = true ∧ c.kind = .circle ∧
    (∃ s ∈ o.segs, s.kind = .arc ∧ s.center = c.center ∧ s.radius = c.radius) ∧ 0.001 ≤ c.radius ∧ o.segs.length = 6 ∧
    (∃ o', (opCircle o' (some c) opsub).out = o ∧ (opCircle o' (some c) opsub).ret = true) ∧ (opCircle o (some c) again).error = true := by
  obtain ⟨b, r, t, l, o, c, hd, hs, hc, hm, mc, kc, cc, cr, b1, b2, r1, r2, t1, t2, l1, l2, ir, im, in1, in2, sp, r', r'', hsp,
    hret, hout, k', k1, k2, k'', -⟩ := OutlineOps.ex_cut opsub
  obtain ⟨-, -, -, -, -, e1, e2, h⟩ := setArc_cases hsp
  have far : PointMatches (pt 2 0.5) (pt 2 1.5) 1e-8 = false := by apart
  have ka : sp.kind = .arc := by
    rcases h with ⟨-, h⟩ | ⟨h, -⟩
    · rw [far] at h; exact absurd h Bool.false_ne_true
    · exact h
  have e3 : sp.radius = c.radius := by
    rw [e2, cr, cc]
    simp only [pt, hyp]
    rw [show ((2 : ℝ) - 2) * (2 - 2) + (0.5 - 1) * (0.5 - 1) = 0.5 ^ 2 by norm_num, Real.sqrt_sq (by norm_num)]
  have hcl : (opCircle o (some c) opsub).out.closed = true := by rw [out_closed, hc]
  have hk : ∀ s ∈ (opCircle o (some c) opsub).out.segs, s.kind = .line ∨ s.kind = .arc := by
    rw [hout]
    intro s hs
    simp only [List.mem_cons, List.not_mem_nil, or_false] at hs
    rcases hs with rfl | rfl | rfl | rfl | rfl | rfl
    · exact Or.inl (hm _ (by simp)).2
    · exact Or.inl k'
    · exact Or.inr ka
    · exact Or.inl k''
    · exact Or.inl (hm _ (by simp)).2
    · exact Or.inl (hm _ (by simp)).2
  have hr : 0.001 ≤ c.radius := by rw [cr]; norm_num
  have hi : sp ∈ (opCircle o (some c) opsub).out.segs := by rw [hout]; simp
  exact ⟨_, c, hk, hcl, kc, ⟨sp, hi, ka, e1, e3⟩, hr, by rw [hout]; rfl, ⟨o, rfl, hret⟩, (C83_edge again hk hcl kc hi ka e1 e3 hr).2.1⟩

open MergeEdge in
/-- C84. Two closed outlines, the first one of lines and arcs.  If `GetIntersections` reports that a segment of one runs along a segment
of the other, or a circle as a tangent or around it, then joining and cutting out report an error, and both outlines stay as they are. -/
theorem C84_refused_edge {o a : Outline} (opsub : Bool) (hk : ∀ s ∈ o.segs, s.kind = .line ∨ s.kind = .arc) (ho : o.closed = true)
    (ha : a.closed = true) (h : ¬ Clean o.segs a.segs) :
    ∃ r, opShape o (some a) opsub = .returns r ∧ r.ret = false ∧ r.error = true ∧ r.out.segs = o.segs ∧ r.out.closed = true ∧ r.other = a := by
  unfold opShape
  dsimp only
  rw [if_neg (by rw [ho]; simp), if_neg (by rw [ha]; simp),
    shapeHits_bad (fun s hs => by rcases hk s hs with k | k <;> rw [k] <;> simp) h]
  exact ⟨_, rfl, rfl, rfl, rfl, ho, rfl⟩

open MergeEdge in
/-- C84. If a line of one outline and a line of the other have the same direction and an end in common - so that they overlap or one
continues the other -, then joining and cutting out report an error, and both outlines stay as they are. -/
theorem C84_edge {o a : Outline} (opsub : Bool) (hk : ∀ s ∈ o.segs, s.kind = .line ∨ s.kind = .arc) (ho : o.closed = true)
    (ha : a.closed = true) {s t : Seg} (hs : s ∈ o.segs) (ht : t ∈ a.segs) (ms : Made s) (mt : Made t) (ks : s.kind = .line)
    (kt : t.kind = .line) (hpar : across s.start s.stop t.start t.stop = 0)
    (ns : s.start ≠ s.stop) (nt : t.start ≠ t.stop) (he : s.start = t.start ∨ s.start = t.stop ∨ s.stop = t.start ∨ s.stop = t.stop) :
    ∃ r, opShape o (some a) opsub = .returns r ∧ r.ret = false ∧ r.error = true ∧ r.out.segs = o.segs ∧ r.out.closed = true ∧ r.other = a := by
  obtain ⟨e1, e2⟩ := edge ms mt ks kt hpar ns nt he
  refine C84_refused_edge opsub hk ho ha fun hc => ?_
  have := (hc s hs t ht).1 e1
  rw [e2] at this
  cases this

/-- C84: the boxes from (0,0) to (2,2) and from (2,2) to (4,4) touch at a corner, where the top of the first one is continued by the
bottom of the second one: an error. -/
example (opsub : Bool) : ∃ o a s t, (∀ s ∈ o.segs, s.kind = .line ∨ s.kind = .arc) ∧ o.closed = true ∧ a.closed = true ∧ s ∈ o.segs ∧
    t ∈ a.segs ∧ Made s ∧ Made t ∧ s.kind = .line ∧ t.kind = .line ∧ across s.start s.stop t.start t.stop = 0 ∧ s.start ≠ s.stop ∧
    t.start ≠ t.stop ∧ s.start = t.start ∧ ∃ r, opShape o (some a) opsub = .returns r ∧ r.error = true := by
  obtain ⟨b, r, t, l, o, -, h, hc, hs, -⟩ := ex_box 0 (by norm_num)
  obtain ⟨b', r', t', l', a, -, h', hc', hs', -⟩ := ex_box 2 (by norm_num)
  have k : ∀ s ∈ o.segs, s.kind = .line ∨ s.kind = .arc := by rw [hs]; exact fun s hs => Or.inl (h.made s hs).2
  have e1 := h.t1
  have e2 := h.t2
  have e3 := h'.b1
  have e4 := h'.b2
  have m1 := h.made t (by simp)
  have m2 := h'.made b' (by simp)
  norm_num at e1 e2 e3 e4
  have c : across t.start t.stop b'.start b'.stop = 0 := by rw [e1, e2, e3, e4]; norm_num [across, pt]
  have n1 : t.start ≠ t.stop := by rw [e1, e2]; norm_num [pt]
  have n2 : b'.start ≠ b'.stop := by rw [e3, e4]; norm_num [pt]
  have i1 : t ∈ o.segs := by rw [hs]; simp
  have i2 : b' ∈ a.segs := by rw [hs']; simp
  obtain ⟨x, hx, -, he, -⟩ := C84_edge opsub k hc hc' i1 i2 m1.1 m2.1 m1.2 m2.2 c n1 n2 (Or.inl (by rw [e1, e3]))
  exact ⟨o, a, t, b', k, hc, hc', i1, i2, m1.1, m2.1, m1.2, m2.2, c, n1, n2, by rw [e1, e3], x, hx, he⟩

end Iges.Props
