import Verif.Lemmas.RegionCut
/-
C83: the region of an outline after a circle has been cut out of it or joined to it.
-/
namespace Iges.Props
open Iges.Geo Iges.Spec Iges.Turn Real

/-- a line that meets a circle twice starts outside of it, or on it -/
theorem line_twice {s : Seg} (hm : Made s) (hk : s.kind = .line) {c p q : Point ℝ} {r : ℝ} (hp : Covers s p) (hq : Covers s q)
    (hpc : planar2 p c = r ^ 2) (hqc : planar2 q c = r ^ 2) (hne : p ≠ q) (hs : planar2 s.start c ≠ r ^ 2) :
    r ^ 2 < planar2 s.start c := by
  have hl := (line_ends hm hk).2.2.2.2
  rw [hl] at hp hq
  obtain ⟨t, t0, t1, rfl⟩ := hp
  obtain ⟨u, u0, u1, rfl⟩ := hq
  have htu : t ≠ u := by rintro rfl; exact hne rfl
  set a := planar2 s.stop s.start with ha
  simp only [planar2, pt] at hpc hqc hs ha ⊢
  have ha0 : 0 ≤ a := by rw [ha]; positivity
  have h1 : (t - u) * (a * (t + u) + 2 * ((s.start.x - c.x) * (s.stop.x - s.start.x) + (s.start.y - c.y) * (s.stop.y - s.start.y))) = 0 := by
    rw [ha]; linear_combination hpc - hqc
  have h2 := (mul_eq_zero.1 h1).resolve_left (sub_ne_zero.2 htu)
  have h3 : (s.start.x - c.x) ^ 2 + (s.start.y - c.y) ^ 2 = r ^ 2 + a * (t * u) := by
    rw [ha] at h2 ⊢; linear_combination hpc - t * h2
  have h4 : 0 ≤ a * (t * u) := by positivity
  refine lt_of_le_of_ne (by linarith) (Ne.symm hs)

/-- C83. A circle is cut out of an outline, or joined to it, successfully.  The outline is made of lines and arcs, runs round
its region once, counterclockwise, and is crossed by the circle away from its corners; `GetIntersections` finds the common
points, and `IsInside` is right about the two points of the circle halfway between them.  Then the new outline runs round
its region once, counterclockwise, and its region is the old one without the disc, or with the disc.  What is missing:
outlines that are one circle (`C83_two_circles` treats them), circles through corners, and arcs that the circle meets twice and that start inside of it, for
which it is not true (`C82_gap`). -/
theorem C83_region_partial {o : Outline} {c : Seg} {opsub : Bool} (hk : ∀ s ∈ o.segs, s.kind = .line ∨ s.kind = .arc)
    (hm : ∀ s ∈ o.segs, Made s) (hs : ∀ s ∈ o.segs, Sharp s) (hc : Made c) (hround : Round o.segs) (hproper : Proper o.segs)
    (hx : Crossed o.segs c) (hj : Judged o c) (h : (opCircle o (some c) opsub).ret = true) :
    Round (opCircle o (some c) opsub).out.segs ∧ Proper (opCircle o (some c) opsub).out.segs ∧
    (∀ s ∈ (opCircle o (some c) opsub).out.segs, (s.kind = .line ∨ s.kind = .arc) ∧ Made s ∧ Sharp s) ∧
    ∀ x, OffBorder (opCircle o (some c) opsub).out.segs x → planar2 x c.center ≠ c.radius ^ 2 →
      (Inside (opCircle o (some c) opsub).out.segs x ↔
        if opsub then Inside o.segs x ∧ c.radius ^ 2 < planar2 x c.center
        else Inside o.segs x ∨ planar2 x c.center < c.radius ^ 2) := by
  obtain ⟨c', hits, p, q, hcc, hkc, hcl, hh, hpq, hin, he⟩ := opCircle_true h
  obtain rfl := Option.some.inj hcc
  have hr := ((made_ok hc).circle hkc).1
  have hfit : ∀ s ∈ o.segs, Fit s := fun s hs' => ⟨hk s hs', hm s hs', hs s hs'⟩
  have hd : ∀ y, y ∈ distinct [] hits ↔ y = p ∨ y = q := by
    rcases hin with ⟨hd, -⟩ | ⟨hd, -⟩ <;> intro y <;> rw [hd] <;> simp
    tauto
  have mp : p ∈ hits := by simpa using distinct_sub [] hits p ((hd p).2 (Or.inl rfl))
  have mq : q ∈ hits := by simpa using distinct_sub [] hits q ((hd q).2 (Or.inr rfl))
  obtain ⟨i, s, hi, h1, h2, h3, -⟩ := circleHits_spec hh p mp
  obtain ⟨j, u, hj', h1', h2', h3', -⟩ := circleHits_spec hh q mq
  rw [zero_add] at hi hj'
  have sl := List.mem_of_getElem? h1
  have ul := List.mem_of_getElem? h1'
  obtain ⟨cs, cp⟩ := (hx.found s sl p.1).2 ⟨h3, h2⟩
  obtain ⟨cu, cq⟩ := (hx.found u ul q.1).2 ⟨h3', h2'⟩
  have hp := (covers_on hkc).1 cp
  have hq := (covers_on hkc).1 cq
  have hne : p.1 ≠ q.1 := by intro e; rw [e, C51_reflexive] at hpq; cases hpq
  have hcom : ∀ x, Common o.segs c x → x = p.1 ∨ x = q.1 := by
    rintro x ⟨hcx, t, ht, htx⟩
    obtain ⟨n, hn⟩ := List.mem_iff_getElem?.1 ht
    obtain ⟨r1, r2⟩ := (hx.found t ht x).1 ⟨htx, hcx⟩
    obtain ⟨y, hy, hyx⟩ := distinct_complete [] hits _ (Or.inr (circleHits_complete hh hn r1 r2))
    rcases (hd y).1 hy with rfl | rfl
    · left; exact (hx.apart _ _ ⟨cp, s, sl, cs⟩ ⟨hcx, t, ht, htx⟩ hyx).symm
    · right; exact (hx.apart _ _ ⟨cq, u, ul, cu⟩ ⟨hcx, t, ht, htx⟩ hyx).symm
  have sing : ∀ {n m : ℕ} {t v : Seg} {x : Point ℝ}, o.segs[n]? = some t → o.segs[m]? = some v → Covers t x → Covers v x →
      Covers c x → n = m := by
    intro n m t v x hn hm ht hv hcx
    by_contra hnm
    obtain ⟨ln, rfl⟩ := List.getElem?_eq_some_iff.1 hn
    obtain ⟨lm, rfl⟩ := List.getElem?_eq_some_iff.1 hm
    have := List.pairwise_iff_getElem.1 hx.single
    rcases lt_or_gt_of_ne hnm with e | e
    · exact this n m ln lm e x ht hv hcx
    · exact this m n lm ln e x hv ht hcx
  have meets : Meets o.segs c.center c.radius p.1 q.1 :=
    ⟨hfit, hround, hp.1, hq.1, fun t ht x hz hxc => hx.corner t ht x ((covers_on hkc).2 ⟨hxc, hz⟩)⟩
  have hits' : Hits o.segs c.center c.radius p.1 q.1 i j s u := by
    refine ⟨meets, h1, h1', cs, cu, hpq, ?_, ?_⟩
    · intro n t x hn ht hxc
      have hcx : Covers c x := (covers_on hkc).2 ⟨hxc, covers_flat ht⟩
      rcases hcom x ⟨hcx, t, List.mem_of_getElem? hn, ht⟩ with rfl | rfl
      · left; exact ⟨sing hn h1 ht cs hcx, rfl⟩
      · right; exact ⟨sing hn h1' ht cu hcx, rfl⟩
    · rintro rfl
      obtain rfl : u = s := by rw [h1] at h1'; exact (Option.some.inj h1').symm
      rcases hk u ul with e | e
      · exact line_twice (hm u ul) e cs cu hp.1 hq.1 hne (meets.starts ul)
      · exact hx.twice u ul e ⟨p.1, q.1, hne, cs, cp, cu, cq⟩
  have ends : ∀ x, Covers c x → isEndOf o.segs hits x = false := by
    intro x hcx
    unfold isEndOf
    rw [List.any_eq_false]
    intro y _
    cases hy : o.segs[y.2]? with
    | none => simp
    | some t =>
      have ht := List.mem_of_getElem? hy
      have z := (covers_on hkc).1 hcx
      have a1 := hx.corner t ht x hcx
      have a2 := meets.stopCorner ht z.2 z.1
      have ee : (t.getStart = t.start ∨ t.getStart = t.stop) ∧ (t.getEnd = t.start ∨ t.getEnd = t.stop) := by
        unfold Seg.getStart Seg.getEnd
        cases t.cw <;> simp
      have b1 : PointMatches x t.getStart 1e-8 = false := by
        rcases ee.1 with e | e <;> rw [e] <;> assumption
      have b2 : PointMatches x t.getEnd 1e-8 = false := by
        rcases ee.2 with e | e <;> rw [e] <;> assumption
      simp [b1, b2]
  rw [ends _ cp, ends _ cq, show p = (p.1, i) by rw [← hi], show q = (q.1, j) by rw [← hj']] at he
  rw [he] at h ⊢
  have hin' : (isInside o (pointAt c (midAngle c.center q.1 p.1)) = some true ∧
        isInside o (pointAt c (midAngle c.center q.1 p.1 + π)) = some false) ∨
       (isInside o (pointAt c (midAngle c.center p.1 q.1)) = some false ∧
        isInside o (pointAt c (midAngle c.center p.1 q.1 + π)) = some true) := by
    rcases hin with ⟨-, hin⟩ | ⟨-, hin⟩
    · exact Or.inl hin
    · exact Or.inr hin
  obtain ⟨sp, hsp, hcase⟩ := arrange hits' (o := { o with boxOk := false }) rfl h
  rcases hcase with ⟨F, G, hP, hmade⟩ | ⟨F, G, hP, k, hkF, hout⟩
  · obtain ⟨θP, θQ, eP, eQ, hcut⟩ := parts_cut hkc hr hj hfit hround hproper hcom hp hq hne hP hin'
    obtain ⟨fsp, s1, s2, -, hw⟩ := new_arc hkc hr hp hq hpq hsp eP eQ hcut.less hcut.turn
    obtain ⟨a1, a2, a3, a4⟩ := region_cut hkc hfit hround hproper hP hcut fsp s1 s2 hmade hw
    exact ⟨a1, a3, fun s hs => ⟨(a2 s hs).kind, (a2 s hs).made, (a2 s hs).sharp⟩, a4⟩
  · exfalso
    obtain ⟨θP, θQ, eP, eQ, hcut⟩ := parts_cut hkc hr hj hfit hround hproper hcom hp hq hne hP hin'
    have fk := hP.fit k (by simp [hkF])
    have := hcut.sides.1 (curve k) (List.mem_map.2 ⟨k, hkF, rfl⟩) (curve k).first (first_mem _)
    rw [fk.first, d2_plane] at this
    linarith

/-- C83. What `Inside` means: at a height where there is no corner it is the even-odd rule of C68, and for an outline that
runs round its region once it means that the outline goes round the point. -/
theorem C83_inside {l : List Seg} (hk : ∀ s ∈ l, s.kind = .line ∨ s.kind = .arc) (hm : ∀ s ∈ l, Made s) (hs : ∀ s ∈ l, Sharp s)
    (hr : Round l) {p : Point ℝ} (ho : OffBorder l p) (hp : ∀ s ∈ l, Plain s p) :
    (Inside l p ↔ EvenOdd l p) ∧ (Proper l → (Inside l p ↔ rounds l p = 1)) := by
  have hf : ∀ s ∈ l, Fit s := fun s h => ⟨hk s h, hm s h, hs s h⟩
  refine ⟨?_, fun hpr => ?_⟩
  · rw [inside_odd hf hr ho, evenOdd_eq hf hp, rounds_eq hf hp]
  · rw [inside_one hf hr hpr ho, rounds_eq hf hp]

end Iges.Props
