import Verif.Spec.Plate
import Verif.Props.MergeDone
import Verif.Props.MergeKept
import Verif.Props.Region
/-
C85: the material of a board after a cutout or a hole has been added to it.
-/
namespace Iges.Props
open Iges.Geo Iges.Spec Iges.Turn Real

/-- C85. The NULL pointer and an outline that is not closed are refused with an error, and nothing changes; likewise the NULL
pointer and a segment that is no circle. -/
theorem C85_refused (p : Plate) (overlaps : Bool) :
    (∀ a : Option Outline, (∀ x, a = some x → x.closed = false) → ∃ b, addCutout p a overlaps = .returns p b false true ∧
      ∀ x, a = some x → b = x) ∧
    ∀ c : Option Seg, (∀ x, c = some x → x.kind ≠ .circle) → addHole p c overlaps = (p, false, true) := by
  refine ⟨fun a h => ?_, fun c h => ?_⟩
  · cases a with
    | none => exact ⟨_, rfl, by simp⟩
    | some x =>
      unfold addCutout
      simp only
      rw [if_pos (h x rfl)]
      exact ⟨_, rfl, fun y e => by cases e; rfl⟩
  · cases c with
    | none => rfl
    | some x =>
      unfold addHole
      simp only
      rw [if_pos (h x rfl)]

/-- C85. When the caller says that nothing overlaps, a closed outline or a circle is taken as it is, and at every point there is
material exactly if there was and the point is not in the cutout. -/
theorem C85_unchecked (p : Plate) :
    (∀ a : Outline, a.closed = true → ∃ p', addCutout p (some a) false = .returns p' a true false ∧
      ∀ x, Material p' x ↔ Material p x ∧ ¬ Inside a.segs x) ∧
    ∀ c : Seg, c.kind = .circle → ∃ p', addHole p (some c) false = (p', true, false) ∧
      ∀ x, Material p' x ↔ Material p x ∧ ¬ InHole c x := by
  refine ⟨fun a h => ?_, fun c h => ?_⟩
  · refine ⟨{ p with cutouts := p.cutouts ++ [a] }, by simp [addCutout, h], fun x => ?_⟩
    unfold Material
    simp only [List.mem_append, List.mem_cons, List.not_mem_nil, or_false, or_imp, forall_and, forall_eq]
    tauto
  · refine ⟨{ p with holes := p.holes ++ [c] }, by simp [addHole, h], fun x => ?_⟩
    unfold Material
    simp only [List.mem_append, List.mem_cons, List.not_mem_nil, or_false, or_imp, forall_and, forall_eq]
    tauto

theorem meeting_done {o a : Outline} (opsub : Bool) (ho : Regular o) (ha : Regular a) (hm : Meeting o a)
    (hcw : opsub = false → ∀ s ∈ o.segs ++ a.segs, s.cw = false) :
    ∃ r, opShape o (some a) opsub = .returns r ∧ r.ret = true ∧ r.error = false ∧
      ∀ x, OffBorder o.segs x → OffBorder a.segs x →
      (Inside r.out.segs x ↔ if opsub then Inside o.segs x ∧ ¬ Inside a.segs x else Inside o.segs x ∨ Inside a.segs x) := by
  obtain ⟨r, h1, h2, h3, -, -⟩ := C84_success_partial opsub ho.kind ho.made ho.sharp ha.kind ha.made ha.sharp ho.round ha.round ho.proper
    ha.proper ho.piece ha.piece hm.overlap hm.crosses hm.judged ho.closed ha.closed hm.clean hm.twice hcw
  obtain ⟨-, -, -, -, h4, -⟩ := C84_region_partial ho.kind ho.made ho.sharp ha.kind ha.made ha.sharp ho.round ha.round ho.proper
    ha.proper ho.piece ha.piece hm.overlap hm.crosses hm.judged h1 h2
  exact ⟨r, h1, h2, h3, h4⟩

/-- the loop over the cutouts: the argument goes to the first cutout that it meets, if there is one -/
theorem joinFirst_done {l : List Outline} {a : Outline} (ha : Regular a) (hl : ∀ c ∈ l, Regular c)
    (h : ∀ c ∈ l, Separate c a ∨ (Meeting c a ∧ ∀ s ∈ c.segs ++ a.segs, s.cw = false)) :
    (∃ l', joinFirst l a = .ends l' a false false ∧ l'.map (·.segs) = l.map (·.segs) ∧ ∀ c ∈ l, Separate c a) ∨
    ∃ (l' : List Outline) (b : Outline) (pre : List Outline) (c c' : Outline) (post : List Outline), joinFirst l a = .ends l' b true false ∧ l = pre ++ c :: post ∧ Meeting c a ∧
      l'.map (·.segs) = pre.map (·.segs) ++ c'.segs :: post.map (·.segs) ∧
      ∀ x, OffBorder c.segs x → OffBorder a.segs x → (Inside c'.segs x ↔ Inside c.segs x ∨ Inside a.segs x) := by
  induction l with
  | nil => exact Or.inl ⟨[], rfl, rfl, by simp⟩
  | cons c l ih =>
    unfold joinFirst addShape
    rcases h c (by simp) with h1 | ⟨h1, hcw⟩
    · obtain ⟨r, e, e1, e2, e3, -, e4⟩ := C84_apart false (hl c (by simp)).closed ha.closed h1
      simp only [e, e1, e2, e4, Bool.false_eq_true, or_self, if_false]
      rcases ih (fun c hc => hl c (by simp [hc])) (fun c hc => h c (by simp [hc])) with ⟨l', g1, g2, g3⟩ | ⟨l', b, pre, d, d', post, g1, g2, g3, g4, g5⟩
      · left
        refine ⟨r.out :: l', by rw [g1], by simp [e3, g2], ?_⟩
        intro d hd
        rcases List.mem_cons.1 hd with rfl | hd
        · exact h1
        · exact g3 d hd
      · right
        refine ⟨r.out :: l', b, c :: pre, d, d', post, by rw [g1], by rw [g2]; rfl, g3, by simp [e3, g4], g5⟩
    · obtain ⟨r, e, e1, e2, e3⟩ := meeting_done false (hl c (by simp)) ha h1 (fun _ => hcw)
      simp only [e, e1, true_or, if_true]
      right
      refine ⟨_, r.other, [], c, r.out, l, by rw [e2], rfl, h1, rfl, fun x h1 h2 => ?_⟩
      simpa using e3 x h1 h2

theorem none_map {l m : List Outline} (h : l.map (·.segs) = m.map (·.segs)) (x : Point ℝ) :
    (∀ c ∈ l, ¬ Inside c.segs x) ↔ ∀ c ∈ m, ¬ Inside c.segs x := by
  have : ∀ l : List Outline, (∀ c ∈ l, ¬ Inside c.segs x) ↔ ∀ s ∈ l.map (·.segs), ¬ Inside s x := by
    intro l; simp
  rw [this, this, h]

theorem pairwise_map' {l : List Outline} (R : List Seg → List Seg → Prop) :
    (l.Pairwise fun c d => R c.segs d.segs) ↔ (l.map (·.segs)).Pairwise R := by
  rw [List.pairwise_map]

/-- C85. A cutout is added to a board and overlaps are to be treated.  The board, its cutouts and the new one are closed, made of
lines and arcs, and run once, counterclockwise, round regions in one piece; the new cutout has no common point with the border
of the board, or crosses it in two points; and likewise the borders of the cutouts, in which no segment runs clockwise if they
are crossed.  Then the cutout is accepted, and at a point on none of the borders there is material exactly if there was and the
point is not in the cutout.  The holes are the same.  Moreover, if no two cutouts overlap and all are within the board, and the new one, unless it
crosses the border of the board, is within the board and overlaps no cutout except one that it crosses, then that is so
afterwards; and if it does cross the border of the board, it must not overlap any cutout.  The code does not make sure of this
(`C85_outside`).  What is missing: circles in outlines, common points at corners, and cutouts that meet two others. -/
theorem C85_region_partial {p : Plate} {a : Outline} (hm : Regular p.main) (hc : ∀ c ∈ p.cutouts, Regular c) (ha : Regular a)
    (h1 : Separate p.main a ∨ Meeting p.main a)
    (h2 : ∀ c ∈ p.cutouts, Separate c a ∨ (Meeting c a ∧ ∀ s ∈ c.segs ++ a.segs, s.cw = false)) :
    ∃ p' b, addCutout p (some a) true = .returns p' b true false ∧ p'.holes = p.holes ∧
      (∀ x, OffBorders p x → OffBorder a.segs x → (Material p' x ↔ Material p x ∧ ¬ Inside a.segs x)) ∧
      ∀ x, OffBorders p x → OffBorder a.segs x → Orderly p x →
        (Separate p.main a → Inside a.segs x → Inside p.main.segs x) →
        (¬ Separate p.main a → ∀ c ∈ p.cutouts, ¬ (Inside c.segs x ∧ Inside a.segs x)) →
        (Inside a.segs x → ∀ c ∈ p.cutouts, Inside c.segs x → ¬ Separate c a) →
        (p.cutouts.Pairwise fun c d => Separate c a ∨ Separate d a) → Orderly p' x := by
  have twice : ∀ {o : Outline}, Regular o → Meeting o a → ¬ Separate o a := by
    intro o _ hm hap
    obtain ⟨u, v, -, hS⟩ := hm.twice
    obtain ⟨⟨s, hs, c1⟩, t, ht, c2⟩ := (hS u).2 (Or.inl rfl)
    have := ((hm.crosses.found s hs t ht u).1 ⟨c1, c2⟩).1
    rw [hap s hs t ht] at this
    cases this
  unfold addCutout subShape
  simp only [ha.closed, Bool.true_eq_false, if_false]
  rcases h1 with h1 | h1
  · obtain ⟨r, e, e1, e2, e3, -, e4⟩ := C84_apart true hm.closed ha.closed h1
    simp only [e, e1, e2, e4, Bool.false_eq_true, or_self, if_false]
    rcases joinFirst_done ha hc h2 with ⟨l', g1, g2, g3⟩ | ⟨l', b, pre, c, c', post, g1, g2, g3, g4, g5⟩
    · simp only [g1, Bool.false_eq_true, or_self, if_false]
      refine ⟨_, _, rfl, rfl, fun x _ _ => ?_, fun x _ _ ho hin _ hap _ => ?_⟩
      · unfold Material
        simp only [e3, List.mem_append, List.mem_cons, List.not_mem_nil, or_false, or_imp, forall_and, forall_eq]
        rw [none_map g2]
        tauto
      · obtain ⟨o1, o2⟩ := ho
        have noin : Inside a.segs x → ∀ c ∈ p.cutouts, ¬ Inside c.segs x := fun hx c hc hcx => hap hx c hc hcx (g3 c hc)
        refine ⟨?_, ?_⟩
        · simp only
          rw [List.pairwise_append]
          refine ⟨?_, List.pairwise_singleton _ _, ?_⟩
          · rw [pairwise_map' (fun c d => ¬ (Inside c x ∧ Inside d x)), g2, ← pairwise_map' (fun c d => ¬ (Inside c x ∧ Inside d x))]
            exact o1
          · intro c hc d hd
            simp only [List.mem_cons, List.not_mem_nil, or_false] at hd
            subst hd
            rintro ⟨x1, x2⟩
            exact (none_map g2 x).2 (noin x2) c hc x1
        · simp only [e3, List.mem_append, List.mem_cons, List.not_mem_nil, or_false]
          rintro c (hc | rfl)
          · intro hcx
            have : c.segs ∈ p.cutouts.map (·.segs) := by rw [← g2]; exact List.mem_map_of_mem hc
            obtain ⟨d, hd, e⟩ := List.mem_map.1 this
            exact o2 d hd (by rw [e]; exact hcx)
          · exact hin h1
    · simp only [g1, true_or, if_true]
      have pc : c ∈ p.cutouts := by rw [g2]; simp
      refine ⟨_, _, rfl, rfl, fun x hx hxa => ?_, fun x hx hxa ho hin _ hap hone => ?_⟩
      · have g5 := g5 x (hx.2 c pc) hxa
        have key : (∀ c ∈ l', ¬ Inside c.segs x) ↔ (∀ c ∈ p.cutouts, ¬ Inside c.segs x) ∧ ¬ Inside a.segs x := by
          rw [none_map (m := pre ++ c' :: post) (by rw [g4]; simp), g2]
          simp only [List.mem_append, List.mem_cons, or_imp, forall_and, forall_eq, g5]
          tauto
        unfold Material
        simp only [e3, key]
        tauto
      · have g5 := g5 x (hx.2 c pc) hxa
        obtain ⟨o1, o2⟩ := ho
        have others : ∀ d ∈ pre ++ post, Separate d a := by
          intro d hd
          rw [g2, List.pairwise_append] at hone
          have nc := twice (hc c pc) g3
          rcases List.mem_append.1 hd with hd | hd
          · exact (hone.2.2 d hd c (by simp)).resolve_right nc
          · exact (List.rel_of_pairwise_cons hone.2.1 hd).resolve_left nc
        have noin : Inside a.segs x → ∀ d ∈ pre ++ post, ¬ Inside d.segs x := fun hx d hd hdx =>
          hap hx d (by rw [g2]; simp only [List.mem_append, List.mem_cons] at hd ⊢; tauto) hdx (others d hd)
        have e5 : l'.map (·.segs) = (pre ++ c' :: post).map (·.segs) := by rw [g4]; simp
        refine ⟨?_, ?_⟩
        · simp only
          rw [pairwise_map' (fun c d => ¬ (Inside c x ∧ Inside d x)), e5, ← pairwise_map' (fun c d => ¬ (Inside c x ∧ Inside d x))]
          rw [g2, List.pairwise_append, List.pairwise_cons] at o1
          rw [List.pairwise_append, List.pairwise_cons]
          obtain ⟨q1, ⟨q2, q3⟩, q4⟩ := o1
          refine ⟨q1, ⟨fun d hd => ?_, q3⟩, fun d hd u hu => ?_⟩
          · rintro ⟨x1, x2⟩
            rcases g5.1 x1 with x1 | x1
            · exact q2 d hd ⟨x1, x2⟩
            · exact noin x1 d (by simp [hd]) x2
          · rintro ⟨x1, x2⟩
            rcases List.mem_cons.1 hu with rfl | hu
            · rcases g5.1 x2 with x2 | x2
              · exact q4 d hd c (by simp) ⟨x1, x2⟩
              · exact noin x2 d (by simp [hd]) x1
            · exact q4 d hd u (by simp [hu]) ⟨x1, x2⟩
        · simp only [e3]
          intro d hd hdx
          have : d.segs ∈ (pre ++ c' :: post).map (·.segs) := by rw [← e5]; exact List.mem_map_of_mem hd
          obtain ⟨u, hu, e⟩ := List.mem_map.1 this
          rw [← e] at hdx
          simp only [List.mem_append, List.mem_cons] at hu
          rcases hu with hu | rfl | hu
          · exact o2 u (by rw [g2]; simp [hu]) hdx
          · rcases g5.1 hdx with hdx | hdx
            · exact o2 c pc hdx
            · exact hin h1 hdx
          · exact o2 u (by rw [g2]; simp [hu]) hdx
  · obtain ⟨r, e, e1, e2, e3⟩ := meeting_done true hm ha h1 (by simp)
    simp only [e, e1, true_or, if_true]
    simp only [if_true] at e3
    rw [e2]
    refine ⟨_, _, rfl, rfl, fun x hx hxa => ?_, fun x hx hxa ho _ hno _ _ => ?_⟩
    · unfold Material
      simp only [e3 x hx.1 hxa]
      tauto
    · obtain ⟨o1, o2⟩ := ho
      refine ⟨o1, fun c hc hcx => ?_⟩
      simp only
      rw [e3 x hx.1 hxa]
      exact ⟨o2 c hc hcx, fun hax => hno (twice hm h1) c hc ⟨hcx, hax⟩⟩

/-- the loop over the cutouts for a circle -/
theorem joinHole_done {l : List Outline} {c : Seg} (hc : Made c)
    (h : ∀ o ∈ l, (∀ s ∈ o.segs, s.kind = .line ∨ s.kind = .arc) ∧ (∀ s ∈ o.segs, Made s) ∧ (∀ s ∈ o.segs, Sharp s) ∧ Round o.segs ∧ Proper o.segs ∧
      Crossed o.segs c ∧ Judged o c) (he : (joinHole l c).2.2 = false) :
    ((joinHole l c).2.1 = false → (joinHole l c).1.map (·.segs) = l.map (·.segs)) ∧
    ((joinHole l c).2.1 = true → ∀ x, (∀ o ∈ (joinHole l c).1, OffBorder o.segs x) → planar2 x c.center ≠ c.radius ^ 2 →
      ((∀ o ∈ (joinHole l c).1, ¬ Inside o.segs x) ↔ (∀ o ∈ l, ¬ Inside o.segs x) ∧ ¬ InHole c x)) := by
  induction l with
  | nil => exact ⟨fun _ => rfl, fun h => by simp [joinHole] at h⟩
  | cons o l ih =>
    obtain ⟨h1, h2, h3, h4, h5, h6, h7⟩ := h o (by simp)
    unfold joinHole addCircle at he ⊢
    simp only at he ⊢
    cases hret : (opCircle o (some c) false).ret with
    | true =>
      obtain ⟨-, -, -, g⟩ := C83_region_partial (opsub := false) h1 h2 h3 hc h4 h5 h6 h7 hret
      simp only [hret, true_or, if_true] at he ⊢
      refine ⟨fun e => (by cases e), fun _ x hx hxc => ?_⟩
      have g := g x (hx _ (by simp)) hxc
      simp only [Bool.false_eq_true, if_false] at g
      simp only [List.mem_cons, forall_eq_or_imp, g, InHole]
      tauto
    | false =>
      cases herr : (opCircle o (some c) false).error with
      | true => simp only [hret, herr, or_true, if_true] at he; cases he
      | false =>
        obtain ⟨g1, -⟩ := C82_untouched o (some c) false hret herr
        simp only [hret, herr, Bool.false_eq_true, or_self, if_false] at he ⊢
        obtain ⟨i1, i2⟩ := ih (fun o ho => h o (by simp [ho])) he
        refine ⟨fun e => by simp [g1, i1 e], fun e x hx hxc => ?_⟩
        have := i2 e x (fun o ho => hx o (by simp [ho])) hxc
        simp only [List.mem_cons, forall_eq_or_imp, g1, this]
        tauto

theorem change_no_error {o : Outline} {c : Seg} {opsub : Bool} {p q : Point ℝ × ℕ} {pEnd qEnd : Bool}
    (h : (changeOutline o c opsub p q pEnd qEnd).ret = true) : (changeOutline o c opsub p q pEnd qEnd).error = false := by
  have join : ∀ segs i p q sp, (joinArc o segs i p q sp).ret = true → (joinArc o segs i p q sp).error = false := by
    intro segs i p q sp h
    generalize hR : joinArc o segs i p q sp = R at h ⊢
    unfold joinArc at hR
    simp only at hR
    generalize (if ((segs[i]?.map fun s => PointMatches s.stop p 1e-8).getD false) = true then i
      else before segs.length i) = k at hR
    split at hR
    · subst hR; cases h
    · split at hR
      · subst hR; cases h
      · subst hR; rfl
  generalize hR : changeOutline o c opsub p q pEnd qEnd = R at h ⊢
  unfold changeOutline at hR
  simp only at hR
  split at hR
  · subst hR; cases h
  split at hR
  · split at hR
    · subst hR; cases h
    · subst hR; rfl
  split at hR
  · split at hR
    · subst hR; cases h
    · subst hR; rfl
    · subst hR; cases h
  · unfold splitAndJoin at hR
    simp only at hR
    generalize (if pEnd = true then (o.segs, true) else splitOne o.segs p.2 p.1) = r at hR
    generalize (if qEnd = true then (r.1, true) else splitOne r.1 (if pEnd = false ∧ p.2 < q.2 then q.2 + 1 else q.2) q.1) = t
      at hR
    split at hR
    · subst hR; cases h
    split at hR
    · subst hR; cases h
    · subst hR; exact join _ _ _ _ _ h

theorem op_no_error {o : Outline} {c : Option Seg} {opsub : Bool} (h : (opCircle o c opsub).ret = true) : (opCircle o c opsub).error = false := by
  obtain ⟨c', hits, p, q, -, -, -, -, -, -, he⟩ := opCircle_true h
  rw [he] at h ⊢
  exact change_no_error h

theorem joinHole_error {l : List Outline} {c : Seg} (h : (joinHole l c).2.2 = true) : (joinHole l c).2.1 = false := by
  induction l with
  | nil => cases h
  | cons o l ih =>
    unfold joinHole addCircle at h ⊢
    simp only at h ⊢
    split
    · rename_i h1
      rw [if_pos h1] at h
      simp only at h ⊢
      by_contra hn
      rw [op_no_error (by simpa using hn)] at h
      cases h
    · rename_i h1
      rw [if_neg h1] at h
      exact ih h

/-- C85. A circle is added as a hole and overlaps are to be treated; the function reports success.  The board and its cutouts are
made of lines and arcs, run once, counterclockwise, round their regions, and are crossed by the circle, if at all, away from
their corners; `GetIntersections` finds the common points, and `IsInside` is right about the two points of the circle halfway
between them.  Then at a point that is not on a border afterwards, nor on the circle, there is material exactly if there was and
the point is not in the hole.  What is missing: outlines that are one circle, circles through corners, and arcs that the
circle meets twice and that start inside of it. -/
theorem C85_hole_partial {p : Plate} {c : Seg} (hc : Made c)
    (h : ∀ o ∈ p.main :: p.cutouts, (∀ s ∈ o.segs, s.kind = .line ∨ s.kind = .arc) ∧ (∀ s ∈ o.segs, Made s) ∧
      (∀ s ∈ o.segs, Sharp s) ∧ Round o.segs ∧ Proper o.segs ∧ Crossed o.segs c ∧ Judged o c)
    (hr : (addHole p (some c) true).2.1 = true) :
    (addHole p (some c) true).2.2 = false ∧
    ∀ x, OffBorders (addHole p (some c) true).1 x → planar2 x c.center ≠ c.radius ^ 2 →
      (Material (addHole p (some c) true).1 x ↔ Material p x ∧ ¬ InHole c x) := by
  obtain ⟨h1, h2, h3, h4, h5, h6, h7⟩ := h p.main (by simp)
  generalize hR : addHole p (some c) true = R at hr ⊢
  unfold addHole subCircle at hR
  simp only at hR
  split at hR
  · subst hR; cases hr
  rename_i hk
  simp only [Bool.true_eq_false, if_false] at hR
  cases hret : (opCircle p.main (some c) true).ret with
  | true =>
    obtain ⟨-, -, -, g⟩ := C83_region_partial (opsub := true) h1 h2 h3 hc h4 h5 h6 h7 hret
    simp only [hret, true_or, if_true] at hR
    subst hR
    refine ⟨op_no_error hret, fun x hx hxc => ?_⟩
    have g := g x hx.1 hxc
    simp only [if_true] at g
    unfold Material InHole
    simp only [g]
    have : ¬ planar2 x c.center < c.radius ^ 2 ↔ c.radius ^ 2 < planar2 x c.center :=
      ⟨fun h => lt_of_le_of_ne (not_lt.1 h) (Ne.symm hxc), fun h => not_lt.2 h.le⟩
    rw [this]
    tauto
  | false =>
    cases herr : (opCircle p.main (some c) true).error with
    | true => simp only [hret, herr, or_true, if_true] at hR; subst hR; cases hr
    | false =>
      obtain ⟨g1, -⟩ := C82_untouched p.main (some c) true hret herr
      simp only [hret, herr, Bool.false_eq_true, or_self, if_false] at hR
      cases hje : (joinHole p.cutouts c).2.2 with
      | true =>
        rw [if_pos (Or.inr hje)] at hR
        subst hR
        exact absurd hr (by rw [joinHole_error hje]; simp)
      | false =>
        obtain ⟨i1, i2⟩ := joinHole_done hc (fun o ho => h o (by simp [ho])) hje
        cases hj : (joinHole p.cutouts c).2.1 with
        | true =>
          rw [if_pos (Or.inl hj)] at hR
          subst hR
          refine ⟨hje, fun x hx hxc => ?_⟩
          have := i2 hj x hx.2 hxc
          unfold Material
          simp only [g1, this]
          tauto
        | false =>
          rw [if_neg (by simp [hj, hje])] at hR
          subst hR
          refine ⟨rfl, fun x hx hxc => ?_⟩
          unfold Material
          simp only [g1, List.mem_append, List.mem_cons, List.not_mem_nil, or_false, or_imp, forall_and, forall_eq]
          rw [none_map (i1 hj)]
          tauto

end Iges.Props
