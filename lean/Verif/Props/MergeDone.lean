import Verif.Lemmas.MergeDone
import Verif.Props.Inside
import Verif.Props.Merge
/-
C84: when an outline can be cut out of an outline, or joined to it.
-/
namespace Iges.Props
open Iges.Geo Iges.Spec Iges.Turn Real

/-- C84. Two closed outlines are made of lines and arcs and run round their regions once, counterclockwise; the regions, and
what is outside of them, are in one piece, they overlap, and the outlines cross in exactly two points, away from their
corners; `GetIntersections` finds the common points and reports no overlap of segments, and `IsInside` is right about the
midpoints of the two pieces that it is asked about; no segment runs clockwise if they are to be joined.  Then cutting out or
joining succeeds.  So whatever `C84_region_partial` says holds.  What is missing: outlines with a circle, and common points
at corners. -/
theorem C84_success_partial {o a : Outline} (opsub : Bool)
    (ko : ∀ s ∈ o.segs, s.kind = .line ∨ s.kind = .arc) (mo : ∀ s ∈ o.segs, Made s) (so : ∀ s ∈ o.segs, Sharp s)
    (ka : ∀ s ∈ a.segs, s.kind = .line ∨ s.kind = .arc) (ma : ∀ s ∈ a.segs, Made s) (sa : ∀ s ∈ a.segs, Sharp s)
    (ro : Round o.segs) (ra : Round a.segs) (po : Proper o.segs) (pa : Proper a.segs) (co : OnePiece o.segs)
    (ca : OnePiece a.segs) (hov : Overlap o.segs a.segs) (hx : Crosses o.segs a.segs) (hj : JudgedBoth o a)
    (clo : o.closed = true) (cla : a.closed = true) (hcl : Clean o.segs a.segs) (h2 : Twice o.segs a.segs)
    (hcw : opsub = false → ∀ s ∈ o.segs ++ a.segs, s.cw = false) :
    ∃ r, opShape o (some a) opsub = .returns r ∧ r.ret = true ∧ r.error = false ∧ r.out.closed = true ∧
      (opsub = false → Round r.out.segs ∧ ∀ s ∈ r.out.segs, s.cw = false) := by
  suffices hmain : ∃ r, opShape o (some a) opsub = .returns r ∧ r.ret = true ∧ r.error = false ∧ r.out.closed = true ∧
      (opsub = false → ∀ s ∈ r.out.segs, s.cw = false) by
    obtain ⟨r, h, hr, he, hc, hw⟩ := hmain
    refine ⟨r, h, hr, he, hc, fun hop => ⟨?_, hw hop⟩⟩
    obtain ⟨-, -, -, -, -, g⟩ := C84_region_partial ko mo so ka ma sa ro ra po pa co ca hov hx hj h hr
    subst hop
    simp only [Bool.false_eq_true, if_false] at g
    exact g (hw rfl)
  have hfo : ∀ s ∈ o.segs, Fit s := fun s hs => ⟨ko s hs, mo s hs, so s hs⟩
  have hfa : ∀ s ∈ a.segs, Fit s := fun s hs => ⟨ka s hs, ma s hs, sa s hs⟩
  obtain ⟨hits, hh⟩ := shapeHits_done (opsub := opsub) (i := 0) hcl
  obtain ⟨p0, q0, hne0, hS0⟩ := h2
  obtain ⟨p, q, hd⟩ := distinct_two hne0 hfo hfa hx hS0 hh
  obtain ⟨hS, hpq, ⟨s1, P1⟩, ⟨s2, Q1⟩, ⟨s3, P2⟩, s4, Q2⟩ := cross_points hfo hfa ro ra hx hh hd
  have hS' : ∀ x, Shared a.segs o.segs x ↔ x = p.1 ∨ x = q.1 := fun x => by rw [← hS]; unfold Shared; tauto
  have shP : Shared o.segs a.segs p.1 := (hS _).2 (Or.inl rfl)
  have shQ : Shared o.segs a.segs q.1 := (hS _).2 (Or.inr rfl)
  obtain ⟨l1, k1, n1, t1, hs1, hn1, ht1, hp1⟩ := splitBoth_done hfo P1 Q1 hpq
  obtain ⟨l2, k2, n2, t2, hs2, hn2, ht2, hp2⟩ := splitBoth_done hfa P2 Q2 hpq
  obtain ⟨i, hi⟩ := startingAt_done hn1 ht1 hp1
  obtain ⟨j, hjj⟩ := startingAt_done hn2 ht2 hp2
  obtain ⟨R1, E1, F1⟩ := splitBoth_spec hfo ro P1 Q1 hpq hs1
  obtain ⟨R2, E2, F2⟩ := splitBoth_spec hfa ra P2 Q2 hpq hs2
  have parted1 := splitBoth_parted (m := a.segs) P1 Q1 hpq hS hs1
  have parted2 := splitBoth_parted (m := o.segs) P2 Q2 hpq hS' hs2
  obtain ⟨t, ht, htp⟩ := startingAt_spec R1 hpq (fun s hs => hx.corner s (by simp [hs]) _ shP) hi
  obtain ⟨u, hu, hup⟩ := startingAt_spec R2 hpq (fun s hs => hx.corner s (by simp [hs]) _ shP) hjj
  have tne := drop_done (i := i) F1
  have une := drop_done (i := j) F2
  have left1 : opsub = false → ∀ s ∈ l1, s.cw = false := fun hop s hs =>
    (splitBoth_left (l := o.segs) (i := p.2.1) (j := q.2.1) (p := p.1) (q := q.1)
      (fun s hs => ⟨by rcases ko s hs with e | e <;> rw [e] <;> simp, hcw hop s (by simp [hs])⟩) s (by rw [hs1]; exact hs)).2
  have left2 : opsub = false → ∀ s ∈ l2, s.cw = false := fun hop s hs =>
    (splitBoth_left (l := a.segs) (i := p.2.2) (j := q.2.2) (p := p.1) (q := q.1)
      (fun s hs => ⟨by rcases ka s hs with e | e <;> rw [e] <;> simp, hcw hop s (by simp [hs])⟩) s (by rw [hs2]; exact hs)).2
  obtain ⟨in0, h0⟩ : ∃ b, isInside { a with segs := l2 } ((l1[i]?.bind Seg.midpoint).getD origin) = some b := by
    rw [← Option.ne_none_iff_exists']
    intro e
    have e := (Inside.C68_error _ _).1 e
    rw [show ({ a with segs := l2 } : Outline).closed = a.closed from rfl, cla] at e
    cases e
  obtain ⟨in1, h1⟩ : ∃ b, isInside { o with boxOk := false, segs := l1 }
      ((l2[j]?.bind Seg.midpoint).getD ((l1[i]?.bind Seg.midpoint).getD origin)) = some b := by
    rw [← Option.ne_none_iff_exists']
    intro e
    have e := (Inside.C68_error _ _).1 e
    rw [show ({ o with boxOk := false, segs := l1 } : Outline).closed = o.closed from rfl, clo] at e
    cases e
  obtain ⟨⟨L, f⟩, hL⟩ := (trim_done in0 tne).1
  obtain ⟨⟨M, g⟩, hM⟩ := (trim_done (if opsub then !in1 else in1) une).2
  obtain ⟨tL, -, tf⟩ := trimThis_spec hL
  obtain ⟨-, uM⟩ := trimOther_spec hM
  have H1 := halves R1 E1 F1 hpq (fun s hs => hx.corner s (by simp [hs]) _ shQ) ht htp tne
  have H2 := halves R2 E2 F2 hpq (fun s hs => hx.corner s (by simp [hs]) _ shQ) hu hup une
  have tA := first_part (q := q.1) ht (by rw [htp]; exact hpq)
  have uC := first_part (q := q.1) hu (by rw [hup]; exact hpq)
  have mem1 : ∀ s, s ∈ (roundFrom l1 i).takeWhile (notAt q.1) ∨ s ∈ (roundFrom l1 i).dropWhile (notAt q.1) → s ∈ l1 := by
    intro s hs
    rw [← (roundFrom_perm l1 i).mem_iff, ← List.takeWhile_append_dropWhile (p := notAt q.1) (l := roundFrom l1 i), List.mem_append]
    exact hs
  have mem2 : ∀ s, s ∈ (roundFrom l2 j).takeWhile (notAt q.1) ∨ s ∈ (roundFrom l2 j).dropWhile (notAt q.1) → s ∈ l2 := by
    intro s hs
    rw [← (roundFrom_perm l2 j).mem_iff, ← List.takeWhile_append_dropWhile (p := notAt q.1) (l := roundFrom l2 j), List.mem_append]
    exact hs
  have tm := List.mem_of_getElem? ht
  have um := List.mem_of_getElem? hu
  generalize (roundFrom l1 i).takeWhile (notAt q.1) = A at *
  generalize (roundFrom l1 i).dropWhile (notAt q.1) = B at *
  generalize (roundFrom l2 j).takeWhile (notAt q.1) = C at *
  generalize (roundFrom l2 j).dropWhile (notAt q.1) = D at *
  have fA : ∀ s ∈ A, Fit s := fun s hs => H1.fit s (by simp [hs])
  have fC : ∀ s ∈ C, Fit s := fun s hs => H2.fit s (by simp [hs])
  have fD : ∀ s ∈ D, Fit s := fun s hs => H2.fit s (by simp [hs])
  obtain ⟨y, hy, -⟩ := (fA t tA).middle (H1.endP t (by simp [tA]) (by rw [← htp]; exact (fA t tA).start_covered)).2
  obtain ⟨z, hz, -⟩ := (fC u uC).middle (H2.endP u (by simp [uC]) (by rw [← hup]; exact (fC u uC).start_covered)).2
  have h0' := h0
  have h1' := h1
  rw [ht, hu] at h1
  rw [ht] at h0
  simp only [Option.bind_some, hy, hz, Option.getD_some] at h0 h1
  obtain ⟨J1, J2⟩ := hj l1 l2 parted1 parted2
  have b0 := H1.judged H2 hS hfa ra pa tA htp hy (J1 t tm (by rw [htp]; exact shP) y hy _ h0)
  have b1 := H2.judged H1 hS' hfo ro po uC hup hz (J2 u um (by rw [hup]; exact shP) z hz _ h1)
  have X := crossing hfo hfa ro ra po pa co ca hov hS H1 H2
  have hne := X.opposite b0 b1 (back_of fC H2.joinA) (back_of fD H2.joinB)
  -- what is left of both
  have memL : ∀ s ∈ L, s ∈ l1 := by
    intro s hs
    have hs : s ∈ roundFrom L f := (roundFrom_perm L f).mem_iff.2 hs
    rw [tL] at hs
    split at hs
    · exact mem1 s (Or.inr hs)
    · exact mem1 s (Or.inl hs)
  have memM : ∀ s ∈ M, s ∈ l2 := by
    intro s hs
    rcases uM with ⟨-, e⟩ | ⟨-, e, -⟩
    · have hs : s ∈ roundFrom M g := (roundFrom_perm M g).mem_iff.2 hs
      rw [e] at hs
      exact mem2 s (Or.inr hs)
    · rw [e] at hs; exact mem2 s (Or.inl hs)
  have neM : M ≠ [] := by
    rcases uM with ⟨-, e⟩ | ⟨-, e, -⟩
    · rintro rfl
      exact H2.neB (by rw [← e]; simp [roundFrom])
    · rw [e]; exact H2.neA
  have neL : L ≠ [] := by
    rintro rfl
    have e : roundFrom [] f = [] := by simp [roundFrom]
    rw [e] at tL
    split at tL
    · exact H1.neB tL.symm
    · exact H1.neA tL.symm
  simp only [clo, cla] at h0' h1'
  unfold opShape
  simp only [clo, cla, Bool.true_eq_false, if_false, hh, hd, hs1, hs2]
  unfold overlap
  simp only [hi, hjj, h0', h1', if_neg hne]
  unfold trim
  simp only [hL, hM]
  unfold stitch
  simp only [if_neg neM]
  cases opsub with
  | true =>
    simp only [if_true]
    exact ⟨_, rfl, rfl, rfl, rfl, fun h => by cases h⟩
  | false =>
    simp only [Bool.false_eq_true, if_false] at uM ⊢
    obtain ⟨e, he⟩ := before_some neL tf
    obtain ⟨V, hV⟩ := last_round he tf
    have ge : e.getEnd = e.stop := by
      unfold Seg.getEnd
      rw [left1 rfl e (memL e (List.mem_of_getElem? he))]
      simp
    obtain ⟨v, hv, hve⟩ : ∃ v ∈ M, v.start = e.stop := by
      cases in0 with
      | true =>
        have e1 : in1 = false := by cases in1 <;> simp at hne ⊢
        subst e1
        simp only [if_true] at tL
        have es : e.stop = p.1 := joined_last (by rw [← hV, tL]; exact H1.joinB)
        rcases uM with ⟨e, -⟩ | ⟨-, uM, -⟩
        · cases e
        obtain ⟨v, C', e⟩ := List.exists_cons_of_ne_nil H2.neA
        have := H2.joinA
        rw [e] at this
        exact ⟨v, by rw [uM, e]; simp, by rw [es]; exact this.1⟩
      | false =>
        have e1 : in1 = true := by cases in1 <;> simp at hne ⊢
        subst e1
        simp only [Bool.false_eq_true, if_false] at tL
        have es : e.stop = q.1 := joined_last (by rw [← hV, tL]; exact H1.joinA)
        rcases uM with ⟨-, uM⟩ | ⟨e, -⟩
        · obtain ⟨v, D', e⟩ := List.exists_cons_of_ne_nil H2.neB
          have := H2.joinB
          rw [e] at this
          refine ⟨v, (roundFrom_perm M g).mem_iff.1 (by rw [uM, e]; simp), by rw [es]; exact this.1⟩
        · cases e
    have gs : v.getStart = v.start := by
      unfold Seg.getStart
      rw [left2 rfl v (memM v hv)]
      simp
    obtain ⟨r, hr⟩ := startFrom_done (g := g) (e := e.getEnd) hv (by rw [gs, ge, hve]; exact C51_reflexive _ _)
    simp only [he, hr]
    refine ⟨_, rfl, rfl, rfl, rfl, fun _ s hs => ?_⟩
    simp only [List.mem_append] at hs
    rcases hs with (hs | hs) | hs
    · exact left1 rfl s (memL s (List.mem_of_mem_take hs))
    · exact left2 rfl s (memM s ((startFrom_spec hr).1.mem_iff.1 hs))
    · exact left1 rfl s (memL s (List.mem_of_mem_drop hs))

/-- C84. Two closed outlines are made of lines and arcs; `GetIntersections` finds the common points and reports no overlap of
segments; different common points are not within the tolerance.  If the borders have a point in common but not exactly two,
then both operations report an error and both outlines are as before; if they have none, neither reports an error and nothing
changes either. -/
theorem C84_number {o a : Outline} (opsub : Bool) (ko : ∀ s ∈ o.segs, s.kind = .line ∨ s.kind = .arc)
    (ka : ∀ s ∈ a.segs, s.kind = .line ∨ s.kind = .arc)
    (found : ∀ s ∈ o.segs, ∀ t ∈ a.segs, ∀ x, (Covers s x ∧ Covers t x) ↔ ((intersections s t).ret = true ∧ x ∈ (intersections s t).pts))
    (apart : ∀ x y, Shared o.segs a.segs x → Shared o.segs a.segs y → PointMatches x y 1e-8 = true → x = y)
    (hcl : Clean o.segs a.segs) (clo : o.closed = true) (cla : a.closed = true) (h2 : ¬ Twice o.segs a.segs) :
    ∃ r, opShape o (some a) opsub = .returns r ∧ r.ret = false ∧ (r.error = true ↔ ∃ x, Shared o.segs a.segs x) ∧
      r.out.segs = o.segs ∧ r.out.closed = true ∧ r.other = a := by
  obtain ⟨hits, hh⟩ := shapeHits_done (opsub := opsub) (i := 0) hcl
  have sh : ∀ y ∈ distinct [] hits, Shared o.segs a.segs y.1 := by
    intro y hy
    obtain ⟨s, hs, t, ht, hp⟩ := shapeHits_sound hh (by simpa using distinct_sub [] hits y hy)
    obtain ⟨c1, c2⟩ := (found s hs t ht _).2 ⟨pts_ret (ko s hs) (ka t ht) hp, hp⟩
    exact ⟨⟨s, hs, c1⟩, t, ht, c2⟩
  have has : ∀ x, Shared o.segs a.segs x → ∃ y ∈ distinct [] hits, y.1 = x := by
    rintro x ⟨⟨s, hs, c1⟩, t, ht, c2⟩
    obtain ⟨n, hn⟩ := List.mem_iff_getElem?.1 hs
    obtain ⟨k, hk'⟩ := List.mem_iff_getElem?.1 ht
    obtain ⟨r1, r2⟩ := (found s hs t ht x).1 ⟨c1, c2⟩
    obtain ⟨y, hy, hyx⟩ := distinct_complete [] hits _ (Or.inr (shapeHits_complete hh hn hk' r1 r2))
    exact ⟨y, hy, apart _ _ (sh y hy) ⟨⟨s, hs, c1⟩, t, ht, c2⟩ hyx⟩
  have pw := distinct_pairwise [] hits List.Pairwise.nil
  unfold opShape
  dsimp only
  rw [if_neg (by rw [clo]; simp), if_neg (by rw [cla]; simp), hh]
  dsimp only
  generalize distinct [] hits = d at *
  match d, pw, sh, has with
  | [], _, _, has =>
    refine ⟨_, rfl, rfl, ?_, rfl, clo, rfl⟩
    simp only [Bool.false_eq_true, false_iff, not_exists]
    intro x hx
    obtain ⟨y, hy, -⟩ := has x hx
    simp at hy
  | [x], _, sh, _ => exact ⟨_, rfl, rfl, ⟨fun _ => ⟨x.1, sh x (by simp)⟩, fun _ => rfl⟩, rfl, clo, rfl⟩
  | [x, y], pw, sh, has =>
    refine absurd ⟨x.1, y.1, ?_, fun z => ⟨fun hz => ?_, ?_⟩⟩ h2
    · intro e
      have := pw
      simp only [List.pairwise_cons, List.mem_singleton, forall_eq] at this
      have := this.1
      rw [e, C51_reflexive] at this
      cases this
    · obtain ⟨w, hw, e⟩ := has z hz
      simp only [List.mem_cons, List.not_mem_nil, or_false] at hw
      rcases hw with rfl | rfl
      · exact Or.inl e.symm
      · exact Or.inr e.symm
    · rintro (rfl | rfl)
      · exact sh x (by simp)
      · exact sh y (by simp)
  | x :: y :: z :: r, _, sh, _ => exact ⟨_, rfl, rfl, ⟨fun _ => ⟨x.1, sh x (by simp)⟩, fun _ => rfl⟩, rfl, clo, rfl⟩

end Iges.Props
