import Verif.Lemmas.MergeRegion
/-
C84: the region of an outline after another outline has been cut out of it or joined to it.
-/
namespace Iges.Props
open Iges.Geo Iges.Spec Iges.Turn Real

theorem last_round {L : List Seg} {f : ℕ} {e : Seg} (h : L[before L.length f]? = some e) (hf : f = 0 ∨ f < L.length) :
    ∃ W, roundFrom L f = W ++ [e] := by
  unfold before at h
  unfold roundFrom
  rcases Nat.eq_zero_or_pos f with rfl | h0
  · simp only [if_true] at h
    obtain ⟨hlt, rfl⟩ := List.getElem?_eq_some_iff.1 h
    refine ⟨L.take (L.length - 1), ?_⟩
    simp only [List.drop_zero, List.take_zero, List.append_nil]
    have := List.take_concat_get' L (L.length - 1) hlt
    rw [Nat.sub_add_cancel (by omega), List.take_length] at this
    exact this.symm
  · rw [if_neg (by omega)] at h
    obtain ⟨hlt, rfl⟩ := List.getElem?_eq_some_iff.1 h
    refine ⟨L.drop f ++ L.take (f - 1), ?_⟩
    have := List.take_concat_get' L (f - 1) hlt
    rw [Nat.sub_add_cancel (by omega)] at this
    rw [← this, List.append_assoc]

theorem out_perm (L ins : List Seg) (f : ℕ) : (L.take f ++ ins ++ L.drop f).Perm (roundFrom L f ++ ins) := by
  unfold roundFrom
  rw [List.append_assoc]
  refine (List.perm_append_comm (l₁ := L.take f) (l₂ := ins ++ L.drop f)).trans ?_
  rw [List.append_assoc]
  refine (List.perm_append_comm (l₁ := ins) (l₂ := L.drop f ++ L.take f)).trans ?_
  rfl

theorem out_round {L ins : List Seg} {f : ℕ} (h : Round (roundFrom L f ++ ins)) : Round (L.take f ++ ins ++ L.drop f) := by
  unfold roundFrom at h
  rw [List.append_assoc] at h
  exact round_rotate h

theorem first_part {l : List Seg} {i : ℕ} {t : Seg} {q : Point ℝ} (h : l[i]? = some t) (ht : PointMatches t.start q 1e-8 = false) :
    t ∈ (roundFrom l i).takeWhile (notAt q) := by
  obtain ⟨h1, h2⟩ := getElem?_decomp h
  unfold roundFrom
  rw [List.drop_eq_getElem_cons h2]
  have e : l[i] = t := by rw [List.getElem?_eq_some_iff] at h; exact h.2
  rw [e, List.cons_append, List.takeWhile_cons_of_pos (by simp [notAt, ht])]
  simp

theorem joined_last {a b : Point ℝ} {W : List Seg} {e : Seg} (h : Spec.Joined a (W ++ [e]) b) : e.stop = b := by
  obtain ⟨c, -, -, h⟩ := joined_append.1 h
  exact h

/-- C84. An outline is cut out of an outline, or joined to it, successfully.  Both are made of lines and arcs and run round
their regions once, counterclockwise; the regions, and what is outside of them, are in one piece, they overlap, and the
outlines cross away from their corners; `GetIntersections` finds the common points, and `IsInside` is right about the
midpoints of the two pieces that it is asked about.  Then the segments of the new outline, put into the right order, run
round its region once, counterclockwise, and its region is the old one without the other one, or with it.  Its border is part
of the two borders.  The segments are in the right order after joining if none of them runs clockwise, and after cutting
out if no corner of the other outline is inside.  What is missing: outlines with a circle, common points at corners, and the
order after cutting out an outline that has a corner inside, which can be wrong (`C84_order`). -/
theorem C84_region_partial {o a : Outline} {opsub : Bool} {r : MergeRes}
    (ko : ∀ s ∈ o.segs, s.kind = .line ∨ s.kind = .arc) (mo : ∀ s ∈ o.segs, Made s) (so : ∀ s ∈ o.segs, Sharp s)
    (ka : ∀ s ∈ a.segs, s.kind = .line ∨ s.kind = .arc) (ma : ∀ s ∈ a.segs, Made s) (sa : ∀ s ∈ a.segs, Sharp s)
    (ro : Round o.segs) (ra : Round a.segs) (po : Proper o.segs) (pa : Proper a.segs) (co : OnePiece o.segs)
    (ca : OnePiece a.segs) (hov : Overlap o.segs a.segs) (hx : Crosses o.segs a.segs) (hj : JudgedBoth o a)
    (h : opShape o (some a) opsub = .returns r) (hr : r.ret = true) :
    Proper r.out.segs ∧ (∃ l, l.Perm r.out.segs ∧ Round l) ∧
    (∀ s ∈ r.out.segs, (s.kind = .line ∨ s.kind = .arc) ∧ Made s ∧ Sharp s) ∧
    (∀ x, (∃ s ∈ r.out.segs, Covers s x) → (∃ s ∈ o.segs, Covers s x) ∨ ∃ s ∈ a.segs, Covers s x) ∧
    (∀ x, OffBorder o.segs x → OffBorder a.segs x →
      (Inside r.out.segs x ↔ if opsub then Inside o.segs x ∧ ¬ Inside a.segs x else Inside o.segs x ∨ Inside a.segs x)) ∧
    (if opsub then (∀ t ∈ a.segs, ¬ Inside o.segs t.start) → Round r.out.segs
     else (∀ s ∈ r.out.segs, s.cw = false) → Round r.out.segs) := by
  obtain ⟨hits, p, q, l1, k1, l2, k2, i, j, in0, in1, L, M, ins, f, g, -, -, hh, hd, hs1, hs2, hi, hjj, h0, h1, hne, hL, hM, -,
    hout, -, -, hins⟩ := opShape_true h hr
  have hfo : ∀ s ∈ o.segs, Fit s := fun s hs => ⟨ko s hs, mo s hs, so s hs⟩
  have hfa : ∀ s ∈ a.segs, Fit s := fun s hs => ⟨ka s hs, ma s hs, sa s hs⟩
  obtain ⟨hS, hpq, ⟨s1, P1⟩, ⟨s2, Q1⟩, ⟨s3, P2⟩, s4, Q2⟩ := cross_points hfo hfa ro ra hx hh hd
  have hS' : ∀ x, Shared a.segs o.segs x ↔ x = p.1 ∨ x = q.1 := fun x => by rw [← hS]; unfold Shared; tauto
  have shP : Shared o.segs a.segs p.1 := (hS _).2 (Or.inl rfl)
  have shQ : Shared o.segs a.segs q.1 := (hS _).2 (Or.inr rfl)
  obtain ⟨R1, E1, F1⟩ := splitBoth_spec hfo ro P1 Q1 hpq hs1
  obtain ⟨R2, E2, F2⟩ := splitBoth_spec hfa ra P2 Q2 hpq hs2
  have parted1 := splitBoth_parted (m := a.segs) P1 Q1 hpq hS hs1
  have parted2 := splitBoth_parted (m := o.segs) P2 Q2 hpq hS' hs2
  obtain ⟨t, ht, htp⟩ := startingAt_spec R1 hpq (fun s hs => hx.corner s (by simp [hs]) _ shP) hi
  obtain ⟨u, hu, hup⟩ := startingAt_spec R2 hpq (fun s hs => hx.corner s (by simp [hs]) _ shP) hjj
  obtain ⟨tL, tne, tf⟩ := trimThis_spec hL
  obtain ⟨une, uM⟩ := trimOther_spec hM
  have H1 := halves R1 E1 F1 hpq (fun s hs => hx.corner s (by simp [hs]) _ shQ) ht htp tne
  have H2 := halves R2 E2 F2 hpq (fun s hs => hx.corner s (by simp [hs]) _ shQ) hu hup une
  have tA := first_part (q := q.1) ht (by rw [htp]; exact hpq)
  have uC := first_part (q := q.1) hu (by rw [hup]; exact hpq)
  have mem2 : ∀ s, s ∈ (roundFrom l2 j).takeWhile (notAt q.1) ∨ s ∈ (roundFrom l2 j).dropWhile (notAt q.1) → s ∈ l2 := by
    intro s hs
    rw [← (roundFrom_perm l2 j).mem_iff, ← List.takeWhile_append_dropWhile (p := notAt q.1) (l := roundFrom l2 j), List.mem_append]
    exact hs
  have tm := List.mem_of_getElem? ht
  have um := List.mem_of_getElem? hu
  generalize (roundFrom l1 i).takeWhile (notAt q.1) = A at *
  generalize (roundFrom l1 i).dropWhile (notAt q.1) = B at *
  generalize (roundFrom l2 j).takeWhile (notAt q.1) = C at *
  generalize (roundFrom l2 j).dropWhile (notAt q.1) = D at *
  have fA : ∀ s ∈ A, Fit s := fun s hs => H1.fit s (by simp [hs])
  have fB : ∀ s ∈ B, Fit s := fun s hs => H1.fit s (by simp [hs])
  have fC : ∀ s ∈ C, Fit s := fun s hs => H2.fit s (by simp [hs])
  have fD : ∀ s ∈ D, Fit s := fun s hs => H2.fit s (by simp [hs])
  -- on which sides the parts are
  obtain ⟨y, hy, -⟩ := (fA t tA).middle (H1.endP t (by simp [tA]) (by rw [← htp]; exact (fA t tA).start_covered)).2
  obtain ⟨z, hz, -⟩ := (fC u uC).middle (H2.endP u (by simp [uC]) (by rw [← hup]; exact (fC u uC).start_covered)).2
  rw [ht, hu] at h1
  rw [ht] at h0
  simp only [Option.bind_some, hy, hz, Option.getD_some] at h0 h1
  obtain ⟨J1, J2⟩ := hj l1 l2 parted1 parted2
  have b0 := H1.judged H2 hS hfa ra pa tA htp hy (J1 t tm (by rw [htp]; exact shP) y hy _ h0)
  have b1 := H2.judged H1 hS' hfo ro po uC hup hz (J2 u um (by rw [hup]; exact shP) z hz _ h1)
  have X := crossing hfo hfa ro ra po pa co ca hov hS H1 H2
  have eO : ∀ x, turns (A.map curve) x + turns (B.map curve) x = turns (o.segs.map curve) x := by
    intro x; rw [← H1.turns, List.map_append, turns_append]
  have eM : ∀ x, turns (C.map curve) x + turns (D.map curve) x = turns (a.segs.map curve) x := by
    intro x; rw [← H2.turns, List.map_append, turns_append]
  have covA : ∀ s ∈ A, ∀ x, Covers s x → ∃ s ∈ o.segs, Covers s x := fun s hs x hc => (H1.covers x).1 ⟨s, by simp [hs], hc⟩
  have covB : ∀ s ∈ B, ∀ x, Covers s x → ∃ s ∈ o.segs, Covers s x := fun s hs x hc => (H1.covers x).1 ⟨s, by simp [hs], hc⟩
  have covC : ∀ s ∈ C, ∀ x, Covers s x → ∃ s ∈ a.segs, Covers s x := fun s hs x hc => (H2.covers x).1 ⟨s, by simp [hs], hc⟩
  have covD : ∀ s ∈ D, ∀ x, Covers s x → ∃ s ∈ a.segs, Covers s x := fun s hs x hc => (H2.covers x).1 ⟨s, by simp [hs], hc⟩
  -- what is left, and what is put in, in its order
  have final : ∀ (K I : List Seg), roundFrom L f = K → ins.Perm I → (∀ s ∈ K, Fit s) → (∀ s ∈ I, Fit s) →
      (∀ s ∈ K, ∀ x, Covers s x → ∃ s ∈ o.segs, Covers s x) → (∀ s ∈ I, ∀ x, Covers s x → ∃ s ∈ a.segs, Covers s x) →
      Round (K ++ I) →
      (∀ x, Off (o.segs.map curve) x → Off (a.segs.map curve) x → turns (K.map curve) x + turns (I.map curve) x =
        if opsub then turns (o.segs.map curve) x - turns (o.segs.map curve) x * turns (a.segs.map curve) x
        else turns (o.segs.map curve) x + turns (a.segs.map curve) x - turns (o.segs.map curve) x * turns (a.segs.map curve) x) →
      (if opsub then (∀ t ∈ a.segs, ¬ Inside o.segs t.start) → Round (K ++ ins)
        else (∀ s ∈ r.out.segs, s.cw = false) → Round (K ++ ins)) →
      Proper r.out.segs ∧ (∃ l, l.Perm r.out.segs ∧ Round l) ∧
      (∀ s ∈ r.out.segs, (s.kind = .line ∨ s.kind = .arc) ∧ Made s ∧ Sharp s) ∧
      (∀ x, (∃ s ∈ r.out.segs, Covers s x) → (∃ s ∈ o.segs, Covers s x) ∨ ∃ s ∈ a.segs, Covers s x) ∧
      (∀ x, OffBorder o.segs x → OffBorder a.segs x →
        (Inside r.out.segs x ↔ if opsub then Inside o.segs x ∧ ¬ Inside a.segs x else Inside o.segs x ∨ Inside a.segs x)) ∧
      (if opsub then (∀ t ∈ a.segs, ¬ Inside o.segs t.start) → Round r.out.segs
        else (∀ s ∈ r.out.segs, s.cw = false) → Round r.out.segs) := by
    intro K I hK hI fK fI cK cI hR hT hO
    have perm : (K ++ I).Perm r.out.segs := by
      rw [hout]
      refine List.Perm.symm ((out_perm L ins f).trans ?_)
      rw [hK]
      exact List.Perm.append (List.Perm.refl K) hI
    have fZ : ∀ s ∈ K ++ I, Fit s := by
      intro s hs
      rcases List.mem_append.1 hs with hs | hs
      · exact fK s hs
      · exact fI s hs
    have sub : ∀ x, (∃ s ∈ K ++ I, Covers s x) → (∃ s ∈ o.segs, Covers s x) ∨ ∃ s ∈ a.segs, Covers s x := by
      rintro x ⟨s, hs, hc⟩
      rcases List.mem_append.1 hs with hs | hs
      · exact Or.inl (cK s hs x hc)
      · exact Or.inr (cI s hs x hc)
    obtain ⟨g1, g2⟩ := region_of (opsub := opsub) hfo hfa ro ra po pa fZ hR sub (fun x h1 h2 => by
      rw [List.map_append, turns_append]; exact hT x h1 h2)
    refine ⟨proper_perm perm g1, ⟨_, perm, hR⟩, ?_, ?_, ?_, ?_⟩
    · intro s hs
      have := fZ s (perm.mem_iff.2 hs)
      exact ⟨this.kind, this.made, this.sharp⟩
    · rintro x ⟨s, hs, hc⟩
      exact sub x ⟨s, perm.mem_iff.2 hs, hc⟩
    · intro x x1 x2
      rw [← inside_perm perm]
      exact g2 x x1 x2
    · cases opsub with
      | true =>
        simp only [if_true] at hO ⊢
        intro hc
        rw [hout]
        exact out_round (by rw [hK]; exact hO hc)
      | false =>
        simp only [Bool.false_eq_true, if_false] at hO ⊢
        intro hc
        rw [hout]
        exact out_round (by rw [hK]; exact hO hc)
  have fR : ∀ {W : List Seg}, (∀ s ∈ W, Fit s) → ∀ s ∈ W.reverse.map Seg.reverse, Fit s := by
    intro W hW s hs
    obtain ⟨v, hv, rfl⟩ := List.mem_map.1 hs
    exact (fit_reverse (hW v (List.mem_reverse.1 hv))).1
  have cR : ∀ {W : List Seg}, (∀ s ∈ W, Fit s) → (∀ s ∈ W, ∀ x, Covers s x → ∃ s ∈ a.segs, Covers s x) →
      ∀ s ∈ W.reverse.map Seg.reverse, ∀ x, Covers s x → ∃ s ∈ a.segs, Covers s x := by
    intro W hF hW s hs x hc
    obtain ⟨v, hv, rfl⟩ := List.mem_map.1 hs
    rw [C61_reverse (hF v (List.mem_reverse.1 hv)).made] at hc
    exact hW v (List.mem_reverse.1 hv) x hc
  have tR : ∀ {W : List Seg}, (∀ s ∈ W, Fit s) → ∀ x, turns ((W.reverse.map Seg.reverse).map curve) x = - turns (W.map curve) x := by
    intro W hW x
    rw [turns_reverse (fun s hs => hW s (List.mem_reverse.1 hs)), turns_perm ((List.reverse_perm W).map curve)]
  -- where a piece that is put in starts
  have exact2 : ∀ {s : Seg} {x : Point ℝ}, s ∈ l2 → x = p.1 ∨ x = q.1 → PointMatches s.start x 1e-8 = true → s.start = x := by
    intro s x hs hxx hm
    have shx : Shared o.segs a.segs x := (hS x).2 hxx
    rcases R2.starts s hs with ⟨v, hv, e⟩ | e
    · rw [e, C51_symmetric, hx.corner v (by simp [hv]) _ shx] at hm; cases hm
    · simp only [List.mem_cons, List.not_mem_nil, or_false] at e
      have shs : Shared o.segs a.segs s.start := (hS _).2 e
      exact hx.apart _ _ shs shx hm
  -- the order after joining
  have order : ∀ {K W : List Seg} {b c : Point ℝ} {n : ℕ}, opsub = false → (∀ s ∈ r.out.segs, s.cw = false) → roundFrom L f = K →
      Spec.Joined b K c → (c = p.1 ∨ c = q.1) → (∀ s ∈ W, s ∈ l2) → roundFrom M g = W.drop n ++ W.take n →
      (∃ s t, W = s :: t ∧ ∀ v ∈ t, ¬ v.start = c) → ins = W := by
    intro K W b c n hop hcw hK hJ hc hW hMg hw
    rcases hins with ⟨e, -⟩ | ⟨-, e, he, hst⟩
    · rw [hop] at e; cases e
    obtain ⟨V, hV⟩ := last_round he tf
    have eK : e ∈ K := by rw [← hK, hV]; simp
    have estop : e.stop = c := joined_last (by rw [← hV, hK]; exact hJ)
    have outmem : ∀ s, s ∈ K ∨ s ∈ ins → s ∈ r.out.segs := by
      intro s hs
      rw [hout, (out_perm L ins f).mem_iff, hK, List.mem_append]
      exact hs
    have hg : e.getEnd = c := by
      unfold Seg.getEnd
      rw [hcw e (outmem e (Or.inl eK))]
      simpa using estop
    rw [hg] at hst
    obtain ⟨hperm, X, Y, hXY, rfl, -, s, hhead, hs⟩ := startFrom_spec hst
    obtain ⟨Y', rfl⟩ : ∃ Y', Y = s :: Y' := by
      cases Y with
      | nil => simp at hhead
      | cons v Y => simp only [List.head?_cons, Option.some.injEq] at hhead; subst hhead; exact ⟨Y, rfl⟩
    have hss : s.getStart = s.start := by
      unfold Seg.getStart
      rw [hcw s (outmem s (Or.inr (by simp)))]
      simp
    rw [hss] at hs
    have sW : s ∈ W := by
      have : s ∈ roundFrom M g := by rw [hXY]; simp
      rw [hMg] at this
      rcases List.mem_append.1 this with h | h
      · exact List.mem_of_mem_drop h
      · exact List.mem_of_mem_take h
    rw [hMg] at hXY
    exact rotation_eq (P := fun v : Seg => v.start = c) hw hXY ⟨s, Y', rfl, exact2 (hW s sW) hc hs⟩
  cases in0 with
  | true =>
    have hin1 : in1 = false := by simpa using hne
    subst hin1
    simp only [if_true] at b0 tL
    simp only [Bool.false_eq_true, if_false] at b1
    have key := fun x (h1 : Off (o.segs.map curve) x) (h2 : Off (a.segs.map curve) x) =>
      X.swap.common b1 b0 (back_of fA H1.joinA) (x := x) (by rw [← List.map_append, H2.off hfa]; exact h2)
        (by rw [← List.map_append, H1.off hfo]; exact h1)
    have key' : ∀ x, Off (o.segs.map curve) x → Off (a.segs.map curve) x → turns (D.map curve) x + turns (A.map curve) x =
        turns (o.segs.map curve) x * turns (a.segs.map curve) x := by
      intro x h1 h2
      have := key x h1 h2
      rw [turns_append, turns_append, eO, eM] at this
      rw [this, mul_comm]
    cases opsub with
    | true =>
      simp only [if_true, Bool.not_false] at hM uM
      rcases uM with ⟨-, uM⟩ | ⟨h, -⟩
      · rcases hins with ⟨-, hins⟩ | ⟨h, -⟩
        · have e : ins = D.reverse.map Seg.reverse := by rw [hins, backwards, uM]
          have hround : Round (B ++ D.reverse.map Seg.reverse) :=
            ⟨q.1, joined_append.2 ⟨p.1, H1.joinB, joined_reverse fD H2.joinB⟩⟩
          refine final B (D.reverse.map Seg.reverse) tL (by rw [e]) fB (fR fD) covB (cR fD covD) hround ?_ ?_
          · intro x h1 h2
            rw [tR fD]
            have := key' x h1 h2
            have := eO x
            simp only [if_true]
            linarith
          · simp only [if_true]; intro _; rw [e]; exact hround
        · cases h
      · cases h
    | false =>
      simp only [Bool.false_eq_true, if_false] at hM uM
      rcases uM with ⟨h, -⟩ | ⟨-, uM, hg⟩
      · cases h
      · have hround : Round (B ++ C) := ⟨q.1, joined_append.2 ⟨p.1, H1.joinB, H2.joinA⟩⟩
        have hI : ins.Perm C := by
          rcases hins with ⟨h, -⟩ | ⟨-, e, -, hst⟩
          · cases h
          · rw [← uM]; exact (startFrom_spec hst).1
        refine final B C tL hI fB fC covB covC hround ?_ ?_
        · intro x h1 h2
          have := key' x h1 h2
          have := eO x
          have := eM x
          simp only [Bool.false_eq_true, if_false]
          linarith
        · simp only [Bool.false_eq_true, if_false]
          intro hcw
          have : ins = C := order (b := q.1) (c := p.1) (n := C.length - 1) rfl hcw tL H1.joinB (Or.inl rfl)
            (fun s hs => mem2 s (Or.inl hs)) (by rw [hg, uM, roundFrom]) (by
              obtain ⟨c, C', e⟩ := List.exists_cons_of_ne_nil H2.neA
              refine ⟨c, C', e, fun v hv => (H2.tailA v (by rw [e]; exact hv)).1⟩)
          rw [this]; exact hround
  | false =>
    have hin1 : in1 = true := by simpa using hne
    subst hin1
    simp only [if_true] at b1
    simp only [Bool.false_eq_true, if_false] at b0 tL
    have key' : ∀ x, Off (o.segs.map curve) x → Off (a.segs.map curve) x → turns (B.map curve) x + turns (C.map curve) x =
        turns (o.segs.map curve) x * turns (a.segs.map curve) x := by
      intro x h1 h2
      have := X.common b0 b1 (back_of fC H2.joinA) (x := x) (by rw [← List.map_append, H1.off hfo]; exact h1)
        (by rw [← List.map_append, H2.off hfa]; exact h2)
      rw [turns_append, turns_append, eO, eM] at this
      exact this
    cases opsub with
    | true =>
      simp only [if_true, Bool.not_true] at hM uM
      rcases uM with ⟨h, -⟩ | ⟨-, uM, hg⟩
      · cases h
      · rcases hins with ⟨-, hins⟩ | ⟨h, -⟩
        · have hround : Round (A ++ C.reverse.map Seg.reverse) :=
            ⟨p.1, joined_append.2 ⟨q.1, H1.joinA, joined_reverse fC H2.joinA⟩⟩
          have hI : ins.Perm (C.reverse.map Seg.reverse) := by
            rw [hins, backwards, uM]
            refine List.Perm.map _ ?_
            exact (List.reverse_perm _).trans ((roundFrom_perm C g).trans (List.reverse_perm C).symm)
          refine final A (C.reverse.map Seg.reverse) tL hI fA (fR fC) covA (cR fC covC) hround ?_ ?_
          · intro x h1 h2
            rw [tR fC]
            have := key' x h1 h2
            have := eO x
            simp only [if_true]
            linarith
          · simp only [if_true]
            intro hno
            obtain ⟨c, C', e⟩ := List.exists_cons_of_ne_nil H2.neA
            have : C' = [] := by
              by_contra hne
              obtain ⟨v, C'', e'⟩ := List.exists_cons_of_ne_nil hne
              have vC : v ∈ C.tail := by rw [e, e']; simp
              obtain ⟨n1, n2⟩ := H2.tailA v vC
              have vC' : v ∈ C := List.mem_of_mem_tail vC
              have fv := fC v vC'
              rcases R2.starts v (mem2 v (Or.inl vC')) with ⟨w, hw, ew⟩ | ew
              · have hoff : OffBorder o.segs v.start := by
                  refine ⟨fv.zs.1, fun s hs hc => ?_⟩
                  rcases (hS _).1 ⟨⟨s, hs, hc⟩, covC v vC' _ fv.start_covered⟩ with e | e
                  · exact n1 e
                  · exact n2 e
                have ins1 := b1 (curve v) (List.mem_map_of_mem vC') (plane v.start) ((fv.trace' fv.zs.1).2 fv.start_covered) (by
                  rw [← List.map_append, H1.off hfo]; exact (off_map hfo fv.zs.1).2 hoff)
                rw [turns_append, eO] at ins1
                rw [← inside_one hfo ro po hoff, ew] at ins1
                exact hno w hw ins1
              · simp only [List.mem_cons, List.not_mem_nil, or_false] at ew
                rcases ew with e | e
                · exact n1 e
                · exact n2 e
            subst this
            have : ins = C.reverse.map Seg.reverse := by
              rw [hins, backwards, uM, hg, uM, e]; rfl
            rw [this]; exact hround
        · cases h
    | false =>
      simp only [Bool.false_eq_true, if_false] at hM uM
      rcases uM with ⟨-, uM⟩ | ⟨h, -⟩
      · have hround : Round (A ++ D) := ⟨p.1, joined_append.2 ⟨q.1, H1.joinA, H2.joinB⟩⟩
        have hI : ins.Perm D := by
          rcases hins with ⟨h, -⟩ | ⟨-, e, -, hst⟩
          · cases h
          · rw [← uM]; exact (startFrom_spec hst).1.trans (roundFrom_perm M g).symm
        refine final A D tL hI fA fD covA covD hround ?_ ?_
        · intro x h1 h2
          have := key' x h1 h2
          have := eO x
          have := eM x
          simp only [Bool.false_eq_true, if_false]
          linarith
        · simp only [Bool.false_eq_true, if_false]
          intro hcw
          have : ins = D := order (b := p.1) (c := q.1) (n := 0) rfl hcw tL H1.joinA (Or.inr rfl)
            (fun s hs => mem2 s (Or.inr hs)) (by rw [uM]; simp) (by
              obtain ⟨c, D', e⟩ := List.exists_cons_of_ne_nil H2.neB
              refine ⟨c, D', e, fun v hv => (H2.tailB v (by rw [e]; exact hv)).2⟩)
          rw [this]; exact hround
      · cases h

end Iges.Props
