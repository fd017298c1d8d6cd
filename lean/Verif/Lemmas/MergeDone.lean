import Verif.Lemmas.MergeRegion
/-
Two outlines that cross in two points: none of the tests of `opOutline` turns them away.
-/
namespace Iges.Turn
open Iges.Geo Spec Props

section
variable {P Q : ℝ × ℝ} {A B C D : List Curve}

theorem level_comm (l m : List Curve) (n : ℤ) : level (l ++ m) n = level (m ++ l) n := by
  ext x
  unfold level
  show Off _ x ∧ _ ↔ Off _ x ∧ _
  rw [off_append, off_append, turns_append, turns_append, and_comm (a := Off l x), add_comm]

theorem off_comm (l m : List Curve) (x : ℝ × ℝ) : Off (l ++ m) x ↔ Off (m ++ l) x := by
  rw [off_append, off_append, and_comm]

theorem turns_comm (l m : List Curve) (x : ℝ × ℝ) : turns (l ++ m) x = turns (m ++ l) x := by
  rw [turns_append, turns_append, add_comm]

theorem Beside.comm {l m n : List Curve} {v : ℤ} (h : Beside l (m ++ n) v) : Beside l (n ++ m) v := by
  intro k hk x hx ho
  rw [turns_comm]
  exact h k hk x hx ((off_comm n m x).1 ho)

/-- the same curves from the other point on -/
theorem Crossing.turn (h : Crossing P Q A B C D) : Crossing Q P B A D C :=
  ⟨h.linkB, h.linkA, h.linkD, h.linkC, h.okB, h.okA, h.okD, h.okC, fun x hx => by rw [turns_comm]; exact h.oneO x ((off_comm _ _ x).1 hx),
    fun x hx => by rw [turns_comm]; exact h.oneM x ((off_comm _ _ x).1 hx), fun n => by rw [level_comm]; exact h.conO n,
    fun n => by rw [level_comm]; exact h.conM n,
    by obtain ⟨v, hv⟩ := h.sideB; exact ⟨v, Beside.comm hv⟩, by obtain ⟨v, hv⟩ := h.sideA; exact ⟨v, Beside.comm hv⟩,
    by obtain ⟨v, hv⟩ := h.sideD; exact ⟨v, Beside.comm hv⟩, by obtain ⟨v, hv⟩ := h.sideC; exact ⟨v, Beside.comm hv⟩,
    by rw [level_comm, level_comm D]; exact h.both, by rw [level_comm, level_comm D]; exact h.onlyO,
    by rw [level_comm, level_comm D]; exact h.onlyM⟩

/-- if one part of a curve is inside of the other one then the other part is outside -/
theorem Crossing.other_out (h : Crossing P Q A B C D) (hA : Beside A (C ++ D) 1) : Beside B (C ++ D) 0 := by
  obtain ⟨x, xo, xm⟩ := h.onlyO
  obtain ⟨v, hv⟩ := h.sideB
  by_cases hv0 : v = 0
  · subst hv0; exact hv
  · exfalso
    have hoff : ∀ x ∈ level (C ++ D) 0, Off (A ++ B) x := fun x hx =>
      off_append.2 ⟨beside_off hA (by norm_num) x hx, beside_off hv hv0 x hx⟩
    have e := none_outside h.linkO (ok_append h.okA h.okB) (ok_append h.okC h.okD) (h.conM 0) hoff xm
    rw [xo.2] at e
    norm_num at e

theorem Crossing.other_in (h : Crossing P Q A B C D) (hA : Beside A (C ++ D) 0) : Beside B (C ++ D) 1 := by
  obtain ⟨x, xo, xm⟩ := h.onlyM
  obtain ⟨z, zo, zm⟩ := h.both
  obtain ⟨v, hv⟩ := h.sideB
  by_cases hv1 : v = 1
  · subst hv1; exact hv
  · exfalso
    have hoff : ∀ x ∈ level (C ++ D) 1, Off (A ++ B) x := fun x hx =>
      off_append.2 ⟨beside_off hA (by norm_num) x hx, beside_off hv hv1 x hx⟩
    have e := turns_const h.linkO (ok_append h.okA h.okB) (h.conM 1) hoff xm zm
    rw [xo.2, zo.2] at e
    norm_num at e

theorem Crossing.not_both_in (h : Crossing P Q A B C D) (hA : Beside A (C ++ D) 1) (hC : Beside C (A ++ B) 1) {R S : List Curve}
    (hR : Back C R P Q) (hS : Back D S Q P) : False := by
  have hB := h.other_out hA
  have hD := h.swap.other_out hC
  have link : Linked P (A ++ R) P := linked_append.2 ⟨_, h.linkA, hR.link⟩
  have ok := ok_append h.okA hR.ok
  have z1 : ∀ x ∈ level (A ++ B) 0, turns (A ++ R) x = 0 := fun x hx =>
    none_outside link ok (ok_append h.okA h.okB) (h.conO 0)
      (fun y hy => off_append.2 ⟨off_of_left y hy, (hR.off y).2 (beside_off hC (by norm_num) y hy)⟩) hx
  have z2 : ∀ x ∈ level (C ++ D) 0, turns (A ++ R) x = 0 := fun x hx =>
    none_outside link ok (ok_append h.okC h.okD) (h.conM 0)
      (fun y hy => off_append.2 ⟨beside_off hA (by norm_num) y hy, (hR.off y).2 (off_of_left y hy)⟩) hx
  have link' : Linked Q (B ++ S) Q := linked_append.2 ⟨_, h.linkB, hS.link⟩
  have ok' := ok_append h.okB hS.ok
  obtain ⟨x, xo, xm⟩ := h.onlyO
  obtain ⟨y, yo, ym⟩ := h.onlyM
  obtain ⟨z, zo, zm⟩ := h.both
  have c1 := turns_const link' ok' (h.conO 1)
    (fun w hw => off_append.2 ⟨off_of_right w hw, (hS.off w).2 (beside_off hD (by norm_num) w hw)⟩) xo zo
  have c2 := turns_const link' ok' (h.conM 1)
    (fun w hw => off_append.2 ⟨beside_off hB (by norm_num) w hw, (hS.off w).2 (off_of_right w hw)⟩) ym zm
  have e1 := z2 x xm
  have e2 := z1 y yo
  have f1 := xo.2
  have f2 := xm.2
  have f3 := yo.2
  have f4 := ym.2
  simp only [turns_append, hR.turns, hS.turns] at c1 c2 e1 e2 f1 f2 f3 f4
  linarith

/-- One of the parts that start at `P` is inside and the other one outside. -/
theorem Crossing.opposite (h : Crossing P Q A B C D) {u v : Bool} (hA : Beside A (C ++ D) (if u then 1 else 0))
    (hC : Beside C (A ++ B) (if v then 1 else 0)) {R S : List Curve} (hR : Back C R P Q) (hS : Back D S Q P) : u ≠ v := by
  rintro rfl
  cases u with
  | true => exact h.not_both_in hA hC hR hS
  | false =>
    have hB := h.other_in hA
    have hD := h.swap.other_in hC
    exact h.turn.not_both_in hB.comm hD.comm hS hR

end

section
variable {l m : List Seg} {opsub : Bool}

theorem pairHits_done {s : Seg} {i j : ℕ} {acc : List (Point ℝ)} (h : ∀ t ∈ m, ((intersections s t).ret = true → (intersections s t).flag.fine = true) ∧
    ((intersections s t).ret = false → (intersections s t).flag = .none)) : ∃ r, pairHits s opsub i acc j m = .points r := by
  induction m generalizing acc j with
  | nil => exact ⟨_, rfl⟩
  | cons t m ih =>
    obtain ⟨h1, h2⟩ := h t (by simp)
    obtain ⟨r, hr⟩ := ih (acc := acc ++ (intersections s t).pts) (j := j + 1) fun t ht => h t (by simp [ht])
    unfold pairHits
    simp only
    cases hret : (intersections s t).ret with
    | true => simp only [if_true, h1 hret, Bool.true_eq_false, if_false, hr]; exact ⟨_, rfl⟩
    | false => simp only [Bool.false_eq_true, if_false, h2 hret, if_true, hr]; exact ⟨_, rfl⟩

theorem shapeHits_done {i : ℕ} (h : ∀ s ∈ l, ∀ t ∈ m, ((intersections s t).ret = true → (intersections s t).flag.fine = true) ∧
    ((intersections s t).ret = false → (intersections s t).flag = .none)) : ∃ r, shapeHits m opsub i l = .points r := by
  induction l generalizing i with
  | nil => exact ⟨_, rfl⟩
  | cons s l ih =>
    obtain ⟨a, ha⟩ := pairHits_done (opsub := opsub) (i := i) (j := 0) (acc := []) (h s (by simp))
    obtain ⟨b, hb⟩ := ih (i := i + 1) fun s hs => h s (by simp [hs])
    unfold shapeHits
    rw [ha]
    simp only [hb]
    exact ⟨_, rfl⟩

theorem distinct_two {hits : List (Point ℝ × ℕ × ℕ)} {p q : Point ℝ} (hpq : p ≠ q) (hfl : ∀ s ∈ l, Fit s) (hfm : ∀ s ∈ m, Fit s)
    (hx : Crosses l m) (hS : ∀ x, Shared l m x ↔ x = p ∨ x = q) (h : shapeHits m opsub 0 l = .points hits) :
    ∃ a b, distinct [] hits = [a, b] := by
  have sh : ∀ y ∈ hits, Shared l m y.1 := by
    intro y hy
    obtain ⟨s, hs, t, ht, hp⟩ := shapeHits_sound h hy
    obtain ⟨c1, c2⟩ := (hx.found s hs t ht _).2 ⟨pts_ret (hfl s hs).kind (hfm t ht).kind hp, hp⟩
    exact ⟨⟨s, hs, c1⟩, t, ht, c2⟩
  have sub : ∀ y ∈ distinct [] hits, y.1 = p ∨ y.1 = q := by
    intro y hy
    exact (hS _).1 (sh y (by simpa using distinct_sub [] hits y hy))
  have has : ∀ x, Shared l m x → ∃ y ∈ distinct [] hits, y.1 = x := by
    rintro x ⟨⟨s, hs, c1⟩, t, ht, c2⟩
    obtain ⟨n, hn⟩ := List.mem_iff_getElem?.1 hs
    obtain ⟨k, hk'⟩ := List.mem_iff_getElem?.1 ht
    obtain ⟨r1, r2⟩ := (hx.found s hs t ht x).1 ⟨c1, c2⟩
    obtain ⟨y, hy, hyx⟩ := distinct_complete [] hits _ (Or.inr (shapeHits_complete h hn hk' r1 r2))
    exact ⟨y, hy, hx.apart _ _ ((hS _).2 (sub y hy)) ⟨⟨s, hs, c1⟩, t, ht, c2⟩ hyx⟩
  have pw := distinct_pairwise [] hits List.Pairwise.nil
  have refl : ∀ x : Point ℝ, PointMatches x x 1e-8 = true := fun x => C51_reflexive x _
  obtain ⟨a, ha, ea⟩ := has p ((hS p).2 (Or.inl rfl))
  obtain ⟨b, hb, eb⟩ := has q ((hS q).2 (Or.inr rfl))
  generalize distinct [] hits = d at *
  match d, pw, sub, ha, hb with
  | [], _, _, ha, _ => simp at ha
  | [x], _, _, ha, hb =>
    simp only [List.mem_cons, List.not_mem_nil, or_false] at ha hb
    exact absurd (by rw [← ea, ← eb, ha, hb]) hpq
  | [x, y], _, _, _, _ => exact ⟨x, y, rfl⟩
  | x :: y :: z :: r, pw, sub, _, _ =>
    exfalso
    have h1 := sub x (by simp)
    have h2 := sub y (by simp)
    have h3 := sub z (by simp)
    simp only [List.pairwise_cons, List.mem_cons, forall_eq_or_imp] at pw
    obtain ⟨⟨xy, xz, -⟩, ⟨yz, -⟩, -⟩ := pw
    rcases h1 with e1 | e1 <;> rcases h2 with e2 | e2 <;> rcases h3 with e3 | e3 <;> rw [e1] at xy xz <;> rw [e2] at xy yz <;>
      rw [e3] at xz yz <;> simp [refl] at xy xz yz

end

theorem split_done {s : Seg} {pts : List (Point ℝ)} (hs : Fit s) (hn : pts.length = 1 ∨ pts.length = 2) (hp : ∀ p ∈ pts, Covers s p)
    (hin : ∃ p ∈ pts, PointMatches p s.start 1e-8 = false ∧ PointMatches p s.stop 1e-8 = false) : ∃ r, s.split pts = some r := by
  rcases hs.kind with k | k
  · exact C65_line_accepts hs.made k hn hp hin
  · exact C65_arc_accepts hs.made k hn hp hin

theorem splitAt_done {X Y : List Seg} {s : Seg} {i : ℕ} {p : Point ℝ} (hi : i = X.length) (p1 : PointMatches p s.start 1e-8 = false)
    (p2 : PointMatches p s.stop 1e-8 = false) (hs : Fit s) (hp : Covers s p) :
    ∃ s1 s2, splitAt (X ++ s :: Y) i p = (X ++ s1 :: s2 :: Y, true, true) ∧ s2.start = p := by
  obtain ⟨⟨s1, lst⟩, e⟩ := split_done (pts := [p]) hs (Or.inl rfl) (by simpa using hp) ⟨p, by simp, p1, p2⟩
  obtain ⟨s2, rfl, -, -, a3, -, -⟩ := split_one hs hp e
  refine ⟨s1, s2, ?_, a3⟩
  unfold splitAt splitOne
  rw [at_append hi]
  simp only [Option.map_some, Option.getD_some, isEnd, p1, p2, Bool.or_self, Bool.false_eq_true, if_false, Option.bind_some, e]
  subst hi
  simp

/-- the border can be split, and the piece that starts at the first point is one or two places further -/
theorem splitBoth_done {l : List Seg} {i j : ℕ} {p q : Point ℝ} {s u : Seg} (hf : ∀ t ∈ l, Fit t)
    (hp : Lone p l i s) (hq : Lone q l j u) (hpq : PointMatches p q 1e-8 = false) :
    ∃ l' k n t, splitBoth l i j p q = (l', k, true) ∧ (n = k + 1 ∨ n = k + 2) ∧ l'[n]? = some t ∧ t.start = p := by
  unfold splitBoth
  have ei : isEndAt l i p = false := by simp [isEndAt, hp.at', isEnd, hp.start, hp.stop]
  have ej : isEndAt l j q = false := by simp [isEndAt, hq.at', isEnd, hq.start, hq.stop]
  rw [ei, ej]
  simp only [true_and]
  split
  · rename_i hij
    subst hij
    obtain rfl : u = s := by have := hq.at'; rw [hp.at'] at this; exact (Option.some.inj this).symm
    have fs := hf u (List.mem_of_getElem? hp.at')
    obtain ⟨⟨s', lst⟩, e⟩ := split_done (pts := [p, q]) fs (Or.inr rfl) (by simp [hp.on, hq.on]) ⟨p, by simp, hp.start, hp.stop⟩
    obtain ⟨m, t, rfl⟩ := split_len fs hp.on hq.on hpq hp.start hp.stop hq.start hq.stop e
    obtain ⟨-, -, -, a4⟩ := split_two fs hp.on hq.on hpq e
    rw [hp.at']
    simp only [Option.bind_some, e]
    have hlt := (List.getElem?_eq_some_iff.1 hp.at').1
    have len : (l.take i).length = i := by rw [List.length_take]; omega
    rcases a4 with ⟨-, e1, -⟩ | ⟨-, -, -, e1⟩
    · refine ⟨_, i, i + 1, m, rfl, Or.inl rfl, ?_, e1⟩
      rw [List.append_assoc, List.getElem?_append_right (by omega), len]
      simp
    · refine ⟨_, i, i + 2, t, rfl, Or.inr rfl, ?_, e1⟩
      rw [List.append_assoc, List.getElem?_append_right (by omega), len]
      simp
  · rename_i hij
    rcases lt_or_gt_of_ne hij with hlt | hgt
    · obtain ⟨hl, hlen⟩ := getElem?_decomp hp.at'
      generalize hX : l.take i = X at *
      generalize hW : l.drop (i + 1) = W at *
      have hi : i = X.length := by rw [← hX, List.length_take]; omega
      have hjW : W[j - (i + 1)]? = some u := by
        rw [← hW, List.getElem?_drop, show i + 1 + (j - (i + 1)) = j by omega]; exact hq.at'
      obtain ⟨hl2, hlen2⟩ := getElem?_decomp hjW
      generalize hY : W.take (j - (i + 1)) = Y at *
      generalize hZ : W.drop (j - (i + 1) + 1) = Z at *
      have hYl : Y.length = j - (i + 1) := by rw [← hY, List.length_take]; omega
      subst hl2
      subst hl
      clear hX hW hY hZ
      obtain ⟨s1, s2, e1, e2⟩ := splitAt_done (Y := Y ++ u :: Z) hi hp.start hp.stop (hf s (by simp)) hp.on
      rw [e1]
      simp only [Bool.true_eq_false, if_false, hlt, and_self, if_true]
      have e3 : X ++ s1 :: s2 :: (Y ++ u :: Z) = (X ++ s1 :: s2 :: Y) ++ u :: Z := by simp
      rw [e3]
      obtain ⟨u1, u2, e4, -⟩ := splitAt_done (X := X ++ s1 :: s2 :: Y) (i := j + 1) (Y := Z) (by simp; omega) hq.start hq.stop
        (hf u (by simp)) hq.on
      rw [e4]
      simp only [show ¬ (j + 1 < i) by omega, and_false, if_false]
      refine ⟨_, i, i + 1, s2, rfl, Or.inl rfl, ?_, e2⟩
      rw [List.append_assoc, List.getElem?_append_right (by omega), ← hi]
      simp
    · obtain ⟨hl, hlen⟩ := getElem?_decomp hq.at'
      generalize hX : l.take j = X at *
      generalize hW : l.drop (j + 1) = W at *
      have hj : j = X.length := by rw [← hX, List.length_take]; omega
      have hiW : W[i - (j + 1)]? = some s := by
        rw [← hW, List.getElem?_drop, show j + 1 + (i - (j + 1)) = i by omega]; exact hp.at'
      obtain ⟨hl2, hlen2⟩ := getElem?_decomp hiW
      generalize hY : W.take (i - (j + 1)) = Y at *
      generalize hZ : W.drop (i - (j + 1) + 1) = Z at *
      have hYl : Y.length = i - (j + 1) := by rw [← hY, List.length_take]; omega
      subst hl2
      subst hl
      clear hX hW hY hZ
      have e0 : X ++ u :: (Y ++ s :: Z) = (X ++ u :: Y) ++ s :: Z := by simp
      rw [e0]
      obtain ⟨s1, s2, e1, e2⟩ := splitAt_done (X := X ++ u :: Y) (i := i) (Y := Z) (by simp; omega) hp.start hp.stop (hf s (by simp)) hp.on
      rw [e1]
      simp only [Bool.true_eq_false, if_false, show ¬ i < j by omega, and_false]
      have e3 : (X ++ u :: Y) ++ s1 :: s2 :: Z = X ++ u :: (Y ++ s1 :: s2 :: Z) := by simp
      rw [e3]
      obtain ⟨u1, u2, e4, -⟩ := splitAt_done (Y := Y ++ s1 :: s2 :: Z) hj hq.start hq.stop (hf u (by simp)) hq.on
      rw [e4]
      simp only [show j < i from hgt, and_self, if_true]
      refine ⟨_, i + 1, i + 2, s2, rfl, Or.inl rfl, ?_, e2⟩
      have e5 : X ++ u1 :: u2 :: (Y ++ s1 :: s2 :: Z) = (X ++ u1 :: u2 :: Y) ++ s1 :: s2 :: Z := by simp
      rw [e5, List.getElem?_append_right (by simp; omega)]
      have : i + 2 - (X ++ u1 :: u2 :: Y).length = 1 := by simp; omega
      rw [this]
      simp

theorem startingAt_done {l : List Seg} {k n : ℕ} {t : Seg} {p : Point ℝ} (hn : n = k + 1 ∨ n = k + 2) (ht : l[n]? = some t)
    (hp : t.start = p) : ∃ i, startingAt l k p = some i := by
  have hlt := (List.getElem?_eq_some_iff.1 ht).1
  have h1 : (l[n]?.map fun s : Seg => PointMatches p s.start 1e-8).getD false = true := by
    rw [ht]; simp [hp, C51_reflexive]
  have a1 : after l.length k = k + 1 := by unfold after; rw [if_neg]; omega
  unfold startingAt
  simp only [a1]
  split
  · exact ⟨_, rfl⟩
  split
  · exact ⟨_, rfl⟩
  rename_i h2 h3
  rcases hn with rfl | rfl
  · exact absurd h1 h3
  · have a2 : after l.length (k + 1) = k + 2 := by unfold after; rw [if_neg]; omega
    rw [a2, if_pos h1]
    exact ⟨_, rfl⟩

theorem trim_done {l : List Seg} {i : ℕ} {q : Point ℝ} (b : Bool) (h : (roundFrom l i).dropWhile (notAt q) ≠ []) :
    (∃ L, trimThis l i q b = some L) ∧ ∃ M, trimOther l i q b = some M := by
  have h1 : ∃ L, keepTo l i q = some L := by
    unfold keepTo
    simp only
    exact ⟨_, if_neg h⟩
  have h2 : ∃ L, eraseFrom l i q = some L := by
    unfold eraseFrom
    simp only
    change ∃ L, (if (l.drop i).dropWhile (notAt q) ≠ [] then some (l.take i ++ (l.drop i).dropWhile (notAt q), i)
      else if (l.take i).dropWhile (notAt q) = [] then none else some ((l.take i).dropWhile (notAt q), 0)) = some L
    split
    · exact ⟨_, rfl⟩
    · rename_i h3
      unfold roundFrom at h
      rw [dropWhile_append_nil (by simpa using h3)] at h
      rw [if_neg h]
      exact ⟨_, rfl⟩
  obtain ⟨L, h1⟩ := h1
  obtain ⟨M, h2⟩ := h2
  unfold trimThis trimOther
  cases b
  · simp [h1]
  · simp [h2]

open Classical in
/-- a piece that starts at the second point is found -/
theorem drop_done {l : List Seg} {i : ℕ} {q : Point ℝ} (h : Ended q l) : (roundFrom l i).dropWhile (notAt q) ≠ [] := by
  have : 0 < l.countP (fun t => t.start = q) := by rw [h.once]; norm_num
  obtain ⟨t, ht, e⟩ := List.countP_pos_iff.1 this
  have e : t.start = q := of_decide_eq_true e
  intro hn
  have ht' : t ∈ roundFrom l i := (roundFrom_perm l i).mem_iff.2 ht
  rw [← List.takeWhile_append_dropWhile (p := notAt q) (l := roundFrom l i), hn, List.append_nil] at ht'
  have := takeWhile_all ht'
  simp [notAt, e, C51_reflexive] at this

/-- what a split leaves does not run clockwise if the segment does not -/
def Left (s : Seg) : Prop := s.kind ≠ .circle ∧ s.cw = false

theorem split_left {s s' : Seg} {pts : List (Point ℝ)} {l : List Seg} (hc : Left s) (h : s.split pts = some (s', l)) :
    ∀ t ∈ s' :: l, Left t := by
  obtain ⟨hk, hc⟩ := hc
  have hl : ∀ a b : Point ℝ, Left (setLine a b).1 := by
    intro a b
    rcases setLine_cases a b with e | ⟨-, -, -, e⟩ <;> rw [e] <;> exact ⟨by simp [Seg.init], rfl⟩
  obtain ⟨-, ⟨k, h⟩ | ⟨k, h⟩ | ⟨k, -⟩⟩ := split_cases h
  · generalize (pts.filter fun p => !(PointMatches p s.start 1e-8 || PointMatches p s.stop 1e-8)) = inner at h
    match inner, h with
    | [], h => simp [splitLine] at h
    | [p], h =>
      simp only [splitLine] at h
      split at h
      · simp only [Option.some.injEq, Prod.mk.injEq] at h
        obtain ⟨rfl, rfl⟩ := h
        simp [Left, hc, k]
        exact hl _ _
      · cases h
    | [p, q], h =>
      simp only [splitLine] at h
      split at h
      · simp only [Option.some.injEq, Prod.mk.injEq] at h
        obtain ⟨rfl, rfl⟩ := h
        simp [Left, hc, k]
        exact ⟨hl _ _, hl _ _⟩
      · cases h
    | _ :: _ :: _ :: _, h => simp [splitLine] at h
  · generalize (pts.filter fun p => !(PointMatches p s.start 1e-8 || PointMatches p s.stop 1e-8)) = inner at h
    match inner, h with
    | [], h => simp [splitArc] at h
    | [p], h =>
      simp only [splitArc] at h
      split at h
      · simp only [Option.some.injEq, Prod.mk.injEq] at h
        obtain ⟨rfl, rfl⟩ := h
        simp [Left, hc, k, subArc]
      · cases h
    | [p, q], h =>
      simp only [splitArc] at h
      split at h
      · simp only [Option.some.injEq, Prod.mk.injEq] at h
        obtain ⟨rfl, rfl⟩ := h
        simp [Left, hc, k, subArc]
      · cases h
    | _ :: _ :: _ :: _, h => simp [splitArc] at h
  · exact absurd k hk

/-- a line does not run clockwise -/
theorem made_line_cw {s : Seg} (h : Made s) (hk : s.kind = .line) : s.cw = false := by
  induction h with
  | line h =>
    rcases setLine_cases _ _ with e | ⟨-, -, -, e⟩
    · rw [h] at e; cases e
    · rw [h] at e; cases e; rfl
  | arc h =>
    obtain ⟨-, -, -, -, -, -, -, ⟨e, -⟩ | ⟨e, -⟩⟩ := setArc_cases h <;> rw [hk] at e <;> cases e
  | reverse h ih =>
    rename_i s
    unfold Seg.reverse at hk ⊢
    cases e : s.kind <;> simp only [e] at hk ⊢ <;> first | exact ih e | cases hk | (rw [e] at hk; cases hk)
  | split h hs hp ht ih =>
    rename_i s pts s' l t
    obtain ⟨-, ⟨k, h⟩ | ⟨k, h⟩ | ⟨k, h⟩⟩ := split_cases hs
    · exact (split_left ⟨by rw [k]; simp, ih k⟩ hs t ht).2
    · exfalso
      suffices t.kind = .arc by rw [hk] at this; cases this
      generalize (pts.filter fun p => !(PointMatches p s.start 1e-8 || PointMatches p s.stop 1e-8)) = inner at h
      match inner, h with
      | [], h => simp [splitArc] at h
      | [p], h =>
        simp only [splitArc] at h
        split at h
        · simp only [Option.some.injEq, Prod.mk.injEq] at h
          obtain ⟨rfl, rfl⟩ := h
          simp only [List.mem_cons, List.not_mem_nil, or_false] at ht
          rcases ht with rfl | rfl <;> first | rfl | exact k
        · cases h
      | [p, q], h =>
        simp only [splitArc] at h
        split at h
        · simp only [Option.some.injEq, Prod.mk.injEq] at h
          obtain ⟨rfl, rfl⟩ := h
          simp only [List.mem_cons, List.not_mem_nil, or_false] at ht
          rcases ht with rfl | rfl | rfl <;> first | rfl | exact k
        · cases h
      | _ :: _ :: _ :: _, h => simp [splitArc] at h
    · obtain ⟨p, q, rfl, h1, h2, h3, rfl, rfl⟩ := splitCircle_cases h
      simp only [List.mem_cons, List.not_mem_nil, or_false] at ht
      rcases ht with rfl | rfl <;> rfl

theorem put_left {l lst : List Seg} {i : ℕ} (h : ∀ s ∈ l, Left s) (h' : ∀ t ∈ lst, Left t) :
    ∀ t ∈ l.take i ++ lst ++ l.drop (i + 1), Left t := by
  intro t ht
  simp only [List.mem_append] at ht
  rcases ht with (ht | ht) | ht
  · exact h t (List.mem_of_mem_take ht)
  · exact h' t ht
  · exact h t (List.mem_of_mem_drop ht)

theorem splitAt_left {l : List Seg} {i : ℕ} {p : Point ℝ} (h : ∀ s ∈ l, Left s) : ∀ t ∈ (splitAt l i p).1, Left t := by
  unfold splitAt
  split
  · exact h
  · simp only
    unfold splitOne
    split
    · exact h
    · rename_i s' t e
      obtain ⟨s, hs, e⟩ := Option.bind_eq_some_iff.1 e
      have := put_left (i := i) h (split_left (h s (List.mem_of_getElem? hs)) e)
      simpa using this
    · rename_i s' lst _ e
      obtain ⟨s, hs, e⟩ := Option.bind_eq_some_iff.1 e
      intro t ht
      rcases List.mem_or_eq_of_mem_set ht with ht | rfl
      · exact h t ht
      · exact split_left (h s (List.mem_of_getElem? hs)) e _ (by simp)

theorem splitBoth_left {l : List Seg} {i j : ℕ} {p q : Point ℝ} (h : ∀ s ∈ l, Left s) : ∀ t ∈ (splitBoth l i j p q).1, Left t := by
  unfold splitBoth
  split
  · split
    · exact h
    · rename_i s' lst e
      obtain ⟨s, hs, e⟩ := Option.bind_eq_some_iff.1 e
      exact put_left h (split_left (h s (List.mem_of_getElem? hs)) e)
  · simp only
    split
    · exact splitAt_left h
    · exact splitAt_left (splitAt_left h)

theorem before_some {L : List Seg} {f : ℕ} (hL : L ≠ []) (hf : f = 0 ∨ f < L.length) : ∃ e, L[before L.length f]? = some e := by
  have : 0 < L.length := List.length_pos_iff.2 hL
  refine ⟨_, List.getElem?_eq_getElem (i := before L.length f) ?_⟩
  unfold before
  split <;> omega

theorem startFrom_done {m : List Seg} {g : ℕ} {s : Seg} {e : Point ℝ} (hs : s ∈ m) (he : PointMatches s.getStart e 1e-8 = true) :
    ∃ r, startFrom m g e = some r := by
  unfold startFrom
  simp only
  rw [if_neg]
  · exact ⟨_, rfl⟩
  · intro hn
    have hs' : s ∈ roundFrom m g := (roundFrom_perm m g).mem_iff.2 hs
    rw [← List.takeWhile_append_dropWhile (p := fun s : Seg => !PointMatches s.getStart e 1e-8) (l := roundFrom m g), hn, List.append_nil] at hs'
    have := takeWhile_all hs'
    simp [he] at this

end Iges.Turn
