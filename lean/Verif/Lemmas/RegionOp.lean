import Verif.Lemmas.Region
import Verif.Props.OutlineOp
/- What cutting a circle out of an outline does to the list of segments, in terms of the two parts of the border. -/
namespace Iges.Turn
open Iges.Geo Iges.Spec Iges.Props Real Filter Topology

theorem distinct_complete {α : Type} (acc l : List (Point ℝ × α)) :
    ∀ x, x ∈ acc ∨ x ∈ l → ∃ y ∈ distinct acc l, PointMatches y.1 x.1 1e-8 = true := by
  induction l generalizing acc with
  | nil =>
    intro x hx
    simp only [List.not_mem_nil, or_false] at hx
    exact ⟨x, hx, C51_reflexive _ _⟩
  | cons z l ih =>
    intro x hx
    simp only [distinct]
    split
    · rename_i hz
      rcases hx with hx | hx
      · exact ih acc x (Or.inl hx)
      · rcases List.mem_cons.1 hx with rfl | hx
        · obtain ⟨y, hy, hm⟩ := List.any_eq_true.1 hz
          -- `y` stays in the list
          have stay : ∀ (acc m : List (Point ℝ × α)) (y), y ∈ acc → y ∈ distinct acc m := by
            intro acc m
            induction m generalizing acc with
            | nil => intro y hy; exact hy
            | cons w m ih =>
              intro y hy
              simp only [distinct]
              split
              · exact ih _ y hy
              · exact ih _ y (by simp [hy])
          exact ⟨y, stay _ _ y hy, hm⟩
        · exact ih acc x (Or.inr hx)
    · apply ih
      rcases hx with hx | hx
      · left; simp [hx]
      · rcases List.mem_cons.1 hx with rfl | hx
        · left; simp
        · right; exact hx

theorem circleHits_complete {c : Seg} {opsub : Bool} {k : ℕ} {segs : List Seg} {hits : List (Point ℝ × ℕ)}
    (h : circleHits c opsub k segs = .points hits) {n : ℕ} {s : Seg} (hs : segs[n]? = some s)
    (hret : (intersections s c).ret = true) {x : Point ℝ} (hx : x ∈ (intersections s c).pts) : (x, k + n) ∈ hits := by
  induction segs generalizing k hits n with
  | nil => simp at hs
  | cons t rest ih =>
    simp only [circleHits] at h
    cases n with
    | zero =>
      obtain rfl : t = s := by simpa using hs
      rw [if_pos hret] at h
      split at h
      · cases h
      · split at h
        · simp only [Found.points.injEq] at h
          subst h
          simp [hx]
        · rename_i hno; cases hr : circleHits c opsub (k + 1) rest with
          | points l => exact absurd hr (hno l)
          | apart => rw [hr] at h; cases h
          | bad => rw [hr] at h; cases h
    | succ n =>
      rw [List.getElem?_cons_succ] at hs
      have e : k + (n + 1) = k + 1 + n := by omega
      rw [e]
      split at h
      · split at h
        · cases h
        · cases hr : circleHits c opsub (k + 1) rest with
          | points l =>
            rw [hr] at h
            simp only [Found.points.injEq] at h
            subst h
            exact List.mem_append_right _ (ih hr hs)
          | apart => rw [hr] at h; cases h
          | bad => rw [hr] at h; cases h
      · split at h
        · exact ih h hs
        · split at h <;> cases h

/-- The border meets the circle in `p`, on segment `i`, and in `q`, on segment `j`, only. -/
structure Hits (l : List Seg) (c : Point ℝ) (r : ℝ) (p q : Point ℝ) (i j : ℕ) (s u : Seg) : Prop where
  meets : Meets l c r p q
  si : l[i]? = some s
  uj : l[j]? = some u
  cs : Covers s p
  cu : Covers u q
  ne : PointMatches p q 1e-8 = false
  only : ∀ n t x, l[n]? = some t → Covers t x → planar2 x c = r ^ 2 → n = i ∧ x = p ∨ n = j ∧ x = q
  twice : i = j → r ^ 2 < planar2 s.start c

theorem mem_take_at {l : List Seg} {i : ℕ} {t : Seg} (h : t ∈ l.take i) : ∃ n, n < i ∧ l[n]? = some t := by
  obtain ⟨n, hn⟩ := List.mem_iff_getElem?.1 h
  rw [List.getElem?_take] at hn
  split at hn
  · exact ⟨n, by assumption, hn⟩
  · cases hn

theorem mem_drop_at {l : List Seg} {i : ℕ} {t : Seg} (h : t ∈ l.drop i) : ∃ n, i ≤ n ∧ l[n]? = some t := by
  obtain ⟨n, hn⟩ := List.mem_iff_getElem?.1 h
  rw [List.getElem?_drop] at hn
  exact ⟨i + n, by omega, hn⟩

/-- the new list of segments: the part `G` of the border and the new arc, up to where the list begins -/
def Made2 (G out : List Seg) (sp : Seg) : Prop := ∃ X Y, out = X ++ Y ∧ G ++ [sp] = Y ++ X

section
variable {l : List Seg} {c : Point ℝ} {r : ℝ} {p q : Point ℝ} {i j : ℕ} {s u : Seg} (h : Hits l c r p q i j s u)
include h

theorem Hits.ne' : PointMatches q p 1e-8 = false := by rw [C51_symmetric]; exact h.ne

theorem Hits.pq : p ≠ q := by
  rintro rfl
  have := h.ne
  rw [C51_reflexive] at this
  cases this

theorem Hits.sl : s ∈ l := List.mem_of_getElem? h.si
theorem Hits.ul : u ∈ l := List.mem_of_getElem? h.uj

theorem Hits.startP {t : Seg} (ht : t ∈ l) : PointMatches t.start p 1e-8 = false := by
  rw [C51_symmetric]; exact h.meets.corner t ht p (covers_flat h.cs) h.meets.onP
theorem Hits.startQ {t : Seg} (ht : t ∈ l) : PointMatches t.start q 1e-8 = false := by
  rw [C51_symmetric]; exact h.meets.corner t ht q (covers_flat h.cu) h.meets.onQ
theorem Hits.stopP {t : Seg} (ht : t ∈ l) : PointMatches t.stop p 1e-8 = false := by
  rw [C51_symmetric]; exact h.meets.stopCorner ht (covers_flat h.cs) h.meets.onP

/-- both points on one segment -/
theorem arrange_one {s' m t sp : Seg} (hij : i = j) (hsplit : s.split [p, q] = some (s', [m, t])) :
    (∃ F G, Parts l c r p q F G ∧ Made2 G (l.take i ++ s' :: sp :: t :: l.drop (i + 1)) sp) ∨
    ∃ F G, Parts l c r p q F G ∧ ∃ k ∈ F, r ^ 2 < planar2 k.start c := by
  subst hij
  obtain ⟨hdec, hi⟩ := getElem?_decomp h.si
  obtain rfl : u = s := by
    have := h.uj
    rw [h.si] at this
    exact (Option.some.inj this).symm
  set A := l.take i with hA
  set B := l.drop (i + 1) with hB
  have fs := h.meets.fit _ h.sl
  obtain ⟨k1, k2, hP, k3⟩ := split_two fs h.cs h.cu h.ne hsplit
  obtain ⟨o1, o2⟩ := split_two_order fs h.cs h.cu h.ne hsplit
  have hround : Round (u :: (B ++ A)) := by
    have : Round ((u :: B) ++ A) := round_rotate (by rw [← hdec]; exact h.meets.round)
    simpa using this
  have hmem : ∀ t, t ∈ l ↔ t ∈ u :: (B ++ A) := by
    intro t; conv_lhs => rw [hdec]
    simp; tauto
  have hturn : ∀ x, turns ((u :: (B ++ A)).map curve) x = turns (l.map curve) x := by
    intro x; conv_rhs => rw [hdec]
    simp only [List.map_cons, List.map_append, turns_cons, turns_append]
    ring
  have hcs : ∀ x, Covers u x → planar2 x c = r ^ 2 → x = p ∨ x = q := by
    intro x h1 h2
    rcases h.only _ _ x h.si h1 h2 with ⟨-, e⟩ | ⟨-, e⟩
    · exact Or.inl e
    · exact Or.inr e
  have hco : ∀ t ∈ B ++ A, ∀ x, Covers t x → planar2 x c ≠ r ^ 2 := by
    intro t ht x h1 h2
    obtain ⟨n, hn, hn'⟩ : ∃ n, n ≠ i ∧ l[n]? = some t := by
      rcases List.mem_append.1 ht with ht | ht
      · obtain ⟨n, e1, e2⟩ := mem_drop_at ht; exact ⟨n, by omega, e2⟩
      · obtain ⟨n, e1, e2⟩ := mem_take_at ht; exact ⟨n, by omega, e2⟩
    rcases h.only n t x hn' h1 h2 with ⟨e, -⟩ | ⟨e, -⟩ <;> exact hn e
  rcases k3 with ⟨e1, e2, e3, e4⟩ | ⟨e1, e2, e3, e4⟩
  · rw [e4] at o1
    rw [e1] at o2
    left
    refine ⟨_, _, (parts_one h.meets hround hmem hturn h.meets.onP h.meets.onQ h.pq hcs hco k1 e1 e2 e3 e4 k2 hP o1 o2).1, ?_⟩
    exact ⟨A ++ [s', sp], t :: B, by simp, by simp⟩
  · rw [e4] at o1
    rw [e1] at o2
    right
    refine ⟨_, _, (parts_one h.meets hround hmem hturn h.meets.onQ h.meets.onP h.pq.symm (fun x a b => (hcs x a b).symm) hco k1 e1 e2 e3 e4
      k2 hP o1 o2).2, s', by simp, ?_⟩
    rw [k1]; exact h.twice rfl

set_option maxHeartbeats 400000 in
/-- the points on two segments -/
theorem arrange_two {o : Outline} (ho : o.segs = l) {sp : Seg} (hij : i ≠ j)
    (ht : (splitAndJoin o i j p q false false sp).ret = true) :
    ∃ F G, Parts l c r p q F G ∧ Made2 G (splitAndJoin o i j p q false false sp).out.segs sp := by
  obtain ⟨l1, l2, k, hl1, hl2, he⟩ := splitAndJoin_true ht
  rw [he] at ht ⊢
  simp only [Bool.false_eq_true, and_false, true_and, and_true, false_or] at hl1 hl2
  rw [ho] at hl1
  obtain ⟨k', sk, lk, g1, g2, g3, g4⟩ := joinArc_true ht
  rw [g4]
  simp only
  clear g4 he ht
  have fs := h.meets.fit _ h.sl
  have fu := h.meets.fit _ h.ul
  have hnp : ∀ {x : Seg}, x ∈ l → ¬ PointMatches x.stop p 1e-8 = true := by
    intro x hx; rw [h.stopP hx]; simp
  have hcs : ∀ x, Covers s x → planar2 x c = r ^ 2 → x = p := by
    intro x h1 h2
    rcases h.only _ _ x h.si h1 h2 with ⟨-, e⟩ | ⟨e, -⟩
    · exact e
    · exact absurd e hij
  have hcu : ∀ x, Covers u x → planar2 x c = r ^ 2 → x = q := by
    intro x h1 h2
    rcases h.only _ _ x h.uj h1 h2 with ⟨e, -⟩ | ⟨-, e⟩
    · exact absurd e.symm hij
    · exact e
  have other : ∀ {t : Seg}, (∃ n, n ≠ i ∧ n ≠ j ∧ l[n]? = some t) → t ∈ l ∧ ∀ x, Covers t x → planar2 x c ≠ r ^ 2 := by
    rintro t ⟨n, n1, n2, hn⟩
    refine ⟨List.mem_of_getElem? hn, fun x h1 h2 => ?_⟩
    rcases h.only n t x hn h1 h2 with ⟨e, -⟩ | ⟨e, -⟩
    · exact n1 e
    · exact n2 e
  rcases lt_or_gt_of_ne hij with hlt | hlt
  · rw [if_pos hlt] at hl2
    obtain ⟨A, B, C, hl, hi, hj⟩ : ∃ A B C, l = A ++ s :: B ++ u :: C ∧ i = A.length ∧ j = A.length + (B.length + 1) := by
      obtain ⟨d1, n1⟩ := getElem?_decomp h.uj
      have h2 : (l.take j)[i]? = some s := by rw [List.getElem?_take, if_pos hlt]; exact h.si
      obtain ⟨d2, n2⟩ := getElem?_decomp h2
      refine ⟨(l.take j).take i, (l.take j).drop (i + 1), l.drop (j + 1), ?_, ?_, ?_⟩
      · rw [← d2]; exact d1
      · simp; omega
      · simp; omega
    have hA : ∀ t ∈ A, ∃ n, n ≠ i ∧ n ≠ j ∧ l[n]? = some t := by
      intro t ht
      obtain ⟨n, hn⟩ := List.mem_iff_getElem?.1 ht
      obtain ⟨hn', -⟩ := List.getElem?_eq_some_iff.1 hn
      refine ⟨n, by omega, by omega, ?_⟩
      rw [hl, List.append_assoc, List.getElem?_append_left hn']; exact hn
    have hB : ∀ t ∈ B, ∃ n, n ≠ i ∧ n ≠ j ∧ l[n]? = some t := by
      intro t ht
      obtain ⟨n, hn⟩ := List.mem_iff_getElem?.1 ht
      obtain ⟨hn', -⟩ := List.getElem?_eq_some_iff.1 hn
      refine ⟨A.length + (n + 1), by omega, by omega, ?_⟩
      rw [hl, List.append_assoc, List.getElem?_append_right (by omega), Nat.add_sub_cancel_left, List.cons_append,
        List.getElem?_cons_succ, List.getElem?_append_left hn']; exact hn
    have hC : ∀ t ∈ C, ∃ n, n ≠ i ∧ n ≠ j ∧ l[n]? = some t := by
      intro t ht
      obtain ⟨n, hn⟩ := List.mem_iff_getElem?.1 ht
      refine ⟨j + (n + 1), by omega, by omega, ?_⟩
      rw [hl, List.getElem?_append_right (by simp; omega)]
      have : j + (n + 1) - (A ++ s :: B).length = n + 1 := by simp; omega
      rw [this, List.getElem?_cons_succ]; exact hn
    have hl' : l = A ++ s :: (B ++ u :: C) := by rw [hl]; simp
    rw [hl'] at hl1
    obtain ⟨s1, s2, hs, rfl⟩ := splitOne_at hi hl1
    have e : A ++ s1 :: s2 :: (B ++ u :: C) = (A ++ s1 :: s2 :: B) ++ u :: C := by simp
    rw [e] at hl2
    obtain ⟨u1, u2, hu, rfl⟩ := splitOne_at (by simp; omega) hl2
    obtain ⟨t', ht', a1, a2, a3, a4, aP⟩ := split_one fs h.cs hs
    obtain rfl : s2 = t' := by simpa using ht'
    obtain ⟨t', ht', b1, b2, b3, b4, bP⟩ := split_one fu h.cu hu
    obtain rfl : u2 = t' := by simpa using ht'
    have e : A ++ s1 :: s2 :: B ++ u1 :: u2 :: C = A ++ s1 :: ((s2 :: (B ++ [u1])) ++ u2 :: C) := by simp
    rw [e] at g1 g3
    have n1 : ∀ x ∈ A, ¬ PointMatches x.stop p 1e-8 = true := fun x hx => hnp (other (hA x hx)).1
    have n2 : ∀ x ∈ (s2 :: (B ++ [u1])) ++ u2 :: C, ¬ PointMatches x.stop p 1e-8 = true := by
      intro x hx
      simp only [List.cons_append, List.append_assoc, List.nil_append, List.mem_cons, List.mem_append] at hx
      rcases hx with rfl | hx | rfl | rfl | hx
      · rw [a4]; exact hnp h.sl
      · exact hnp (other (hB x hx)).1
      · rw [b2, h.ne']; simp
      · rw [b4]; exact hnp h.ul
      · exact hnp (other (hC x hx)).1
    obtain ⟨rfl, rfl⟩ := only_at (P := fun x : Seg => PointMatches x.stop p 1e-8 = true) g1 g2 n1 n2
    rw [eraseTo_mid (by
      intro x hx
      simp only [List.mem_cons, List.mem_append, List.not_mem_nil, or_false] at hx
      rcases hx with rfl | hx | rfl
      · rw [a3]; exact h.ne
      · exact h.startQ (other (hB x hx)).1
      · rw [b1]; exact h.startQ h.ul) (by rw [b3]; exact C51_reflexive _ _)] at g3
    obtain rfl := Option.some.inj g3
    have hround : Round (s :: B ++ u :: (C ++ A)) := by
      have : Round ((s :: B ++ u :: C) ++ A) := round_rotate (by have := h.meets.round; rw [hl'] at this; simpa using this)
      simpa using this
    have hmem : ∀ t, t ∈ l ↔ t ∈ s :: B ++ u :: (C ++ A) := by
      intro t; rw [hl']; simp; tauto
    have hturn : ∀ x, turns ((s :: B ++ u :: (C ++ A)).map curve) x = turns (l.map curve) x := by
      intro x; rw [hl']
      simp only [List.map_cons, List.map_append, turns_cons, turns_append, List.cons_append]
      ring
    refine ⟨_, _, parts_two h.meets hround hmem hturn hcs hcu ?_ a1 a2 a3 a4 aP b1 b2 b3 b4 bP, ?_⟩
    · intro t ht
      simp only [List.mem_append] at ht
      rcases ht with ht | ht | ht
      · exact (other (hB t ht)).2
      · exact (other (hC t ht)).2
      · exact (other (hA t ht)).2
    · exact ⟨A ++ [sk, sp], u2 :: C, by simp, by simp⟩
  · rw [if_neg (by omega)] at hl2
    obtain ⟨A, B, C, hl, hj, hi⟩ : ∃ A B C, l = A ++ u :: B ++ s :: C ∧ j = A.length ∧ i = A.length + (B.length + 1) := by
      obtain ⟨d1, n1⟩ := getElem?_decomp h.si
      have h2 : (l.take i)[j]? = some u := by rw [List.getElem?_take, if_pos hlt]; exact h.uj
      obtain ⟨d2, n2⟩ := getElem?_decomp h2
      refine ⟨(l.take i).take j, (l.take i).drop (j + 1), l.drop (i + 1), ?_, ?_, ?_⟩
      · rw [← d2]; exact d1
      · simp; omega
      · simp; omega
    have hA : ∀ t ∈ A, ∃ n, n ≠ i ∧ n ≠ j ∧ l[n]? = some t := by
      intro t ht
      obtain ⟨n, hn⟩ := List.mem_iff_getElem?.1 ht
      obtain ⟨hn', -⟩ := List.getElem?_eq_some_iff.1 hn
      refine ⟨n, by omega, by omega, ?_⟩
      rw [hl, List.append_assoc, List.getElem?_append_left hn']; exact hn
    have hB : ∀ t ∈ B, ∃ n, n ≠ i ∧ n ≠ j ∧ l[n]? = some t := by
      intro t ht
      obtain ⟨n, hn⟩ := List.mem_iff_getElem?.1 ht
      obtain ⟨hn', -⟩ := List.getElem?_eq_some_iff.1 hn
      refine ⟨A.length + (n + 1), by omega, by omega, ?_⟩
      rw [hl, List.append_assoc, List.getElem?_append_right (by omega), Nat.add_sub_cancel_left, List.cons_append,
        List.getElem?_cons_succ, List.getElem?_append_left hn']; exact hn
    have hC : ∀ t ∈ C, ∃ n, n ≠ i ∧ n ≠ j ∧ l[n]? = some t := by
      intro t ht
      obtain ⟨n, hn⟩ := List.mem_iff_getElem?.1 ht
      refine ⟨i + (n + 1), by omega, by omega, ?_⟩
      rw [hl, List.getElem?_append_right (by simp; omega)]
      have : i + (n + 1) - (A ++ u :: B).length = n + 1 := by simp; omega
      rw [this, List.getElem?_cons_succ]; exact hn
    rw [hl] at hl1
    obtain ⟨s1, s2, hs, rfl⟩ := splitOne_at (by simp; omega) hl1
    have e : A ++ u :: B ++ s1 :: s2 :: C = A ++ u :: (B ++ s1 :: s2 :: C) := by simp
    rw [e] at hl2
    obtain ⟨u1, u2, hu, rfl⟩ := splitOne_at hj hl2
    obtain ⟨t', ht', a1, a2, a3, a4, aP⟩ := split_one fs h.cs hs
    obtain rfl : s2 = t' := by simpa using ht'
    obtain ⟨t', ht', b1, b2, b3, b4, bP⟩ := split_one fu h.cu hu
    obtain rfl : u2 = t' := by simpa using ht'
    have e : A ++ u1 :: u2 :: (B ++ s1 :: s2 :: C) = ((A ++ [u1]) ++ u2 :: B) ++ s1 :: (s2 :: C) := by simp
    rw [e] at g1 g3
    have n1 : ∀ x ∈ (A ++ [u1]) ++ u2 :: B, ¬ PointMatches x.stop p 1e-8 = true := by
      intro x hx
      simp only [List.cons_append, List.append_assoc, List.nil_append, List.mem_cons, List.mem_append] at hx
      rcases hx with hx | rfl | rfl | hx
      · exact hnp (other (hA x hx)).1
      · rw [b2, h.ne']; simp
      · rw [b4]; exact hnp h.ul
      · exact hnp (other (hB x hx)).1
    have n2 : ∀ x ∈ s2 :: C, ¬ PointMatches x.stop p 1e-8 = true := by
      intro x hx
      simp only [List.mem_cons] at hx
      rcases hx with rfl | hx
      · rw [a4]; exact hnp h.sl
      · exact hnp (other (hC x hx)).1
    obtain ⟨rfl, rfl⟩ := only_at (P := fun x : Seg => PointMatches x.stop p 1e-8 = true) g1 g2 n1 n2
    rw [eraseTo_wrap (by
      intro x hx
      simp only [List.mem_cons] at hx
      rcases hx with rfl | hx
      · rw [a3]; exact h.ne
      · exact h.startQ (other (hC x hx)).1) (by
      intro x hx
      simp only [List.mem_append, List.mem_cons, List.not_mem_nil, or_false] at hx
      rcases hx with hx | rfl
      · exact h.startQ (other (hA x hx)).1
      · rw [b1]; exact h.startQ h.ul) (by rw [b3]; exact C51_reflexive _ _)] at g3
    obtain rfl := Option.some.inj g3
    have hround : Round (s :: (C ++ A) ++ u :: B) := by
      have : Round ((s :: C) ++ (A ++ u :: B)) := round_rotate (by have := h.meets.round; rw [hl] at this; exact this)
      simpa using this
    have hmem : ∀ t, t ∈ l ↔ t ∈ s :: (C ++ A) ++ u :: B := by
      intro t; rw [hl]; simp; tauto
    have hturn : ∀ x, turns ((s :: (C ++ A) ++ u :: B).map curve) x = turns (l.map curve) x := by
      intro x; rw [hl]
      simp only [List.map_cons, List.map_append, turns_cons, turns_append, List.cons_append]
      ring
    refine ⟨_, _, parts_two h.meets hround hmem hturn hcs hcu ?_ a1 a2 a3 a4 aP b1 b2 b3 b4 bP, ?_⟩
    · intro t ht
      simp only [List.mem_append] at ht
      rcases ht with (ht | ht) | ht
      · exact (other (hC t ht)).2
      · exact (other (hA t ht)).2
      · exact (other (hB t ht)).2
    · exact ⟨[sp], u2 :: (B ++ [sk]), by simp, by simp⟩

/-- what the change does -/
theorem arrange {o : Outline} (ho : o.segs = l) {cs : Seg} {opsub : Bool}
    (ht : (changeOutline o cs opsub (p, i) (q, j) false false).ret = true) :
    ∃ sp, setArc cs.center p q opsub = (sp, true) ∧
    ((∃ F G, Parts l c r p q F G ∧ Made2 G (changeOutline o cs opsub (p, i) (q, j) false false).out.segs sp) ∨
     ∃ F G, Parts l c r p q F G ∧ ∃ k ∈ F, r ^ 2 < planar2 k.start c) := by
  generalize hR : changeOutline o cs opsub (p, i) (q, j) false false = R at ht ⊢
  unfold changeOutline at hR
  simp only at hR
  cases hsp : setArc cs.center p q opsub with
  | mk sp b =>
  rw [hsp] at hR
  simp only at hR
  split at hR
  · subst hR; cases ht
  rename_i hb
  obtain rfl : b = true := by simpa using hb
  refine ⟨sp, rfl, ?_⟩
  split at hR
  · rename_i hhead
    exfalso
    rw [ho] at hhead
    cases hl : l with
    | nil => rw [hl] at hhead; simp at hhead
    | cons k t =>
      rw [hl] at hhead
      simp only [List.head?_cons, Option.map_some, Option.some.injEq] at hhead
      have := (h.meets.fit k (by rw [hl]; simp)).kind
      rw [hhead] at this
      simp at this
  · split at hR
    · rename_i hij
      have hij : i = j := by simpa using hij
      rw [ho, h.si] at hR
      simp only [Option.bind_some] at hR
      cases hsplit : s.split [p, q] with
      | none => rw [hsplit] at hR; subst hR; cases ht
      | some v =>
        obtain ⟨s', w⟩ := v
        rw [hsplit] at hR
        match w, hR with
        | [], hR => simp only at hR; subst hR; cases ht
        | [_], hR => simp only at hR; subst hR; cases ht
        | _ :: _ :: _ :: _, hR => simp only at hR; subst hR; cases ht
        | [m, t], hR =>
          simp only at hR
          subst hR
          exact arrange_one h hij hsplit
    · rename_i hij
      have hij : i ≠ j := by simpa using hij
      subst hR
      exact Or.inl (arrange_two h ho hij ht)

end
end Iges.Turn
