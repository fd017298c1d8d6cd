import Verif.Lemmas.OutlineMerge
import Verif.Lemmas.RegionCut
/-
An outline that is split at two points: the same border, and the parts from one point to the other.
-/
namespace Iges.Turn
open Iges.Geo Spec Props

theorem Fit.start_covered {s : Seg} (h : Fit s) : Covers s s.start := by
  rw [← h.trace' h.zs.1, ← h.first]; exact first_mem _

theorem Fit.stop_covered {s : Seg} (h : Fit s) : Covers s s.stop := by
  rw [← h.trace' h.zs.2, ← h.last]; exact last_mem _

theorem ne_of_match {p q : Point ℝ} (h : PointMatches p q 1e-8 = false) : p ≠ q := by
  rintro rfl; rw [C51_reflexive] at h; cases h

/-- the same border in other pieces, which start where the old ones do or at one of some points -/
structure Refined (l l' : List Seg) (pts : List (Point ℝ)) : Prop where
  fit : ∀ t ∈ l', Fit t
  round : Round l'
  turns : ∀ x, turns (l'.map curve) x = turns (l.map curve) x
  covers : ∀ y, (∃ t ∈ l', Covers t y) ↔ ∃ s ∈ l, Covers s y
  starts : ∀ t ∈ l', (∃ s ∈ l, t.start = s.start) ∨ t.start ∈ pts

theorem refine_step {X Y pcs : List Seg} {s : Seg} {pts : List (Point ℝ)} (hf : ∀ t ∈ X ++ s :: Y, Fit t)
    (hr : Round (X ++ s :: Y)) (hp : Pieced s pcs) (hs : ∀ t ∈ pcs, t.start = s.start ∨ t.start ∈ pts) :
    Refined (X ++ s :: Y) (X ++ pcs ++ Y) pts := by
  refine ⟨?_, ?_, ?_, ?_, ?_⟩
  · intro t ht
    simp only [List.mem_append] at ht
    rcases ht with (ht | ht) | ht
    · exact hf t (by simp [ht])
    · exact hp.fit t ht
    · exact hf t (by simp [ht])
  · obtain ⟨a, h⟩ := hr
    obtain ⟨b, h1, h2, h3⟩ := joined_append.1 h
    refine ⟨a, joined_append.2 ⟨s.stop, joined_append.2 ⟨s.start, ?_, hp.joined⟩, h3⟩⟩
    rw [h2]; exact h1
  · intro x
    have := hp.wind x
    simp only [List.map_append, List.map_cons, turns_append, turns_cons] at this ⊢
    linarith
  · intro y
    constructor
    · rintro ⟨t, ht, hc⟩
      simp only [List.mem_append] at ht
      rcases ht with (ht | ht) | ht
      · exact ⟨t, by simp [ht], hc⟩
      · exact ⟨s, by simp, (hp.covers y).2 ⟨t, ht, hc⟩⟩
      · exact ⟨t, by simp [ht], hc⟩
    · rintro ⟨t, ht, hc⟩
      simp only [List.mem_append, List.mem_cons] at ht
      rcases ht with ht | rfl | ht
      · exact ⟨t, by simp [ht], hc⟩
      · obtain ⟨u, hu, huc⟩ := (hp.covers y).1 hc
        exact ⟨u, by simp [hu], huc⟩
      · exact ⟨t, by simp [ht], hc⟩
  · intro t ht
    simp only [List.mem_append] at ht
    rcases ht with (ht | ht) | ht
    · exact Or.inl ⟨t, by simp [ht], rfl⟩
    · rcases hs t ht with e | e
      · exact Or.inl ⟨s, by simp, e⟩
      · exact Or.inr e
    · exact Or.inl ⟨t, by simp [ht], rfl⟩

theorem Refined.trans {l m n : List Seg} {a b : List (Point ℝ)} (h1 : Refined l m a) (h2 : Refined m n b) :
    Refined l n (a ++ b) := by
  refine ⟨h2.fit, h2.round, fun x => (h2.turns x).trans (h1.turns x), fun y => (h2.covers y).trans (h1.covers y), ?_⟩
  intro t ht
  rcases h2.starts t ht with ⟨s, hs, e⟩ | e
  · rcases h1.starts s hs with ⟨u, hu, e'⟩ | e'
    · exact Or.inl ⟨u, hu, e.trans e'⟩
    · right; rw [e]; simp [e']
  · right; simp [e]

open Classical in
/-- the border is split at `x` -/
structure Ended (x : Point ℝ) (l : List Seg) : Prop where
  ends : ∀ t ∈ l, Covers t x → (x = t.start ∨ x = t.stop) ∧ t.start ≠ t.stop
  once : l.countP (fun t => t.start = x) = 1

open Classical in
theorem ended_of {X Y : List Seg} {a b : Seg} {x : Point ℝ} (hf : ∀ t ∈ X ++ a :: b :: Y, Fit t)
    (ho : ∀ u ∈ X ++ Y, ¬ Covers u x) (h1 : a.stop = x) (h2 : b.start = x) (h3 : a.start ≠ x) (h4 : b.stop ≠ x) :
    Ended x (X ++ a :: b :: Y) := by
  refine ⟨?_, ?_⟩
  · intro t ht hc
    simp only [List.mem_append, List.mem_cons] at ht
    rcases ht with ht | rfl | rfl | ht
    · exact absurd hc (ho t (by simp [ht]))
    · exact ⟨Or.inr h1.symm, by rw [h1]; exact h3⟩
    · exact ⟨Or.inl h2.symm, by rw [h2]; exact h4.symm⟩
    · exact absurd hc (ho t (by simp [ht]))
  · have z : ∀ Z : List Seg, (∀ u ∈ Z, u ∈ X ++ Y) → Z.countP (fun t => t.start = x) = 0 := by
      intro Z hZ
      rw [List.countP_eq_zero]
      intro u hu e
      refine ho u (hZ u hu) ?_
      rw [← of_decide_eq_true e]
      have := hZ u hu
      simp only [List.mem_append] at this
      exact (hf u (by simp; tauto)).start_covered
    rw [List.countP_append, z X (fun u h => by simp [h]), List.countP_cons_of_neg (by simp [h3]),
      List.countP_cons_of_pos (by simp [h2]), z Y (fun u h => by simp [h])]

/-- the only place where a border has a point, away from the corners -/
structure Lone (x : Point ℝ) (l : List Seg) (i : ℕ) (s : Seg) : Prop where
  at' : l[i]? = some s
  on : Covers s x
  start : PointMatches x s.start 1e-8 = false
  stop : PointMatches x s.stop 1e-8 = false
  only : ∀ n t, l[n]? = some t → Covers t x → n = i

theorem Lone.others {x : Point ℝ} {X Y : List Seg} {s s' : Seg} {i : ℕ} (h : Lone x (X ++ s :: Y) i s') (hi : i = X.length) :
    s' = s ∧ ∀ u ∈ X ++ Y, ¬ Covers u x := by
  have e := h.at'
  rw [hi, List.getElem?_append_right (le_refl _), Nat.sub_self, List.getElem?_cons_zero, Option.some.injEq] at e
  refine ⟨e.symm, ?_⟩
  intro u hu hc
  rw [List.mem_append] at hu
  rcases hu with hu | hu
  · obtain ⟨n, hn⟩ := List.mem_iff_getElem?.1 hu
    have hlt := (List.getElem?_eq_some_iff.1 hn).1
    have := h.only n u (by rw [List.getElem?_append_left hlt]; exact hn) hc
    omega
  · obtain ⟨n, hn⟩ := List.mem_iff_getElem?.1 hu
    have := h.only (X.length + (n + 1)) u (by
      rw [List.getElem?_append_right (by omega), Nat.add_sub_cancel_left, List.getElem?_cons_succ]; exact hn) hc
    omega

theorem split_len {s s' : Seg} {l : List Seg} {p q : Point ℝ} (hs : Fit s) (hp : Covers s p) (hq : Covers s q)
    (hpq : PointMatches p q 1e-8 = false) (p1 : PointMatches p s.start 1e-8 = false) (p2 : PointMatches p s.stop 1e-8 = false)
    (q1 : PointMatches q s.start 1e-8 = false) (q2 : PointMatches q s.stop 1e-8 = false)
    (h : s.split [p, q] = some (s', l)) : ∃ m t, l = [m, t] := by
  have e : ([p, q].filter fun p => !(PointMatches p s.start 1e-8 || PointMatches p s.stop 1e-8)).length = 2 := by
    simp [p1, p2, q1, q2]
  have : l.length = 2 := by
    rcases hs.kind with k | k
    · rw [← e]
      exact (C65_line hs.made k (by simp [hp, hq]) (by simp [hpq]) h).2.2.2
    · rw [← e]
      refine (C65_arc hs.made k ?_ h).2.2.2
      intro x hx
      simp only [List.mem_cons, List.not_mem_nil, or_false] at hx
      rcases hx with rfl | rfl
      · exact (Turn.covers_facing hs.made hs.kind hp).2
      · exact (Turn.covers_facing hs.made hs.kind hq).2
  match l, this with
  | [m, t], _ => exact ⟨m, t, rfl⟩

theorem at_append {X Y : List Seg} {s : Seg} {i : ℕ} (hi : i = X.length) : (X ++ s :: Y)[i]? = some s := by
  rw [hi, List.getElem?_append_right (le_refl _), Nat.sub_self, List.getElem?_cons_zero]

/-- a border is split at one of its points -/
theorem splitAt_step {X Y l' : List Seg} {s : Seg} {i : ℕ} {p : Point ℝ} {c ok : Bool} (hi : i = X.length)
    (p1 : PointMatches p s.start 1e-8 = false) (p2 : PointMatches p s.stop 1e-8 = false) (hs : Fit s) (hp : Covers s p)
    (h : splitAt (X ++ s :: Y) i p = (l', c, ok)) (hok : ok = true) :
    c = true ∧ ∃ s1 s2, l' = X ++ s1 :: s2 :: Y ∧ s1.start = s.start ∧ s1.stop = p ∧ s2.start = p ∧ s2.stop = s.stop ∧
      Pieced s [s1, s2] := by
  subst hok
  unfold splitAt at h
  rw [at_append hi] at h
  simp only [Option.map_some, Option.getD_some, isEnd, p1, p2, Bool.or_self, Bool.false_eq_true, if_false, Prod.mk.injEq] at h
  obtain ⟨h1, h2, h3⟩ := h
  obtain ⟨s1, t, h4, h5⟩ := splitOne_at (l := l') hi (Prod.ext h1 h3)
  obtain ⟨s2, e, a1, a2, a3, a4, a5⟩ := split_one hs hp h4
  simp only [List.cons.injEq, and_true] at e
  subst e
  exact ⟨h2.symm, s1, t, h5, a1, a2, a3, a4, a5⟩

/-- a border is split at two of its points -/
theorem splitBoth_spec {l l' : List Seg} {i j k : ℕ} {p q : Point ℝ} {s u : Seg} (hf : ∀ t ∈ l, Fit t) (hr : Round l)
    (hp : Lone p l i s) (hq : Lone q l j u) (hpq : PointMatches p q 1e-8 = false)
    (h : splitBoth l i j p q = (l', k, true)) : Refined l l' [p, q] ∧ Ended p l' ∧ Ended q l' := by
  have hqp : PointMatches q p 1e-8 = false := by rw [C51_symmetric]; exact hpq
  have npq := ne_of_match hpq
  unfold splitBoth at h
  have ei : isEndAt l i p = false := by simp [isEndAt, hp.at', isEnd, hp.start, hp.stop]
  have ej : isEndAt l j q = false := by simp [isEndAt, hq.at', isEnd, hq.start, hq.stop]
  rw [ei, ej] at h
  simp only [true_and] at h
  split at h
  · rename_i hij
    subst hij
    obtain rfl : u = s := by have := hq.at'; rw [hp.at'] at this; exact (Option.some.inj this).symm
    rw [hp.at'] at h
    simp only [Option.bind_some] at h
    split at h
    · simp at h
    rename_i s' lst hsp
    simp only [Prod.mk.injEq, and_true] at h
    obtain ⟨rfl, rfl⟩ := h
    obtain ⟨hl, hlen⟩ := getElem?_decomp hp.at'
    generalize hX : l.take i = X at *
    generalize hY : l.drop (i + 1) = Y at *
    have hi : i = X.length := by rw [← hX, List.length_take]; omega
    subst hl
    have fs := hf u (by simp)
    obtain ⟨m, t, rfl⟩ := split_len fs hp.on hq.on hpq hp.start hp.stop hq.start hq.stop hsp
    obtain ⟨a1, a2, a3, a4⟩ := split_two fs hp.on hq.on hpq hsp
    obtain ⟨o1, o2⟩ := split_two_order fs hp.on hq.on hpq hsp
    have R : Refined (X ++ u :: Y) (X ++ [s', m, t] ++ Y) [p, q] := by
      refine refine_step hf hr a3 ?_
      intro x hx
      simp only [List.mem_cons, List.not_mem_nil, or_false] at hx ⊢
      rcases hx with rfl | rfl | rfl
      · exact Or.inl a1
      · rcases a4 with ⟨-, e, -⟩ | ⟨-, e, -⟩ <;> simp [e]
      · rcases a4 with ⟨-, -, -, e⟩ | ⟨-, -, -, e⟩ <;> simp [e]
    have op := (hp.others hi).2
    have oq := (hq.others hi).2
    have f1 := R.fit
    simp only [List.append_assoc, List.cons_append, List.nil_append] at R f1 ⊢
    have f2 : ∀ w ∈ (X ++ [s']) ++ m :: t :: Y, Fit w := by simpa using f1
    have first : ∀ {x : Point ℝ}, (∀ w ∈ X ++ Y, ¬ Covers w x) → s'.stop = x → m.start = x → PointMatches x u.start 1e-8 = false →
        m.stop ≠ x → ¬ Covers t x → Ended x (X ++ s' :: m :: t :: Y) := by
      intro x ho h1 h2 h3 h4 h5
      refine ended_of (Y := t :: Y) f1 ?_ h1 h2 (by rw [a1]; exact (ne_of_match h3).symm) h4
      intro w hw
      simp only [List.mem_append, List.mem_cons] at hw
      rcases hw with hw | rfl | hw
      · exact ho w (by simp [hw])
      · exact h5
      · exact ho w (by simp [hw])
    have second : ∀ {x : Point ℝ}, (∀ w ∈ X ++ Y, ¬ Covers w x) → m.stop = x → t.start = x → PointMatches x u.stop 1e-8 = false →
        m.start ≠ x → ¬ Covers s' x → Ended x (X ++ s' :: m :: t :: Y) := by
      intro x ho h1 h2 h3 h4 h5
      have := ended_of (X := X ++ [s']) (Y := Y) (x := x) f2 (by
        intro w hw
        simp only [List.mem_append, List.mem_cons, List.not_mem_nil, or_false] at hw
        rcases hw with (hw | rfl) | hw
        · exact ho w (by simp [hw])
        · exact h5
        · exact ho w (by simp [hw])) h1 h2 h4 (by rw [a2]; exact (ne_of_match h3).symm)
      simpa using this
    rcases a4 with ⟨b1, b2, b3, b4⟩ | ⟨b1, b2, b3, b4⟩
    · refine ⟨R, first op b1 b2 hp.start (by rw [b3]; exact npq.symm) (by rw [← b1]; exact o2),
        second oq b3 b4 hq.stop (by rw [b2]; exact npq) (by rw [← b4]; exact o1)⟩
    · refine ⟨R, second op b3 b4 hp.stop (by rw [b2]; exact npq.symm) (by rw [← b4]; exact o1),
        first oq b1 b2 hq.start (by rw [b3]; exact npq) (by rw [← b1]; exact o2)⟩
  · rename_i hij
    generalize hr1 : splitAt l i p = r1 at h
    obtain ⟨l1, c1, ok1⟩ := r1
    simp only at h
    split at h
    · simp at h
    rename_i hok1
    have hok1 : ok1 = true := by simpa using hok1
    subst hok1
    rcases lt_or_gt_of_ne hij with hlt | hgt
    · -- `p` first
      obtain ⟨hl, hlen⟩ := getElem?_decomp hp.at'
      generalize hX : l.take i = X at *
      generalize hW : l.drop (i + 1) = W at *
      have hi : i = X.length := by rw [← hX, List.length_take]; omega
      have hjW : W[j - (i + 1)]? = some u := by
        rw [← hW, List.getElem?_drop, show i + 1 + (j - (i + 1)) = j by omega]; exact hq.at'
      obtain ⟨hl2, hlen2⟩ := getElem?_decomp hjW
      generalize hY : W.take (j - (i + 1)) = Y at *
      generalize hZ : W.drop (j - (i + 1) + 1) = Z at *
      have hYl : Y.length = j - (i + 1) := by rw [← hY, List.length_take]; omega
      subst hl2
      subst hl
      clear hX hW hY hZ
      obtain ⟨rfl, s1, s2, rfl, a1, a2, a3, a4, aP⟩ := splitAt_step hi hp.start hp.stop (hf s (by simp)) hp.on hr1 rfl
      simp only [hlt, and_self, if_true] at h
      generalize hr2 : splitAt (X ++ s1 :: s2 :: (Y ++ u :: Z)) (j + 1) q = r2 at h
      obtain ⟨l2, c2, ok2⟩ := r2
      simp only [Prod.mk.injEq] at h
      obtain ⟨rfl, -, rfl⟩ := h
      have e1 : X ++ s1 :: s2 :: (Y ++ u :: Z) = (X ++ s1 :: s2 :: Y) ++ u :: Z := by simp
      rw [e1] at hr2
      obtain ⟨-, u1, u2, rfl, b1, b2, b3, b4, bP⟩ := splitAt_step (by simp; omega) hq.start hq.stop (hf u (by simp)) hq.on hr2 rfl
      have e0 : X ++ s :: (Y ++ u :: Z) = (X ++ s :: Y) ++ u :: Z := by simp
      obtain ⟨-, op⟩ := hp.others hi
      have hq' := hq
      rw [e0] at hq'
      obtain ⟨-, oq⟩ := hq'.others (by simp; omega)
      have R1 : Refined (X ++ s :: (Y ++ u :: Z)) (X ++ [s1, s2] ++ (Y ++ u :: Z)) [p] :=
        refine_step hf hr aP (by intro t ht; simp at ht; rcases ht with rfl | rfl <;> simp [a1, a3])
      have R1' : Refined (X ++ s :: (Y ++ u :: Z)) ((X ++ s1 :: s2 :: Y) ++ u :: Z) [p] := by simpa using R1
      have R2 : Refined ((X ++ s1 :: s2 :: Y) ++ u :: Z) ((X ++ s1 :: s2 :: Y) ++ [u1, u2] ++ Z) [q] :=
        refine_step R1'.fit R1'.round bP (by intro t ht; simp at ht; rcases ht with rfl | rfl <;> simp [b1, b3])
      have R := R1'.trans R2
      have f1 := R.fit
      have uP : ∀ w ∈ [u1, u2], ¬ Covers w p := fun w hw hc => op u (by simp) ((bP.covers p).2 ⟨w, hw, hc⟩)
      have sQ : ∀ w ∈ [s1, s2], ¬ Covers w q := fun w hw hc => oq s (by simp) ((aP.covers q).2 ⟨w, hw, hc⟩)
      refine ⟨by simpa using R, ?_, ?_⟩
      · have := ended_of (X := X) (Y := Y ++ u1 :: u2 :: Z) (a := s1) (b := s2) (x := p) (by simpa using f1) (by
          intro w hw
          simp only [List.mem_append, List.mem_cons] at hw
          rcases hw with hw | hw | rfl | rfl | hw
          · exact op w (by simp [hw])
          · exact op w (by simp [hw])
          · exact uP _ (by simp)
          · exact uP _ (by simp)
          · exact op w (by simp [hw])) a2 a3 (by rw [a1]; exact (ne_of_match hp.start).symm) (by rw [a4]; exact (ne_of_match hp.stop).symm)
        simpa using this
      · have := ended_of (X := X ++ s1 :: s2 :: Y) (Y := Z) (a := u1) (b := u2) (x := q) (by simpa using f1) (by
          intro w hw
          simp only [List.mem_append, List.mem_cons] at hw
          rcases hw with (hw | rfl | rfl | hw) | hw
          · exact oq w (by simp [hw])
          · exact sQ _ (by simp)
          · exact sQ _ (by simp)
          · exact oq w (by simp [hw])
          · exact oq w (by simp [hw])) b2 b3 (by rw [b1]; exact (ne_of_match hq.start).symm) (by rw [b4]; exact (ne_of_match hq.stop).symm)
        simpa using this
    · -- `q` first
      obtain ⟨hl, hlen⟩ := getElem?_decomp hq.at'
      generalize hX : l.take j = X at *
      generalize hW : l.drop (j + 1) = W at *
      have hj : j = X.length := by rw [← hX, List.length_take]; omega
      have hiW : W[i - (j + 1)]? = some s := by
        rw [← hW, List.getElem?_drop, show j + 1 + (i - (j + 1)) = i by omega]; exact hp.at'
      obtain ⟨hl2, hlen2⟩ := getElem?_decomp hiW
      generalize hY : W.take (i - (j + 1)) = Y at *
      generalize hZ : W.drop (i - (j + 1) + 1) = Z at *
      have hYl : Y.length = i - (j + 1) := by rw [← hY, List.length_take]; omega
      subst hl2
      subst hl
      clear hX hW hY hZ
      have e0 : X ++ u :: (Y ++ s :: Z) = (X ++ u :: Y) ++ s :: Z := by simp
      rw [e0] at hr1
      obtain ⟨rfl, s1, s2, rfl, a1, a2, a3, a4, aP⟩ := splitAt_step (by simp; omega) hp.start hp.stop (hf s (by simp)) hp.on hr1 rfl
      simp only [show ¬ i < j by omega, and_false, if_false] at h
      generalize hr2 : splitAt ((X ++ u :: Y) ++ s1 :: s2 :: Z) j q = r2 at h
      obtain ⟨l2, c2, ok2⟩ := r2
      simp only [Prod.mk.injEq] at h
      obtain ⟨rfl, -, rfl⟩ := h
      have e1 : (X ++ u :: Y) ++ s1 :: s2 :: Z = X ++ u :: (Y ++ s1 :: s2 :: Z) := by simp
      rw [e1] at hr2
      obtain ⟨-, u1, u2, rfl, b1, b2, b3, b4, bP⟩ := splitAt_step hj hq.start hq.stop (hf u (by simp)) hq.on hr2 rfl
      obtain ⟨-, oq⟩ := hq.others hj
      have hp' := hp
      rw [e0] at hp'
      obtain ⟨-, op⟩ := hp'.others (by simp; omega)
      have R1 : Refined (X ++ u :: (Y ++ s :: Z)) ((X ++ u :: Y) ++ [s1, s2] ++ Z) [p] := by
        rw [e0] at hf hr ⊢
        exact refine_step hf hr aP (by intro t ht; simp at ht; rcases ht with rfl | rfl <;> simp [a1, a3])
      have R1' : Refined (X ++ u :: (Y ++ s :: Z)) (X ++ u :: (Y ++ s1 :: s2 :: Z)) [p] := by simpa using R1
      have R2 : Refined (X ++ u :: (Y ++ s1 :: s2 :: Z)) (X ++ [u1, u2] ++ (Y ++ s1 :: s2 :: Z)) [q] :=
        refine_step R1'.fit R1'.round bP (by intro t ht; simp at ht; rcases ht with rfl | rfl <;> simp [b1, b3])
      have R := R1'.trans R2
      have f1 := R.fit
      have uP : ∀ w ∈ [u1, u2], ¬ Covers w p := fun w hw hc => op u (by simp) ((bP.covers p).2 ⟨w, hw, hc⟩)
      have sQ : ∀ w ∈ [s1, s2], ¬ Covers w q := fun w hw hc => oq s (by simp) ((aP.covers q).2 ⟨w, hw, hc⟩)
      refine ⟨by simpa using R, ?_, ?_⟩
      · have := ended_of (X := X ++ u1 :: u2 :: Y) (Y := Z) (a := s1) (b := s2) (x := p) (by simpa using f1) (by
          intro w hw
          simp only [List.mem_append, List.mem_cons] at hw
          rcases hw with (hw | rfl | rfl | hw) | hw
          · exact op w (by simp [hw])
          · exact uP _ (by simp)
          · exact uP _ (by simp)
          · exact op w (by simp [hw])
          · exact op w (by simp [hw])) a2 a3 (by rw [a1]; exact (ne_of_match hp.start).symm) (by rw [a4]; exact (ne_of_match hp.stop).symm)
        simpa using this
      · have := ended_of (X := X) (Y := Y ++ s1 :: s2 :: Z) (a := u1) (b := u2) (x := q) (by simpa using f1) (by
          intro w hw
          simp only [List.mem_append, List.mem_cons] at hw
          rcases hw with hw | hw | rfl | rfl | hw
          · exact oq w (by simp [hw])
          · exact oq w (by simp [hw])
          · exact sQ _ (by simp)
          · exact sQ _ (by simp)
          · exact oq w (by simp [hw])) b2 b3 (by rw [b1]; exact (ne_of_match hq.start).symm) (by rw [b4]; exact (ne_of_match hq.stop).symm)
        simpa using this

/-- the two parts of a border that is split at `p` and `q` -/
structure Halves (l : List Seg) (p q : Point ℝ) (A B : List Seg) : Prop where
  fit : ∀ t ∈ A ++ B, Fit t
  joinA : Spec.Joined p A q
  joinB : Spec.Joined q B p
  turns : ∀ x, turns ((A ++ B).map curve) x = turns (l.map curve) x
  covers : ∀ y, (∃ t ∈ A ++ B, Covers t y) ↔ ∃ s ∈ l, Covers s y
  endP : ∀ t ∈ A ++ B, Covers t p → (p = t.start ∨ p = t.stop) ∧ t.start ≠ t.stop
  endQ : ∀ t ∈ A ++ B, Covers t q → (q = t.start ∨ q = t.stop) ∧ t.start ≠ t.stop
  tailA : ∀ t ∈ A.tail, t.start ≠ p ∧ t.start ≠ q
  tailB : ∀ t ∈ B.tail, t.start ≠ p ∧ t.start ≠ q
  neA : A ≠ []
  neB : B ≠ []

theorem turns_perm {l m : List Curve} (h : l.Perm m) (x : ℝ × ℝ) : turns l x = turns m x := by
  unfold turns
  exact (h.map _).sum_eq

open Classical in
theorem halves {l l' : List Seg} {p q : Point ℝ} {k : ℕ} {t : Seg} (hR : Refined l l' [p, q]) (hp : Ended p l') (hq : Ended q l')
    (hpq : PointMatches p q 1e-8 = false) (hc : ∀ s ∈ l, PointMatches q s.start 1e-8 = false) (hk : l'[k]? = some t)
    (ht : t.start = p) (hd : (roundFrom l' k).dropWhile (notAt q) ≠ []) :
    Halves l p q ((roundFrom l' k).takeWhile (notAt q)) ((roundFrom l' k).dropWhile (notAt q)) := by
  have hqp : PointMatches q p 1e-8 = false := by rw [C51_symmetric]; exact hpq
  have hperm := roundFrom_perm l' k
  have hround : Round (roundFrom l' k) := by
    unfold roundFrom
    exact round_rotate (by rw [List.take_append_drop]; exact hR.round)
  have hsharp : ∀ s ∈ l', PointMatches s.start q 1e-8 = true → s.start = q := by
    intro s hs hm
    rcases hR.starts s hs with ⟨u, hu, e⟩ | e
    · rw [e, C51_symmetric, hc u hu] at hm; cases hm
    · simp only [List.mem_cons, List.not_mem_nil, or_false] at e
      rcases e with e | e
      · rw [e, hpq] at hm; cases hm
      · exact e
  obtain ⟨R, hRt⟩ : ∃ R, roundFrom l' k = t :: R := by
    obtain ⟨h1, h2⟩ := getElem?_decomp hk
    refine ⟨l'.drop (k + 1) ++ l'.take k, ?_⟩
    unfold roundFrom
    rw [List.drop_eq_getElem_cons h2]
    have : l'[k] = t := by rw [List.getElem?_eq_some_iff] at hk; exact hk.2
    rw [this]; rfl
  have nt : notAt q t = true := by simp [notAt, ht, hpq]
  have hp1 := hp.once
  have hq1 := hq.once
  rw [← hperm.countP_eq] at hp1 hq1
  have fit := hR.fit
  have cov := hR.covers
  have tur := hR.turns
  have eP := hp.ends
  have eQ := hq.ends
  obtain ⟨a, hj⟩ := hround
  have ee := List.takeWhile_append_dropWhile (p := notAt q) (l := roundFrom l' k)
  have hA : ∀ s ∈ (roundFrom l' k).takeWhile (notAt q), s.start ≠ q := by
    intro s hs e
    have := takeWhile_all hs
    simp [notAt, e, C51_reflexive] at this
  have hAt : (roundFrom l' k).takeWhile (notAt q) = t :: R.takeWhile (notAt q) := by
    rw [hRt, List.takeWhile_cons_of_pos nt]
  obtain ⟨b, B, hB⟩ := List.exists_cons_of_ne_nil hd
  have hb : b.start = q := by
    have h1 := dropWhile_first hB
    refine hsharp b (hperm.mem_iff.1 ?_) (by simpa [notAt] using h1)
    rw [← ee, hB]; simp
  rw [← ee] at hperm hj hp1 hq1
  generalize (roundFrom l' k).takeWhile (notAt q) = A at *
  generalize (roundFrom l' k).dropWhile (notAt q) = B' at *
  subst hB
  generalize R.takeWhile (notAt q) = A' at *
  subst hAt
  have ha : t.start = a := hj.1
  rw [ht] at ha
  subst ha
  obtain ⟨c, j1, j2⟩ := joined_append.1 hj
  have hcq : c = q := by rw [← hb]; exact j2.1.symm
  subst hcq
  refine ⟨fun s hs => fit s (hperm.mem_iff.1 hs), j1, j2, fun x => ?_, fun y => ?_, fun s hs => eP s (hperm.mem_iff.1 hs),
    fun s hs => eQ s (hperm.mem_iff.1 hs), ?_, ?_, by simp, by simp⟩
  · rw [turns_perm (hperm.map curve), tur]
  · rw [← cov]
    constructor
    · rintro ⟨s, hs, h⟩; exact ⟨s, hperm.mem_iff.1 hs, h⟩
    · rintro ⟨s, hs, h⟩; exact ⟨s, hperm.mem_iff.2 hs, h⟩
  · intro s hs
    rw [List.tail_cons] at hs
    refine ⟨fun e => ?_, hA s (by simp [hs])⟩
    rw [List.cons_append, List.countP_cons_of_pos (by simp [ht]), Nat.add_eq_right, List.countP_eq_zero] at hp1
    exact hp1 s (by simp [hs]) (by simp [e])
  · intro s hs
    rw [List.tail_cons] at hs
    refine ⟨fun e => ?_, fun e => ?_⟩
    · rw [List.cons_append, List.countP_cons_of_pos (by simp [ht]), Nat.add_eq_right, List.countP_eq_zero] at hp1
      exact hp1 s (by simp [hs]) (by simp [e])
    · rw [List.countP_append, List.countP_cons_of_pos (l := B) (a := b) (by simp [hb])] at hq1
      have hpos : 0 < B.countP (fun t => decide (t.start = c)) := List.countP_pos_iff.2 ⟨s, hs, by simp [e]⟩
      omega

/-- the segment that starts at the first point -/
theorem startingAt_spec {l l' : List Seg} {p q : Point ℝ} {k i : ℕ} (hR : Refined l l' [p, q])
    (hpq : PointMatches p q 1e-8 = false) (hc : ∀ s ∈ l, PointMatches p s.start 1e-8 = false)
    (h : startingAt l' k p = some i) : ∃ t, l'[i]? = some t ∧ t.start = p := by
  have key : ∀ n : ℕ, ((l'[n]?.map fun s : Seg => PointMatches p s.start 1e-8).getD false) = true → ∃ t, l'[n]? = some t ∧ t.start = p := by
    intro n hn
    cases hs : l'[n]? with
    | none => rw [hs] at hn; simp at hn
    | some s =>
      rw [hs] at hn
      simp only [Option.map_some, Option.getD_some] at hn
      refine ⟨s, rfl, ?_⟩
      rcases hR.starts s (List.mem_of_getElem? hs) with ⟨u, hu, e⟩ | e
      · rw [e, hc u hu] at hn; cases hn
      · simp only [List.mem_cons, List.not_mem_nil, or_false] at e
        rcases e with e | e
        · exact e
        · rw [e, hpq] at hn; cases hn
  unfold startingAt at h
  simp only at h
  split at h
  · obtain rfl := Option.some.inj h
    exact key _ (by assumption)
  split at h
  · obtain rfl := Option.some.inj h
    exact key _ (by assumption)
  split at h
  · obtain rfl := Option.some.inj h
    exact key _ (by assumption)
  · cases h

end Iges.Turn
