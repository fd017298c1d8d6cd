import Verif.Lemmas.MergeHits
/-
The pieces into which `opOutline` splits an outline.
-/
namespace Iges.Turn
open Iges.Geo Spec Props

theorem splitAt_split {X Y l' : List Seg} {s : Seg} {i : ℕ} {p : Point ℝ} {c ok : Bool} (hi : i = X.length)
    (p1 : PointMatches p s.start 1e-8 = false) (p2 : PointMatches p s.stop 1e-8 = false)
    (h : splitAt (X ++ s :: Y) i p = (l', c, ok)) (hok : ok = true) :
    c = true ∧ ∃ s1 s2, l' = X ++ s1 :: s2 :: Y ∧ s.split [p] = some (s1, [s2]) := by
  subst hok
  unfold splitAt at h
  rw [at_append hi] at h
  simp only [Option.map_some, Option.getD_some, isEnd, p1, p2, Bool.or_self, Bool.false_eq_true, if_false, Prod.mk.injEq] at h
  obtain ⟨h1, h2, h3⟩ := h
  obtain ⟨s1, t, h4, h5⟩ := splitOne_at (l := l') hi (Prod.ext h1 h3)
  exact ⟨h2.symm, s1, t, h5, h4⟩

theorem whole_pieces {l m X : List Seg} (h : ∀ s ∈ X, ∀ x, Covers s x → ¬ Shared l m x) :
    List.Forall₂ (Pieces l m) X (X.map fun s => [s]) := by
  induction X with
  | nil => exact .nil
  | cons s X ih => exact .cons (Or.inl ⟨rfl, h s (by simp)⟩) (ih fun t ht => h t (by simp [ht]))

theorem flatten_single (X : List Seg) : (X.map fun s => [s]).flatten = X := by
  induction X with
  | nil => rfl
  | cons s X ih => simp [ih]

/-- the border is split at its two common points -/
theorem splitBoth_parted {l m l' : List Seg} {i j k : ℕ} {p q : Point ℝ} {s u : Seg}
    (hp : Lone p l i s) (hq : Lone q l j u) (hpq : PointMatches p q 1e-8 = false) (hS : ∀ x, Shared l m x ↔ x = p ∨ x = q)
    (h : splitBoth l i j p q = (l', k, true)) : Parted l m l' := by
  have npq := ne_of_match hpq
  unfold splitBoth at h
  have ei : isEndAt l i p = false := by simp [isEndAt, hp.at', isEnd, hp.start, hp.stop]
  have ej : isEndAt l j q = false := by simp [isEndAt, hq.at', isEnd, hq.start, hq.stop]
  rw [ei, ej] at h
  simp only [true_and] at h
  have one : ∀ {t t1 : Seg} {r : List Seg} {x y : Point ℝ}, (∀ z, Shared l m z ↔ z = x ∨ z = y) → Covers t x → ¬ Covers t y →
      t.split [x] = some (t1, r) → Pieces l m t (t1 :: r) := by
    intro t t1 r x y hS hx hy hs
    refine Or.inr ⟨[x], t1, r, by simp, ?_, hs, rfl⟩
    intro z
    rw [hS]
    simp only [List.mem_cons, List.not_mem_nil, or_false]
    constructor
    · rintro rfl; exact ⟨hx, Or.inl rfl⟩
    · rintro ⟨h, rfl | rfl⟩
      · rfl
      · exact absurd h hy
  have two : ∀ {X Y Z : List Seg} {v w : Seg} {P Q : List Seg} {x y : Point ℝ}, (∀ z, Shared l m z ↔ z = x ∨ z = y) →
      l = X ++ v :: (Y ++ w :: Z) → (∀ t ∈ X ++ Y ++ Z, ¬ Covers t x ∧ ¬ Covers t y) →
      Pieces l m v P → Pieces l m w Q → Parted l m (X ++ P ++ (Y ++ Q ++ Z)) := by
    intro X Y Z v w P Q x y hS e ho h1 h2
    have no : ∀ t ∈ X ++ Y ++ Z, ∀ z, Covers t z → ¬ Shared l m z := by
      intro t ht z hz hs
      rcases (hS z).1 hs with rfl | rfl
      · exact (ho t ht).1 hz
      · exact (ho t ht).2 hz
    refine ⟨X.map (fun s => [s]) ++ P :: (Y.map (fun s => [s]) ++ Q :: Z.map fun s => [s]), ?_, ?_⟩
    · simp [flatten_single]
    · have hX := whole_pieces (l := l) (m := m) (X := X) (fun t ht => no t (by simp [ht]))
      have hY := whole_pieces (l := l) (m := m) (X := Y) (fun t ht => no t (by simp [ht]))
      have hZ := whole_pieces (l := l) (m := m) (X := Z) (fun t ht => no t (by simp [ht]))
      have := List.rel_append hX (List.Forall₂.cons h1 (List.rel_append hY (List.Forall₂.cons h2 hZ)))
      simp only [← e] at this
      exact this
  split at h
  · rename_i hij
    subst hij
    obtain rfl : u = s := by have := hq.at'; rw [hp.at'] at this; exact (Option.some.inj this).symm
    rw [hp.at'] at h
    simp only [Option.bind_some] at h
    split at h
    · simp at h
    rename_i s' lst hsp
    simp only [Prod.mk.injEq, and_true] at h
    obtain ⟨rfl, rfl⟩ := h
    obtain ⟨hl, hlen⟩ := getElem?_decomp hp.at'
    generalize hX : l.take i = X at *
    generalize hY : l.drop (i + 1) = Y at *
    have hi : i = X.length := by rw [← hX, List.length_take]; omega
    have op := (Lone.others (by rw [← hl]; exact hp) hi).2
    have oq := (Lone.others (by rw [← hl]; exact hq) hi).2
    have no : ∀ t ∈ X ++ Y, ∀ z, Covers t z → ¬ Shared l m z := by
      intro t ht z hz hs
      rcases (hS z).1 hs with rfl | rfl
      · exact op t ht hz
      · exact oq t ht hz
    refine ⟨X.map (fun s => [s]) ++ (s' :: lst) :: Y.map fun s => [s], by simp [flatten_single], ?_⟩
    have hX' := whole_pieces (l := l) (m := m) (X := X) (fun t ht => no t (by simp [ht]))
    have hY' := whole_pieces (l := l) (m := m) (X := Y) (fun t ht => no t (by simp [ht]))
    have hs : Pieces l m u (s' :: lst) := by
      refine Or.inr ⟨[p, q], s', lst, by simp [npq], ?_, hsp, rfl⟩
      intro z
      rw [hS]
      simp only [List.mem_cons, List.not_mem_nil, or_false]
      constructor
      · rintro (rfl | rfl)
        · exact ⟨hp.on, Or.inl rfl⟩
        · exact ⟨hq.on, Or.inr rfl⟩
      · exact fun h => h.2
    have := List.rel_append hX' (List.Forall₂.cons hs hY')
    simp only [← hl] at this
    exact this
  · rename_i hij
    generalize hr1 : splitAt l i p = r1 at h
    obtain ⟨l1, c1, ok1⟩ := r1
    simp only at h
    split at h
    · simp at h
    rename_i hok1
    have hok1 : ok1 = true := by simpa using hok1
    subst hok1
    have nq : ¬ Covers s q := fun hc => hij (hq.only i s hp.at' hc)
    have np : ¬ Covers u p := fun hc => hij (hp.only j u hq.at' hc).symm
    rcases lt_or_gt_of_ne hij with hlt | hgt
    · obtain ⟨hl, hlen⟩ := getElem?_decomp hp.at'
      generalize hX : l.take i = X at *
      generalize hW : l.drop (i + 1) = W at *
      have hi : i = X.length := by rw [← hX, List.length_take]; omega
      have hjW : W[j - (i + 1)]? = some u := by
        rw [← hW, List.getElem?_drop, show i + 1 + (j - (i + 1)) = j by omega]; exact hq.at'
      obtain ⟨hl2, hlen2⟩ := getElem?_decomp hjW
      generalize hY : W.take (j - (i + 1)) = Y at *
      generalize hZ : W.drop (j - (i + 1) + 1) = Z at *
      have hYl : Y.length = j - (i + 1) := by rw [← hY, List.length_take]; omega
      rw [hl2] at hl
      have op := (Lone.others (by rw [← hl]; exact hp) hi).2
      have e0 : l = (X ++ s :: Y) ++ u :: Z := by rw [hl]; simp
      have oq := (Lone.others (X := X ++ s :: Y) (by rw [← e0]; exact hq) (by simp; omega)).2
      rw [hl] at hr1
      obtain ⟨rfl, s1, s2, rfl, hsp⟩ := splitAt_split hi hp.start hp.stop hr1 rfl
      simp only [hlt, and_self, if_true] at h
      generalize hr2 : splitAt (X ++ s1 :: s2 :: (Y ++ u :: Z)) (j + 1) q = r2 at h
      obtain ⟨l2, c2, ok2⟩ := r2
      simp only [Prod.mk.injEq] at h
      obtain ⟨rfl, -, rfl⟩ := h
      rw [show X ++ s1 :: s2 :: (Y ++ u :: Z) = (X ++ s1 :: s2 :: Y) ++ u :: Z by simp] at hr2
      obtain ⟨-, u1, u2, rfl, hsp2⟩ := splitAt_split (by simp; omega) hq.start hq.stop hr2 rfl
      have := two hS hl (fun t ht => ⟨op t (by simp at ht ⊢; tauto), oq t (by simp at ht ⊢; tauto)⟩)
        (one hS hp.on nq hsp) (one (fun z => by rw [hS]; tauto) hq.on np hsp2)
      simpa using this
    · obtain ⟨hl, hlen⟩ := getElem?_decomp hq.at'
      generalize hX : l.take j = X at *
      generalize hW : l.drop (j + 1) = W at *
      have hj : j = X.length := by rw [← hX, List.length_take]; omega
      have hiW : W[i - (j + 1)]? = some s := by
        rw [← hW, List.getElem?_drop, show j + 1 + (i - (j + 1)) = i by omega]; exact hp.at'
      obtain ⟨hl2, hlen2⟩ := getElem?_decomp hiW
      generalize hY : W.take (i - (j + 1)) = Y at *
      generalize hZ : W.drop (i - (j + 1) + 1) = Z at *
      have hYl : Y.length = i - (j + 1) := by rw [← hY, List.length_take]; omega
      rw [hl2] at hl
      have oq := (Lone.others (by rw [← hl]; exact hq) hj).2
      have e0 : l = (X ++ u :: Y) ++ s :: Z := by rw [hl]; simp
      have op := (Lone.others (X := X ++ u :: Y) (by rw [← e0]; exact hp) (by simp; omega)).2
      rw [e0] at hr1
      obtain ⟨rfl, s1, s2, rfl, hsp⟩ := splitAt_split (by simp; omega) hp.start hp.stop hr1 rfl
      simp only [show ¬ i < j by omega, and_false, if_false] at h
      generalize hr2 : splitAt ((X ++ u :: Y) ++ s1 :: s2 :: Z) j q = r2 at h
      obtain ⟨l2, c2, ok2⟩ := r2
      simp only [Prod.mk.injEq] at h
      obtain ⟨rfl, -, rfl⟩ := h
      rw [show (X ++ u :: Y) ++ s1 :: s2 :: Z = X ++ u :: (Y ++ s1 :: s2 :: Z) by simp] at hr2
      obtain ⟨-, u1, u2, rfl, hsp2⟩ := splitAt_split hj hq.start hq.stop hr2 rfl
      have := two (fun z => by rw [hS]; tauto) hl (fun t ht => ⟨oq t (by simp at ht ⊢; tauto), op t (by simp at ht ⊢; tauto)⟩)
        (one (x := q) (y := p) (fun z => by rw [hS]; tauto) hq.on np hsp2) (one hS hp.on nq hsp)
      simpa using this

/-- the midpoint of a line or an arc is an inner point -/
theorem Fit.middle {s : Seg} (h : Fit s) (hne : s.start ≠ s.stop) :
    ∃ m, s.midpoint = some m ∧ Covers s m ∧ m ≠ s.start ∧ m ≠ s.stop := by
  obtain ⟨m, h1, h2, h3, h4⟩ := C61_midpoint h.made (by rcases h.kind with k | k <;> rw [k] <;> simp)
  refine ⟨m, h1, h2, ?_⟩
  have hz := covers_flat h2
  have hd : ∀ x : Point ℝ, planar2 x x = 0 := fun x => by unfold planar2; ring
  have he : ∀ {x y : Point ℝ}, x.z = 0 → y.z = 0 → planar2 x y = 0 → x = y := by
    intro x y hx hy e
    unfold planar2 at e
    have e1 : x.x - y.x = 0 := by nlinarith [sq_nonneg (x.x - y.x), sq_nonneg (x.y - y.y)]
    have e2 : x.y - y.y = 0 := by nlinarith [sq_nonneg (x.x - y.x), sq_nonneg (x.y - y.y)]
    ext
    · linarith
    · linarith
    · rw [hx, hy]
  have main : planar2 m s.start = planar2 m s.stop → m ≠ s.start ∧ m ≠ s.stop := by
    intro e
    constructor
    · rintro rfl
      rw [hd] at e
      exact hne (he h.zs.1 h.zs.2 e.symm)
    · rintro rfl
      rw [hd] at e
      exact hne (he h.zs.2 h.zs.1 e).symm
  rcases h.kind with k | k
  · exact main (h3 k)
  · have e := h4 k
    obtain ⟨e1, e2⟩ := h.arc_ends k
    refine main ?_
    unfold Seg.startAngle Seg.endAngle at e
    rw [e1, e2]
    cases hc : s.cw <;> rw [hc] at e <;> simp at e
    · exact e
    · exact e.symm

end Iges.Turn
