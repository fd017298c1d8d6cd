import Verif.Lemmas.TurnsSplit
import Verif.Spec.Crossed
/- The region of an outline after a circle has been cut out of it or joined to it. -/
namespace Iges.Turn
open Iges.Geo Iges.Spec Iges.Props Real Filter Topology

theorem joined_append {a b : Point ℝ} {l m : List Seg} : Joined a (l ++ m) b ↔ ∃ c, Joined a l c ∧ Joined c m b := by
  induction l generalizing a with
  | nil => simp [Spec.Joined]
  | cons k l ih => simp [Spec.Joined, ih, and_assoc]

theorem round_rotate {l m : List Seg} (h : Round (l ++ m)) : Round (m ++ l) := by
  obtain ⟨a, h⟩ := h
  obtain ⟨b, h1, h2⟩ := joined_append.1 h
  exact ⟨b, joined_append.2 ⟨a, h2, h1⟩⟩

/-- every segment ends where one starts -/
theorem round_stop {l : List Seg} (h : Round l) {s : Seg} (hs : s ∈ l) : ∃ t ∈ l, t.start = s.stop := by
  obtain ⟨A, B, rfl⟩ := List.append_of_mem hs
  have h := round_rotate h
  obtain ⟨a, e, h⟩ := h
  cases hB : B ++ A with
  | nil =>
    have : Joined s.stop (B ++ A) a := h
    rw [hB] at this
    have : s.stop = a := this
    exact ⟨s, by simp, by rw [this]; exact e⟩
  | cons t r =>
    have h' : Joined s.stop (B ++ A) a := h
    rw [hB] at h'
    refine ⟨t, ?_, h'.1⟩
    have : t ∈ B ++ A := by rw [hB]; simp
    simp at this ⊢
    tauto

theorem splitOne_at {X Y l : List Seg} {s : Seg} {i : ℕ} {p : Point ℝ} (hi : i = X.length)
    (h : splitOne (X ++ s :: Y) i p = (l, true)) :
    ∃ s' t, s.split [p] = some (s', [t]) ∧ l = X ++ s' :: t :: Y := by
  subst hi
  obtain ⟨u, s', t, h1, h2, h3⟩ := splitOne_cases h
  simp only [List.getElem?_append_right (le_refl _), Nat.sub_self, List.getElem?_cons_zero, Option.some.injEq] at h1
  subst h1
  refine ⟨s', t, h2, ?_⟩
  rw [h3]
  simp

theorem dropWhile_skip {p : Seg → Bool} {X Y : List Seg} (h : ∀ s ∈ X, p s = true) : (X ++ Y).dropWhile p = Y.dropWhile p := by
  induction X with
  | nil => rfl
  | cons s X ih =>
    rw [List.cons_append, List.dropWhile_cons_of_pos (h s (by simp))]
    exact ih fun t ht => h t (by simp [ht])

theorem eraseTo_mid {X Y Z : List Seg} {s' u : Seg} {q : Point ℝ} {sp : Seg}
    (hY : ∀ t ∈ Y, PointMatches t.start q 1e-8 = false) (hu : PointMatches u.start q 1e-8 = true) :
    eraseTo (X ++ s' :: (Y ++ u :: Z)) X.length q sp = some (X ++ s' :: sp :: u :: Z) := by
  unfold eraseTo
  have e1 : (X ++ s' :: (Y ++ u :: Z)).take (X.length + 1) = X ++ [s'] := by simp [List.take_append]
  have e2 : (X ++ s' :: (Y ++ u :: Z)).drop (X.length + 1) = Y ++ u :: Z := by simp [List.drop_append]
  simp only [e1, e2]
  rw [dropWhile_skip (fun t ht => by simp [hY t ht]), List.dropWhile_cons_of_neg (by simp [hu])]
  simp

theorem eraseTo_wrap {X Y Z : List Seg} {s' u : Seg} {q : Point ℝ} {sp : Seg}
    (hZ : ∀ t ∈ Z, PointMatches t.start q 1e-8 = false) (hX : ∀ t ∈ X, PointMatches t.start q 1e-8 = false)
    (hu : PointMatches u.start q 1e-8 = true) :
    eraseTo (X ++ u :: Y ++ s' :: Z) (X ++ u :: Y).length q sp = some (sp :: u :: (Y ++ [s'])) := by
  unfold eraseTo
  have e1 : (X ++ u :: Y ++ s' :: Z).take ((X ++ u :: Y).length + 1) = X ++ u :: (Y ++ [s']) := by
    have : X ++ u :: Y ++ s' :: Z = (X ++ u :: (Y ++ [s'])) ++ Z := by simp
    rw [this, List.take_left' (by simp; omega)]
  have e2 : (X ++ u :: Y ++ s' :: Z).drop ((X ++ u :: Y).length + 1) = Z := by
    rw [List.drop_append]; simp
  have e3 : Z.dropWhile (fun s : Seg => !PointMatches s.start q 1e-8) = [] := by
    have := dropWhile_skip (p := fun s : Seg => !PointMatches s.start q 1e-8) (X := Z) (Y := []) (fun t ht => by simp [hZ t ht])
    simpa using this
  simp only [e1, e2, e3]
  rw [dropWhile_skip (fun t ht => by simp [hX t ht]), List.dropWhile_cons_of_neg (by simp [hu])]
  simp

/-- the position of the only segment with a property -/
theorem only_at {α : Type} {X Z : List α} {s t : α} {k : ℕ} {P : α → Prop} (h : (X ++ s :: Z)[k]? = some t) (ht : P t)
    (hX : ∀ u ∈ X, ¬ P u) (hZ : ∀ u ∈ Z, ¬ P u) : k = X.length ∧ t = s := by
  rcases lt_trichotomy k X.length with hk | hk | hk
  · rw [List.getElem?_append_left hk] at h
    exact absurd ht (hX t (List.mem_of_getElem? h))
  · subst hk
    simp at h
    exact ⟨rfl, h.symm⟩
  · rw [List.getElem?_append_right hk.le] at h
    obtain ⟨n, hn⟩ : ∃ n, k - X.length = n + 1 := ⟨k - X.length - 1, by omega⟩
    rw [hn, List.getElem?_cons_succ] at h
    exact absurd ht (hZ t (List.mem_of_getElem? h))

/-- The border, cut in two at the points `p` and `q` of the circle about `c`. -/
structure Parts (l : List Seg) (c : Point ℝ) (r : ℝ) (p q : Point ℝ) (F G : List Seg) : Prop where
  fit : ∀ t ∈ F ++ G, Fit t
  joinF : Joined p F q
  joinG : Joined q G p
  turns : ∀ x, turns ((F ++ G).map curve) x = turns (l.map curve) x
  covers : ∀ y, (∃ t ∈ F ++ G, Covers t y) ↔ ∃ s ∈ l, Covers s y
  sided : ∀ t ∈ F ++ G, Sided (plane c) r (curve t)
  tailF : ∀ t ∈ F.tail, planar2 t.start c ≠ r ^ 2
  tailG : ∀ t ∈ G.tail, planar2 t.start c ≠ r ^ 2

section
variable {l : List Seg} {c : Point ℝ} {r : ℝ}

theorem piece_side {t : Seg} (h : Fit t) (hne : t.start ≠ t.stop)
    (hc : ∀ x, Covers t x → planar2 x c = r ^ 2 → x = t.start ∨ x = t.stop) : Sided (plane c) r (curve t) := by
  refine Turn.sided fun τ hτ e => ?_
  obtain ⟨n1, n2⟩ := h.at_ne hne hτ
  rcases hc _ (h.at_covers hτ) e with e | e
  · exact n1 (congrArg plane e)
  · exact n2 (congrArg plane e)

theorem whole_side {t : Seg} (h : Fit t) (hc : ∀ x, Covers t x → planar2 x c ≠ r ^ 2) : Sided (plane c) r (curve t) := by
  refine Turn.sided fun τ hτ e => ?_
  exact hc _ (h.at_covers hτ) e

/-- a border that meets the circle in `p`, on `s`, and in `q`, on `u`, only -/
structure Meets (l : List Seg) (c : Point ℝ) (r : ℝ) (p q : Point ℝ) : Prop where
  fit : ∀ s ∈ l, Fit s
  round : Round l
  onP : planar2 p c = r ^ 2
  onQ : planar2 q c = r ^ 2
  corner : ∀ s ∈ l, ∀ x, x.z = 0 → planar2 x c = r ^ 2 → PointMatches x s.start 1e-8 = false

variable {p q : Point ℝ} (h : Meets l c r p q)
include h

theorem Meets.starts {s : Seg} (hs : s ∈ l) : planar2 s.start c ≠ r ^ 2 := by
  intro e
  have := h.corner s hs _ (h.fit s hs).zs.1 e
  rw [C51_reflexive] at this
  cases this

theorem Meets.stopCorner {s : Seg} (hs : s ∈ l) {x : Point ℝ} (hz : x.z = 0) (hx : planar2 x c = r ^ 2) :
    PointMatches x s.stop 1e-8 = false := by
  obtain ⟨t, ht, e⟩ := round_stop h.round hs
  rw [← e]
  exact h.corner t ht x hz hx

theorem Meets.stops {s : Seg} (hs : s ∈ l) : planar2 s.stop c ≠ r ^ 2 := by
  obtain ⟨t, ht, e⟩ := round_stop h.round hs
  rw [← e]
  exact h.starts ht

/-- two different segments are met -/
theorem parts_two {A B : List Seg} {s u s1 s2 u1 u2 : Seg} (hl : Round (s :: A ++ u :: B)) (hmem : ∀ t, t ∈ l ↔ t ∈ s :: A ++ u :: B)
    (ht : ∀ x, turns ((s :: A ++ u :: B).map curve) x = turns (l.map curve) x)
    (hcs : ∀ x, Covers s x → planar2 x c = r ^ 2 → x = p) (hcu : ∀ x, Covers u x → planar2 x c = r ^ 2 → x = q)
    (hco : ∀ t ∈ A ++ B, ∀ x, Covers t x → planar2 x c ≠ r ^ 2)
    (hs1 : s1.start = s.start) (hs2 : s1.stop = p) (hs3 : s2.start = p) (hs4 : s2.stop = s.stop) (hsp : Pieced s [s1, s2])
    (hu1 : u1.start = u.start) (hu2 : u1.stop = q) (hu3 : u2.start = q) (hu4 : u2.stop = u.stop) (hup : Pieced u [u1, u2]) :
    Parts l c r p q (s2 :: (A ++ [u1])) (u2 :: (B ++ [s1])) := by
  have ms : s ∈ l := (hmem s).2 (by simp)
  have mu : u ∈ l := (hmem u).2 (by simp)
  have mo : ∀ t ∈ A ++ B, t ∈ l := fun t ht => (hmem t).2 (by simp at ht ⊢; tauto)
  have fs : ∀ t ∈ [s1, s2], Fit t := hsp.fit
  have fu : ∀ t ∈ [u1, u2], Fit t := hup.fit
  have hall : ∀ t ∈ (s2 :: (A ++ [u1])) ++ (u2 :: (B ++ [s1])), t ∈ A ++ B ∨ t ∈ [s1, s2] ∨ t ∈ [u1, u2] := by
    intro t ht; simp at ht ⊢; tauto
  obtain ⟨a, hj⟩ := hl
  obtain ⟨b, ⟨e1, hA⟩, e2, hB⟩ := joined_append.1 hj
  refine ⟨?_, ?_, ?_, ?_, ?_, ?_, ?_, ?_⟩
  · intro t ht
    rcases hall t ht with ht | ht | ht
    · exact h.fit t (mo t ht)
    · exact fs t ht
    · exact fu t ht
  · exact ⟨hs3, joined_append.2 ⟨b, by rw [hs4]; exact hA, by rw [hu1]; exact e2, hu2⟩⟩
  · exact ⟨hu3, joined_append.2 ⟨a, by rw [hu4]; exact hB, by rw [hs1]; exact e1, hs2⟩⟩
  · intro x
    rw [← ht x]
    have w1 := hsp.wind x
    have w2 := hup.wind x
    simp only [List.map_cons, List.map_append, List.map_nil, turns_cons, turns_append, turns_nil, List.cons_append] at w1 w2 ⊢
    linarith
  · intro y
    constructor
    · rintro ⟨t, ht, hy⟩
      rcases hall t ht with ht | ht | ht
      · exact ⟨t, mo t ht, hy⟩
      · exact ⟨s, ms, (hsp.covers y).2 ⟨t, ht, hy⟩⟩
      · exact ⟨u, mu, (hup.covers y).2 ⟨t, ht, hy⟩⟩
    · rintro ⟨t, ht, hy⟩
      have ht := (hmem t).1 ht
      simp only [List.cons_append, List.mem_cons, List.mem_append] at ht
      rcases ht with rfl | ht | rfl | ht
      · obtain ⟨v, hv, hy⟩ := (hsp.covers y).1 hy
        exact ⟨v, by simp at hv ⊢; tauto, hy⟩
      · exact ⟨t, by simp; tauto, hy⟩
      · obtain ⟨v, hv, hy⟩ := (hup.covers y).1 hy
        exact ⟨v, by simp at hv ⊢; tauto, hy⟩
      · exact ⟨t, by simp; tauto, hy⟩
  · intro t ht
    have ne : ∀ {y : Point ℝ}, planar2 y c = r ^ 2 → ∀ v ∈ l, v.start ≠ y ∧ v.stop ≠ y := by
      intro y hy v hv
      exact ⟨fun e => h.starts hv (by rw [e]; exact hy), fun e => h.stops hv (by rw [e]; exact hy)⟩
    rcases hall t ht with ht | ht | ht
    · exact whole_side (h.fit t (mo t ht)) (hco t ht)
    · have hc : ∀ x, Covers t x → planar2 x c = r ^ 2 → x = p := fun x hx => hcs x ((hsp.covers x).2 ⟨t, ht, hx⟩)
      simp only [List.mem_cons, List.not_mem_nil, or_false] at ht
      rcases ht with rfl | rfl
      · exact piece_side (fs t (by simp)) (by rw [hs1, hs2]; exact (ne h.onP s ms).1) (fun x h1 h2 => Or.inr (by rw [hs2]; exact hc x h1 h2))
      · exact piece_side (fs t (by simp)) (by rw [hs3, hs4]; exact (ne h.onP s ms).2.symm) (fun x h1 h2 => Or.inl (by rw [hs3]; exact hc x h1 h2))
    · have hc : ∀ x, Covers t x → planar2 x c = r ^ 2 → x = q := fun x hx => hcu x ((hup.covers x).2 ⟨t, ht, hx⟩)
      simp only [List.mem_cons, List.not_mem_nil, or_false] at ht
      rcases ht with rfl | rfl
      · exact piece_side (fu t (by simp)) (by rw [hu1, hu2]; exact (ne h.onQ u mu).1) (fun x h1 h2 => Or.inr (by rw [hu2]; exact hc x h1 h2))
      · exact piece_side (fu t (by simp)) (by rw [hu3, hu4]; exact (ne h.onQ u mu).2.symm) (fun x h1 h2 => Or.inl (by rw [hu3]; exact hc x h1 h2))
  · intro t ht
    simp only [List.tail_cons, List.mem_append, List.mem_cons, List.not_mem_nil, or_false] at ht
    rcases ht with ht | rfl
    · exact h.starts (mo t (by simp [ht]))
    · rw [hu1]; exact h.starts mu
  · intro t ht
    simp only [List.tail_cons, List.mem_append, List.mem_cons, List.not_mem_nil, or_false] at ht
    rcases ht with ht | rfl
    · exact h.starts (mo t (by simp [ht]))
    · rw [hs1]; exact h.starts ms

/-- one segment is met twice: first in `u`, then in `v` -/
theorem parts_one {A : List Seg} {s s1 m s2 : Seg} {u v : Point ℝ} (hl : Round (s :: A)) (hmem : ∀ t, t ∈ l ↔ t ∈ s :: A)
    (ht : ∀ x, turns ((s :: A).map curve) x = turns (l.map curve) x) (hu : planar2 u c = r ^ 2) (hv : planar2 v c = r ^ 2)
    (huv : u ≠ v)
    (hcs : ∀ x, Covers s x → planar2 x c = r ^ 2 → x = u ∨ x = v)
    (hco : ∀ t ∈ A, ∀ x, Covers t x → planar2 x c ≠ r ^ 2)
    (e1 : s1.start = s.start) (e2 : s1.stop = u) (e3 : m.start = u) (e4 : m.stop = v) (e5 : s2.start = v)
    (e6 : s2.stop = s.stop) (hsp : Pieced s [s1, m, s2]) (ho1 : ¬ Covers s1 v) (ho2 : ¬ Covers s2 u) :
    Parts l c r u v [m] (s2 :: (A ++ [s1])) ∧ Parts l c r v u (s2 :: (A ++ [s1])) [m] := by
  have ms : s ∈ l := (hmem s).2 (by simp)
  have mo : ∀ t ∈ A, t ∈ l := fun t ht => (hmem t).2 (by simp [ht])
  have ne : ∀ {y : Point ℝ}, planar2 y c = r ^ 2 → ∀ v ∈ l, v.start ≠ y ∧ v.stop ≠ y := by
    intro y hy v hv
    exact ⟨fun e => h.starts hv (by rw [e]; exact hy), fun e => h.stops hv (by rw [e]; exact hy)⟩
  have fit : ∀ t, t ∈ A ∨ t ∈ [s1, m, s2] → Fit t := by
    rintro t (ht | ht)
    · exact h.fit t (mo t ht)
    · exact hsp.fit t ht
  have cov : ∀ y, (∃ t, (t ∈ A ∨ t ∈ [s1, m, s2]) ∧ Covers t y) ↔ ∃ s ∈ l, Covers s y := by
    intro y
    constructor
    · rintro ⟨t, ht | ht, hy⟩
      · exact ⟨t, mo t ht, hy⟩
      · exact ⟨s, ms, (hsp.covers y).2 ⟨t, ht, hy⟩⟩
    · rintro ⟨t, ht, hy⟩
      have ht := (hmem t).1 ht
      simp only [List.mem_cons] at ht
      rcases ht with rfl | ht
      · obtain ⟨v, hv, hy⟩ := (hsp.covers y).1 hy
        exact ⟨v, Or.inr hv, hy⟩
      · exact ⟨t, Or.inl ht, hy⟩
  have side : ∀ t, t ∈ A ∨ t ∈ [s1, m, s2] → Sided (plane c) r (curve t) := by
    rintro t (ht | ht)
    · exact whole_side (fit t (Or.inl ht)) (hco t ht)
    · have hc : ∀ x, Covers t x → planar2 x c = r ^ 2 → x = u ∨ x = v := fun x hx => hcs x ((hsp.covers x).2 ⟨t, ht, hx⟩)
      have ft := fit t (Or.inr ht)
      simp only [List.mem_cons, List.not_mem_nil, or_false] at ht
      rcases ht with rfl | rfl | rfl
      · refine piece_side ft (by rw [e1, e2]; exact (ne hu s ms).1) fun x h1 h2 => Or.inr ?_
        rw [e2]
        rcases hc x h1 h2 with e | rfl
        · exact e
        · exact absurd h1 ho1
      · refine piece_side ft (by rw [e3, e4]; exact huv) fun x h1 h2 => ?_
        rw [e3, e4]
        exact hc x h1 h2
      · refine piece_side ft (by rw [e5, e6]; exact (ne hv s ms).2.symm) fun x h1 h2 => Or.inl ?_
        rw [e5]
        rcases hc x h1 h2 with rfl | e
        · exact absurd h1 ho2
        · exact e
  have tail : ∀ t ∈ (s2 :: (A ++ [s1])).tail, planar2 t.start c ≠ r ^ 2 := by
    intro t ht
    simp only [List.tail_cons, List.mem_append, List.mem_cons, List.not_mem_nil, or_false] at ht
    rcases ht with ht | rfl
    · exact h.starts (mo t ht)
    · rw [e1]; exact h.starts ms
  obtain ⟨a, f1, f2⟩ := hl
  have jG : Joined v (s2 :: (A ++ [s1])) u := ⟨e5, joined_append.2 ⟨a, by rw [e6]; exact f2, by rw [e1]; exact f1, e2⟩⟩
  have jF : Joined u [m] v := ⟨e3, e4⟩
  have tn : ∀ x, Turn.turns (([m] ++ s2 :: (A ++ [s1])).map curve) x = Turn.turns (l.map curve) x := by
    intro x
    rw [← ht x]
    have w1 := hsp.wind x
    simp only [List.map_cons, List.map_append, List.map_nil, turns_cons, turns_append, turns_nil] at w1 ⊢
    linarith
  have tn' : ∀ x, Turn.turns (((s2 :: (A ++ [s1])) ++ [m]).map curve) x = Turn.turns (l.map curve) x := by
    intro x
    rw [← tn x]
    simp only [List.map_append, turns_append]
    ring
  refine ⟨⟨?_, jF, jG, tn, ?_, ?_, by simp, tail⟩, ⟨?_, jG, jF, tn', ?_, ?_, tail, by simp⟩⟩
  · intro t ht; exact fit t (by simp at ht ⊢; tauto)
  · intro y; rw [← cov y]
    constructor <;> rintro ⟨t, ht, hy⟩ <;> exact ⟨t, by simp at ht ⊢; tauto, hy⟩
  · intro t ht; exact side t (by simp at ht ⊢; tauto)
  · intro t ht; exact fit t (by simp at ht ⊢; tauto)
  · intro y; rw [← cov y]
    constructor <;> rintro ⟨t, ht, hy⟩ <;> exact ⟨t, by simp at ht ⊢; tauto, hy⟩
  · intro t ht; exact side t (by simp at ht ⊢; tauto)

end
end Iges.Turn
