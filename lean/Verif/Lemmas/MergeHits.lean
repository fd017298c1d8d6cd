import Verif.Lemmas.MergeSplit
import Verif.Spec.Merged
/-
The common points of two outlines, as `opOutline` collects them.
-/
namespace Iges.Turn
open Iges.Geo Spec Props

/-- the result is true or there are no points -/
def Honest (h : Geo.Hits) : Prop := h.ret = true ∨ h.pts = []

theorem honest_ite {c : Prop} {inst : Decidable c} {a b : Geo.Hits} (ha : Honest a) (hb : Honest b) : Honest (if c then a else b) := by
  split
  · exact ha
  · exact hb

theorem ret_arcs (s t : Seg) : Honest (checkArcs s t) := by
  unfold checkArcs
  extract_lets
  repeat' (first | exact Or.inl rfl | exact Or.inr rfl | apply honest_ite)

theorem ret_lines (s t : Seg) : Honest (checkLines s t) := by
  unfold checkLines
  extract_lets
  repeat' (first | exact Or.inl rfl | exact Or.inr rfl | apply honest_ite)

theorem ret_arcLine (s t : Seg) : Honest (checkArcLine s t) := by
  have h1 : ∀ q rest, Honest (pickCircle q rest) := by
    intro q rest
    unfold pickCircle
    split
    · exact Or.inl rfl
    · extract_lets
      repeat' (first | exact Or.inl rfl | exact Or.inr rfl | apply honest_ite)
  have h2 : ∀ aS T q rest on, Honest (pickArc aS T q rest on) := by
    intro aS T q rest on
    unfold pickArc
    split
    · exact Or.inr rfl
    · refine honest_ite (Or.inl rfl) ?_
      split
      · extract_lets
        repeat' (first | exact Or.inl rfl | exact Or.inr rfl | apply honest_ite)
      · exact Or.inl rfl
  have h3 : ∀ a b c d e f g, Honest (arcLine a b c d e f g) := by
    intro a b c d e f g
    unfold arcLine
    extract_lets
    refine honest_ite (honest_ite (Or.inr rfl) (Or.inl rfl)) (honest_ite (Or.inr rfl) ?_)
    rename_i cands
    generalize cands = cs
    split
    · exact Or.inr rfl
    · exact honest_ite (h1 _ _) (h2 _ _ _ _ _)
  unfold checkArcLine
  exact honest_ite (h3 _ _ _ _ _ _ _) (h3 _ _ _ _ _ _ _)

/-- points come only with the result true -/
theorem pts_ret {s t : Seg} (hs : s.kind = .line ∨ s.kind = .arc) (ht : t.kind = .line ∨ t.kind = .arc) {x : Point ℝ}
    (hx : x ∈ (intersections s t).pts) : (intersections s t).ret = true := by
  have key : ∀ h : Geo.Hits, (h.ret = true ∨ h.pts = []) → x ∈ h.pts → h.ret = true := by
    intro h hh hx
    rcases hh with hh | hh
    · exact hh
    · rw [hh] at hx; simp at hx
  refine key _ ?_ hx
  have l1 := fun s t => ret_lines s t
  have l2 := fun s t => ret_arcs s t
  have l3 := fun s t => ret_arcLine s t
  unfold intersections
  rcases hs with k | k <;> rcases ht with k' | k' <;> rw [k, k'] <;> simp only
  · exact l1 s t
  · exact l3 s t
  · exact l3 s t
  · exact l2 s t

/-- where a kept point comes from: before it there is no entry for the same point, if only equal points match -/
theorem distinct_lead {α : Type} {acc l : List (Point ℝ × α)} {x : Point ℝ × α} (h : x ∈ distinct acc l) (hx : x ∉ acc)
    (hm : ∀ y ∈ acc ++ l, ∀ z ∈ acc ++ l, PointMatches y.1 z.1 1e-8 = true → y.1 = z.1) :
    (∀ y ∈ acc, y.1 ≠ x.1) ∧ ∃ X Y, l = X ++ x :: Y ∧ ∀ y ∈ X, y.1 ≠ x.1 := by
  induction l generalizing acc with
  | nil => exact absurd h hx
  | cons z l ih =>
    unfold distinct at h
    split at h
    · rename_i hz
      obtain ⟨y, hy, hyz⟩ := List.any_eq_true.1 hz
      obtain ⟨h1, X, Y, rfl, h2⟩ := ih h hx (fun a ha b hb => hm a (by simp at ha ⊢; tauto) b (by simp at hb ⊢; tauto))
      refine ⟨h1, z :: X, Y, rfl, ?_⟩
      intro w hw
      rcases List.mem_cons.1 hw with rfl | hw
      · rw [← hm y (by simp [hy]) w (by simp) hyz]
        exact h1 y hy
      · exact h2 w hw
    · rename_i hz
      by_cases hzx : x = z
      · subst hzx
        refine ⟨?_, [], l, rfl, by simp⟩
        intro y hy e
        exact hz (List.any_eq_true.2 ⟨y, hy, by rw [e]; exact C51_reflexive _ _⟩)
      · obtain ⟨h1, X, Y, rfl, h2⟩ := ih h (by simp [hx, hzx])
          (fun a ha b hb => hm a (by simp at ha ⊢; tauto) b (by simp at hb ⊢; tauto))
        refine ⟨fun y hy => h1 y (by simp [hy]), z :: X, Y, rfl, ?_⟩
        intro w hw
        rcases List.mem_cons.1 hw with rfl | hw
        · exact h1 w (by simp)
        · exact h2 w hw

/-- the first entry of a point that a segment has in common with the segments of the argument names the right one -/
theorem pairHits_lead {s : Seg} {opsub : Bool} {i j : ℕ} {acc : List (Point ℝ)} {rest : List Seg} {l : List (Point ℝ × ℕ × ℕ)}
    (hk : ∀ t ∈ rest, (intersections s t).ret = false → (intersections s t).pts = [])
    (h : pairHits s opsub i acc j rest = .points l) {x : Point ℝ} {n m : ℕ} {X Y : List (Point ℝ × ℕ × ℕ)}
    (hl : l = X ++ (x, n, m) :: Y) (hX : ∀ y ∈ X, y.1 ≠ x) (hacc : x ∉ acc) :
    n = i ∧ ∃ k t, m = j + k ∧ rest[k]? = some t ∧ (intersections s t).ret = true ∧ x ∈ (intersections s t).pts := by
  induction rest generalizing acc j l X with
  | nil =>
    simp only [pairHits, Found.points.injEq] at h
    rw [hl] at h; simp at h
  | cons t rest ih =>
    unfold pairHits at h
    simp only at h
    have next : ∀ {k : ℕ} {t' : Seg}, rest[k]? = some t' → (t :: rest)[k + 1]? = some t' := fun h => by simpa using h
    have hk' : ∀ t ∈ rest, (intersections s t).ret = false → (intersections s t).pts = [] := fun t ht => hk t (by simp [ht])
    split at h
    · rename_i hret
      split at h
      · cases h
      split at h
      · rename_i l' hl'
        simp only [Found.points.injEq] at h
        rw [hl] at h
        rcases List.append_eq_append_iff.1 h.symm with ⟨as, h1, h2⟩ | ⟨bs, h1, h2⟩
        · cases as with
          | nil =>
            simp only [List.nil_append] at h2
            simp only [List.append_nil] at h1
            by_cases hx : x ∈ acc ++ (intersections s t).pts
            · exfalso
              have : (x, i, j) ∈ X := by rw [← h1]; exact List.mem_map.2 ⟨x, hx, rfl⟩
              exact hX _ this rfl
            · obtain ⟨e, k, t', e1, e2, e3⟩ := ih hk' hl' (X := []) (by simpa using h2.symm) (by simp) hx
              exact ⟨e, k + 1, t', by omega, next e2, e3⟩
          | cons a as =>
            simp only [List.cons_append, List.cons.injEq] at h2
            obtain ⟨rfl, h2⟩ := h2
            have hmem : (x, n, m) ∈ List.map (fun p => (p, i, j)) (acc ++ (intersections s t).pts) := by rw [h1]; simp
            obtain ⟨y, hy, e⟩ := List.mem_map.1 hmem
            simp only [Prod.mk.injEq] at e
            obtain ⟨rfl, rfl, rfl⟩ := e
            refine ⟨rfl, 0, t, rfl, rfl, hret, ?_⟩
            rcases List.mem_append.1 hy with hy | hy
            · exact absurd hy hacc
            · exact hy
        · have hx : x ∉ acc ++ (intersections s t).pts := by
            intro hx
            have : (x, i, j) ∈ X := by rw [h1]; simp only [List.mem_append]; left; exact List.mem_map.2 ⟨x, hx, rfl⟩
            exact hX _ this rfl
          obtain ⟨e, k, t', e1, e2, e3⟩ := ih hk' hl' (X := bs) h2 (fun y hy => hX y (by rw [h1]; simp [hy])) hx
          exact ⟨e, k + 1, t', by omega, next e2, e3⟩
      · rename_i hne
        rw [h] at hne
        exact absurd rfl (hne l)
    · rename_i hret
      split at h
      · rw [hk t (by simp) (by simpa using hret), List.append_nil] at h
        obtain ⟨e, k, t', e1, e2, e3⟩ := ih hk' h hl hX hacc
        exact ⟨e, k + 1, t', by omega, next e2, e3⟩
      · split at h <;> cases h

/-- every common point of a segment is entered -/
theorem pairHits_complete {s : Seg} {opsub : Bool} {i j : ℕ} {acc : List (Point ℝ)} {rest : List Seg} {l : List (Point ℝ × ℕ × ℕ)}
    (h : pairHits s opsub i acc j rest = .points l) {k : ℕ} {t : Seg} (ht : rest[k]? = some t)
    (hret : (intersections s t).ret = true) {x : Point ℝ} (hx : x ∈ (intersections s t).pts) : (x, i, j + k) ∈ l := by
  induction rest generalizing acc j l k with
  | nil => simp at ht
  | cons u rest ih =>
    unfold pairHits at h
    simp only at h
    split at h
    · split at h
      · cases h
      split at h
      · rename_i l' hl'
        simp only [Found.points.injEq] at h
        rw [← h, List.mem_append]
        cases k with
        | zero =>
          simp only [List.getElem?_cons_zero, Option.some.injEq] at ht
          subst ht
          left
          exact List.mem_map.2 ⟨x, by simp [hx], rfl⟩
        | succ k =>
          right
          have := ih hl' (by simpa using ht)
          rwa [show j + (k + 1) = j + 1 + k by omega]
      · rename_i hne
        rw [h] at hne
        exact absurd rfl (hne l)
    · rename_i hr
      split at h
      · cases k with
        | zero =>
          simp only [List.getElem?_cons_zero, Option.some.injEq] at ht
          subst ht
          exact absurd hret hr
        | succ k =>
          have := ih h (by simpa using ht)
          rwa [show j + (k + 1) = j + 1 + k by omega]
      · split at h <;> cases h

/-- every entry is a common point of its segment of the outline with some segment of the argument -/
theorem pairHits_sound {s : Seg} {opsub : Bool} {i j : ℕ} {acc : List (Point ℝ)} {rest : List Seg} {l : List (Point ℝ × ℕ × ℕ)}
    (h : pairHits s opsub i acc j rest = .points l) {y : Point ℝ × ℕ × ℕ} (hy : y ∈ l) :
    y.2.1 = i ∧ (y.1 ∈ acc ∨ ∃ t ∈ rest, y.1 ∈ (intersections s t).pts) := by
  induction rest generalizing acc j l with
  | nil =>
    simp only [pairHits, Found.points.injEq] at h
    subst h; simp at hy
  | cons u rest ih =>
    unfold pairHits at h
    simp only at h
    have next : ∀ {l j}, pairHits s opsub i (acc ++ (intersections s u).pts) j rest = .points l → y ∈ l →
        y.2.1 = i ∧ (y.1 ∈ acc ∨ ∃ t ∈ u :: rest, y.1 ∈ (intersections s t).pts) := by
      intro l j h hy
      obtain ⟨h1, h2⟩ := ih h hy
      refine ⟨h1, ?_⟩
      rcases h2 with h2 | ⟨t, ht, h2⟩
      · rcases List.mem_append.1 h2 with h2 | h2
        · exact Or.inl h2
        · exact Or.inr ⟨u, by simp, h2⟩
      · exact Or.inr ⟨t, by simp [ht], h2⟩
    split at h
    · split at h
      · cases h
      split at h
      · rename_i l' hl'
        simp only [Found.points.injEq] at h
        rw [← h, List.mem_append] at hy
        rcases hy with hy | hy
        · obtain ⟨x, hx, rfl⟩ := List.mem_map.1 hy
          refine ⟨rfl, ?_⟩
          rcases List.mem_append.1 hx with hx | hx
          · exact Or.inl hx
          · exact Or.inr ⟨u, by simp, hx⟩
        · exact next hl' hy
      · rename_i hne
        rw [h] at hne
        exact absurd rfl (hne l)
    · split at h
      · exact next h hy
      · split at h <;> cases h

theorem shapeHits_cons {m : List Seg} {opsub : Bool} {i : ℕ} {s : Seg} {rest : List Seg} {hits : List (Point ℝ × ℕ × ℕ)}
    (h : shapeHits m opsub i (s :: rest) = .points hits) :
    ∃ l r, pairHits s opsub i [] 0 m = .points l ∧ shapeHits m opsub (i + 1) rest = .points r ∧ hits = l ++ r := by
  unfold shapeHits at h
  split at h
  · rename_i l hl
    split at h
    · rename_i r hr
      simp only [Found.points.injEq] at h
      exact ⟨l, r, hl, hr, h.symm⟩
    · rename_i hne
      rw [h] at hne
      exact absurd rfl (hne hits)
  · rename_i hne
    rw [h] at hne
    exact absurd rfl (hne hits)

theorem shapeHits_lead {m : List Seg} {opsub : Bool} {i : ℕ} {l : List Seg} {hits : List (Point ℝ × ℕ × ℕ)}
    (hk : ∀ s ∈ l, ∀ t ∈ m, (intersections s t).ret = false → (intersections s t).pts = [])
    (h : shapeHits m opsub i l = .points hits) {x : Point ℝ} {n k : ℕ} {X Y : List (Point ℝ × ℕ × ℕ)}
    (hl : hits = X ++ (x, n, k) :: Y) (hX : ∀ y ∈ X, y.1 ≠ x) :
    ∃ n' s t, n = i + n' ∧ l[n']? = some s ∧ m[k]? = some t ∧ (intersections s t).ret = true ∧ x ∈ (intersections s t).pts := by
  induction l generalizing i hits X Y with
  | nil =>
    simp only [shapeHits, Found.points.injEq] at h
    rw [hl] at h; simp at h
  | cons s l ih =>
    obtain ⟨a, r, ha, hr, e⟩ := shapeHits_cons h
    rw [hl] at e
    have lead : ∀ {X' Y'}, a = X' ++ (x, n, k) :: Y' → (∀ y ∈ X', y.1 ≠ x) →
        ∃ n' s' t, n = i + n' ∧ (s :: l)[n']? = some s' ∧ m[k]? = some t ∧ (intersections s' t).ret = true ∧
          x ∈ (intersections s' t).pts := by
      intro X' Y' e hX'
      obtain ⟨e1, k', t, e2, e3, e4, e5⟩ := pairHits_lead (fun t ht => hk s (by simp) t ht) ha e hX' (by simp)
      obtain rfl : k = k' := by omega
      exact ⟨0, s, t, e1, rfl, e3, e4, e5⟩
    have later : ∀ {X' Y'}, r = X' ++ (x, n, k) :: Y' → (∀ y ∈ X', y.1 ≠ x) →
        ∃ n' s' t, n = i + n' ∧ (s :: l)[n']? = some s' ∧ m[k]? = some t ∧ (intersections s' t).ret = true ∧
          x ∈ (intersections s' t).pts := by
      intro X' Y' e hX'
      obtain ⟨n', s', t, e1, e2, e3⟩ := ih (fun s hs => hk s (by simp [hs])) hr e hX'
      exact ⟨n' + 1, s', t, by omega, by simpa using e2, e3⟩
    rcases List.append_eq_append_iff.1 e with ⟨as, h1, h2⟩ | ⟨bs, h1, h2⟩
    · cases as with
      | nil => exact later (X' := []) (by simpa using h2.symm) (by simp)
      | cons b as =>
        simp only [List.cons_append, List.cons.injEq] at h2
        obtain ⟨rfl, h2⟩ := h2
        exact lead h1 hX
    · exact later h2 (fun y hy => hX y (by rw [h1]; simp [hy]))

theorem shapeHits_complete {m : List Seg} {opsub : Bool} {i : ℕ} {l : List Seg} {hits : List (Point ℝ × ℕ × ℕ)}
    (h : shapeHits m opsub i l = .points hits) {n k : ℕ} {s t : Seg} (hs : l[n]? = some s) (ht : m[k]? = some t)
    (hret : (intersections s t).ret = true) {x : Point ℝ} (hx : x ∈ (intersections s t).pts) : (x, i + n, k) ∈ hits := by
  induction l generalizing i hits n with
  | nil => simp at hs
  | cons u l ih =>
    obtain ⟨a, r, ha, hr, rfl⟩ := shapeHits_cons h
    rw [List.mem_append]
    cases n with
    | zero =>
      simp only [List.getElem?_cons_zero, Option.some.injEq] at hs
      subst hs
      left
      simpa using pairHits_complete ha ht hret hx
    | succ n =>
      right
      have := ih hr (by simpa using hs)
      rwa [show i + (n + 1) = i + 1 + n by omega]

theorem shapeHits_sound {m : List Seg} {opsub : Bool} {i : ℕ} {l : List Seg} {hits : List (Point ℝ × ℕ × ℕ)}
    (h : shapeHits m opsub i l = .points hits) {y : Point ℝ × ℕ × ℕ} (hy : y ∈ hits) :
    ∃ s ∈ l, ∃ t ∈ m, y.1 ∈ (intersections s t).pts := by
  induction l generalizing i hits with
  | nil =>
    simp only [shapeHits, Found.points.injEq] at h
    subst h; simp at hy
  | cons u l ih =>
    obtain ⟨a, r, ha, hr, rfl⟩ := shapeHits_cons h
    rcases List.mem_append.1 hy with hy | hy
    · obtain ⟨-, h2⟩ := pairHits_sound ha hy
      rcases h2 with h2 | ⟨t, ht, h2⟩
      · simp at h2
      · exact ⟨u, by simp, t, ht, h2⟩
    · obtain ⟨s, hs, h2⟩ := ih hr hy
      exact ⟨s, by simp [hs], h2⟩

/-- the two points of two outlines that cross in two points -/
theorem cross_points {l m : List Seg} {opsub : Bool} {hits : List (Point ℝ × ℕ × ℕ)} {p q : Point ℝ × ℕ × ℕ}
    (hfl : ∀ s ∈ l, Fit s) (hfm : ∀ s ∈ m, Fit s) (rl : Round l) (rm : Round m) (hx : Crosses l m)
    (h : shapeHits m opsub 0 l = .points hits) (hd : distinct [] hits = [p, q]) :
    (∀ x, Shared l m x ↔ x = p.1 ∨ x = q.1) ∧ PointMatches p.1 q.1 1e-8 = false ∧
    (∃ s, Lone p.1 l p.2.1 s) ∧ (∃ s, Lone q.1 l q.2.1 s) ∧ (∃ s, Lone p.1 m p.2.2 s) ∧ ∃ s, Lone q.1 m q.2.2 s := by
  have hk : ∀ s ∈ l, ∀ t ∈ m, (intersections s t).ret = false → (intersections s t).pts = [] := by
    intro s hs t ht hr
    refine List.eq_nil_iff_forall_not_mem.2 fun x hx => ?_
    rw [pts_ret (hfl s hs).kind (hfm t ht).kind hx] at hr; cases hr
  have sh : ∀ y ∈ hits, Shared l m y.1 := by
    intro y hy
    obtain ⟨s, hs, t, ht, hp⟩ := shapeHits_sound h hy
    obtain ⟨c1, c2⟩ := (hx.found s hs t ht _).2 ⟨pts_ret (hfl s hs).kind (hfm t ht).kind hp, hp⟩
    exact ⟨⟨s, hs, c1⟩, t, ht, c2⟩
  have mem : ∀ y ∈ [p, q], y ∈ hits := by
    intro y hy
    rw [← hd] at hy
    simpa using distinct_sub [] hits y hy
  have lone : ∀ y ∈ [p, q], Shared l m y.1 ∧ (∃ s, Lone y.1 l y.2.1 s) ∧ ∃ s, Lone y.1 m y.2.2 s := by
    intro y hy
    have hs := sh y (mem y hy)
    rw [← hd] at hy
    obtain ⟨-, X, Y, e, hX⟩ := distinct_lead hy (by simp) (fun a ha b hb hab => by
      simp only [List.nil_append] at ha hb
      exact hx.apart _ _ (sh a ha) (sh b hb) hab)
    obtain ⟨y1, n, k⟩ := y
    obtain ⟨n', s, t, e1, e2, e3, e4⟩ := shapeHits_lead hk h e hX
    rw [zero_add] at e1
    subst e1
    have sl := List.mem_of_getElem? e2
    have tm := List.mem_of_getElem? e3
    obtain ⟨c1, c2⟩ := (hx.found s sl t tm _).2 e4
    have lone' : ∀ {l' : List Seg} {i : ℕ} {u : Seg}, Round l' → (∀ s ∈ l', s ∈ l ++ m) → l'[i]? = some u → Covers u y1 →
        (l'.Pairwise fun s t => ¬ (Covers s y1 ∧ Covers t y1)) → Lone y1 l' i u := by
      intro l' i u hr hsub hi hc hp
      have ul := List.mem_of_getElem? hi
      refine ⟨hi, hc, hx.corner u (hsub u ul) _ hs, ?_, ?_⟩
      · obtain ⟨v, hv, e⟩ := round_stop hr ul
        rw [← e]; exact hx.corner v (hsub v hv) _ hs
      · intro a v ha hv
        by_contra hne
        obtain ⟨la, rfl⟩ := List.getElem?_eq_some_iff.1 ha
        obtain ⟨li, rfl⟩ := List.getElem?_eq_some_iff.1 hi
        have := List.pairwise_iff_getElem.1 hp
        rcases lt_or_gt_of_ne hne with e | e
        · exact this a i la li e ⟨hv, hc⟩
        · exact this i a li la e ⟨hc, hv⟩
    exact ⟨hs, ⟨s, lone' rl (fun s hs => by simp [hs]) e2 c1 (hx.single _ hs).1⟩,
      t, lone' rm (fun s hs => by simp [hs]) e3 c2 (hx.single _ hs).2⟩
  obtain ⟨p1, p2, p3⟩ := lone p (by simp)
  obtain ⟨q1, q2, q3⟩ := lone q (by simp)
  refine ⟨?_, ?_, p2, q2, p3, q3⟩
  · intro x
    constructor
    · rintro ⟨⟨s, hs, c1⟩, t, ht, c2⟩
      obtain ⟨n, hn⟩ := List.mem_iff_getElem?.1 hs
      obtain ⟨k, hk'⟩ := List.mem_iff_getElem?.1 ht
      obtain ⟨r1, r2⟩ := (hx.found s hs t ht x).1 ⟨c1, c2⟩
      obtain ⟨y, hy, hyx⟩ := distinct_complete [] hits _ (Or.inr (shapeHits_complete h hn hk' r1 r2))
      rw [hd] at hy
      have := hx.apart _ _ (lone y hy).1 ⟨⟨s, hs, c1⟩, t, ht, c2⟩ hyx
      simp only [List.mem_cons, List.not_mem_nil, or_false] at hy
      rcases hy with rfl | rfl
      · exact Or.inl this.symm
      · exact Or.inr this.symm
    · rintro (rfl | rfl)
      · exact p1
      · exact q1
  · have := distinct_pairwise [] hits List.Pairwise.nil
    rw [hd] at this
    simpa using this

end Iges.Turn
