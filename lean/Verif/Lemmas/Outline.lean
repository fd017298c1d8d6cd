import Verif.Props.Segment
import Verif.Spec.Outline
/- Invariant of an outline that is drawn segment by segment. -/
namespace Iges.Geo
open Spec Iges.Props

theorem box_some {s : Seg} (h : s.kind ≠ .none) : ∃ b, s.box = some b := by
  unfold Seg.box
  split
  · contradiction
  · split
    · split <;> exact ⟨_, rfl⟩
    · exact ⟨_, rfl⟩
  · exact ⟨_, rfl⟩
  · exact ⟨_, rfl⟩

theorem boxOr_eq {s : Seg} {b : Point ℝ × Point ℝ} (h : s.box = some b) (lo hi : Point ℝ) : boxOr s lo hi = b := by
  unfold boxOr; rw [h]; rfl

/-- The corners are the least and the greatest ones of the boxes of the segments. -/
structure HullOf (l : List Seg) (lo hi : Point ℝ) : Prop where
  inside : ∀ s ∈ l, ∀ b, s.box = some b → lo.x ≤ b.1.x ∧ lo.y ≤ b.1.y ∧ b.2.x ≤ hi.x ∧ b.2.y ≤ hi.y
  left : ∃ s ∈ l, ∃ b, s.box = some b ∧ b.1.x = lo.x
  bottom : ∃ s ∈ l, ∃ b, s.box = some b ∧ b.1.y = lo.y
  right : ∃ s ∈ l, ∃ b, s.box = some b ∧ b.2.x = hi.x
  top : ∃ s ∈ l, ∃ b, s.box = some b ∧ b.2.y = hi.y

theorem HullOf.one {s : Seg} {b : Point ℝ × Point ℝ} (h : s.box = some b) : HullOf [s] b.1 b.2 := by
  have hs : s ∈ [s] := by simp
  refine ⟨?_, ⟨s, hs, b, h, rfl⟩, ⟨s, hs, b, h, rfl⟩, ⟨s, hs, b, h, rfl⟩, ⟨s, hs, b, h, rfl⟩⟩
  intro t ht c hc
  simp at ht
  subst ht
  rw [h] at hc
  injection hc with hc
  subst hc
  simp

theorem HullOf.snoc {l : List Seg} {lo hi : Point ℝ} (hl : HullOf l lo hi) {s : Seg} {b : Point ℝ × Point ℝ}
    (h : s.box = some b) : HullOf (l ++ [s]) (joinBox lo hi b).1 (joinBox lo hi b).2 := by
  have hs : s ∈ l ++ [s] := by simp
  have up : ∀ {P : Seg → Prop}, (∃ t ∈ l, P t) → ∃ t ∈ l ++ [s], P t :=
    fun ⟨t, ht, hp⟩ => ⟨t, by simp [ht], hp⟩
  unfold joinBox
  refine ⟨?_, ?_, ?_, ?_, ?_⟩
  · intro t ht c hc
    simp only
    rcases List.mem_append.1 ht with ht | ht
    · obtain ⟨h1, h2, h3, h4⟩ := hl.inside t ht c hc
      refine ⟨?_, ?_, ?_, ?_⟩ <;> split <;> linarith
    · simp at ht
      subst ht
      rw [h] at hc
      injection hc with hc
      subst hc
      refine ⟨?_, ?_, ?_, ?_⟩ <;> split <;> linarith
  · by_cases c : b.1.x < lo.x
    · exact ⟨s, hs, b, h, by simp [c]⟩
    · simp only [c, if_false]; exact up hl.left
  · by_cases c : b.1.y < lo.y
    · exact ⟨s, hs, b, h, by simp [c]⟩
    · simp only [c, if_false]; exact up hl.bottom
  · by_cases c : b.2.x > hi.x
    · exact ⟨s, hs, b, h, by simp [c]⟩
    · simp only [c, if_false]; exact up hl.right
  · by_cases c : b.2.y > hi.y
    · exact ⟨s, hs, b, h, by simp [c]⟩
    · simp only [c, if_false]; exact up hl.top

theorem chained_snoc (l : List Seg) (s : Seg) :
    Chained (l ++ [s]) ↔ Chained l ∧ ∀ e, l.getLast? = some e → PointMatches e.stop s.start 1e-8 = true := by
  induction l with
  | nil => simp [Chained]
  | cons a l ih =>
    cases l with
    | nil => simp [Chained]
    | cons b l =>
      simp only [List.cons_append, Chained] at ih ⊢
      rw [ih]
      simp [and_assoc]

/-- The segments are lines and arcs. -/
def Pieces (l : List Seg) : Prop := ∀ s ∈ l, s.kind = .line ∨ s.kind = .arc

theorem chained_reverse {l : List Seg} (hp : Pieces l) (h : Chained l) : Chained (l.map Seg.reverse).reverse := by
  induction l with
  | nil => simp [Chained]
  | cons a l ih =>
    rw [List.map_cons, List.reverse_cons, chained_snoc]
    have hl : Chained l := by
      cases l with
      | nil => trivial
      | cons b l => exact h.2
    refine ⟨ih (fun s hs => hp s (by simp [hs])) hl, ?_⟩
    intro e he
    cases l with
    | nil => simp at he
    | cons b l =>
      simp at he
      subst he
      rw [((C61_reverse_ends b).1 (hp b (by simp))).2, ((C61_reverse_ends a).1 (hp a (by simp))).1, C51_symmetric]
      exact h.1

theorem endsMeet_reverse {l : List Seg} (hp : Pieces l) (h : EndsMeet l) : EndsMeet (l.map Seg.reverse).reverse := by
  obtain ⟨f, e, hf, he, hm⟩ := h
  refine ⟨e.reverse, f.reverse, ?_, ?_, ?_⟩
  · simp [List.head?_reverse, he]
  · simp [List.getLast?_reverse, hf]
  · rw [((C61_reverse_ends f).1 (hp f (List.mem_of_mem_head? hf))).2,
      ((C61_reverse_ends e).1 (hp e (List.mem_of_getLast? he))).1, C51_symmetric]
    exact hm

theorem pieces_reverse {l : List Seg} (hp : Pieces l) : Pieces (l.map Seg.reverse) := by
  intro s hs
  obtain ⟨t, ht, rfl⟩ := List.mem_map.1 hs
  rw [(C61_reverse_ends t).2.1]
  exact hp t ht

/-- what turning a closed outline round keeps -/
theorem orient_ok {l : List Seg} (hp : Pieces l) (hc : Chained l) (he : EndsMeet l) (h2 : 2 ≤ l.length) (w : ℝ) :
    Pieces (orient l w) ∧ Chained (orient l w) ∧ EndsMeet (orient l w) ∧ (orient l w).length = l.length := by
  unfold orient
  split
  · split
    · rename_i hl
      obtain ⟨a, b, rfl⟩ := List.length_eq_two.1 hl
      obtain ⟨f, e, hf, hg, hm⟩ := he
      simp at hf hg
      subst hf hg
      have ra := (C61_reverse_ends a).1 (hp a (by simp))
      have rb := (C61_reverse_ends b).1 (hp b (by simp))
      refine ⟨pieces_reverse hp, ⟨?_, trivial⟩, ⟨a.reverse, b.reverse, by simp, by simp, ?_⟩, by simp⟩
      · rw [ra.2, rb.1, C51_symmetric]; exact hm
      · rw [ra.1, rb.2, C51_symmetric]; exact hc.1
    · refine ⟨?_, chained_reverse hp hc, endsMeet_reverse hp he, by simp⟩
      intro s hs
      exact pieces_reverse hp s (List.mem_reverse.1 hs)
  · exact ⟨hp, hc, he, rfl⟩

/-- the state of an outline after the segments `l` have been accepted -/
inductive State (l : List Seg) (o : Outline) : Prop where
  | empty : l = [] → o.segs = [] → o.closed = false → o.winding = 0 → State l o
  | circle (s : Seg) (b : Point ℝ × Point ℝ) : l = [s] → s.kind = .circle → o.segs = [s] → o.closed = true →
      s.box = some b → (o.lo, o.hi) = adjustBox b.1 b.2 → State l o
  | drawing : l ≠ [] → Pieces l → Chained l → o.segs = l → o.closed = false →
      o.winding = (l.map windingOf).sum → HullOf l o.lo o.hi → (2 ≤ l.length → ¬ EndsMeet l) → State l o
  | done (lo hi : Point ℝ) : Pieces l → Chained l → 2 ≤ l.length → EndsMeet l →
      o.segs = orient l (l.map windingOf).sum → o.closed = true →
      HullOf l lo hi → (o.lo, o.hi) = adjustBox lo hi → State l o

theorem windingSum_snoc (l : List Seg) (s : Seg) :
    ((l ++ [s]).map windingOf).sum = (l.map windingOf).sum + windingOf s := by simp

theorem addPiece_state {l : List Seg} {o : Outline} {s : Seg} (hs : s.kind = .line ∨ s.kind = .arc)
    (h : (l = [] ∧ o.segs = [] ∧ o.closed = false ∧ o.winding = 0) ∨
      (l ≠ [] ∧ Pieces l ∧ Chained l ∧ o.segs = l ∧ o.closed = false ∧ o.winding = (l.map windingOf).sum ∧
        HullOf l o.lo o.hi ∧ ∀ e, l.getLast? = some e → PointMatches e.stop s.start 1e-8 = true)) :
    State (l ++ [s]) (addPiece o s) := by
  have hk : s.kind ≠ .none := by rcases hs with h | h <;> simp [h]
  obtain ⟨b, hb⟩ := box_some hk
  rcases h with ⟨rfl, h1, h2, h3⟩ | ⟨hne, hp, hc, h1, h2, h3, hh, hj⟩
  · refine .drawing (by simp) (by intro t ht; simp at ht; rwa [ht]) trivial ?_ ?_ ?_ ?_ (by simp)
    all_goals unfold addPiece; simp only [h1, if_true, boxOr_eq hb]
    · exact h2
    · simp [h3]
    · exact HullOf.one hb
  · obtain ⟨f, l', rfl⟩ := List.exists_cons_of_ne_nil hne
    have hp' : Pieces (f :: l' ++ [s]) := by
      intro t ht
      rcases List.mem_append.1 ht with ht | ht
      · exact hp t ht
      · simp at ht; rwa [ht]
    have hc' : Chained (f :: l' ++ [s]) := (chained_snoc _ _).2 ⟨hc, hj⟩
    have hh' := hh.snoc hb
    have hne' : ¬ (f :: l' = []) := by simp
    have hem : EndsMeet (f :: l' ++ [s]) ↔ PointMatches s.stop f.start 1e-8 = true := by
      unfold EndsMeet
      have e : (f :: (l' ++ [s])).getLast? = some s := by
        rw [← List.cons_append, List.getLast?_append]; simp
      simp [e]
    by_cases hm : PointMatches s.stop f.start 1e-8 = true
    · refine .done _ _ hp' hc' (by simp) (hem.2 hm) ?_ ?_ hh' ?_
      all_goals
        unfold addPiece
        simp only [h1, hne', if_false, List.head?_cons, hm, if_true, boxOr_eq hb]
      rw [h3, windingSum_snoc]
    · refine .drawing (by simp) hp' hc' ?_ ?_ ?_ ?_ (fun _ => fun h => hm (hem.1 h))
      all_goals
        unfold addPiece
        simp only [h1, hne', if_false, List.head?_cons, hm, Bool.false_eq_true, boxOr_eq hb]
      · exact h2
      · rw [h3, windingSum_snoc]
      · exact hh'

theorem addSegment_refused {o o' : Outline} {a : Option Seg} (h : addSegment o a = (o', false)) : o' = o := by
  unfold addSegment at h
  split at h
  · cases h; rfl
  · split at h
    · cases h; rfl
    · split at h
      · cases h; rfl
      · split at h
        · split at h
          · cases h; rfl
          · cases h
        · split at h
          · split at h
            · cases h
            · cases h; rfl
          · cases h

theorem drawn_state {l : List Seg} {o : Outline} (h : Drawn l o) : State l o := by
  induction h with
  | new => exact .empty rfl rfl rfl rfl
  | refused _ h ih => rw [addSegment_refused h]; exact ih
  | @took l o s o' _ h ih =>
    unfold addSegment at h
    simp only at h
    split at h
    · cases h
    · rename_i hk
      split at h
      · cases h
      · rename_i hcl
        split at h
        · rename_i hci
          split at h
          · cases h
          · rename_i he
            have he : o.segs = [] := by simpa using he
            obtain ⟨b, hb⟩ := box_some hk
            have hl : l = [] := by
              cases ih with
              | empty e _ _ _ => exact e
              | circle c b e _ e2 => rw [e2] at he; cases he
              | drawing e _ _ e2 => rw [e2] at he; exact absurd he e
              | done _ _ _ _ _ _ _ e => exact absurd e hcl
            subst hl
            rw [boxOr_eq hb] at h
            cases h
            exact .circle s b rfl hci rfl rfl hb rfl
        · rename_i hci
          have hpc : s.kind = .line ∨ s.kind = .arc := by
            cases e : s.kind <;> simp_all
          have hcl : o.closed = false := by simpa using hcl
          split at h
          · rename_i e he
            split at h
            · rename_i hm
              cases h
              refine addPiece_state hpc ?_
              cases ih with
              | empty _ e2 => rw [e2] at he; cases he
              | circle _ _ _ _ _ e => rw [e] at hcl; cases hcl
              | drawing h1 h2 h3 h4 h5 h6 h7 _ =>
                refine Or.inr ⟨h1, h2, h3, h4, h5, h6, h7, ?_⟩
                intro e' he'
                rw [h4, he'] at he
                injection he with he
                rw [he]; exact hm
              | done _ _ _ _ _ _ _ e => rw [e] at hcl; cases hcl
            · cases h
          · rename_i he
            cases h
            have he : o.segs = [] := by simpa using he
            refine addPiece_state hpc (Or.inl ?_)
            cases ih with
            | empty e1 e2 e3 e4 => exact ⟨e1, e2, e3, e4⟩
            | circle c b e _ e2 => rw [e2] at he; cases he
            | drawing e _ _ e2 => rw [e2] at he; exact absurd he e
            | done _ _ _ _ _ _ _ e => rw [e] at hcl; cases hcl

end Iges.Geo
