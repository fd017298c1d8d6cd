import Verif.Spec.Ownership
/-
C102: every segment and outline has one holder and is deleted once.
-/
namespace Iges.Props.Ownership
open Iges.Own Iges.Own.Spec

/-- Holders, with the list of what is still to be deleted (`none`). -/
private def HoldsW (s : Heap) (w : List Nat) : Option Holder → Nat → Prop
  | none, x => x ∈ w
  | some H, x => Holds s H x

private structure Inv (s : Heap) (w : List Nat) : Prop where
  lt : ∀ x ∈ s.live, x < s.next
  ex : ∀ H x, HoldsW s w H x → x ∈ s.live
  uniq : ∀ H H' x, HoldsW s w H x → HoldsW s w H' x → H = H'
  any : ∀ x ∈ s.live, ∃ H, HoldsW s w H x
  kn : ∀ a ∈ s.live, (s.kids a).Nodup
  wn : w.Nodup

private def Root (s : Heap) (w : List Nat) (y : Nat) : Prop := y ∈ w ∨ (∃ h, s.hnd h = some y) ∨ y ∈ s.raw

private def Rooted (s : Heap) (w : List Nat) : Prop := ∀ x ∈ s.live, ∃ y, Root s w y ∧ Part s y x

private theorem Inv.no_handle {s w a} (I : Inv s w) (ha : a ∈ w) (h : Nat) : s.hnd h ≠ some a := fun hh => by
  have := I.uniq none (some (.handle h)) a ha hh; cases this

private theorem Inv.no_raw {s w a} (I : Inv s w) (ha : a ∈ w) : a ∉ s.raw := fun hh => by
  have := I.uniq none (some .caller) a ha hh; cases this

private theorem Inv.no_parent {s w a u} (I : Inv s w) (ha : a ∈ w) (hu : u ∈ s.live) : a ∉ s.kids u := fun hh => by
  have := I.uniq none (some (.outline u)) a ha ⟨hu, hh⟩; cases this

private theorem drop_hnd {s w a} (I : Inv s (a :: w)) : (s.drop a).hnd = s.hnd := by
  funext h
  show (if s.hnd h = some a then none else s.hnd h) = s.hnd h
  rw [if_neg (I.no_handle List.mem_cons_self h)]

private theorem drop_inv {s w a} (I : Inv s (a :: w)) : Inv (s.drop a) (s.kids a ++ w) := by
  have ha : a ∈ s.live := I.ex none a List.mem_cons_self
  have hH := drop_hnd I
  have hb : ∀ b, b ∈ (s.drop a).live → b ∈ s.live ∧ b ≠ a := fun b h => ⟨Finset.mem_of_mem_erase h, Finset.ne_of_mem_erase h⟩
  have hwn := List.nodup_cons.1 I.wn
  have key : ∀ H x, HoldsW (s.drop a) (s.kids a ++ w) H x →
      (H = none ∧ x ∈ s.kids a) ∨ (H ≠ some (.outline a) ∧ x ≠ a ∧ HoldsW s (a :: w) H x) := by
    intro H x h
    cases H with
    | none =>
      rcases List.mem_append.1 h with h | h
      · exact Or.inl ⟨rfl, h⟩
      · exact Or.inr ⟨by simp, fun e => hwn.1 (e ▸ h), List.mem_cons_of_mem _ h⟩
    | some H =>
      cases H with
      | handle g =>
        have h' : s.hnd g = some x := by rw [← hH]; exact h
        exact Or.inr ⟨by simp, fun e => I.no_handle (a := a) List.mem_cons_self g (e ▸ h'), h'⟩
      | outline b =>
        obtain ⟨h1, h2⟩ := h
        obtain ⟨h3, h4⟩ := hb b h1
        exact Or.inr ⟨by simpa using h4, fun e => I.no_parent (a := a) List.mem_cons_self h3 (e ▸ h2), h3, h2⟩
      | caller => exact Or.inr ⟨by simp, fun e => I.no_raw (a := a) List.mem_cons_self (e ▸ h), h⟩
  have hk : ∀ x ∈ s.kids a, x ≠ a := fun x hx e => I.no_parent (a := a) List.mem_cons_self ha (e ▸ hx)
  refine ⟨fun x hx => I.lt x (Finset.mem_of_mem_erase hx), ?_, ?_, ?_, ?_, ?_⟩
  · intro H x h
    refine Finset.mem_erase.2 ?_
    rcases key H x h with ⟨-, h⟩ | ⟨-, h1, h2⟩
    · exact ⟨hk x h, I.ex (some (.outline a)) x ⟨ha, h⟩⟩
    · exact ⟨h1, I.ex H x h2⟩
  · intro H H' x h h'
    rcases key H x h with ⟨e, h⟩ | ⟨h1, h2, h3⟩ <;> rcases key H' x h' with ⟨e', h'⟩ | ⟨h1', h2', h3'⟩
    · rw [e, e']
    · exact absurd (I.uniq H' (some (.outline a)) x h3' ⟨ha, h⟩) h1'
    · exact absurd (I.uniq H (some (.outline a)) x h3 ⟨ha, h'⟩) h1
    · exact I.uniq H H' x h3 h3'
  · intro x hx
    have hx1 := Finset.mem_of_mem_erase hx
    have hx2 := Finset.ne_of_mem_erase hx
    obtain ⟨H, h⟩ := I.any x hx1
    cases H with
    | none =>
      rcases List.mem_cons.1 h with h | h
      · exact absurd h hx2
      · exact ⟨none, List.mem_append_right _ h⟩
    | some H =>
      cases H with
      | handle g => exact ⟨some (.handle g), by show (s.drop a).hnd g = _; rw [hH]; exact h⟩
      | outline b =>
        by_cases e : b = a
        · subst e; exact ⟨none, List.mem_append_left _ h.2⟩
        · exact ⟨some (.outline b), Finset.mem_erase.2 ⟨e, h.1⟩, h.2⟩
      | caller => exact ⟨some .caller, h⟩
  · exact fun b hb' => I.kn b (Finset.mem_of_mem_erase hb')
  · rw [List.nodup_append]
    refine ⟨I.kn a ha, hwn.2, fun x hx y hy e => ?_⟩
    exact I.no_parent (a := y) (List.mem_cons_of_mem _ hy) ha (e ▸ hx)

private theorem part_head {s : Heap} {a x : Nat} : Part s a x ↔ x = a ∨ ∃ y ∈ s.kids a, Part s y x := by
  constructor
  · intro h
    rcases Relation.ReflTransGen.cases_head h with h | ⟨y, h1, h2⟩
    · exact Or.inl h.symm
    · exact Or.inr ⟨y, h1, h2⟩
  · rintro (h | ⟨y, h1, h2⟩)
    · subst h; exact Relation.ReflTransGen.refl
    · exact Relation.ReflTransGen.head h1 h2

private theorem part_mono {s t : Heap} (h : ∀ u v, v ∈ s.kids u → v ∈ t.kids u) {y x : Nat} (hp : Part s y x) : Part t y x := by
  induction hp with
  | refl => exact Relation.ReflTransGen.refl
  | tail _ e ih => exact Relation.ReflTransGen.tail ih (h _ _ e)

private theorem freeAll_spec : ∀ (n : Nat) (s : Heap) (w : List Nat), Inv s w → s.live.card ≤ n →
    ∃ s', freeAll n s w = some s' ∧ Inv s' [] ∧ s'.kids = s.kids ∧ s'.hnd = s.hnd ∧ s'.raw = s.raw ∧ s'.next = s.next ∧
      ∀ x, x ∈ s'.live ↔ x ∈ s.live ∧ ¬ ∃ y ∈ w, Part s y x := by
  intro n
  induction n with
  | zero =>
    intro s w I hc
    cases w with
    | nil => exact ⟨s, rfl, I, rfl, rfl, rfl, rfl, by simp⟩
    | cons a w =>
      have ha : a ∈ s.live := I.ex none a List.mem_cons_self
      rw [Finset.card_eq_zero.1 (Nat.le_zero.1 hc)] at ha
      simp at ha
  | succ n ih =>
    intro s w I hc
    cases w with
    | nil => exact ⟨s, rfl, I, rfl, rfl, rfl, rfl, by simp⟩
    | cons a w =>
      have ha : a ∈ s.live := I.ex none a List.mem_cons_self
      have hc' : (s.drop a).live.card ≤ n := by
        show (s.live.erase a).card ≤ n
        rw [Finset.card_erase_of_mem ha]; omega
      obtain ⟨s', h1, h2, h3, h4, h5, h6, h7⟩ := ih (s.drop a) (s.kids a ++ w) (drop_inv I) hc'
      refine ⟨s', ?_, h2, h3, h4.trans (drop_hnd I), h5, h6, fun x => ?_⟩
      · rw [freeAll, if_pos ha]; exact h1
      · rw [h7]
        have hp : ∀ y, Part (s.drop a) y x ↔ Part s y x := fun y => Iff.rfl
        simp only [hp]
        have : (∃ y ∈ a :: w, Part s y x) ↔ x = a ∨ ∃ y ∈ s.kids a ++ w, Part s y x := by
          constructor
          · rintro ⟨y, hy, hq⟩
            rcases List.mem_cons.1 hy with e | hy
            · rw [e] at hq
              rcases part_head.1 hq with h | ⟨z, hz, hq⟩
              · exact Or.inl h
              · exact Or.inr ⟨z, List.mem_append_left _ hz, hq⟩
            · exact Or.inr ⟨y, List.mem_append_right _ hy, hq⟩
          · rintro (h | ⟨y, hy, hp⟩)
            · exact ⟨a, List.mem_cons_self, part_head.2 (Or.inl h)⟩
            · rcases List.mem_append.1 hy with hy | hy
              · exact ⟨a, List.mem_cons_self, part_head.2 (Or.inr ⟨y, hy, hp⟩)⟩
              · exact ⟨y, List.mem_cons_of_mem _ hy, hp⟩
        rw [this]
        show x ∈ s.live.erase a ∧ _ ↔ _
        rw [Finset.mem_erase, not_or]
        exact ⟨fun h => ⟨h.1.2, h.1.1, h.2⟩, fun h => ⟨⟨h.2.1, h.1⟩, h.2.2⟩⟩

private theorem freeAll_rooted {s s' : Heap} {w} (R : Rooted s w) (hk : s'.kids = s.kids) (hh : s'.hnd = s.hnd) (hr : s'.raw = s.raw)
    (hl : ∀ x, x ∈ s'.live ↔ x ∈ s.live ∧ ¬ ∃ y ∈ w, Part s y x) : Rooted s' [] := by
  intro x hx
  obtain ⟨h1, h2⟩ := (hl x).1 hx
  obtain ⟨y, hy, hp⟩ := R x h1
  refine ⟨y, ?_, ?_⟩
  · rcases hy with hy | hy | hy
    · exact absurd ⟨y, hy, hp⟩ h2
    · exact Or.inr (Or.inl (by rw [hh]; exact hy))
    · exact Or.inr (Or.inr (by rw [hr]; exact hy))
  · unfold Part at hp ⊢; rw [hk]; exact hp

/-! What the caller or a handle holds passes to the list of the outline's work. -/

private theorem letGo_inv {s h a} (I : Inv s []) (ha : s.hnd h = some a) : Inv (s.letGo h) [a] := by
  have key : ∀ H x, HoldsW (s.letGo h) [a] H x → (H = none ∧ x = a) ∨ (H ≠ none ∧ H ≠ some (.handle h) ∧ HoldsW s [] H x) := by
    intro H x hx
    cases H with
    | none => exact Or.inl ⟨rfl, by simpa [HoldsW] using hx⟩
    | some H =>
      refine Or.inr ⟨by simp, ?_⟩
      cases H with
      | handle g =>
        have hx' : (if g = h then none else s.hnd g) = some x := hx
        by_cases e : g = h
        · rw [if_pos e] at hx'; cases hx'
        · rw [if_neg e] at hx'; exact ⟨by simpa using e, hx'⟩
      | outline b => exact ⟨by simp, hx⟩
      | caller => exact ⟨by simp, hx⟩
  refine ⟨I.lt, ?_, ?_, ?_, I.kn, by simp⟩
  · intro H x hx
    rcases key H x hx with ⟨-, rfl⟩ | ⟨-, -, h'⟩
    · exact I.ex (some (.handle h)) x ha
    · exact I.ex H x h'
  · intro H H' x hx hx'
    rcases key H x hx with ⟨e, rfl⟩ | ⟨-, h1, h2⟩ <;> rcases key H' x hx' with ⟨e', h3⟩ | ⟨-, h1', h2'⟩
    · rw [e, e']
    · exact absurd (I.uniq H' (some (.handle h)) x h2' ha) h1'
    · subst h3; exact absurd (I.uniq H (some (.handle h)) x h2 ha) h1
    · exact I.uniq H H' x h2 h2'
  · intro x hx
    obtain ⟨H, hH⟩ := I.any x hx
    cases H with
    | none => cases hH
    | some H =>
      cases H with
      | handle g =>
        by_cases e : g = h
        · subst e
          have : s.hnd g = some x := hH
          rw [ha] at this
          exact ⟨none, by simp only [Option.some.injEq] at this; simp [HoldsW, this]⟩
        · exact ⟨some (.handle g), by show (if g = h then none else s.hnd g) = _; rw [if_neg e]; exact hH⟩
      | outline b => exact ⟨some (.outline b), hH⟩
      | caller => exact ⟨some .caller, hH⟩

private theorem letGo_rooted {s h a} (R : Rooted s []) (ha : s.hnd h = some a) : Rooted (s.letGo h) [a] := by
  intro x hx
  obtain ⟨y, hy, hp⟩ := R x hx
  refine ⟨y, ?_, hp⟩
  rcases hy with hy | ⟨g, hg⟩ | hy
  · cases hy
  · by_cases e : g = h
    · subst e; rw [ha] at hg; left; simp only [Option.some.injEq] at hg; simp [hg]
    · exact Or.inr (Or.inl ⟨g, by show (if g = h then none else s.hnd g) = _; rw [if_neg e]; exact hg⟩)
  · exact Or.inr (Or.inr hy)

/-- The caller gives away an object. -/
private def unraw (s : Heap) (a : Nat) : Heap := { s with raw := s.raw.erase a }

private theorem unraw_inv {s a} (I : Inv s []) (ha : a ∈ s.raw) : Inv (unraw s a) [a] := by
  have key : ∀ H x, HoldsW (unraw s a) [a] H x → (H = none ∧ x = a) ∨ (H ≠ none ∧ x ≠ a ∧ HoldsW s [] H x) := by
    intro H x hx
    cases H with
    | none => exact Or.inl ⟨rfl, by simpa [HoldsW] using hx⟩
    | some H =>
      refine Or.inr ⟨by simp, ?_⟩
      cases H with
      | handle g =>
        refine ⟨fun e => ?_, hx⟩
        have := I.uniq (some (.handle g)) (some .caller) x hx (e ▸ ha); cases this
      | outline b =>
        refine ⟨fun e => ?_, hx⟩
        have := I.uniq (some (.outline b)) (some .caller) x hx (e ▸ ha); cases this
      | caller => exact ⟨Finset.ne_of_mem_erase hx, Finset.mem_of_mem_erase hx⟩
  refine ⟨I.lt, ?_, ?_, ?_, I.kn, by simp⟩
  · intro H x hx
    rcases key H x hx with ⟨-, rfl⟩ | ⟨-, -, h'⟩
    · exact I.ex (some .caller) x ha
    · exact I.ex H x h'
  · intro H H' x hx hx'
    rcases key H x hx with ⟨e, e1⟩ | ⟨-, h1, h2⟩ <;> rcases key H' x hx' with ⟨e', e2⟩ | ⟨-, h1', h2'⟩
    · rw [e, e']
    · exact absurd e1 h1'
    · exact absurd e2 h1
    · exact I.uniq H H' x h2 h2'
  · intro x hx
    obtain ⟨H, hH⟩ := I.any x hx
    cases H with
    | none => cases hH
    | some H =>
      cases H with
      | handle g => exact ⟨some (.handle g), hH⟩
      | outline b => exact ⟨some (.outline b), hH⟩
      | caller =>
        by_cases e : x = a
        · exact ⟨none, by simp [HoldsW, e]⟩
        · exact ⟨some .caller, Finset.mem_erase.2 ⟨e, hH⟩⟩

private theorem unraw_rooted {s a} (R : Rooted s []) : Rooted (unraw s a) [a] := by
  intro x hx
  obtain ⟨y, hy, hp⟩ := R x hx
  refine ⟨y, ?_, hp⟩
  rcases hy with hy | hy | hy
  · cases hy
  · exact Or.inr (Or.inl hy)
  · by_cases e : y = a
    · exact Or.inl (by simp [e])
    · exact Or.inr (Or.inr (Finset.mem_erase.2 ⟨e, hy⟩))

private theorem part_live {s w y x} (I : Inv s w) (hy : y ∈ s.live) (h : Part s y x) : x ∈ s.live := by
  induction h with
  | refl => exact hy
  | tail _ h ih => exact I.ex (some (.outline _)) _ ⟨ih, h⟩

private theorem root_live {s w y} (I : Inv s w) (h : Root s w y) : y ∈ s.live := by
  rcases h with h | ⟨g, h⟩ | h
  · exact I.ex none y h
  · exact I.ex (some (.handle g)) y h
  · exact I.ex (some .caller) y h

/-! The outline keeps the object. -/

private def keep (s : Heap) (o a : Nat) : Heap := { s with kids := fun x => if x = o then s.kids o ++ [a] else s.kids x }

private theorem keep_mem {s : Heap} {o a u x : Nat} : x ∈ (keep s o a).kids u ↔ x ∈ s.kids u ∨ (u = o ∧ x = a) := by
  show x ∈ (if u = o then s.kids o ++ [a] else s.kids u) ↔ _
  by_cases e : u = o
  · subst e; simp
  · simp [e]

private theorem keep_inv {s o a} (I : Inv s [a]) (ho : o ∈ s.live) : Inv (keep s o a) [] := by
  have ha : a ∈ [a] := by simp
  have key : ∀ H x, HoldsW (keep s o a) [] H x → (H = some (.outline o) ∧ x = a) ∨ (H ≠ none ∧ x ≠ a ∧ HoldsW s [a] H x) := by
    intro H x hx
    cases H with
    | none => cases hx
    | some H =>
      cases H with
      | handle g => exact Or.inr ⟨by simp, fun e => I.no_handle ha g (e ▸ hx), hx⟩
      | caller => exact Or.inr ⟨by simp, fun e => I.no_raw ha (e ▸ hx), hx⟩
      | outline b =>
        obtain ⟨h1, h2⟩ := hx
        rcases keep_mem.1 h2 with h2 | ⟨rfl, rfl⟩
        · exact Or.inr ⟨by simp, fun e => I.no_parent ha h1 (e ▸ h2), h1, h2⟩
        · exact Or.inl ⟨rfl, rfl⟩
  refine ⟨I.lt, ?_, ?_, ?_, ?_, by simp⟩
  · intro H x hx
    rcases key H x hx with ⟨-, rfl⟩ | ⟨-, -, h'⟩
    · exact I.ex none x ha
    · exact I.ex H x h'
  · intro H H' x hx hx'
    rcases key H x hx with ⟨e, e1⟩ | ⟨-, h1, h2⟩ <;> rcases key H' x hx' with ⟨e', e2⟩ | ⟨-, h1', h2'⟩
    · rw [e, e']
    · exact absurd e1 h1'
    · exact absurd e2 h1
    · exact I.uniq H H' x h2 h2'
  · intro x hx
    obtain ⟨H, hH⟩ := I.any x hx
    cases H with
    | none => exact ⟨some (.outline o), ho, keep_mem.2 (Or.inr ⟨rfl, by simpa [HoldsW] using hH⟩)⟩
    | some H =>
      cases H with
      | handle g => exact ⟨some (.handle g), hH⟩
      | outline b => exact ⟨some (.outline b), hH.1, keep_mem.2 (Or.inl hH.2)⟩
      | caller => exact ⟨some .caller, hH⟩
  · intro b hb
    show (if b = o then s.kids o ++ [a] else s.kids b).Nodup
    split
    · rw [List.nodup_append]
      refine ⟨I.kn o ho, by simp, fun x hx y hy e => ?_⟩
      have : y = a := by simpa using hy
      exact I.no_parent ha ho (this ▸ e ▸ hx)
    · exact I.kn b hb

private theorem keep_rooted {s o a h} (R : Rooted s [a]) (ho : s.hnd h = some o) : Rooted (keep s o a) [] := by
  have mono : ∀ y x, Part s y x → Part (keep s o a) y x := fun y x hp =>
    part_mono (fun u v huv => keep_mem.2 (Or.inl huv)) hp
  intro x hx
  obtain ⟨y, hy, hp⟩ := R x hx
  rcases hy with hy | hy | hy
  · have : y = a := by simpa using hy
    subst this
    exact ⟨o, Or.inr (Or.inl ⟨h, ho⟩), Relation.ReflTransGen.head (keep_mem.2 (Or.inr ⟨rfl, rfl⟩)) (mono _ _ hp)⟩
  · exact ⟨y, Or.inr (Or.inl hy), mono _ _ hp⟩
  · exact ⟨y, Or.inr (Or.inr hy), mono _ _ hp⟩

/-! The object is worked into an outline. -/

private def mixed (s : Heap) (c a : Nat) (ks : List Nat) (n : Nat) : Heap :=
  { s with live := s.live ∪ Finset.Ico s.next (s.next + n), next := s.next + n,
           kids := fun x => if x = c then ks
             else if x = a then (s.kids c ++ s.kids a).filter fun k => decide (k ∉ ks)
             else if s.next ≤ x then [] else s.kids x }

private theorem mixed_live {s : Heap} {c a ks n x} : x ∈ (mixed s c a ks n).live ↔ x ∈ s.live ∨ (s.next ≤ x ∧ x < s.next + n) := by
  show x ∈ s.live ∪ Finset.Ico s.next (s.next + n) ↔ _
  rw [Finset.mem_union, Finset.mem_Ico]

private theorem mixed_mem {s : Heap} {c a ks n u x} (hca : c ≠ a) : x ∈ (mixed s c a ks n).kids u ↔
    (u = c ∧ x ∈ ks) ∨ (u = a ∧ (x ∈ s.kids c ∨ x ∈ s.kids a) ∧ x ∉ ks) ∨ (u ≠ c ∧ u ≠ a ∧ u < s.next ∧ x ∈ s.kids u) := by
  show x ∈ (if u = c then ks else if u = a then (s.kids c ++ s.kids a).filter fun k => decide (k ∉ ks)
             else if s.next ≤ u then [] else s.kids u) ↔ _
  by_cases h1 : u = c
  · subst h1; simp [hca]
  · by_cases h2 : u = a
    · subst h2; simp [h1, or_and_right]
    · by_cases h3 : s.next ≤ u
      · simp [h1, h2, h3]
      · simp [h1, h2, h3, Nat.lt_of_not_le h3]

section
variable {s : Heap} {o a c n h : Nat} {ks : List Nat}

private theorem mixed_ne (I : Inv s [a]) (ho : s.hnd h = some o) (hc : c = o ∨ c ∈ s.kids o) : c ∈ s.live ∧ c ≠ a := by
  have ha : a ∈ [a] := by simp
  have hol : o ∈ s.live := I.ex (some (.handle h)) o ho
  rcases hc with rfl | hc
  · exact ⟨hol, fun e => I.no_handle ha h (e ▸ ho)⟩
  · exact ⟨I.ex (some (.outline o)) c ⟨hol, hc⟩, fun e => I.no_parent ha hol (e ▸ hc)⟩

private theorem mixed_inv (I : Inv s [a]) (ho : s.hnd h = some o) (hc : c = o ∨ c ∈ s.kids o) (hks : ks.Nodup)
    (hk : ∀ k ∈ ks, k ∈ s.kids c ∨ k ∈ s.kids a ∨ (s.next ≤ k ∧ k < s.next + n))
    (hn : ∀ k, s.next ≤ k → k < s.next + n → k ∈ ks) : Inv (mixed s c a ks n) [a] := by
  have haw : a ∈ [a] := by simp
  have hal : a ∈ s.live := I.ex none a haw
  obtain ⟨hcl, hca⟩ := mixed_ne I ho hc
  have old : ∀ u ∈ s.live, ∀ x ∈ s.kids u, x ∈ s.live := fun u hu x hx => I.ex (some (.outline u)) x ⟨hu, hx⟩
  -- what is held was held before, or is new
  have key : ∀ H x, HoldsW (mixed s c a ks n) [a] H x →
      (H = some (.outline c) ∧ x ∈ ks ∧ (x ∈ s.kids c ∨ x ∈ s.kids a)) ∨
      (H = some (.outline c) ∧ s.next ≤ x ∧ x < s.next + n) ∨
      (H = some (.outline a) ∧ x ∉ ks ∧ (x ∈ s.kids c ∨ x ∈ s.kids a)) ∨
      (H ≠ some (.outline c) ∧ H ≠ some (.outline a) ∧ HoldsW s [a] H x) := by
    intro H x hx
    cases H with
    | none => exact Or.inr (Or.inr (Or.inr ⟨by simp, by simp, hx⟩))
    | some H =>
      cases H with
      | handle g => exact Or.inr (Or.inr (Or.inr ⟨by simp, by simp, hx⟩))
      | caller => exact Or.inr (Or.inr (Or.inr ⟨by simp, by simp, hx⟩))
      | outline u =>
        obtain ⟨h1, h2⟩ := hx
        rcases (mixed_mem hca).1 h2 with ⟨rfl, h⟩ | ⟨rfl, h, h'⟩ | ⟨h3, h4, h5, h6⟩
        · rcases hk x h with h' | h' | h'
          · exact Or.inl ⟨rfl, h, Or.inl h'⟩
          · exact Or.inl ⟨rfl, h, Or.inr h'⟩
          · exact Or.inr (Or.inl ⟨rfl, h'⟩)
        · exact Or.inr (Or.inr (Or.inl ⟨rfl, h', h⟩))
        · refine Or.inr (Or.inr (Or.inr ⟨by simpa using h3, by simpa using h4, ?_, h6⟩))
          rcases mixed_live.1 h1 with h1 | h1
          · exact h1
          · omega
  have ca : ∀ x, (x ∈ s.kids c ∨ x ∈ s.kids a) → HoldsW s [a] (some (.outline c)) x ∨ HoldsW s [a] (some (.outline a)) x :=
    fun x hx => hx.imp (fun h => ⟨hcl, h⟩) (fun h => ⟨hal, h⟩)
  have cal : ∀ x, (x ∈ s.kids c ∨ x ∈ s.kids a) → x ∈ s.live := fun x hx => hx.elim (old c hcl x) (old a hal x)
  have no : ∀ H x, (x ∈ s.kids c ∨ x ∈ s.kids a) → H ≠ some (.outline c) → H ≠ some (.outline a) → ¬ HoldsW s [a] H x := by
    intro H x hx h1 h2 h3
    rcases ca x hx with h | h
    · exact h1 (I.uniq H _ x h3 h)
    · exact h2 (I.uniq H _ x h3 h)
  refine ⟨?_, ?_, ?_, ?_, ?_, by simp⟩
  · intro x hx
    show x < s.next + n
    rcases mixed_live.1 hx with hx | hx
    · have := I.lt x hx; omega
    · exact hx.2
  · intro H x hx
    rw [mixed_live]
    rcases key H x hx with ⟨-, -, h⟩ | ⟨-, h⟩ | ⟨-, -, h⟩ | ⟨-, -, h⟩
    · exact Or.inl (cal x h)
    · exact Or.inr h
    · exact Or.inl (cal x h)
    · exact Or.inl (I.ex H x h)
  · intro H H' x hx hx'
    have new_no : s.next ≤ x → x ∉ s.live := fun h h' => by have := I.lt x h'; omega
    rcases key H x hx with ⟨e, h1, h2⟩ | ⟨e, h1, h2⟩ | ⟨e, h1, h2⟩ | ⟨e1, e2, h1⟩ <;>
      rcases key H' x hx' with ⟨e', h1', h2'⟩ | ⟨e', h1', h2'⟩ | ⟨e', h1', h2'⟩ | ⟨e1', e2', h1'⟩
    · rw [e, e']
    · rw [e, e']
    · exact absurd h1 h1'
    · exact absurd h1' (no H' x h2 e1' e2')
    · rw [e, e']
    · rw [e, e']
    · exact absurd (cal x h2') (new_no h1)
    · exact absurd (I.ex H' x h1') (new_no h1)
    · exact absurd h1' h1
    · exact absurd (cal x h2) (new_no h1')
    · rw [e, e']
    · exact absurd h1' (no H' x h2 e1' e2')
    · exact absurd h1 (no H x h2' e1 e2)
    · exact absurd (I.ex H x h1) (new_no h1')
    · exact absurd h1 (no H x h2' e1 e2)
    · exact I.uniq H H' x h1 h1'
  · intro x hx
    rcases mixed_live.1 hx with hx | hx
    · obtain ⟨H, hH⟩ := I.any x hx
      have two : (x ∈ s.kids c ∨ x ∈ s.kids a) → ∃ H, HoldsW (mixed s c a ks n) [a] H x := by
        intro hh
        by_cases hm : x ∈ ks
        · exact ⟨some (.outline c), mixed_live.2 (Or.inl hcl), (mixed_mem hca).2 (Or.inl ⟨rfl, hm⟩)⟩
        · exact ⟨some (.outline a), mixed_live.2 (Or.inl hal), (mixed_mem hca).2 (Or.inr (Or.inl ⟨rfl, hh, hm⟩))⟩
      cases H with
      | none => exact ⟨none, hH⟩
      | some H =>
        cases H with
        | handle g => exact ⟨some (.handle g), hH⟩
        | caller => exact ⟨some .caller, hH⟩
        | outline u =>
          obtain ⟨h1, h2⟩ := hH
          by_cases e1 : u = c
          · subst e1; exact two (Or.inl h2)
          · by_cases e2 : u = a
            · subst e2; exact two (Or.inr h2)
            · exact ⟨some (.outline u), mixed_live.2 (Or.inl h1), (mixed_mem hca).2 (Or.inr (Or.inr ⟨e1, e2, I.lt u h1, h2⟩))⟩
    · exact ⟨some (.outline c), mixed_live.2 (Or.inl hcl), (mixed_mem hca).2 (Or.inl ⟨rfl, hn x hx.1 hx.2⟩)⟩
  · intro b hb
    show (if b = c then ks else if b = a then (s.kids c ++ s.kids a).filter fun k => decide (k ∉ ks)
             else if s.next ≤ b then [] else s.kids b).Nodup
    split
    · exact hks
    · split
      · refine List.Nodup.sublist List.filter_sublist ?_
        rw [List.nodup_append]
        refine ⟨I.kn c hcl, I.kn a hal, fun x hx y hy e => ?_⟩
        have := I.uniq (some (.outline c)) (some (.outline a)) x ⟨hcl, hx⟩ ⟨hal, e ▸ hy⟩
        simp only [Option.some.injEq, Holder.outline.injEq] at this
        exact hca this
      · split
        · simp
        · rename_i h3
          rcases mixed_live.1 hb with hb | hb
          · exact I.kn b hb
          · exact absurd hb.1 h3

private theorem mixed_rooted (I : Inv s [a]) (R : Rooted s [a]) (ho : s.hnd h = some o) (hc : c = o ∨ c ∈ s.kids o)
    (hn : ∀ k, s.next ≤ k → k < s.next + n → k ∈ ks) : Rooted (mixed s c a ks n) [a] := by
  obtain ⟨hcl, hca⟩ := mixed_ne I ho hc
  have hol : o ∈ s.live := I.ex (some (.handle h)) o ho
  have hoa : o ≠ a := fun e => I.no_handle (a := a) (by simp) h (e ▸ ho)
  have oc : Part (mixed s c a ks n) o c := by
    by_cases e : c = o
    · subst e; exact Relation.ReflTransGen.refl
    · have hc' : c ∈ s.kids o := hc.resolve_left e
      exact Relation.ReflTransGen.single ((mixed_mem hca).2 (Or.inr (Or.inr ⟨fun h => e h.symm, hoa, I.lt o hol, hc'⟩)))
  have ro : Root (mixed s c a ks n) [a] o := Or.inr (Or.inl ⟨h, ho⟩)
  have ra : Root (mixed s c a ks n) [a] a := Or.inl (by simp)
  have path : ∀ y x, y ∈ s.live → Root s [a] y → Part s y x → ∃ y', Root (mixed s c a ks n) [a] y' ∧ Part (mixed s c a ks n) y' x := by
    intro y x hy hr hp
    induction hp with
    | refl => exact ⟨y, hr, Relation.ReflTransGen.refl⟩
    | @tail u v hyu huv ih =>
      obtain ⟨y', hr', hp'⟩ := ih
      have hu : u ∈ s.live := part_live I hy hyu
      have two : (v ∈ s.kids c ∨ v ∈ s.kids a) → ∃ y', Root (mixed s c a ks n) [a] y' ∧ Part (mixed s c a ks n) y' v := by
        intro hh
        by_cases hm : v ∈ ks
        · exact ⟨o, ro, Relation.ReflTransGen.tail oc ((mixed_mem hca).2 (Or.inl ⟨rfl, hm⟩))⟩
        · exact ⟨a, ra, Relation.ReflTransGen.single ((mixed_mem hca).2 (Or.inr (Or.inl ⟨rfl, hh, hm⟩)))⟩
      by_cases e1 : u = c
      · subst e1; exact two (Or.inl huv)
      · by_cases e2 : u = a
        · subst e2; exact two (Or.inr huv)
        · exact ⟨y', hr', Relation.ReflTransGen.tail hp' ((mixed_mem hca).2 (Or.inr (Or.inr ⟨e1, e2, I.lt u hu, huv⟩)))⟩
  intro x hx
  rcases mixed_live.1 hx with hx | hx
  · obtain ⟨y, hy, hp⟩ := R x hx
    exact path y x (root_live I hy) hy hp
  · exact ⟨o, ro, Relation.ReflTransGen.tail oc ((mixed_mem hca).2 (Or.inl ⟨rfl, hn x hx.1 hx.2⟩))⟩

end

/-- The invariant of a history. -/
private def J (s : Heap) : Prop := Inv s [] ∧ Rooted s []

private theorem freeAll_J {s : Heap} {w n} (I : Inv s w) (R : Rooted s w) (hn : s.live.card ≤ n) :
    ∃ s', freeAll n s w = some s' ∧ J s' ∧ s'.kids = s.kids ∧ s'.hnd = s.hnd ∧ s'.raw = s.raw ∧
      ∀ x, x ∈ s'.live ↔ x ∈ s.live ∧ ¬ ∃ y ∈ w, Part s y x := by
  obtain ⟨s', h1, h2, h3, h4, h5, -, h7⟩ := freeAll_spec n s w I hn
  exact ⟨s', h1, ⟨h2, freeAll_rooted R h3 h4 h5 h7⟩, h3, h4, h5, h7⟩

private theorem join_J {s : Heap} {o a h : Nat} {r : Answer} (I : Inv s [a]) (R : Rooted s [a]) (ho : s.hnd h = some o)
    (hr : r ≠ .refused) (hg : GoodAnswer s o a r) : ∃ s', join s o a r = some s' ∧ J s' := by
  cases r with
  | refused => exact absurd rfl hr
  | kept => exact ⟨keep s o a, rfl, keep_inv I (I.ex (some (.handle h)) o ho), keep_rooted R ho⟩
  | merged c ks n =>
    obtain ⟨h1, h2, h3, h4⟩ := hg
    obtain ⟨s', g1, g2, -⟩ := freeAll_J (mixed_inv I ho h1 h2 h3 h4) (mixed_rooted I R ho h1 h4) (le_refl _)
    exact ⟨s', g1, g2⟩

private theorem destroy_J {s : Heap} (hJ : J s) (h : Nat) : ∃ s', destroy s h = some s' ∧ J s' ∧ s'.hnd h = none := by
  unfold destroy
  cases ha : s.hnd h with
  | none => exact ⟨s, rfl, hJ, ha⟩
  | some a =>
    obtain ⟨s', h1, h2, -, h4, -⟩ := freeAll_J (letGo_inv hJ.1 ha) (letGo_rooted hJ.2 ha) (le_refl (s.letGo h).live.card)
    refine ⟨s', h1, h2, ?_⟩
    rw [h4]; show (if h = h then none else s.hnd h) = none; rw [if_pos rfl]

private def fresh (t : Heap) (h : Nat) : Heap :=
  { t with live := insert t.next t.live, kids := fun a => if a = t.next then [] else t.kids a,
           hnd := fun g => if g = h then some t.next else t.hnd g, next := t.next + 1 }

private theorem create_J {s : Heap} (hJ : J s) (h : Nat) : ∃ s', create s h = some s' ∧ J s' := by
  obtain ⟨t, h1, ⟨I, R⟩, h3⟩ := destroy_J hJ h
  unfold create
  rw [h1]
  refine ⟨fresh t h, rfl, ?_⟩
  have hnl : t.next ∉ t.live := fun h => Nat.lt_irrefl _ (I.lt _ h)
  have kid : ∀ u x, (u ∈ t.live ∨ u = t.next) → (x ∈ (if u = t.next then [] else t.kids u) ↔ u ∈ t.live ∧ x ∈ t.kids u) := by
    intro u x hu
    by_cases e : u = t.next
    · simp [e, hnl]
    · have : u ∈ t.live := hu.resolve_right e
      simp [e, this]
  have key : ∀ H x, HoldsW (fresh t h) [] H x →
      (H = some (.handle h) ∧ x = t.next) ∨ HoldsW t [] H x := by
    intro H x hx
    cases H with
    | none => cases hx
    | some H =>
      cases H with
      | handle g =>
        have hx' : (if g = h then some t.next else t.hnd g) = some x := hx
        by_cases e : g = h
        · rw [if_pos e] at hx'
          exact Or.inl ⟨by rw [e], by simpa using hx'.symm⟩
        · rw [if_neg e] at hx'; exact Or.inr hx'
      | caller => exact Or.inr hx
      | outline u =>
        obtain ⟨g1, g2⟩ := hx
        have g1' : u ∈ t.live ∨ u = t.next := by
          rcases Finset.mem_insert.1 g1 with g | g
          · exact Or.inr g
          · exact Or.inl g
        exact Or.inr ((kid u x g1').1 g2)
  refine ⟨⟨?_, ?_, ?_, ?_, ?_, by simp⟩, ?_⟩
  · intro x hx
    show x < t.next + 1
    rcases Finset.mem_insert.1 hx with hx | hx
    · omega
    · have := I.lt x hx; omega
  · intro H x hx
    rcases key H x hx with ⟨-, rfl⟩ | hx
    · exact Finset.mem_insert_self _ _
    · exact Finset.mem_insert_of_mem (I.ex H x hx)
  · intro H H' x hx hx'
    rcases key H x hx with ⟨e, e1⟩ | hx <;> rcases key H' x hx' with ⟨e', e2⟩ | hx'
    · rw [e, e']
    · exact absurd (e1 ▸ I.ex H' x hx') hnl
    · exact absurd (e2 ▸ I.ex H x hx) hnl
    · exact I.uniq H H' x hx hx'
  · intro x hx
    rcases Finset.mem_insert.1 hx with rfl | hx
    · exact ⟨some (.handle h), by show (if h = h then some t.next else t.hnd h) = _; rw [if_pos rfl]⟩
    · obtain ⟨H, hH⟩ := I.any x hx
      cases H with
      | none => cases hH
      | some H =>
        cases H with
        | handle g =>
          refine ⟨some (.handle g), ?_⟩
          show (if g = h then some t.next else t.hnd g) = _
          rw [if_neg]
          · exact hH
          · rintro rfl; rw [show t.hnd g = some x from hH] at h3; cases h3
        | caller => exact ⟨some .caller, hH⟩
        | outline u => exact ⟨some (.outline u), Finset.mem_insert_of_mem hH.1, (kid u x (Or.inl hH.1)).2 hH⟩
  · intro b hb
    show (if b = t.next then [] else t.kids b).Nodup
    split
    · simp
    · rename_i e
      exact I.kn b ((Finset.mem_insert.1 hb).resolve_left e)
  · intro x hx
    rcases Finset.mem_insert.1 hx with rfl | hx
    · exact ⟨t.next, Or.inr (Or.inl ⟨h, by show (if h = h then some t.next else t.hnd h) = _; rw [if_pos rfl]⟩), Relation.ReflTransGen.refl⟩
    · obtain ⟨y, hy, hp⟩ := R x hx
      have hyl := root_live I hy
      refine ⟨y, ?_, ?_⟩
      · rcases hy with hy | ⟨g, hg⟩ | hy
        · cases hy
        · refine Or.inr (Or.inl ⟨g, ?_⟩)
          show (if g = h then some t.next else t.hnd g) = _
          rw [if_neg]
          · exact hg
          · rintro rfl; rw [hg] at h3; cases h3
        · exact Or.inr (Or.inr hy)
      · suffices path : ∀ z, Part t y z → Part (fresh t h) y z from path x hp
        intro z hz
        induction hz with
        | refl => exact Relation.ReflTransGen.refl
        | tail h1 h2 ih => exact Relation.ReflTransGen.tail ih ((kid _ _ (Or.inl (part_live I hyl h1))).2 ⟨part_live I hyl h1, h2⟩)

private theorem detach_J {s : Heap} (hJ : J s) {h a : Nat} (ha : s.hnd h = some a) : J { s.letGo h with raw := insert a s.raw } := by
  have I := letGo_inv hJ.1 ha
  have R := letGo_rooted hJ.2 ha
  have haw : a ∈ [a] := by simp
  have key : ∀ H x, HoldsW { s.letGo h with raw := insert a s.raw } [] H x →
      (H = some .caller ∧ x = a) ∨ (x ≠ a ∧ HoldsW (s.letGo h) [a] H x) := by
    intro H x hx
    cases H with
    | none => cases hx
    | some H =>
      cases H with
      | handle g => exact Or.inr ⟨fun e => I.no_handle haw g (e ▸ hx), hx⟩
      | outline u => exact Or.inr ⟨fun e => I.no_parent haw hx.1 (e ▸ hx.2), hx⟩
      | caller =>
        by_cases e : x = a
        · exact Or.inl ⟨rfl, e⟩
        · exact Or.inr ⟨e, (Finset.mem_insert.1 hx).resolve_left e⟩
  refine ⟨⟨I.lt, ?_, ?_, ?_, I.kn, by simp⟩, ?_⟩
  · intro H x hx
    rcases key H x hx with ⟨-, rfl⟩ | ⟨-, hx⟩
    · exact I.ex none x haw
    · exact I.ex H x hx
  · intro H H' x hx hx'
    rcases key H x hx with ⟨e, e1⟩ | ⟨e1, hx⟩ <;> rcases key H' x hx' with ⟨e', e2⟩ | ⟨e2, hx'⟩
    · rw [e, e']
    · exact absurd e1 e2
    · exact absurd e2 e1
    · exact I.uniq H H' x hx hx'
  · intro x hx
    obtain ⟨H, hH⟩ := I.any x hx
    cases H with
    | none => exact ⟨some .caller, Finset.mem_insert.2 (Or.inl (by simpa [HoldsW] using hH))⟩
    | some H =>
      cases H with
      | handle g => exact ⟨some (.handle g), hH⟩
      | outline u => exact ⟨some (.outline u), hH⟩
      | caller => exact ⟨some .caller, Finset.mem_insert_of_mem hH⟩
  · intro x hx
    obtain ⟨y, hy, hp⟩ := R x hx
    refine ⟨y, ?_, hp⟩
    rcases hy with hy | hy | hy
    · exact Or.inr (Or.inr (Finset.mem_insert.2 (Or.inl (by simpa using hy))))
    · exact Or.inr (Or.inl hy)
    · exact Or.inr (Or.inr (Finset.mem_insert_of_mem hy))

private theorem attach_J {s : Heap} (hJ : J s) {h a : Nat} (hh : s.hnd h = none) (ha : a ∈ s.raw) :
    J { s with hnd := fun g => if g = h then some a else s.hnd g, raw := s.raw.erase a } := by
  have I := unraw_inv hJ.1 ha
  have R := unraw_rooted (a := a) hJ.2
  have haw : a ∈ [a] := by simp
  have key : ∀ H x, HoldsW { s with hnd := fun g => if g = h then some a else s.hnd g, raw := s.raw.erase a } [] H x →
      (H = some (.handle h) ∧ x = a) ∨ (x ≠ a ∧ HoldsW (unraw s a) [a] H x) := by
    intro H x hx
    cases H with
    | none => cases hx
    | some H =>
      cases H with
      | handle g =>
        have hx' : (if g = h then some a else s.hnd g) = some x := hx
        by_cases e : g = h
        · rw [if_pos e] at hx'; exact Or.inl ⟨by rw [e], by simpa using hx'.symm⟩
        · rw [if_neg e] at hx'
          exact Or.inr ⟨fun e => I.no_handle haw g (e ▸ hx'), hx'⟩
      | outline u => exact Or.inr ⟨fun e => I.no_parent haw hx.1 (e ▸ hx.2), hx⟩
      | caller => exact Or.inr ⟨fun e => I.no_raw haw (e ▸ hx), hx⟩
  refine ⟨⟨I.lt, ?_, ?_, ?_, I.kn, by simp⟩, ?_⟩
  · intro H x hx
    rcases key H x hx with ⟨-, rfl⟩ | ⟨-, hx⟩
    · exact I.ex none x haw
    · exact I.ex H x hx
  · intro H H' x hx hx'
    rcases key H x hx with ⟨e, e1⟩ | ⟨e1, hx⟩ <;> rcases key H' x hx' with ⟨e', e2⟩ | ⟨e2, hx'⟩
    · rw [e, e']
    · exact absurd e1 e2
    · exact absurd e2 e1
    · exact I.uniq H H' x hx hx'
  · intro x hx
    obtain ⟨H, hH⟩ := I.any x hx
    cases H with
    | none =>
      refine ⟨some (.handle h), ?_⟩
      show (if h = h then some a else s.hnd h) = some x
      have : x = a := by simpa [HoldsW] using hH
      rw [if_pos rfl, this]
    | some H =>
      cases H with
      | handle g =>
        refine ⟨some (.handle g), ?_⟩
        show (if g = h then some a else s.hnd g) = some x
        rw [if_neg]
        · exact hH
        · rintro rfl; rw [show s.hnd g = some x from hH] at hh; cases hh
      | outline u => exact ⟨some (.outline u), hH⟩
      | caller => exact ⟨some .caller, hH⟩
  · intro x hx
    obtain ⟨y, hy, hp⟩ := R x hx
    refine ⟨y, ?_, hp⟩
    rcases hy with hy | ⟨g, hg⟩ | hy
    · refine Or.inr (Or.inl ⟨h, ?_⟩)
      show (if h = h then some a else s.hnd h) = some y
      have : y = a := by simpa using hy
      rw [if_pos rfl, this]
    · refine Or.inr (Or.inl ⟨g, ?_⟩)
      show (if g = h then some a else s.hnd g) = some y
      rw [if_neg]
      · exact hg
      · rintro rfl; rw [show s.hnd g = some y from hg] at hh; cases hh
    · exact Or.inr (Or.inr hy)

private theorem step_J {s : Heap} (hJ : J s) (c : Call) (hg : Good s c) : ∃ s', step s c = some s' ∧ J s' := by
  cases c with
  | create h => exact create_J hJ h
  | destroy h => obtain ⟨s', h1, h2, -⟩ := destroy_J hJ h; exact ⟨s', h1, h2⟩
  | detach h =>
    cases ha : s.hnd h with
    | none => exact ⟨s, by simp only [step, ha], hJ⟩
    | some a => exact ⟨_, by simp only [step, ha], detach_J hJ ha⟩
  | attach h a =>
    cases hh : s.hnd h with
    | some b => exact ⟨s, by simp [step, hh], hJ⟩
    | none =>
      have ha : a ∈ s.raw := hg hh
      have hl : a ∈ s.live := hJ.1.ex (some .caller) a ha
      exact ⟨_, by simp [step, hh, hl], attach_J hJ hh ha⟩
  | give h g r =>
    obtain ⟨hne, hr⟩ := hg
    cases ho : s.hnd h with
    | none => exact ⟨s, by simp [step, ho], hJ⟩
    | some o =>
      cases ha : s.hnd g with
      | none => exact ⟨s, by simp [step, ho, ha], hJ⟩
      | some a =>
        have ho' : (s.letGo g).hnd h = some o := by
          show (if h = g then none else s.hnd h) = some o
          rw [if_neg hne]; exact ho
        have I := letGo_inv hJ.1 ha
        have R := letGo_rooted hJ.2 ha
        have hr' := hr o a ho ha
        cases r with
        | refused => exact ⟨s, by simp only [step, ho, ha], hJ⟩
        | kept =>
          obtain ⟨s', h1, h2⟩ := join_J (r := .kept) I R ho' (by simp) hr'
          exact ⟨s', by simp only [step, ho, ha]; exact h1, h2⟩
        | merged c ks n =>
          obtain ⟨s', h1, h2⟩ := join_J (r := .merged c ks n) I R ho' (by simp) hr'
          exact ⟨s', by simp only [step, ho, ha]; exact h1, h2⟩
  | giveRaw h a r =>
    obtain ⟨ha, hr⟩ := hg
    have hl : a ∈ s.live := hJ.1.ex (some .caller) a ha
    cases ho : s.hnd h with
    | none => exact ⟨s, by simp only [step, ho], hJ⟩
    | some o =>
      have hr' := hr o ho
      have I := unraw_inv hJ.1 ha
      have R := unraw_rooted (a := a) hJ.2
      cases r with
      | refused => exact ⟨s, by simp only [step, ho]; rw [if_pos hl], hJ⟩
      | kept =>
        obtain ⟨s', h1, h2⟩ := join_J (s := unraw s a) (r := .kept) I R ho (by simp) hr'
        exact ⟨s', by simp only [step, ho]; rw [if_pos hl]; exact h1, h2⟩
      | merged c ks n =>
        obtain ⟨s', h1, h2⟩ := join_J (s := unraw s a) (r := .merged c ks n) I R ho (by simp) hr'
        exact ⟨s', by simp only [step, ho]; rw [if_pos hl]; exact h1, h2⟩

private theorem run_J {s : Heap} (hJ : J s) (cs : List Call) (hg : GoodRun s cs) : ∃ s', run s cs = some s' ∧ J s' := by
  induction cs generalizing s with
  | nil => exact ⟨s, rfl, hJ⟩
  | cons c cs ih =>
    obtain ⟨s1, h1, h2⟩ := step_J hJ c hg.1
    obtain ⟨s', h3, h4⟩ := ih h2 (hg.2 s1 h1)
    exact ⟨s', by rw [run, h1]; exact h3, h4⟩

private theorem empty_J : J Heap.empty := by
  refine ⟨⟨?_, ?_, ?_, ?_, ?_, by simp⟩, ?_⟩
  · intro x hx; simp [Heap.empty] at hx
  · intro H x hx
    cases H with
    | none => cases hx
    | some H => cases H <;> simp [HoldsW, Holds, Heap.empty] at hx
  · intro H H' x hx
    cases H with
    | none => cases hx
    | some H => cases H <;> simp [HoldsW, Holds, Heap.empty] at hx
  · intro x hx; simp [Heap.empty] at hx
  · intro x hx; simp [Heap.empty] at hx
  · intro x hx; simp [Heap.empty] at hx

private theorem J.owned {s : Heap} (hJ : J s) : Owned s := by
  refine ⟨fun H x hx => hJ.1.ex (some H) x hx, fun x hx => ?_, hJ.1.kn⟩
  obtain ⟨H, hH⟩ := hJ.1.any x hx
  cases H with
  | none => cases hH
  | some H =>
    refine ⟨H, hH, fun H' hH' => ?_⟩
    have := hJ.1.uniq (some H') (some H) x hH' hH
    simpa using this

/-- **C102_owned_partial**: whatever calls are made on handles of segments and outlines, as long as the rules are kept, nothing is deleted
twice or used after it is gone, and every object that exists has exactly one holder: one handle, one outline, or the caller who
detached it. Missing: calls against the rules (`C102_attached_twice`, `C102_own_cutout`). -/
theorem C102_owned_partial (cs : List Call) (hg : GoodRun Heap.empty cs) : ∃ s, run Heap.empty cs = some s ∧ Owned s := by
  obtain ⟨s, h1, h2⟩ := run_J empty_J cs hg
  exact ⟨s, h1, h2.owned⟩

/-- **C102_no_leak_partial**: every object that exists then belongs to an object of a handle or of the caller; when all handles are gone
and the caller has nothing left, nothing exists any more. -/
theorem C102_no_leak_partial (cs : List Call) (hg : GoodRun Heap.empty cs) (s : Heap) (hs : run Heap.empty cs = some s) :
    (∀ x ∈ s.live, ∃ y, ((∃ h, s.hnd h = some y) ∨ y ∈ s.raw) ∧ Part s y x) ∧
    ((∀ h, s.hnd h = none) → s.raw = ∅ → s.live = ∅) := by
  obtain ⟨s', h1, h2⟩ := run_J empty_J cs hg
  rw [hs] at h1; cases h1
  have h3 : ∀ x ∈ s.live, ∃ y, ((∃ h, s.hnd h = some y) ∨ y ∈ s.raw) ∧ Part s y x := by
    intro x hx
    obtain ⟨y, hy, hp⟩ := h2.2 x hx
    exact ⟨y, hy.resolve_left (by simp), hp⟩
  refine ⟨h3, fun h4 h5 => Finset.eq_empty_of_forall_notMem fun x hx => ?_⟩
  obtain ⟨y, ⟨h, hy⟩ | hy, -⟩ := h3 x hx
  · rw [h4] at hy; cases hy
  · rw [h5] at hy; simp at hy

/-- **C102_destroy_partial**: destroying a handle, or its object, deletes the object and what belongs to it, and nothing else; the other handles
keep what they had. -/
theorem C102_destroy_partial (cs : List Call) (hg : GoodRun Heap.empty cs) (s : Heap) (hs : run Heap.empty cs = some s) (h a : Nat)
    (ha : s.hnd h = some a) :
    ∃ s', step s (.destroy h) = some s' ∧ (∀ x, x ∈ s'.live ↔ x ∈ s.live ∧ ¬ Part s a x) ∧ s'.hnd h = none ∧
      ∀ g, g ≠ h → s'.hnd g = s.hnd g := by
  obtain ⟨s', h1, h2⟩ := run_J empty_J cs hg
  rw [hs] at h1; cases h1
  obtain ⟨s', h1, -, -, h4, -, h6⟩ := freeAll_J (letGo_inv h2.1 ha) (letGo_rooted h2.2 ha) (le_refl (s.letGo h).live.card)
  refine ⟨s', ?_, fun x => ?_, ?_, fun g hg => ?_⟩
  · show destroy s h = _
    unfold destroy; rw [ha]; exact h1
  · rw [h6]
    have : (∃ y ∈ [a], Part (s.letGo h) y x) ↔ Part s a x := by simp only [List.mem_singleton, exists_eq_left]; rfl
    rw [this]; rfl
  · rw [h4]; show (if h = h then none else s.hnd h) = none; rw [if_pos rfl]
  · rw [h4]; show (if g = h then none else s.hnd g) = s.hnd g; rw [if_neg hg]

/-- **C102_refused**: an object that is refused stays with its handle; nothing is changed. -/
theorem C102_refused (s : Heap) (h g : Nat) : step s (.give h g .refused) = some s := by
  simp only [step]
  cases s.hnd h with
  | none => rfl
  | some o => cases s.hnd g <;> rfl

/-- **C102_given**: an object that is taken leaves its handle and is in the outline; destroying the handle then does nothing. -/
theorem C102_given (s : Heap) (h g o a : Nat) (ho : s.hnd h = some o) (ha : s.hnd g = some a) :
    ∃ s', step s (.give h g .kept) = some s' ∧ s'.hnd g = none ∧ s'.kids o = s.kids o ++ [a] ∧ s'.live = s.live ∧
      step s' (.destroy g) = some s' := by
  refine ⟨keep (s.letGo g) o a, by simp only [step, ho, ha]; rfl, ?_, ?_, rfl, ?_⟩
  · show (if g = g then none else s.hnd g) = none; rw [if_pos rfl]
  · show (if o = o then s.kids o ++ [a] else s.kids o) = _; rw [if_pos rfl]
  · have : (keep (s.letGo g) o a).hnd g = none := by show (if g = g then none else s.hnd g) = none; rw [if_pos rfl]
    simp only [step, destroy, this]

/-- An outline (handle 0) with a segment (handle 1). -/
private def built : List Call := [.create 0, .create 1, .give 0 1 .kept]

/-- **C102_attached_twice** (`Attach` does not ask who holds the object): a handle attached to a segment that the outline handed out by
`GetSegments` deletes it when it is destroyed; destroying the outline then deletes it again. -/
theorem C102_attached_twice :
    (run Heap.empty (built ++ [.attach 1 1, .destroy 1])).isSome = true ∧
    run Heap.empty (built ++ [.attach 1 1, .destroy 1, .destroy 0]) = none := by
  refine ⟨by decide, ?_⟩
  rw [← Option.isNone_iff_eq_none]; decide

/-- **C102_shared**: two handles of one object, both made by `Attach`, are safe: the second finds its flag cleared. -/
theorem C102_shared : (run Heap.empty [.create 0, .detach 0, .attach 1 0, .attach 2 0, .destroy 1, .destroy 2]).isSome = true := by decide

/-- **C102_own_cutout**: an outline that is given to itself as a cutout leaves its handle and belongs to nobody but itself: it exists
and cannot be reached any more. -/
theorem C102_own_cutout : ∃ s, run Heap.empty [.create 0, .give 0 0 .kept] = some s ∧ s.live = {0} ∧ s.kids 0 = [0] ∧ s.raw = ∅ ∧
    ∀ h, s.hnd h = none := by
  refine ⟨_, rfl, by decide, by decide, by decide, fun h => ?_⟩
  show (if h = 0 then none else if h = 0 then some 0 else none) = none
  split
  · rfl
  · rfl

/-- The rules are kept: an outline with a segment, a second outline with a segment worked into the first (a new segment 4 and both old
ones but the last are left), and all handles destroyed. -/
example : GoodRun Heap.empty [.create 0, .create 1, .give 0 1 .kept, .create 1, .create 2, .give 1 2 .kept,
    .give 0 1 (.merged 0 [1, 4] 1), .destroy 0] := by
  refine ⟨trivial, fun s hs => ?_⟩; cases hs
  refine ⟨trivial, fun s hs => ?_⟩; cases hs
  refine ⟨⟨by decide, fun _ _ _ _ => trivial⟩, fun s hs => ?_⟩; cases hs
  refine ⟨trivial, fun s hs => ?_⟩; cases hs
  refine ⟨trivial, fun s hs => ?_⟩; cases hs
  refine ⟨⟨by decide, fun _ _ _ _ => trivial⟩, fun s hs => ?_⟩; cases hs
  refine ⟨⟨by decide, fun o a ho ha => ?_⟩, fun s hs => ?_⟩
  · cases ho; cases ha
    refine ⟨Or.inl rfl, by decide, ?_, ?_⟩
    · intro k hk
      simp only [List.mem_cons, List.not_mem_nil, or_false] at hk
      rcases hk with rfl | rfl
      · exact Or.inl (by decide)
      · exact Or.inr (Or.inr (by decide))
    · intro k h1 h2
      have h1' : 4 ≤ k := h1
      have h2' : k < 5 := h2
      have : k = 4 := by omega
      subst this; decide
  · exact ⟨trivial, fun _ _ => trivial⟩

example : ((run Heap.empty [.create 0, .create 1, .give 0 1 .kept, .create 1, .create 2, .give 1 2 .kept,
    .give 0 1 (.merged 0 [1, 4] 1)]).map fun s => (s.live, s.kids 0)) = some ({0, 1, 4}, [1, 4]) := by decide

end Iges.Props.Ownership
