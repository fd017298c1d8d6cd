import Verif.Spec.Wrap
import Mathlib.Data.List.Nodup
import Mathlib.Tactic.Tauto

/-!
C50: wrapper handles are never stale.
-/

namespace Iges.Props.Wrap

open Iges.Wrap Iges.Spec.Wrap

/-- Flags and registrations agree. -/
structure Inv (W : World) : Prop where
  nodup : ∀ i o, W.objs i = some o → o.flags.Nodup
  vcell : ∀ i o w, W.objs i = some o →
    ((w, Which.valid) ∈ o.flags ↔ ∃ r, W.wraps w = some r ∧ r.valid = true ∧ r.target = some i)
  pcell : ∀ i o w, W.objs i = some o →
    ((w, Which.parent) ∈ o.flags ↔
      ∃ r, W.wraps w = some r ∧ r.hasParent = some true ∧ r.parent = some i)
  live : ∀ w r, W.wraps w = some r → r.valid = true →
    ∃ i o, r.target = some i ∧ W.objs i = some o ∧ o.ty = r.ty
  plive : ∀ w r, W.wraps w = some r → r.hasParent = some true →
    ∃ i o, r.parent = some i ∧ W.objs i = some o
  pinit : ∀ w r, W.wraps w = some r → r.hasParent = none → r.parent = none
  oinit : ∀ w r, W.wraps w = some r → r.owner = true → r.hasParent = none

/-- The object a wrapper refers to. -/
def handle (W : World) (w : Nat) : Option Nat :=
  (W.wraps w).bind (fun r => if r.valid then r.target else none)

theorem uses_iff {W : World} (hi : Inv W) (w i : Nat) : Uses W w i ↔ handle W w = some i := by
  simp only [Uses, handle, step]
  cases hr : W.wraps w with
  | none => simp
  | some r =>
    cases hv : r.valid with
    | false => simp [hv]
    | true =>
      obtain ⟨j, o, h1, h2, h3⟩ := hi.live w r hr hv
      simp [hv, h1, h2]

theorem inv_start : Inv start := by
  constructor <;> intros <;> simp_all [start]

/-! ### Changes of one wrapper -/

theorem putWr_same (W : World) (w : Nat) (r : Option Wr) : (W.putWr w r).wraps w = r := by
  simp [World.putWr]

theorem putWr_other (W : World) {w v : Nat} (r : Option Wr) (h : v ≠ w) :
    (W.putWr w r).wraps v = W.wraps v := by
  simp [World.putWr, h]

/-- Any change of an unregistered part of a wrapper. -/
theorem inv_own {W : World} (hi : Inv W) {w : Nat} {r r' : Wr} (hr : W.wraps w = some r)
    (ht : r'.ty = r.ty) (hw : r'.owner = r.owner) (hv : r'.valid = r.valid) (hh : r'.hasParent = r.hasParent)
    (h1 : r.valid = true → r'.target = r.target)
    (h2 : r.hasParent ≠ some false → r'.parent = r.parent) :
    Inv (W.putWr w (some r')) := by
  constructor
  · exact hi.nodup
  · intro i o v ho
    rw [hi.vcell i o v ho]
    by_cases e : v = w
    · subst e
      rw [putWr_same]
      simp only [hr, Option.some.injEq, exists_eq_left', hv]
      constructor
      · rintro ⟨a, b⟩; exact ⟨a, by rw [h1 a]; exact b⟩
      · rintro ⟨a, b⟩; exact ⟨a, by rw [← h1 a]; exact b⟩
    · rw [putWr_other _ _ e]
  · intro i o v ho
    rw [hi.pcell i o v ho]
    by_cases e : v = w
    · subst e
      rw [putWr_same]
      simp only [hr, Option.some.injEq, exists_eq_left', hh]
      constructor
      · rintro ⟨a, b⟩; exact ⟨a, by rw [h2 (by simp [a])]; exact b⟩
      · rintro ⟨a, b⟩; exact ⟨a, by rw [← h2 (by simp [a])]; exact b⟩
    · rw [putWr_other _ _ e]
  · intro v s hs hvs
    by_cases e : v = w
    · subst e
      rw [putWr_same] at hs
      cases hs
      obtain ⟨i, o, a, b, c⟩ := hi.live v r hr (by rw [← hv]; exact hvs)
      exact ⟨i, o, by rw [h1 (by rw [← hv]; exact hvs)]; exact a, b, by rw [ht]; exact c⟩
    · rw [putWr_other _ _ e] at hs
      exact hi.live v s hs hvs
  · intro v s hs hvs
    by_cases e : v = w
    · subst e
      rw [putWr_same] at hs
      cases hs
      rw [hh] at hvs
      obtain ⟨i, o, a, b⟩ := hi.plive v r hr hvs
      exact ⟨i, o, by rw [h2 (by simp [hvs])]; exact a, b⟩
    · rw [putWr_other _ _ e] at hs
      exact hi.plive v s hs hvs
  · intro v s hs hvs
    by_cases e : v = w
    · subst e
      rw [putWr_same] at hs
      cases hs
      rw [hh] at hvs
      rw [h2 (by simp [hvs])]
      exact hi.pinit v r hr hvs
    · rw [putWr_other _ _ e] at hs
      exact hi.pinit v s hs hvs
  · intro v s hs hvs
    by_cases e : v = w
    · subst e
      rw [putWr_same] at hs
      cases hs
      rw [hh]; exact hi.oinit v r hr (by rw [← hw]; exact hvs)
    · rw [putWr_other _ _ e] at hs
      exact hi.oinit v s hs hvs

/-- A wrapper whose flags are not registered may appear or disappear. -/
theorem inv_putWr {W : World} (hi : Inv W) {w : Nat} {r' : Option Wr}
    (hr : ∀ r, W.wraps w = some r → r.valid = false ∧ r.hasParent ≠ some true)
    (hr' : ∀ r, r' = some r → r.valid = false ∧ r.hasParent ≠ some true ∧
      (r.hasParent = none → r.parent = none) ∧ (r.owner = true → r.hasParent = none)) :
    Inv (W.putWr w r') := by
  constructor
  · exact hi.nodup
  · intro i o v ho
    rw [hi.vcell i o v ho]
    by_cases e : v = w
    · subst e
      rw [putWr_same]
      constructor
      · rintro ⟨r, a, b, c⟩; rw [(hr r a).1] at b; cases b
      · rintro ⟨r, a, b, c⟩; rw [(hr' r a).1] at b; cases b
    · rw [putWr_other _ _ e]
  · intro i o v ho
    rw [hi.pcell i o v ho]
    by_cases e : v = w
    · subst e
      rw [putWr_same]
      constructor
      · rintro ⟨r, a, b, c⟩; exact absurd b (hr r a).2
      · rintro ⟨r, a, b, c⟩; exact absurd b (hr' r a).2.1
    · rw [putWr_other _ _ e]
  · intro v s hs hvs
    by_cases e : v = w
    · subst e
      rw [putWr_same] at hs
      rw [(hr' s hs).1] at hvs; cases hvs
    · rw [putWr_other _ _ e] at hs
      exact hi.live v s hs hvs
  · intro v s hs hvs
    by_cases e : v = w
    · subst e
      rw [putWr_same] at hs
      exact absurd hvs (hr' s hs).2.1
    · rw [putWr_other _ _ e] at hs
      exact hi.plive v s hs hvs
  · intro v s hs hvs
    by_cases e : v = w
    · subst e
      rw [putWr_same] at hs
      exact (hr' s hs).2.2.1 hvs
    · rw [putWr_other _ _ e] at hs
      exact hi.pinit v s hs hvs
  · intro v s hs hvs
    by_cases e : v = w
    · subst e
      rw [putWr_same] at hs
      exact (hr' s hs).2.2.2 hvs
    · rw [putWr_other _ _ e] at hs
      exact hi.oinit v s hs hvs

/-- A new library object. -/
theorem inv_libNew {W : World} (hi : Inv W) {i ty : Nat} (h : W.objs i = none) :
    Inv (W.putObj i (some { ty := ty })) := by
  have hne : ∀ j o, W.objs j = some o → j ≠ i := by rintro j o hj rfl; rw [h] at hj; cases hj
  constructor
  · intro j o ho
    simp only [World.putObj] at ho
    split at ho
    · cases ho; exact List.nodup_nil
    · exact hi.nodup j o ho
  · intro j o w ho
    simp only [World.putObj] at ho ⊢
    split at ho
    · rename_i e
      subst e
      cases ho
      simp only [List.not_mem_nil, false_iff]
      rintro ⟨r, a, b, c⟩
      obtain ⟨k, o, h1, h2, _⟩ := hi.live w r a b
      rw [c] at h1; cases h1; exact hne _ _ h2 rfl
    · exact hi.vcell j o w ho
  · intro j o w ho
    simp only [World.putObj] at ho ⊢
    split at ho
    · rename_i e
      subst e
      cases ho
      simp only [List.not_mem_nil, false_iff]
      rintro ⟨r, a, b, c⟩
      obtain ⟨k, o, h1, h2⟩ := hi.plive w r a b
      rw [c] at h1; cases h1; exact hne _ _ h2 rfl
    · exact hi.pcell j o w ho
  · intro w r hr hv
    obtain ⟨j, o, h1, h2, h3⟩ := hi.live w r hr hv
    exact ⟨j, o, h1, by simp [World.putObj, hne j o h2, h2], h3⟩
  · intro w r hr hv
    obtain ⟨j, o, h1, h2⟩ := hi.plive w r hr hv
    exact ⟨j, o, h1, by simp [World.putObj, hne j o h2, h2]⟩
  · exact hi.pinit
  · exact hi.oinit

/-! ### Registration -/

theorem attach_valid {W : World} (hi : Inv W) {w i : Nat} {r : Wr} {o : Obj}
    (hr : W.wraps w = some r) (hv : r.valid = false) (ht : r.target = some i)
    (ho : W.objs i = some o) (hty : o.ty = r.ty) :
    attachFlag W i (w, .valid) = some ((W.putWr w (some { r with valid := true })).putObj i
        (some { o with flags := o.flags ++ [(w, .valid)] })) ∧
      Inv ((W.putWr w (some { r with valid := true })).putObj i
        (some { o with flags := o.flags ++ [(w, .valid)] })) := by
  have hn : (w, Which.valid) ∉ o.flags := by
    rw [hi.vcell i o w ho]
    rintro ⟨r', a, b, _⟩
    rw [hr] at a; cases a; rw [hv] at b; cases b
  refine ⟨by simp [attachFlag, ho, hn, write, hr, Wr.set], ?_⟩
  constructor
  · intro j p hp
    simp only [World.putObj] at hp
    split at hp
    · cases hp
      rw [List.nodup_append]
      exact ⟨hi.nodup i o ho, List.nodup_singleton _, fun a ha b hb => by
        simp only [List.mem_singleton] at hb; rintro rfl; subst hb; exact hn ha⟩
    · exact hi.nodup j p hp
  · intro j p v hp
    simp only [World.putObj] at hp ⊢
    split at hp
    · rename_i e
      subst e
      cases hp
      simp only [List.mem_append, List.mem_singleton, Prod.mk.injEq, and_true]
      rw [hi.vcell j o v ho]
      by_cases e : v = w
      · subst e; rw [putWr_same]; simp [ht]
      · rw [putWr_other _ _ e]; simp [e]
    · rename_i e
      rw [hi.vcell j p v hp]
      by_cases e' : v = w
      · subst e'; rw [putWr_same]; simp only [hr, Option.some.injEq, exists_eq_left', ht]
        have e2 : i ≠ j := fun h => e h.symm
        simp [hv, e2]
      · rw [putWr_other _ _ e']
  · intro j p v hp
    simp only [World.putObj] at hp ⊢
    have key : ∀ q, W.objs j = some q → ((v, Which.parent) ∈ q.flags ↔
        ∃ r_1, (W.putWr w (some { r with valid := true })).wraps v = some r_1 ∧
          r_1.hasParent = some true ∧ r_1.parent = some j) := by
      intro q hq
      rw [hi.pcell j q v hq]
      by_cases e' : v = w
      · subst e'; rw [putWr_same]; simp [hr]
      · rw [putWr_other _ _ e']
    split at hp
    · rename_i e
      subst e
      cases hp
      simp only [List.mem_append, List.mem_singleton, Prod.mk.injEq, reduceCtorEq, and_false,
        or_false]
      exact key o ho
    · exact key p hp
  · intro v s hs hvs
    by_cases e : v = w
    · subst e
      simp only [World.putObj, putWr_same] at hs
      cases hs
      exact ⟨i, _, ht, if_pos rfl, hty⟩
    · simp only [World.putObj, putWr_other _ _ e] at hs
      obtain ⟨j, p, a, b, c⟩ := hi.live v s hs hvs
      by_cases e' : j = i
      · subst e'; rw [ho] at b; cases b
        exact ⟨j, _, a, if_pos rfl, c⟩
      · exact ⟨j, p, a, by simp [World.putObj, e', b, World.putWr], c⟩
  · intro v s hs hvs
    have : ∃ s', W.wraps v = some s' ∧ s'.hasParent = s.hasParent ∧ s'.parent = s.parent := by
      by_cases e : v = w
      · subst e
        simp only [World.putObj, putWr_same] at hs
        cases hs; exact ⟨r, hr, rfl, rfl⟩
      · simp only [World.putObj, putWr_other _ _ e] at hs
        exact ⟨s, hs, rfl, rfl⟩
    obtain ⟨s', h1, h2, h3⟩ := this
    obtain ⟨j, p, a, b⟩ := hi.plive v s' h1 (by rw [h2]; exact hvs)
    rw [h3] at a
    by_cases e' : j = i
    · subst e'; exact ⟨j, _, a, if_pos rfl⟩
    · exact ⟨j, p, a, by simp [World.putObj, e', b, World.putWr]⟩
  · intro v s hs hvs
    by_cases e : v = w
    · subst e
      simp only [World.putObj, putWr_same] at hs
      cases hs; exact hi.pinit v r hr hvs
    · simp only [World.putObj, putWr_other _ _ e] at hs
      exact hi.pinit v s hs hvs
  · intro v s hs hvs
    by_cases e : v = w
    · subst e
      simp only [World.putObj, putWr_same] at hs
      cases hs; exact hi.oinit v r hr hvs
    · simp only [World.putObj, putWr_other _ _ e] at hs
      exact hi.oinit v s hs hvs

theorem detach_valid {W : World} (hi : Inv W) {w i : Nat} {r : Wr}
    (hr : W.wraps w = some r) (hv : r.valid = true) (ht : r.target = some i) :
    ∃ o, W.objs i = some o ∧
      detachFlag W i (w, .valid) = some ((W.putWr w (some { r with valid := false })).putObj i
        (some { o with flags := o.flags.erase (w, .valid) })) ∧
      Inv ((W.putWr w (some { r with valid := false })).putObj i
        (some { o with flags := o.flags.erase (w, .valid) })) := by
  obtain ⟨i', o, h1, ho, hty⟩ := hi.live w r hr hv
  rw [ht] at h1; cases h1
  have hn : (w, Which.valid) ∈ o.flags := (hi.vcell i o w ho).mpr ⟨r, hr, hv, ht⟩
  have hd := hi.nodup i o ho
  refine ⟨o, ho, by simp [detachFlag, ho, hn, write, hr, Wr.set], ?_⟩
  constructor
  · intro j p hp
    simp only [World.putObj] at hp
    split at hp
    · cases hp; exact hd.erase _
    · exact hi.nodup j p hp
  · intro j p v hp
    simp only [World.putObj] at hp ⊢
    split at hp
    · rename_i e
      subst e
      cases hp
      simp only [hd.mem_erase_iff, Prod.mk.injEq, and_true, ne_eq]
      rw [hi.vcell j o v ho]
      by_cases e : v = w
      · subst e; rw [putWr_same]; simp
      · rw [putWr_other _ _ e]; simp [e]
    · rename_i e
      rw [hi.vcell j p v hp]
      by_cases e' : v = w
      · subst e'; rw [putWr_same]; simp only [hr, Option.some.injEq, exists_eq_left', ht]
        have e2 : i ≠ j := fun h => e h.symm
        simp [e2]
      · rw [putWr_other _ _ e']
  · intro j p v hp
    simp only [World.putObj] at hp ⊢
    have key : ∀ q, W.objs j = some q → ((v, Which.parent) ∈ q.flags ↔
        ∃ r_1, (W.putWr w (some { r with valid := false })).wraps v = some r_1 ∧
          r_1.hasParent = some true ∧ r_1.parent = some j) := by
      intro q hq
      rw [hi.pcell j q v hq]
      by_cases e' : v = w
      · subst e'; rw [putWr_same]; simp [hr]
      · rw [putWr_other _ _ e']
    split at hp
    · rename_i e
      subst e
      cases hp
      simp only [hd.mem_erase_iff, ne_eq, Prod.mk.injEq, reduceCtorEq, and_false,
        not_false_eq_true, true_and]
      exact key o ho
    · exact key p hp
  · intro v s hs hvs
    by_cases e : v = w
    · subst e
      simp only [World.putObj, putWr_same] at hs
      cases hs; cases hvs
    · simp only [World.putObj, putWr_other _ _ e] at hs
      obtain ⟨j, p, a, b, c⟩ := hi.live v s hs hvs
      by_cases e' : j = i
      · subst e'; rw [ho] at b; cases b
        exact ⟨j, _, a, if_pos rfl, c⟩
      · exact ⟨j, p, a, by simp [World.putObj, e', b, World.putWr], c⟩
  · intro v s hs hvs
    have : ∃ s', W.wraps v = some s' ∧ s'.hasParent = s.hasParent ∧ s'.parent = s.parent := by
      by_cases e : v = w
      · subst e
        simp only [World.putObj, putWr_same] at hs
        cases hs; exact ⟨r, hr, rfl, rfl⟩
      · simp only [World.putObj, putWr_other _ _ e] at hs
        exact ⟨s, hs, rfl, rfl⟩
    obtain ⟨s', h1, h2, h3⟩ := this
    obtain ⟨j, p, a, b⟩ := hi.plive v s' h1 (by rw [h2]; exact hvs)
    rw [h3] at a
    by_cases e' : j = i
    · subst e'; exact ⟨j, _, a, if_pos rfl⟩
    · exact ⟨j, p, a, by simp [World.putObj, e', b, World.putWr]⟩
  · intro v s hs hvs
    by_cases e : v = w
    · subst e
      simp only [World.putObj, putWr_same] at hs
      cases hs; exact hi.pinit v r hr hvs
    · simp only [World.putObj, putWr_other _ _ e] at hs
      exact hi.pinit v s hs hvs
  · intro v s hs hvs
    by_cases e : v = w
    · subst e
      simp only [World.putObj, putWr_same] at hs
      cases hs; exact hi.oinit v r hr hvs
    · simp only [World.putObj, putWr_other _ _ e] at hs
      exact hi.oinit v s hs hvs

theorem attach_parent {W : World} (hi : Inv W) {w i : Nat} {r : Wr} {o : Obj}
    (hr : W.wraps w = some r) (hown : r.owner = false) (hv : r.hasParent = some false)
    (ht : r.parent = some i) (ho : W.objs i = some o) :
    attachFlag W i (w, .parent) = some ((W.putWr w (some { r with hasParent := some true })).putObj i
        (some { o with flags := o.flags ++ [(w, .parent)] })) ∧
      Inv ((W.putWr w (some { r with hasParent := some true })).putObj i
        (some { o with flags := o.flags ++ [(w, .parent)] })) := by
  have hn : (w, Which.parent) ∉ o.flags := by
    rw [hi.pcell i o w ho]
    rintro ⟨r', a, b, _⟩
    rw [hr] at a; cases a; rw [hv] at b; cases b
  refine ⟨by simp [attachFlag, ho, hn, write, hr, Wr.set], ?_⟩
  constructor
  · intro j p hp
    simp only [World.putObj] at hp
    split at hp
    · cases hp
      rw [List.nodup_append]
      exact ⟨hi.nodup i o ho, List.nodup_singleton _, fun a ha b hb => by
        simp only [List.mem_singleton] at hb; rintro rfl; subst hb; exact hn ha⟩
    · exact hi.nodup j p hp
  · intro j p v hp
    simp only [World.putObj] at hp ⊢
    have key : ∀ q, W.objs j = some q → ((v, Which.valid) ∈ q.flags ↔
        ∃ r_1, (W.putWr w (some { r with hasParent := some true })).wraps v = some r_1 ∧
          r_1.valid = true ∧ r_1.target = some j) := by
      intro q hq
      rw [hi.vcell j q v hq]
      by_cases e' : v = w
      · subst e'; rw [putWr_same]; simp [hr]
      · rw [putWr_other _ _ e']
    split at hp
    · rename_i e
      subst e
      cases hp
      simp only [List.mem_append, List.mem_singleton, Prod.mk.injEq, reduceCtorEq, and_false,
        or_false]
      exact key o ho
    · exact key p hp
  · intro j p v hp
    simp only [World.putObj] at hp ⊢
    split at hp
    · rename_i e
      subst e
      cases hp
      simp only [List.mem_append, List.mem_singleton, Prod.mk.injEq, and_true]
      rw [hi.pcell j o v ho]
      by_cases e : v = w
      · subst e; rw [putWr_same]; simp [ht]
      · rw [putWr_other _ _ e]; simp [e]
    · rename_i e
      rw [hi.pcell j p v hp]
      by_cases e' : v = w
      · subst e'; rw [putWr_same]; simp only [hr, Option.some.injEq, exists_eq_left', ht]
        have e2 : i ≠ j := fun h => e h.symm
        simp [hv, e2]
      · rw [putWr_other _ _ e']
  · intro v s hs hvs
    have : ∃ s', W.wraps v = some s' ∧ s'.valid = s.valid ∧ s'.target = s.target ∧
        s'.ty = s.ty := by
      by_cases e : v = w
      · subst e
        simp only [World.putObj, putWr_same] at hs
        cases hs; exact ⟨r, hr, rfl, rfl, rfl⟩
      · simp only [World.putObj, putWr_other _ _ e] at hs
        exact ⟨s, hs, rfl, rfl, rfl⟩
    obtain ⟨s', h1, h2, h3, h4⟩ := this
    obtain ⟨j, p, a, b, c⟩ := hi.live v s' h1 (by rw [h2]; exact hvs)
    rw [h3] at a; rw [h4] at c
    by_cases e' : j = i
    · subst e'; rw [ho] at b; cases b
      exact ⟨j, _, a, if_pos rfl, c⟩
    · exact ⟨j, p, a, by simp [World.putObj, e', b, World.putWr], c⟩
  · intro v s hs hvs
    by_cases e : v = w
    · subst e
      simp only [World.putObj, putWr_same] at hs
      cases hs
      exact ⟨i, _, ht, if_pos rfl⟩
    · simp only [World.putObj, putWr_other _ _ e] at hs
      obtain ⟨j, p, a, b⟩ := hi.plive v s hs hvs
      by_cases e' : j = i
      · subst e'; exact ⟨j, _, a, if_pos rfl⟩
      · exact ⟨j, p, a, by simp [World.putObj, e', b, World.putWr]⟩
  · intro v s hs hvs
    by_cases e : v = w
    · subst e
      simp only [World.putObj, putWr_same] at hs
      cases hs; cases hvs
    · simp only [World.putObj, putWr_other _ _ e] at hs
      exact hi.pinit v s hs hvs
  · intro v s hs hvs
    by_cases e : v = w
    · subst e
      simp only [World.putObj, putWr_same] at hs
      cases hs; rw [hown] at hvs; cases hvs
    · simp only [World.putObj, putWr_other _ _ e] at hs
      exact hi.oinit v s hs hvs

theorem detach_parent {W : World} (hi : Inv W) {w i : Nat} {r : Wr}
    (hr : W.wraps w = some r) (hv : r.hasParent = some true) (ht : r.parent = some i) :
    ∃ o, W.objs i = some o ∧
      detachFlag W i (w, .parent) =
        some ((W.putWr w (some { r with hasParent := some false })).putObj i
          (some { o with flags := o.flags.erase (w, .parent) })) ∧
      Inv ((W.putWr w (some { r with hasParent := some false })).putObj i
        (some { o with flags := o.flags.erase (w, .parent) })) := by
  obtain ⟨i', o, h1, ho⟩ := hi.plive w r hr hv
  rw [ht] at h1; cases h1
  have hn : (w, Which.parent) ∈ o.flags := (hi.pcell i o w ho).mpr ⟨r, hr, hv, ht⟩
  have hd := hi.nodup i o ho
  refine ⟨o, ho, by simp [detachFlag, ho, hn, write, hr, Wr.set], ?_⟩
  constructor
  · intro j p hp
    simp only [World.putObj] at hp
    split at hp
    · cases hp; exact hd.erase _
    · exact hi.nodup j p hp
  · intro j p v hp
    simp only [World.putObj] at hp ⊢
    have key : ∀ q, W.objs j = some q → ((v, Which.valid) ∈ q.flags ↔
        ∃ r_1, (W.putWr w (some { r with hasParent := some false })).wraps v = some r_1 ∧
          r_1.valid = true ∧ r_1.target = some j) := by
      intro q hq
      rw [hi.vcell j q v hq]
      by_cases e' : v = w
      · subst e'; rw [putWr_same]; simp [hr]
      · rw [putWr_other _ _ e']
    split at hp
    · rename_i e
      subst e
      cases hp
      simp only [hd.mem_erase_iff, ne_eq, Prod.mk.injEq, reduceCtorEq, and_false,
        not_false_eq_true, true_and]
      exact key o ho
    · exact key p hp
  · intro j p v hp
    simp only [World.putObj] at hp ⊢
    split at hp
    · rename_i e
      subst e
      cases hp
      simp only [hd.mem_erase_iff, Prod.mk.injEq, and_true, ne_eq]
      rw [hi.pcell j o v ho]
      by_cases e : v = w
      · subst e; rw [putWr_same]; simp
      · rw [putWr_other _ _ e]; simp [e]
    · rename_i e
      rw [hi.pcell j p v hp]
      by_cases e' : v = w
      · subst e'; rw [putWr_same]; simp only [hr, Option.some.injEq, exists_eq_left', ht]
        have e2 : i ≠ j := fun h => e h.symm
        simp [e2]
      · rw [putWr_other _ _ e']
  · intro v s hs hvs
    have : ∃ s', W.wraps v = some s' ∧ s'.valid = s.valid ∧ s'.target = s.target ∧
        s'.ty = s.ty := by
      by_cases e : v = w
      · subst e
        simp only [World.putObj, putWr_same] at hs
        cases hs; exact ⟨r, hr, rfl, rfl, rfl⟩
      · simp only [World.putObj, putWr_other _ _ e] at hs
        exact ⟨s, hs, rfl, rfl, rfl⟩
    obtain ⟨s', h1, h2, h3, h4⟩ := this
    obtain ⟨j, p, a, b, c⟩ := hi.live v s' h1 (by rw [h2]; exact hvs)
    rw [h3] at a; rw [h4] at c
    by_cases e' : j = i
    · subst e'; rw [ho] at b; cases b
      exact ⟨j, _, a, if_pos rfl, c⟩
    · exact ⟨j, p, a, by simp [World.putObj, e', b, World.putWr], c⟩
  · intro v s hs hvs
    by_cases e : v = w
    · subst e
      simp only [World.putObj, putWr_same] at hs
      cases hs; cases hvs
    · simp only [World.putObj, putWr_other _ _ e] at hs
      obtain ⟨j, p, a, b⟩ := hi.plive v s hs hvs
      by_cases e' : j = i
      · subst e'; exact ⟨j, _, a, if_pos rfl⟩
      · exact ⟨j, p, a, by simp [World.putObj, e', b, World.putWr]⟩
  · intro v s hs hvs
    by_cases e : v = w
    · subst e
      simp only [World.putObj, putWr_same] at hs
      cases hs; cases hvs
    · simp only [World.putObj, putWr_other _ _ e] at hs
      exact hi.pinit v s hs hvs
  · intro v s hs hvs
    by_cases e : v = w
    · subst e
      simp only [World.putObj, putWr_same] at hs
      cases hs; have := hi.oinit v r hr hvs; rw [hv] at this; cases this
    · simp only [World.putObj, putWr_other _ _ e] at hs
      exact hi.oinit v s hs hvs

/-! ### Destruction -/

/-- What the destructor of an object with flags `l` does to wrapper `w`. -/
def clearBy (l : List Cell) (w : Nat) (r : Wr) : Wr :=
  { r with
    valid := r.valid && !decide ((w, Which.valid) ∈ l)
    hasParent := if (w, Which.parent) ∈ l then some false else r.hasParent }

theorem writeAll_ok (l : List Cell) : ∀ (W : World), (∀ c ∈ l, W.wraps c.1 ≠ none) →
    ∃ W', writeAll W l = some W' ∧ W'.objs = W.objs ∧
      ∀ w, W'.wraps w = (W.wraps w).map (clearBy l w) := by
  induction l with
  | nil =>
    intro W _
    refine ⟨W, rfl, rfl, fun w => ?_⟩
    cases W.wraps w with
    | none => rfl
    | some r => simp [clearBy]
  | cons c l ih =>
    intro W h
    obtain ⟨w, k⟩ := c
    obtain ⟨r, hr⟩ := Option.ne_none_iff_exists'.mp (h (w, k) (by simp))
    obtain ⟨W', h1, h2, h3⟩ := ih (W.putWr w (some (r.set false k))) (by
      intro c hc
      by_cases e : c.1 = w
      · rw [e, putWr_same]; simp
      · rw [putWr_other _ _ e]; exact h c (List.mem_cons_of_mem _ hc))
    refine ⟨W', ?_, h2, fun v => ?_⟩
    · simp only [writeAll, write, hr, Option.map_some, Option.bind_some]; exact h1
    · rw [h3]
      by_cases e : v = w
      · subst e
        rw [putWr_same, hr]
        cases k <;> simp [clearBy, Wr.set]
      · rw [putWr_other _ _ e]
        cases W.wraps v with
        | none => rfl
        | some r => simp [clearBy, e]

theorem destroy_ok {W : World} (hi : Inv W) {i : Nat} {o : Obj} (ho : W.objs i = some o) :
    ∃ W', destroy W i = some W' ∧ Inv W' ∧
      (∀ j, W'.objs j = if j = i then none else W.objs j) ∧
      (∀ w, W'.wraps w = (W.wraps w).map (clearBy o.flags w)) ∧
      ∀ v, handle W' v = if handle W v = some i then none else handle W v := by
  have hal : ∀ c ∈ o.flags, W.wraps c.1 ≠ none := by
    rintro ⟨w, k⟩ hc
    cases k with
    | valid => obtain ⟨r, hr, _⟩ := (hi.vcell i o w ho).mp hc; simp [hr]
    | parent => obtain ⟨r, hr, _⟩ := (hi.pcell i o w ho).mp hc; simp [hr]
  obtain ⟨W1, h1, h2, h3⟩ := writeAll_ok o.flags W hal
  refine ⟨W1.putObj i none, by simp [destroy, ho, h1], ?_, ?_, h3, ?_⟩
  · have hw : ∀ w r', (W1.putObj i none).wraps w = some r' →
        ∃ r, W.wraps w = some r ∧ r' = clearBy o.flags w r := by
      intro w r' h
      have h : W1.wraps w = some r' := h
      rw [h3] at h
      cases hr : W.wraps w with
      | none => simp [hr] at h
      | some r => simp only [hr, Option.map_some, Option.some.injEq] at h; exact ⟨r, rfl, h.symm⟩
    have hw2 : ∀ w r, W.wraps w = some r →
        (W1.putObj i none).wraps w = some (clearBy o.flags w r) := by
      intro w r h
      show W1.wraps w = _
      rw [h3, h]; rfl
    have hob : ∀ j p, (W1.putObj i none).objs j = some p → j ≠ i ∧ W.objs j = some p := by
      intro j p h
      simp only [World.putObj, h2] at h
      split at h
      · cases h
      · exact ⟨by assumption, h⟩
    have hob2 : ∀ j p, j ≠ i → W.objs j = some p → (W1.putObj i none).objs j = some p := by
      intro j p e h; simp [World.putObj, h2, e, h]
    constructor
    · intro j p h; exact hi.nodup j p (hob j p h).2
    · intro j p w h
      obtain ⟨hj, hp⟩ := hob j p h
      rw [hi.vcell j p w hp]
      constructor
      · rintro ⟨r, a, b, c⟩
        refine ⟨_, hw2 w r a, ?_, c⟩
        have : (w, Which.valid) ∉ o.flags := by
          rw [hi.vcell i o w ho]
          rintro ⟨s, a', _, c'⟩
          rw [a] at a'; cases a'; rw [c] at c'; cases c'; exact hj rfl
        simp [clearBy, b, this]
      · rintro ⟨r', a, b, c⟩
        obtain ⟨r, hr, rfl⟩ := hw w r' a
        simp only [clearBy, Bool.and_eq_true] at b
        exact ⟨r, hr, b.1, c⟩
    · intro j p w h
      obtain ⟨hj, hp⟩ := hob j p h
      rw [hi.pcell j p w hp]
      constructor
      · rintro ⟨r, a, b, c⟩
        refine ⟨_, hw2 w r a, ?_, c⟩
        have : (w, Which.parent) ∉ o.flags := by
          rw [hi.pcell i o w ho]
          rintro ⟨s, a', _, c'⟩
          rw [a] at a'; cases a'; rw [c] at c'; cases c'; exact hj rfl
        simp [clearBy, b, this]
      · rintro ⟨r', a, b, c⟩
        obtain ⟨r, hr, rfl⟩ := hw w r' a
        simp only [clearBy] at b
        split at b
        · simp at b
        · exact ⟨r, hr, b, c⟩
    · intro w r' h hv
      obtain ⟨r, hr, rfl⟩ := hw w r' h
      simp only [clearBy, Bool.and_eq_true, Bool.not_eq_true', decide_eq_false_iff_not] at hv
      obtain ⟨j, p, a, b, c⟩ := hi.live w r hr hv.1
      refine ⟨j, p, a, hob2 j p ?_ b, c⟩
      rintro rfl
      rw [ho] at b; cases b
      exact hv.2 ((hi.vcell j o w ho).mpr ⟨r, hr, hv.1, a⟩)
    · intro w r' h hv
      obtain ⟨r, hr, rfl⟩ := hw w r' h
      simp only [clearBy] at hv
      split at hv
      · simp at hv
      · rename_i hn
        obtain ⟨j, p, a, b⟩ := hi.plive w r hr hv
        refine ⟨j, p, a, hob2 j p ?_ b⟩
        rintro rfl
        rw [ho] at b; cases b
        exact hn ((hi.pcell j o w ho).mpr ⟨r, hr, hv, a⟩)
    · intro w r' h hv
      obtain ⟨r, hr, rfl⟩ := hw w r' h
      simp only [clearBy] at hv
      split at hv
      · simp at hv
      · exact hi.pinit w r hr hv
    · intro w r' h hv
      obtain ⟨r, hr, rfl⟩ := hw w r' h
      have h0 := hi.oinit w r hr hv
      have : (w, Which.parent) ∉ o.flags := by
        rw [hi.pcell i o w ho]
        rintro ⟨s, a, b, _⟩
        rw [hr] at a; cases a; rw [h0] at b; cases b
      simp [clearBy, this, h0]
  · intro j; simp [World.putObj, h2]
  · intro v
    have : handle (W1.putObj i none) v = handle W1 v := rfl
    rw [this]
    simp only [handle, h3]
    rcases Option.eq_none_or_eq_some (W.wraps v) with hr | ⟨r, hr⟩
    · simp [hr]
    · simp only [hr, Option.map_some, Option.bind_some, clearBy]
      cases hv : r.valid with
      | false => simp
      | true =>
        have := hi.vcell i o v ho
        simp only [hr, Option.some.injEq, exists_eq_left', hv, true_and] at this
        by_cases e : r.target = some i
        · simp [this, e]
        · simp [this, e]

/-! ### The guarded pieces -/

/-- The same objects with the same types. -/
def SameObjs (W W' : World) : Prop := ∀ j, (W'.objs j).map Obj.ty = (W.objs j).map Obj.ty

theorem SameObjs.refl (W : World) : SameObjs W W := fun _ => rfl

theorem SameObjs.trans {W W' W'' : World} (h : SameObjs W W') (h' : SameObjs W' W'') :
    SameObjs W W'' := fun j => (h' j).trans (h j)

theorem SameObjs.some {W W' : World} (h : SameObjs W W') {j : Nat} {o : Obj}
    (ho : W.objs j = some o) : ∃ o', W'.objs j = some o' ∧ o'.ty = o.ty := by
  have := h j
  rw [ho] at this
  cases hx : W'.objs j with
  | none => simp [hx] at this
  | some o' => simp only [hx, Option.map_some, Option.some.injEq] at this; exact ⟨o', rfl, this⟩

theorem SameObjs.none {W W' : World} (h : SameObjs W W') {j : Nat}
    (ho : W.objs j = none) : W'.objs j = none := by
  have := h j
  rw [ho] at this
  simpa using this

theorem sameObjs_put (W : World) {i : Nat} {o o' : Obj} {w : Nat} {r : Option Wr}
    (ho : W.objs i = some o) (h : o'.ty = o.ty) :
    SameObjs W ((W.putWr w r).putObj i (some o')) := by
  intro j
  simp only [World.putObj, World.putWr]
  split
  · rename_i e; subst e; simp [ho, h]
  · rfl

/-- The wrapper is unchanged but for `m_valid`, which is false. -/
def Loose (W W' : World) (w : Nat) : Prop :=
  (∀ v, v ≠ w → W'.wraps v = W.wraps v) ∧
    ∃ r, W.wraps w = some r ∧ W'.wraps w = some { r with valid := false }

theorem release_ok {W : World} (hi : Inv W) {w : Nat} {r : Wr} (hr : W.wraps w = some r) :
    ∃ W', release W w = some W' ∧ Inv W' ∧ SameObjs W W' ∧ Loose W W' w := by
  simp only [release, hr]
  cases hv : r.valid with
  | false =>
    refine ⟨W, by simp, hi, SameObjs.refl W, fun _ _ => rfl, r, hr, ?_⟩
    rw [hr]; congr 1; cases r; simp_all
  | true =>
    obtain ⟨i, o, h1, h2, h3⟩ := hi.live w r hr hv
    obtain ⟨o', h4, h5, h6⟩ := detach_valid hi hr hv h1
    simp only [h1]
    exact ⟨_, h5, h6, sameObjs_put W h4 rfl, fun v hv => by
      simp only [World.putObj]; exact putWr_other _ _ hv, r, hr, by
      simp only [World.putObj]; exact putWr_same _ _ _⟩

theorem bind_ok {W : World} (hi : Inv W) {w i : Nat} {r : Wr} {o : Obj}
    (hr : W.wraps w = some r) (hv : r.valid = false) (ho : W.objs i = some o)
    (hty : o.ty = r.ty) :
    ∃ W', bind W w i = some W' ∧ Inv W' ∧ SameObjs W W' ∧ handle W' w = some i ∧
      (∀ v, v ≠ w → W'.wraps v = W.wraps v) ∧ W'.wraps w ≠ none := by
  have hi1 : Inv (W.putWr w (some { r with target := some i })) :=
    inv_own hi hr rfl rfl rfl rfl (by simp [hv]) (by simp)
  obtain ⟨h1, h2⟩ := attach_valid (w := w) (i := i) (r := { r with target := some i }) (o := o) hi1
    (putWr_same _ _ _) hv rfl ho hty
  refine ⟨_, by simp only [Wrap.bind, own, hr, Option.map_some, Option.bind_some]; exact h1, h2, ?_, ?_,
    ?_, ?_⟩
  · exact (SameObjs.refl W).trans (sameObjs_put _ ho rfl)
  · simp [handle, World.putObj, World.putWr]
  · intro v hv'
    simp only [World.putObj]
    rw [putWr_other _ _ hv', putWr_other _ _ hv']
  · simp [World.putObj, World.putWr]

theorem handle_congr {W W' : World} {v : Nat} (h : W'.wraps v = W.wraps v) :
    handle W' v = handle W v := by simp [handle, h]

theorem Loose.handle {W W' : World} {w : Nat} (h : Loose W W' w) : handle W' w = none := by
  obtain ⟨_, r, h1, h2⟩ := h
  simp [Wrap.handle, h2]

/-- The effect of destroying what wrapper `w` refers to (if anything) on the other wrappers. -/
def Killed (W W' : World) (w : Nat) : Prop :=
  ∀ v, v ≠ w → handle W' v =
    if handle W w ≠ none ∧ handle W v = handle W w then none else handle W v

theorem releaseDelete_ok {W : World} (hi : Inv W) {w : Nat} {r : Wr} (hr : W.wraps w = some r) :
    ∃ W', releaseDelete W w = some W' ∧ Inv W' ∧ Killed W W' w ∧
      (∀ j, W.objs j = none → W'.objs j = none) ∧
      (∃ r', W'.wraps w = some r' ∧ r'.valid = false ∧ r'.ty = r.ty ∧ r'.owner = r.owner ∧
        (r.hasParent ≠ some true → r'.hasParent ≠ some true)) := by
  cases hv : r.valid with
  | false =>
    refine ⟨W, by simp [releaseDelete, hr, hv], hi, ?_, fun _ h => h, r, hr, hv, rfl, rfl, fun h => h⟩
    intro v hvw
    simp [handle, hr, hv]
  | true =>
    obtain ⟨i, o, h1, h2, h3⟩ := hi.live w r hr hv
    obtain ⟨o', h4, h5, h6⟩ := detach_valid hi hr hv h1
    have e : releaseDelete W w = (detachFlag W i (w, .valid)).bind (fun W => destroy W i) := by
      simp only [releaseDelete, hr, hv, h1]
    rw [e, h5]
    obtain ⟨W', d1, d2, d3, d4, d5⟩ := destroy_ok (i := i) h6 (if_pos rfl)
    refine ⟨W', d1, d2, ?_, ?_, ?_⟩
    · intro v hvw
      rw [d5]
      have hw : handle W w = some i := by simp [handle, hr, hv, h1]
      have : handle ((W.putWr w (some { r with valid := false })).putObj i
          (some { o' with flags := o'.flags.erase (w, .valid) })) v = handle W v := by
        apply handle_congr
        simp only [World.putObj]
        exact putWr_other _ _ hvw
      rw [this, hw]
      simp
    · intro j hj
      rw [d3]
      split
      · rfl
      · rename_i e; simp [World.putObj, e, World.putWr, hj]
    · have hw : ((W.putWr w (some { r with valid := false })).putObj i
          (some { o' with flags := o'.flags.erase (w, .valid) })).wraps w =
          some { r with valid := false } := by simp only [World.putObj]; exact putWr_same _ _ _
      refine ⟨clearBy (o'.flags.erase (w, .valid)) w { r with valid := false },
        by rw [d4, hw]; rfl, by simp [clearBy], rfl, rfl, ?_⟩
      intro h
      simp only [clearBy]
      split
      · simp
      · exact h

/-! ### One operation -/

/-- What an operation may do to the handles of wrappers that live through it. -/
def Effect (W W' : World) (o : Op) : Prop :=
  ∀ v, W.wraps v ≠ none → W'.wraps v ≠ none → ¬ rebinds v o →
    (∀ i, handle W v = some i → destroys W i o → handle W' v = none) ∧
    ((∀ i, handle W v = some i → ¬ destroys W i o) → handle W' v = handle W v)

theorem effect_same {W W' : World} {o : Op} (hd : ∀ i, ¬ destroys W i o)
    (h : ∀ v, W.wraps v ≠ none → W'.wraps v ≠ none → ¬ rebinds v o → handle W' v = handle W v) :
    Effect W W' o :=
  fun v h1 h2 h3 => ⟨fun i _ c => absurd c (hd i), fun _ => h v h1 h2 h3⟩

theorem effect_killed {W W' : World} (hi : Inv W) {o : Op} {w : Nat}
    (hd : ∀ i, destroys W i o ↔ Uses W w i)
    (hw : W.wraps w ≠ none → W'.wraps w ≠ none → rebinds w o)
    (h : Killed W W' w) : Effect W W' o := by
  intro v h1 h2 h3
  have hvw : v ≠ w := by rintro rfl; exact h3 (hw h1 h2)
  have := h v hvw
  refine ⟨fun i c d => ?_, fun c => ?_⟩
  · rw [hd, uses_iff hi] at d
    rw [this, d, c]; simp
  · rw [this]
    split
    · rename_i q
      cases hh : handle W w with
      | none => exact absurd hh q.1
      | some i =>
        rw [hh] at q
        exact absurd ((hd i).mpr ((uses_iff hi w i).mpr hh)) (c i q.2)
    · rfl

theorem step_ok {W : World} (hi : Inv W) (o : Op) (hl : Legal W o) (hc : Careful W o) :
    ∃ W' a, step W o = some (W', a) ∧ Inv W' ∧ Effect W W' o := by
  cases o with
  | libNew i ty =>
    exact ⟨_, _, rfl, inv_libNew hi hl, effect_same (by simp [destroys]) (fun v _ _ _ => rfl)⟩
  | libDel i =>
    obtain ⟨o, ho⟩ := Option.ne_none_iff_exists'.mp hl
    obtain ⟨W', h1, h2, h3, h4, h5⟩ := destroy_ok hi ho
    refine ⟨W', .done, by simp [step, h1], h2, fun v _ _ _ => ⟨fun j c d => ?_, fun c => ?_⟩⟩
    · simp only [destroys] at d
      subst d
      rw [h5, c]; simp
    · rw [h5]
      split
      · rename_i q; exact absurd rfl (c i q)
      · rfl
  | new w ty p c =>
    obtain ⟨hw, hp, he⟩ := hl
    have hsub : ∀ W', (∀ v, v ≠ w → W'.wraps v = W.wraps v) → Effect W W' (.new w ty p c) := by
      intro W' h
      refine effect_same (by simp [destroys]) (fun v h1 _ _ => handle_congr (h v ?_))
      rintro rfl; exact h1 hw
    have stage : ∃ W2, joinParent (W.putWr w (some { ty := ty, owner := false, parent := p })) w p =
        some W2 ∧ Inv W2 ∧ SameObjs W W2 ∧
          (∀ v, v ≠ w → W2.wraps v = W.wraps v) ∧
          ∃ r, W2.wraps w = some r ∧ r.valid = false ∧ r.ty = ty := by
      cases p with
      | none =>
        refine ⟨_, rfl, inv_putWr hi (by simp [hw]) (by simp), SameObjs.refl W,
          fun v hv => putWr_other _ _ hv, _, putWr_same _ _ _, rfl, rfl⟩
      | some m =>
        obtain ⟨o, ho⟩ := Option.ne_none_iff_exists'.mp (hp m rfl)
        -- as if m_hasParent were false before the model writes it
        have hi1 : Inv (W.putWr w
            (some { ty := ty, owner := false, parent := some m, hasParent := some false })) := inv_putWr hi (by simp [hw]) (by simp)
        obtain ⟨h1, h2⟩ := attach_parent (w := w) (i := m) (o := o) hi1 (putWr_same _ _ _) rfl rfl rfl ho
        refine ⟨_, ?_, h2, (SameObjs.refl W).trans (sameObjs_put _ ho rfl), ?_, ?_⟩
        · have hn : (w, Which.parent) ∉ o.flags := by
            rw [hi.pcell m o w ho]; rintro ⟨r, a, _⟩; rw [hw] at a; cases a
          have ho' : (W.putWr w (some { ty := ty, owner := false, parent := some m })).objs m =
              some o := ho
          simp only [joinParent, attachFlag, ho', hn, if_false, write, putWr_same, Option.map_some, Wr.set]
          congr 2
          simp only [World.putWr]
          congr 1
          funext v
          split <;> simp_all
        · intro v hv
          simp only [World.putObj]
          rw [putWr_other _ _ hv, putWr_other _ _ hv]
        · exact ⟨{ ty := ty, owner := false, parent := some m, hasParent := some true },
            by simp only [World.putObj]; exact putWr_same _ _ _, rfl, rfl⟩
    obtain ⟨W2, s1, s2, s3, s4, r, s5, s6, s7⟩ := stage
    cases c with
    | none =>
      refine ⟨W2, .done, ?_, s2, hsub _ s4⟩
      simp only [step]
      rw [s1]; rfl
    | some e =>
      have hn : W2.objs e = none := s3.none (he e rfl)
      obtain ⟨W3, b1, b2, b3, b4, b5, b6⟩ := bind_ok (w := w) (i := e) (o := { ty := ty })
        (inv_libNew (ty := ty) s2 hn) s5 s6 (if_pos rfl) s7.symm
      refine ⟨W3, .done, ?_, b2, hsub _ (fun v hv => (b5 v hv).trans (s4 v hv))⟩
      simp only [step]
      rw [s1]
      simp [b1]
  | del w =>
    obtain ⟨r, hr, hro⟩ := hl
    have stage : ∃ W1, leaveParent W w r = some W1 ∧ Inv W1 ∧ (∀ v, v ≠ w → W1.wraps v = W.wraps v) ∧
          ∃ r1, W1.wraps w = some r1 ∧ r1.hasParent ≠ some true := by
      cases hp : r.parent with
      | none =>
        refine ⟨W, by simp [leaveParent, hp], hi, fun _ _ => rfl, r, hr, ?_⟩
        intro h
        obtain ⟨i, o, a, _⟩ := hi.plive w r hr h
        rw [hp] at a; cases a
      | some m =>
        cases hh : r.hasParent with
        | none => have := hi.pinit w r hr hh; rw [hp] at this; cases this
        | some b =>
          cases b with
          | false => exact ⟨W, by simp [leaveParent, hp, hh], hi, fun _ _ => rfl, r, hr, by simp [hh]⟩
          | true =>
            obtain ⟨o, h1, h2, h3⟩ := detach_parent hi hr hh hp
            refine ⟨_, (show leaveParent W w r = detachFlag W m (w, .parent) by
              simp only [leaveParent, hp, hh]).trans h2, h3, fun v hv => ?_,
              { r with hasParent := some false }, ?_, ?_⟩
            · simp only [World.putObj]; exact putWr_other _ _ hv
            · simp only [World.putObj]; exact putWr_same _ _ _
            · simp
    obtain ⟨W1, s1, s2, s3, r1, s4, s5⟩ := stage
    obtain ⟨W2, t1, t2, t3, t4, r2, t5, t6⟩ := release_ok s2 s4
    rw [s4] at t5; cases t5
    refine ⟨W2.putWr w none, .done, ?_, inv_putWr t2 ?_ (by simp), effect_same (by simp [destroys]) ?_⟩
    · simp only [step, hr]
      rw [s1]
      simp [t1]
    · intro q hq
      rw [t6] at hq; cases hq
      exact ⟨rfl, s5⟩
    · intro v _ h2 _
      have hvw : v ≠ w := by rintro rfl; exact h2 (putWr_same _ _ _)
      apply handle_congr
      rw [putWr_other _ _ hvw, t4 v hvw, s3 v hvw]
  | attach w e =>
    obtain ⟨⟨r, hr, _⟩, he⟩ := hl
    cases e with
    | none =>
      exact ⟨W, .bool false, by simp [step, hr], hi, effect_same (by simp [destroys])
        (fun v _ _ _ => rfl)⟩
    | some e =>
      obtain ⟨o, ho⟩ := Option.ne_none_iff_exists'.mp (he e rfl)
      by_cases ht : r.ty = o.ty
      · obtain ⟨W1, t1, t2, t3, t4, r2, t5, t6⟩ := release_ok hi hr
        rw [hr] at t5; cases t5
        obtain ⟨o', ho', hty⟩ := t3.some ho
        obtain ⟨W2, b1, b2, b3, b4, b5, b6⟩ := bind_ok t2 t6 rfl ho' (by rw [hty, ← ht])
        refine ⟨W2, .bool true, by simp [step, hr, ho, ht, t1, b1], b2,
          effect_same (by simp [destroys]) ?_⟩
        intro v _ _ h3
        have hvw : v ≠ w := fun h => h3 h.symm
        exact handle_congr ((b5 v hvw).trans (t4 v hvw))
      · exact ⟨W, .bool false, by simp [step, hr, ho, ht], hi, effect_same (by simp [destroys])
          (fun v _ _ _ => rfl)⟩
  | detach w =>
    obtain ⟨r, hr⟩ := Option.ne_none_iff_exists'.mp hl
    obtain ⟨W1, t1, t2, t3, t4, r2, t5, t6⟩ := release_ok hi hr
    rw [hr] at t5; cases t5
    refine ⟨W1.putWr w (some { r with target := none, valid := false }), _,
      by simp only [step, hr, t1, Option.bind_some, own, t6, Option.map_some]; rfl,
      inv_own t2 t6 rfl rfl rfl rfl (by simp) (fun _ => rfl), effect_same (by simp [destroys]) ?_⟩
    intro v _ _ h3
    have hvw : v ≠ w := fun h => h3 h.symm
    exact handle_congr ((putWr_other _ _ hvw).trans (t4 v hvw))
  | delEntity w =>
    obtain ⟨r, hr, _⟩ := hl
    obtain ⟨W1, t1, t2, t3, t4, r', t5, t6, t7, t8, t9⟩ := releaseDelete_ok hi hr
    refine ⟨W1.putWr w (some { r' with target := none, valid := false }), _,
      by simp only [step, t1, Option.bind_some, own, t5, Option.map_some]; rfl,
      inv_own t2 t5 rfl rfl t6.symm rfl (by simp [t6]) (fun _ => rfl),
      effect_killed (w := w) hi (by simp [destroys]) (by simp [rebinds]) ?_⟩
    intro v hv
    rw [handle_congr (putWr_other _ _ hv)]
    exact t3 v hv
  | newEntity w e =>
    obtain ⟨⟨r, hr, _⟩, he⟩ := hl
    obtain ⟨W1, t1, t2, t3, t4, r2, t5, t6⟩ := release_ok hi hr
    rw [hr] at t5; cases t5
    have hn : W1.objs e = none := t3.none he
    obtain ⟨W2, b1, b2, b3, b4, b5, b6⟩ := bind_ok (w := w) (i := e) (o := { ty := r.ty })
      (inv_libNew (ty := r.ty) t2 hn) t6 rfl (if_pos rfl) rfl
    refine ⟨W2, .bool true, ?_, b2, effect_same (by simp [destroys]) ?_⟩
    · simp only [step, hr]
      split
      · rename_i h1 h2
        have := hi.pinit w r hr h2
        rw [h1] at this; cases this
      · rename_i m h1 h2
        obtain ⟨j, o, a, b⟩ := hi.plive w r hr h2
        rw [h1] at a; cases a
        simp [b, t1, b1]
      · simp [t1, b1]
    · intro v _ _ h3
      have hvw : v ≠ w := fun h => h3 h.symm
      exact handle_congr ((b5 v hvw).trans (t4 v hvw))
  | setParent w m =>
    obtain ⟨⟨r, hr, hro⟩, hm⟩ := hl
    have hh := hc r hr
    have stage : ∃ W1, leaveParentSet W w r = some W1 ∧ Inv W1 ∧ SameObjs W W1 ∧
          (∀ v, v ≠ w → W1.wraps v = W.wraps v) ∧
          W1.wraps w = some { r with hasParent := some false } := by
      cases hb : r.hasParent with
      | none => exact absurd hb hh
      | some b =>
        cases b with
        | false =>
          refine ⟨W, by simp [leaveParentSet, hb], hi, SameObjs.refl W, fun _ _ => rfl, ?_⟩
          rw [hr]; congr 1; cases r; simp_all
        | true =>
          obtain ⟨p, o, h1, h2⟩ := hi.plive w r hr hb
          obtain ⟨o', d1, d2, d3⟩ := detach_parent hi hr hb h1
          refine ⟨_, (show leaveParentSet W w r = detachFlag W p (w, .parent) by
            simp only [leaveParentSet, hb, h1]).trans d2, d3, sameObjs_put _ d1 rfl,
            fun v hv => ?_, ?_⟩
          · simp only [World.putObj]; exact putWr_other _ _ hv
          · simp only [World.putObj]; exact putWr_same _ _ _
    obtain ⟨W1, s1, s2, s3, s4, s5⟩ := stage
    have keep : ∀ W', (∀ v, v ≠ w → W'.wraps v = W1.wraps v) →
        (∃ r', W'.wraps w = some r' ∧ r'.valid = r.valid ∧ r'.target = r.target) →
        Effect W W' (.setParent w m) := by
      rintro W' h ⟨r', h1, h2, h3⟩
      refine effect_same (by simp [destroys]) (fun v _ _ _ => ?_)
      by_cases e : v = w
      · subst e; simp [handle, h1, h2, h3, hr]
      · exact handle_congr ((h v e).trans (s4 v e))
    cases m with
    | none =>
      have hi2 : Inv (W1.putWr w (some { r with parent := none, hasParent := some false })) :=
        inv_own s2 s5 rfl rfl rfl rfl (fun _ => rfl) (by simp)
      refine ⟨_, .bool true, ?_, hi2,
        keep _ (fun v hv => putWr_other _ _ hv) ⟨_, putWr_same _ _ _, rfl, rfl⟩⟩
      · simp only [step, hr]
        rw [s1]
        simp [own, s5]
    | some m =>
      obtain ⟨o, ho⟩ := Option.ne_none_iff_exists'.mp (hm m rfl)
      obtain ⟨o1, ho1, _⟩ := s3.some ho
      have hi2 : Inv (W1.putWr w (some { r with parent := some m, hasParent := some false })) :=
        inv_own s2 s5 rfl rfl rfl rfl (fun _ => rfl) (by simp)
      obtain ⟨a1, a2⟩ := attach_parent (w := w) (i := m) (o := o1) hi2 (putWr_same _ _ _) hro rfl rfl ho1
      refine ⟨_, .bool true, ?_, a2, keep _ ?_ ?_⟩
      · simp only [step, hr]
        rw [s1]
        simp only [Option.bind_some, own, s5, Option.map_some]
        rw [a1]; rfl
      · intro v hv
        simp only [World.putObj]
        rw [putWr_other _ _ hv, putWr_other _ _ hv]
      · exact ⟨{ r with parent := some m, hasParent := some true },
          by simp only [World.putObj]; exact putWr_same _ _ _, rfl, rfl⟩
  | isValid w =>
    obtain ⟨r, hr⟩ := Option.ne_none_iff_exists'.mp hl
    exact ⟨W, .bool r.valid, by simp [step, hr], hi, effect_same (by simp [destroys])
      (fun v _ _ _ => rfl)⟩
  | getRawPtr w =>
    obtain ⟨r, hr⟩ := Option.ne_none_iff_exists'.mp hl
    simp only [step, hr]
    split
    · exact ⟨W, _, rfl, hi, effect_same (by simp [destroys]) (fun v _ _ _ => rfl)⟩
    · rename_i hn
      have hv : r.valid = false := by
        cases hv : r.valid with
        | false => rfl
        | true =>
          obtain ⟨i, o, a, _⟩ := hi.live w r hr hv
          exact absurd ⟨hv, by simp [a]⟩ hn
      refine ⟨_, _, rfl, inv_own hi hr rfl rfl hv.symm rfl (by simp [hv]) (fun _ => rfl),
        effect_same (by simp [destroys]) (fun v _ _ _ => ?_)⟩
      by_cases e : v = w
      · subst e; simp [handle, World.putWr, hr, hv]
      · exact handle_congr (putWr_other _ _ e)
  | query w =>
    obtain ⟨r, hr⟩ := Option.ne_none_iff_exists'.mp hl
    cases hv : r.valid with
    | false =>
      exact ⟨W, .ptr none, by simp [step, hr, hv], hi, effect_same (by simp [destroys])
        (fun v _ _ _ => rfl)⟩
    | true =>
      obtain ⟨i, o, a, b, _⟩ := hi.live w r hr hv
      exact ⟨W, .ptr (some i), by simp [step, hr, hv, a, b], hi, effect_same (by simp [destroys])
        (fun v _ _ _ => rfl)⟩
  | newOwner w ty c =>
    obtain ⟨hw, he⟩ := hl
    have hi1 : Inv (W.putWr w (some { ty := ty, owner := true })) :=
      inv_putWr hi (by simp [hw]) (by simp)
    have hsub : ∀ W', (∀ v, v ≠ w → W'.wraps v = W.wraps v) → Effect W W' (.newOwner w ty c) := by
      intro W' h
      refine effect_same (by simp [destroys]) (fun v h1 _ _ => handle_congr (h v ?_))
      rintro rfl; exact h1 hw
    cases c with
    | none => exact ⟨_, .done, rfl, hi1, hsub _ (fun v hv => putWr_other _ _ hv)⟩
    | some e =>
      obtain ⟨W3, b1, b2, b3, b4, b5, b6⟩ := bind_ok (w := w) (i := e) (o := { ty := ty })
        (inv_libNew (i := e) (ty := ty) hi1 (he e rfl)) (putWr_same _ _ _) rfl (if_pos rfl) rfl
      refine ⟨W3, .done, by simp [step, b1], b2, hsub _ (fun v hv => ?_)⟩
      rw [b5 v hv]
      exact putWr_other _ _ hv
  | delOwner w =>
    obtain ⟨r, hr, hro⟩ := hl
    obtain ⟨W1, t1, t2, t3, t4, r', t5, t6, t7, t8, t9⟩ := releaseDelete_ok hi hr
    have hp : r'.hasParent ≠ some true := t9 (by rw [hi.oinit w r hr hro]; simp)
    refine ⟨W1.putWr w none, .done, by simp [step, t1], inv_putWr t2 ?_ (by simp),
      effect_killed (w := w) hi (by simp [destroys]) (fun _ h => absurd (putWr_same _ _ _) h) ?_⟩
    · intro q hq; rw [t5] at hq; cases hq; exact ⟨t6, hp⟩
    · intro v hv
      rw [handle_congr (putWr_other _ _ hv)]
      exact t3 v hv
  | attachOwner w e =>
    obtain ⟨r, hr, _, he⟩ := hl
    cases e with
    | none =>
      exact ⟨W, .bool false, by simp [step, hr], hi, effect_same (by simp [destroys])
        (fun v _ _ _ => rfl)⟩
    | some e =>
      obtain ⟨o, ho, hty⟩ := he e rfl
      by_cases hv : r.valid = true ∧ r.target ≠ none
      · exact ⟨W, .bool false, by simp [step, hr, hv], hi, effect_same (by simp [destroys])
          (fun v _ _ _ => rfl)⟩
      · have hv' : r.valid = false := by
          cases h : r.valid with
          | false => rfl
          | true =>
            obtain ⟨i, o, a, _⟩ := hi.live w r hr h
            exact absurd ⟨h, by simp [a]⟩ hv
        obtain ⟨W2, b1, b2, b3, b4, b5, b6⟩ := bind_ok hi hr hv' ho hty
        refine ⟨W2, .bool true, by simp [step, hr, hv, b1], b2, effect_same (by simp [destroys]) ?_⟩
        intro v _ _ h3
        have hvw : v ≠ w := fun h => h3 h.symm
        exact handle_congr (b5 v hvw)
  | newOwned w e =>
    obtain ⟨⟨r, hr, _⟩, he⟩ := hl
    have stage : ∃ W1, dropOwned W r = some W1 ∧ Inv W1 ∧ Killed W W1 w ∧ W1.objs e = none ∧
          ∃ r', W1.wraps w = some r' ∧ r'.valid = false ∧ r'.ty = r.ty := by
      cases hv : r.valid with
      | false =>
        refine ⟨W, by simp [dropOwned, hv], hi, ?_, he, r, hr, hv, rfl⟩
        intro v hvw
        simp [handle, hr, hv]
      | true =>
        obtain ⟨i, o, h1, h2, h3⟩ := hi.live w r hr hv
        obtain ⟨W1, d1, d2, d3, d4, d5⟩ := destroy_ok hi h2
        refine ⟨W1, by simp only [dropOwned, hv, h1]; exact d1, d2, ?_, ?_, clearBy o.flags w r, ?_, ?_, rfl⟩
        · intro v hvw
          have hw : handle W w = some i := by simp [handle, hr, hv, h1]
          rw [d5, hw]
          simp
        · rw [d3]; split
          · rfl
          · exact he
        · rw [d4, hr]; rfl
        · have := (hi.vcell i o w h2).mpr ⟨r, hr, hv, h1⟩
          simp [clearBy, this]
    obtain ⟨W1, s1, s2, s3, s4, r', s5, s6, s7⟩ := stage
    have hi2 : Inv (W1.putWr w (some { r' with target := none, valid := false })) :=
      inv_own s2 s5 rfl rfl s6.symm rfl (by simp [s6]) (fun _ => rfl)
    obtain ⟨W2, b1, b2, b3, b4, b5, b6⟩ := bind_ok (w := w) (i := e) (o := { ty := r.ty })
      (inv_libNew (i := e) (ty := r.ty) hi2 s4) (putWr_same _ _ _) rfl (if_pos rfl) s7.symm
    refine ⟨W2, .bool true, ?_, b2, effect_killed (w := w) hi (by simp [destroys])
      (by simp [rebinds]) ?_⟩
    · simp only [step, hr]
      rw [s1]
      simp [own, s5, b1]
    · intro v hv
      rw [handle_congr (b5 v hv)]
      have : handle ((W1.putWr w (some { r' with target := none, valid := false })).putObj e
          (some { ty := r.ty })) v = handle W1 v := handle_congr (putWr_other _ _ hv)
      rw [this]
      exact s3 v hv
  | delOwned w =>
    obtain ⟨r, hr, _⟩ := hl
    by_cases hv : r.valid = true ∧ r.target ≠ none
    · obtain ⟨W1, t1, t2, t3, t4, r', t5, t6, t7, t8, t9⟩ := releaseDelete_ok hi hr
      refine ⟨W1.putWr w (some { r' with target := none }), .done, ?_,
        inv_own t2 t5 rfl rfl rfl rfl (by simp [t6]) (fun _ => rfl),
        effect_killed (w := w) hi (by simp [destroys]) (by simp [rebinds]) ?_⟩
      · simp [step, hr, hv, t1, own, t5]
      · intro v hv
        rw [handle_congr (putWr_other _ _ hv)]
        exact t3 v hv
    · refine ⟨W, .done, by simp [step, hr, hv], hi, fun v _ _ _ => ⟨fun i h d => ?_, fun _ => rfl⟩⟩
      simp only [destroys, uses_iff hi, handle, hr, Option.bind_some] at d
      split at d
      · rename_i hv1
        exact absurd ⟨hv1, by simp [d]⟩ hv
      · cases d
  | curveOnPlane w => exact absurd hc (by simp [Careful])
  | segmentWall w => exact absurd hc (by simp [Careful])
  | copy w v => exact absurd hc (by simp [Careful])

/-! ### Programs -/

theorem runFrom_ok (l : List Op) : ∀ W, Inv W → CarefulRun W l → ∃ W', run W l = some W' ∧ Inv W' := by
  induction l with
  | nil => intro W hi _; exact ⟨W, rfl, hi⟩
  | cons o l ih =>
    intro W hi ⟨h1, h2, h3⟩
    obtain ⟨W1, a, s1, s2, _⟩ := step_ok hi o h1 h2
    obtain ⟨W', r1, r2⟩ := ih W1 s2 (h3 W1 a s1)
    exact ⟨W', by simp [run, s1, r1], r2⟩

/-- A world that a program of legal and careful operations can produce. -/
def Reached (W : World) : Prop := ∃ l, CarefulRun start l ∧ run start l = some W

theorem Reached.inv {W : World} (h : Reached W) : Inv W := by
  obtain ⟨l, h1, h2⟩ := h
  obtain ⟨W', r1, r2⟩ := runFrom_ok l start inv_start h1
  rw [h2] at r1; cases r1; exact r2

theorem query_handle {W : World} (hi : Inv W) {w : Nat} (hw : W.wraps w ≠ none) :
    step W (.query w) = some (W, .ptr (handle W w)) := by
  obtain ⟨r, hr⟩ := Option.ne_none_iff_exists'.mp hw
  cases hv : r.valid with
  | false => simp [step, hr, hv, handle]
  | true =>
    obtain ⟨i, o, a, b, _⟩ := hi.live w r hr hv
    simp [step, hr, hv, a, b, handle]

/-- C50.  Partial: programs of any length with any interleaving of library and wrapper
operations, except the operations that `Careful` leaves out (`C50_fails_*`).  Nothing undefined
happens (no destroyed object is used, no flag of a destroyed wrapper is written), and every
wrapper, asked at the end, either reports that it has no object or uses one that is alive and of
the type of the wrapper. -/
theorem C50_never_stale_partial (l : List Op) (h : CarefulRun start l) :
    ∃ W, run start l = some W ∧ ∀ w r, W.wraps w = some r →
      ∃ a, step W (.query w) = some (W, .ptr a) ∧
        ∀ i, a = some i → ∃ o, W.objs i = some o ∧ o.ty = r.ty := by
  obtain ⟨W, h1, hi⟩ := runFrom_ok l start inv_start h
  refine ⟨W, h1, fun w r hr => ⟨_, query_handle hi (by simp [hr]), fun i h => ?_⟩⟩
  simp only [handle, hr, Option.bind_some] at h
  split at h
  · rename_i hv
    obtain ⟨j, o, a, b, c⟩ := hi.live w r hr hv
    rw [h] at a; cases a
    exact ⟨o, b, c⟩
  · cases h

/-- C50: a wrapper notices the end of its object, whoever destroyed it, and nothing else changes
what it refers to (so an object that later takes the same address is not mistaken for the old
one).  Partial as above. -/
theorem C50_end_noticed_partial (W W' : World) (o : Op) (a : Ans) (hW : Reached W)
    (hl : Legal W o) (hc : Careful W o) (hs : step W o = some (W', a)) (w : Nat)
    (h1 : W.wraps w ≠ none) (h2 : W'.wraps w ≠ none) (h3 : ¬ rebinds w o) :
    (∀ i, Uses W w i → destroys W i o → step W' (.query w) = some (W', .ptr none) ∧
      step W' (.isValid w) = some (W', .bool false)) ∧
    (∀ i, Uses W w i → ¬ destroys W i o → Uses W' w i) ∧
    (step W (.query w) = some (W, .ptr none) → step W' (.query w) = some (W', .ptr none)) := by
  have hi := hW.inv
  obtain ⟨W1, a1, s1, s2, s3⟩ := step_ok hi o hl hc
  rw [hs] at s1; cases s1
  obtain ⟨e1, e2⟩ := s3 w h1 h2 h3
  refine ⟨fun i hu hd => ?_, fun i hu hd => ?_, fun hn => ?_⟩
  · have := e1 i ((uses_iff hi w i).mp hu) hd
    refine ⟨by rw [query_handle s2 h2, this], ?_⟩
    obtain ⟨r, hr⟩ := Option.ne_none_iff_exists'.mp h2
    cases hv : r.valid with
    | false => simp [step, hr, hv]
    | true =>
      obtain ⟨j, o, x, _⟩ := s2.live w r hr hv
      simp [handle, hr, hv, x] at this
  · have hh := (uses_iff hi w i).mp hu
    rw [uses_iff s2, e2 ?_, hh]
    intro j hj hdj
    rw [hh] at hj; cases hj
    exact hd hdj
  · rw [query_handle hi h1] at hn
    simp only [Option.some.injEq, Prod.mk.injEq, Ans.ptr.injEq, true_and] at hn
    rw [query_handle s2 h2, e2 ?_, hn]
    intro i hi'
    rw [hn] at hi'; cases hi'

/-- C50: `IsValid` is true exactly while there is an object. -/
theorem C50_isValid_partial (W : World) (hW : Reached W) (w : Nat) (hw : W.wraps w ≠ none) :
    step W (.isValid w) = some (W, .bool true) ↔ ∃ i, Uses W w i := by
  have hi := hW.inv
  obtain ⟨r, hr⟩ := Option.ne_none_iff_exists'.mp hw
  simp only [uses_iff hi, handle, hr, Option.bind_some, step, Option.map_some, Option.some.injEq,
    Prod.mk.injEq, Ans.bool.injEq, true_and]
  constructor
  · intro hv
    obtain ⟨i, o, a, _⟩ := hi.live w r hr hv
    exact ⟨i, by simp [hv, a]⟩
  · rintro ⟨i, h⟩
    split at h
    · assumption
    · cases h

/-- C50: `Attach` of an entity wrapper succeeds exactly for entities of its type; then it refers
to that entity, otherwise nothing changes. -/
theorem C50_attach_same_type_partial (W : World) (hW : Reached W) (w e : Nat) (r : Wr) (o : Obj)
    (hr : W.wraps w = some r) (_ : r.owner = false) (ho : W.objs e = some o) :
    (r.ty = o.ty → ∃ W', step W (.attach w (some e)) = some (W', .bool true) ∧ Uses W' w e) ∧
    (r.ty ≠ o.ty → step W (.attach w (some e)) = some (W, .bool false)) := by
  have hi := hW.inv
  constructor
  · intro ht
    obtain ⟨W1, t1, t2, t3, t4, r2, t5, t6⟩ := release_ok hi hr
    rw [hr] at t5; cases t5
    obtain ⟨o', ho', hty⟩ := t3.some ho
    obtain ⟨W2, b1, b2, b3, b4, b5, b6⟩ := bind_ok t2 t6 rfl ho' (by rw [hty, ← ht])
    exact ⟨W2, by simp [step, hr, ho, ht, t1, b1], (uses_iff b2 w e).mpr b4⟩
  · intro ht
    simp [step, hr, ho, ht]

theorem carefulCons {W : World} {o : Op} {l : List Op} (h1 : Legal W o) (h2 : Careful W o)
    (h3 : ∃ W' a, step W o = some (W', a) ∧ CarefulRun W' l) : CarefulRun W (o :: l) := by
  obtain ⟨W', a, h, h'⟩ := h3
  refine ⟨h1, h2, fun W1 b hb => ?_⟩
  rw [h] at hb; cases hb; exact h'

theorem legalCons {W : World} {o : Op} {l : List Op} (h1 : Legal W o)
    (h3 : ∃ W' a, step W o = some (W', a) ∧ LegalRun W' l) : LegalRun W (o :: l) := by
  obtain ⟨W', a, h, h'⟩ := h3
  refine ⟨h1, fun W1 b hb => ?_⟩
  rw [h] at hb; cases hb; exact h'

theorem legalLast {W : World} {o : Op} (h1 : Legal W o) (h2 : step W o = none) :
    LegalRun W [o] := ⟨h1, fun W1 b hb => by rw [h2] at hb; cases hb⟩

/-- A model, two wrappers on one arc, the arc deleted through one of them; a new line at the old
address; the model goes. -/
def sample : List Op :=
  [.libNew 1 1, .new 10 100 (some 1) (some 2), .new 11 100 (some 1) none, .attach 11 (some 2),
   .query 11, .delEntity 10, .libNew 2 110, .attach 11 (some 2), .query 11, .libDel 1,
   .newEntity 11 3, .del 10]

example : CarefulRun start sample := by
  unfold sample
  refine carefulCons rfl trivial ⟨_, _, rfl, ?_⟩
  refine carefulCons ⟨rfl, by decide, by simp [World.putObj, start]⟩ trivial ⟨_, _, rfl, ?_⟩
  refine carefulCons ⟨rfl, by simp [World.putObj, World.putWr, start], by simp⟩ trivial ⟨_, _, rfl, ?_⟩
  refine carefulCons ⟨⟨_, rfl, rfl⟩, by simp [World.putObj, World.putWr, start]⟩ trivial ⟨_, _, rfl, ?_⟩
  refine carefulCons (by simp [Legal, World.putObj, World.putWr]) trivial ⟨_, _, rfl, ?_⟩
  refine carefulCons ⟨_, rfl, rfl⟩ trivial ⟨_, _, rfl, ?_⟩
  refine carefulCons rfl trivial ⟨_, _, rfl, ?_⟩
  refine carefulCons ⟨⟨_, rfl, rfl⟩, by simp [World.putObj]⟩ trivial ⟨_, _, rfl, ?_⟩
  refine carefulCons (by simp [Legal, World.putObj, World.putWr]) trivial ⟨_, _, rfl, ?_⟩
  refine carefulCons (by simp [Legal, World.putObj, World.putWr]) trivial ⟨_, _, rfl, ?_⟩
  refine carefulCons ⟨⟨_, rfl, rfl⟩, rfl⟩ trivial ⟨_, _, rfl, ?_⟩
  refine carefulCons ⟨_, rfl, rfl⟩ trivial ⟨_, _, rfl, ?_⟩
  trivial

/-- The answers of the two queries of the sample: the arc, then nothing (the line at the old
address is refused by the arc wrapper). -/
example : (run start (sample.take 4)).bind (fun W => (step W (.query 11)).map Prod.snd) =
      some (.ptr (some 2)) ∧
    (run start (sample.take 8)).bind (fun W => (step W (.query 11)).map Prod.snd) =
      some (.ptr none) := by
  decide

/-- C50 fails for `DLL_IGES_GEOM_PCB::GetCurveOnPlane`: after the outline is gone the guard lets
the call through to the destroyed outline. -/
theorem C50_fails_curve_on_plane :
    let l := [Op.newOwner 10 3 (some 2), .libDel 2, .curveOnPlane 10]
    LegalRun start l ∧ run start l = none := by
  refine ⟨?_, by decide⟩
  refine legalCons ⟨rfl, by simp [start]⟩ ⟨_, _, rfl, ?_⟩
  refine legalCons (by simp [Legal, World.putObj, World.putWr]) ⟨_, _, rfl, ?_⟩
  exact legalLast ⟨_, rfl, rfl, rfl⟩ (by decide)

/-- C50 fails for `DLL_IGES_GEOM_PCB::GetSegmentWall`, whose guard is the wrong way round: it uses
the outline exactly when it is gone, -/
theorem C50_fails_segment_wall :
    let l := [Op.newOwner 10 3 (some 2), .libDel 2, .segmentWall 10]
    LegalRun start l ∧ run start l = none := by
  refine ⟨?_, by decide⟩
  refine legalCons ⟨rfl, by simp [start]⟩ ⟨_, _, rfl, ?_⟩
  refine legalCons (by simp [Legal, World.putObj, World.putWr]) ⟨_, _, rfl, ?_⟩
  exact legalLast ⟨_, rfl, rfl, rfl⟩ (by decide)

/-- and refuses to work whenever the outline is there. -/
theorem C50_segment_wall_always_refused (W : World) (hW : Reached W) (w i : Nat)
    (h : Uses W w i) : step W (.segmentWall w) = some (W, .ptr none) := by
  rw [uses_iff hW.inv] at h
  simp only [handle] at h
  cases hr : W.wraps w with
  | none => simp [hr] at h
  | some r =>
    simp only [hr, Option.bind_some] at h
    cases hv : r.valid with
    | false => simp [hv] at h
    | true => simp [step, hr, hv]

/-- C50 fails for copies: nothing forbids copying a wrapper, and the copy is not told when the
entity goes. -/
theorem C50_fails_copy :
    let l := [Op.new 10 100 none (some 2), .copy 11 10, .libDel 2, .query 11]
    LegalRun start l ∧ run start l = none := by
  refine ⟨?_, by decide⟩
  refine legalCons ⟨rfl, by simp, by simp [start]⟩ ⟨_, _, rfl, ?_⟩
  refine legalCons ⟨rfl, by simp [World.putObj, World.putWr]⟩ ⟨_, _, rfl, ?_⟩
  refine legalCons (by simp [Legal, World.putObj, World.putWr]) ⟨_, _, rfl, ?_⟩
  exact legalLast (by simp [Legal, World.putObj, World.putWr]) (by decide)

/-- C50 fails for `SetAPIParentIGES` on a wrapper made without a model: `m_hasParent` is read
before anything was written to it. -/
theorem C50_fails_parent_flag_uninitialised :
    let l := [Op.libNew 1 1, .new 10 100 none (some 2), .setParent 10 (some 1)]
    LegalRun start l ∧ run start l = none := by
  refine ⟨?_, by decide⟩
  refine legalCons rfl ⟨_, _, rfl, ?_⟩
  refine legalCons ⟨rfl, by simp, by simp [start, World.putObj]⟩ ⟨_, _, rfl, ?_⟩
  exact legalLast ⟨⟨_, rfl, rfl⟩, by simp [World.putObj, World.putWr]⟩ (by decide)

end Iges.Props.Wrap
