import Verif.Props.GraphBugs

/-!
C27, C28: registering and removing a user; no entity refers to itself.
-/

namespace Iges.Props

open Iges.Graph Iges.Spec Iges.Props.G

/-- **C27** (partial).  Take any state and two live entities.

* A registration that is accepted as new was absent before and is single afterwards; registering
  the same user again then reports the duplicate and changes nothing; removing it once succeeds
  and restores the state before the registration.
* A registration reported as duplicate, or refused, changes nothing.
* Removing an absent user from an entity without optional pointers reports failure and changes
  nothing.

Missing for the full property: removing an absent user from an entity that has optional
pointers, where it fails (`C27_fails_absent_undefined`, `C27_fails_absent_removes_other`). -/
theorem C27_counted_once_partial (h : Heap) (c p : Nat) (oc po : Obj) (hc : h c = some oc)
    (hp : h p = some po) :
    (∀ h1, addRef h c p = some (h1, true, false) →
      listed h c p = 0 ∧ listed h1 c p = 1
      ∧ addRef h1 c p = some (h1, true, true)
      ∧ delRef h1 c p = some (h, true))
    ∧ (∀ h1 ok dup, addRef h c p = some (h1, ok, dup) → (ok = false ∨ dup = true) → h1 = h)
    ∧ (addRef h c p ≠ none)
    ∧ (oc.extras = [] → listed h c p = 0 → delRef h c p = some (h, false)) := by
  refine ⟨?_, ?_, ?_, ?_⟩
  · intro h1 ha
    rcases addRef_cases hc hp with h2 | h2 | ⟨h2, h3, h4, h5, h6⟩
    · rw [ha] at h2; simp at h2
    · rw [ha] at h2; simp at h2
    · have h1eq : h1 = h.put c { oc with refs := oc.refs ++ [p] } := by
        rw [ha] at h2
        simpa using h2
      have hc1 : h1 c = some { oc with refs := oc.refs ++ [p] } := by rw [h1eq, put_self]
      have hcnt : oc.refs.count p = 0 := List.count_eq_zero.mpr h4
      refine ⟨?_, ?_, ?_, ?_⟩
      · unfold listed; rw [hc]; exact hcnt
      · unfold listed; rw [hc1]; simp [hcnt]
      · -- the tests before the duplicate test see the same entities
        have hp1 : ∃ po1, h1 p = some po1 ∧ po1.etype = po.etype := by
          by_cases hpc : p = c
          · subst hpc
            rw [hc] at hp
            cases hp
            exact ⟨_, hc1, rfl⟩
          · exact ⟨po, by rw [h1eq, put_ne _ _ hpc, hp], rfl⟩
        obtain ⟨po1, hp1, ht⟩ := hp1
        have ha' := ha
        unfold addRef at ha'
        rw [hc, hp] at ha'
        simp only at ha'
        split at ha'
        · simp at ha'
        rename_i c0
        split at ha'
        · simp at ha'
        rename_i c1
        split at ha'
        · simp at ha'
        rename_i c2
        split at ha'
        · simp at ha'
        rename_i c3
        split at ha'
        · simp at ha'
        rename_i c4
        split at ha'
        · simp at ha'
        rename_i c5
        split at ha'
        · simp at ha'
        rename_i c6
        unfold addRef
        rw [hc1, hp1]
        simp only [ht]
        rw [if_neg c0, if_neg c1, if_neg c2, if_neg c3, if_neg c4, if_neg c5, if_neg c6, if_neg h5,
          if_pos (by simp)]
      · rw [delRef_user hc1 h3 (by simp)]
        have herase : (oc.refs ++ [p]).erase p = oc.refs := by
          rw [List.erase_append_right _ h4]; simp
        simp only [herase, Option.some.injEq, Prod.mk.injEq, and_true]
        rw [h1eq, put_put]
        exact put_eq_self hc
  · intro h1 ok dup ha hor
    rcases addRef_cases hc hp with h2 | h2 | ⟨h2, _⟩ <;> rw [ha] at h2 <;>
      simp only [Option.some.injEq, Prod.mk.injEq] at h2
    · exact h2.1
    · exact h2.1
    · obtain ⟨_, h3, h4⟩ := h2
      rcases hor with h | h
      · rw [h3] at h; cases h
      · rw [h4] at h; cases h
  · rcases addRef_cases hc hp with h2 | h2 | ⟨h2, _⟩ <;> rw [h2] <;> simp
  · intro hx hl
    have hn : p ∉ oc.refs := by
      unfold listed at hl; rw [hc] at hl
      exact List.count_eq_zero.mp hl
    unfold delRef
    rw [hc]
    simp [hn, hx]

/-- The hypotheses are met by a line and its transform. -/
example : (run [.new 1 110, .new 2 124]).bind (fun h => (addRef h 2 1).map (·.2))
    = some (true, false) := by decide +kernel

/-- **C27 fails**: removing an absent user from an entity that has an optional pointer is
undefined behaviour; the loop over the optional pointers advances the iterator of the exhausted
list of users (`/repo/src/entities/iges_entity.cpp:439-455`). -/
theorem C27_fails_absent_undefined : ∃ l h, CarefulRun emptyHeap l ∧ run l = some h
    ∧ listed h 1 3 = 0 ∧ delRef h 1 3 = none := by
  refine ⟨[.new 1 110, .new 2 406, .new 3 100, .addOptional 1 2], _, ?_, rfl, rfl, rfl⟩
  refine CarefulRun.cons rfl trivial rfl ?_
  refine CarefulRun.cons rfl trivial rfl ?_
  refine CarefulRun.cons rfl trivial rfl ?_
  refine CarefulRun.cons ⟨⟨_, rfl, trivial⟩, ⟨_, rfl, trivial⟩⟩ ⟨by decide, ?_⟩ rfl trivial
  intro o ho
  cases ho
  decide

/-- **C27 fails**: if the absent user happens to be the first optional pointer, removal reports
success and drops that optional pointer. -/
theorem C27_fails_absent_removes_other : ∃ l h h', CarefulRun emptyHeap l ∧ run l = some h
    ∧ listed h 1 2 = 0 ∧ uses h 1 2 = 1 ∧ delRef h 1 2 = some (h', true) ∧ uses h' 1 2 = 0 := by
  refine ⟨[.new 1 110, .new 2 406, .addOptional 1 2], _, _, ?_, rfl, rfl, rfl, rfl, rfl⟩
  refine CarefulRun.cons rfl trivial rfl ?_
  refine CarefulRun.cons rfl trivial rfl ?_
  refine CarefulRun.cons ⟨⟨_, rfl, trivial⟩, ⟨_, rfl, trivial⟩⟩ ⟨by decide, ?_⟩ rfl trivial
  intro o ho
  cases ho
  decide

/-- **C28** (partial).  In every state reached by legal and careful calls, no entity points at
itself or lists itself as a user.

Missing for the full property: `AddOptionalEntity`, `AddDE` and `AddArg` called with the entity
itself, which create a self reference (`C28_fails_property_self`, `C28_fails_subfigure_self`,
`C28_fails_boolean_tree_self`), and self references read from a file. -/
theorem C28_no_self_reference_partial (h : Heap) (hr : Reached h) (e : Nat) :
    uses h e e = 0 ∧ listed h e e = 0 := by
  obtain ⟨ty, G⟩ := hr.good
  have : uses h e e = 0 := by
    unfold uses
    cases he : h e with
    | none => rfl
    | some o => exact List.count_eq_zero.mpr (G.loc e o he).noSelf
  exact ⟨this, by rw [← G.symmetric e e]; exact this⟩

/-- The setters refuse a self reference: matrix to itself, curve on surface to itself. -/
example : (run [.new 1 124]).bind (fun h => (step h (.setTransform 1 (some 1))).map (·.2))
    = some false := by decide +kernel
example : (run [.new 1 142]).bind (fun h => (step h (.set142 1 0 (some 1))).map (·.2))
    = some false := by decide +kernel

end Iges.Props
