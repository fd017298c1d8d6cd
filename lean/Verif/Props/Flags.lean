import Verif.Spec.Flags
import Mathlib.Data.List.Nodup
import Mathlib.Data.List.Induction
import Mathlib.Tactic.Tauto

/-!
C22: validity flags track the life of the object.
-/

namespace Iges.Props.Flags

open Iges.Flags Iges.Spec.Flags

theorem snoc_split {α} {l a b : List α} {o x : α} (h : l ++ [o] = a ++ x :: b) :
    (b = [] ∧ a = l ∧ x = o) ∨ ∃ b', b = b' ++ [o] ∧ l = a ++ x :: b' := by
  rcases List.eq_nil_or_concat b with rfl | ⟨b', y, rfl⟩
  · left
    obtain ⟨h1, h2⟩ := List.append_inj' h rfl
    simp at h2
    exact ⟨rfl, h1.symm, h2.symm⟩
  · right
    have e : a ++ x :: (b' ++ [y]) = (a ++ x :: b') ++ [y] := by simp
    rw [List.concat_eq_append, e] at h
    obtain ⟨h1, h2⟩ := List.append_inj' h rfl
    simp at h2
    exact ⟨b', by simp [h2], h1⟩

theorem attached_snoc (l : List Op) (o : Op) (i f : Nat) :
    Attached (l ++ [o]) i f ↔
      o = .attach i (some f) ∨ (Attached l i f ∧ o ≠ .detach i (some f) ∧ o ≠ .destroy i) := by
  constructor
  · rintro ⟨a, b, h, h1, h2⟩
    rcases snoc_split h with ⟨rfl, rfl, hx⟩ | ⟨b', rfl, rfl⟩
    · exact Or.inl hx.symm
    · right
      simp only [List.mem_append, List.mem_singleton, not_or] at h1 h2
      exact ⟨⟨a, b', rfl, h1.1, h2.1⟩, fun e => h1.2 e.symm, fun e => h2.2 e.symm⟩
  · rintro (rfl | ⟨⟨a, b, rfl, h1, h2⟩, h3, h4⟩)
    · exact ⟨l, [], rfl, by simp, by simp⟩
    · refine ⟨a, b ++ [o], by simp, ?_, ?_⟩
      · simp only [List.mem_append, List.mem_singleton, not_or]; exact ⟨h1, fun e => h3 e.symm⟩
      · simp only [List.mem_append, List.mem_singleton, not_or]; exact ⟨h2, fun e => h4 e.symm⟩

theorem alive_snoc (l : List Op) (o : Op) (i : Nat) :
    Alive (l ++ [o]) i ↔ o = .make i ∨ (Alive l i ∧ o ≠ .destroy i) := by
  constructor
  · rintro ⟨a, b, h, h1⟩
    rcases snoc_split h with ⟨rfl, rfl, hx⟩ | ⟨b', rfl, rfl⟩
    · exact Or.inl hx.symm
    · right
      simp only [List.mem_append, List.mem_singleton, not_or] at h1
      exact ⟨⟨a, b', rfl, h1.1⟩, fun e => h1.2 e.symm⟩
  · rintro (rfl | ⟨⟨a, b, rfl, h1⟩, h2⟩)
    · exact ⟨l, [], rfl, by simp⟩
    · refine ⟨a, b ++ [o], by simp, ?_⟩
      simp only [List.mem_append, List.mem_singleton, not_or]; exact ⟨h1, fun e => h2 e.symm⟩

theorem Legal.snoc {l : List Op} {o : Op} (h : Legal (l ++ [o])) : Legal l ∧ LegalOp l o := by
  refine ⟨fun a x b e => h a x (b ++ [o]) (by simp [e]), h l o [] rfl⟩

theorem OneOwner.snoc {l : List Op} {o : Op} (h : OneOwner (l ++ [o])) :
    OneOwner l ∧ ∀ i f, o = .attach i (some f) → ∀ j, Attached l j f → j = i := by
  refine ⟨fun a i f b e => h a i f (b ++ [o]) (by simp [e]), ?_⟩
  rintro i f rfl
  exact h l i f [] rfl

theorem run_snoc (s : St) (l : List Op) (o : Op) :
    run s (l ++ [o]) = (run s l).bind (fun s' => (step s' o).map Prod.fst) := by
  induction l generalizing s with
  | nil =>
    simp only [List.nil_append, run, Option.bind_some]
    cases step s o <;> rfl
  | cons x l ih =>
    simp only [List.cons_append, run]
    cases step s x with
    | none => rfl
    | some r => exact ih r.1

theorem store_same (mem : Nat → Bool) (w : Writes) (g : Nat) (h : ∀ b, (g, b) ∉ w) :
    store mem w g = mem g := by
  induction w generalizing mem with
  | nil => rfl
  | cons x w ih =>
    obtain ⟨f, b⟩ := x
    simp only [store]
    rw [ih _ (fun c hc => h c (List.mem_cons_of_mem _ hc))]
    have : g ≠ f := by rintro rfl; exact h b (by simp)
    simp [this]

theorem store_const (mem : Nat → Bool) (l : List Nat) (g : Nat) :
    store mem (dropAll l) g = (mem g && decide (g ∉ l)) := by
  induction l generalizing mem with
  | nil => simp [dropAll, store]
  | cons x l ih =>
    have := ih (fun y => if y = x then false else mem y)
    simp only [dropAll, List.map_cons, store] at this ⊢
    rw [this]
    by_cases e : g = x <;> simp [e]

/-- State and history agree. -/
structure Inv (l : List Op) (s : St) : Prop where
  alive : ∀ i, Alive l i ↔ s.reg i ≠ none
  att : ∀ i f, Attached l i f ↔ ∃ L, s.reg i = some L ∧ f ∈ L
  nodup : ∀ i L, s.reg i = some L → L.Nodup

theorem inv_step {l : List Op} {s : St} (hi : Inv l s) {o : Op} (hl : LegalOp l o) :
    ∃ s' w, step s o = some (s', w) ∧ Inv (l ++ [o]) s' := by
  cases o with
  | make i =>
    refine ⟨_, _, rfl, ?_, ?_, ?_⟩
    · intro j
      rw [alive_snoc, hi.alive]
      by_cases e : j = i
      · subst e; simp
      · have : i ≠ j := fun h => e h.symm
        simp [e, this]
    · intro j f
      rw [attached_snoc, hi.att]
      have h0 : s.reg i = none := by
        have := (hi.alive i).not.mp hl
        simpa using this
      by_cases e : j = i
      · subst e; simp [h0]
      · simp [e]
    · intro j L
      by_cases e : j = i
      · subst e
        simp only [if_true, Option.some.injEq]
        rintro rfl; exact List.nodup_nil
      · simp only [e, if_false]; exact hi.nodup j L
  | attach i f =>
    obtain ⟨L, hL⟩ := Option.ne_none_iff_exists'.mp ((hi.alive i).mp hl)
    refine ⟨_, _, by simp only [step, hL]; rfl, ?_, ?_, ?_⟩
    · intro j
      rw [alive_snoc, hi.alive]
      by_cases e : j = i
      · subst e; simp [hL]
      · simp [e]
    · intro j g
      rw [attached_snoc, hi.att]
      by_cases e : j = i
      · subst e
        simp only [if_true, hL, Option.some.injEq, exists_eq_left']
        cases f with
        | none => simp [attach]
        | some f =>
          simp only [attach]
          by_cases c : f ∈ L
          · simp only [c, if_true]
            constructor
            · rintro (h | h)
              · cases h; exact c
              · exact h.1
            · intro h; right; exact ⟨h, by simp, by simp⟩
          · simp only [c, if_false, List.mem_append, List.mem_singleton]
            constructor
            · rintro (h | h)
              · cases h; exact Or.inr rfl
              · exact Or.inl h.1
            · rintro (h | rfl)
              · right; exact ⟨h, by simp, by simp⟩
              · exact Or.inl rfl
      · have : i ≠ j := fun h => e h.symm
        simp [e, this]
    · intro j K
      by_cases e : j = i
      · subst e
        simp only [if_true, Option.some.injEq]
        rintro rfl
        have hn := hi.nodup j L hL
        cases f with
        | none => exact hn
        | some f =>
          simp only [attach]
          by_cases c : f ∈ L
          · simpa [c] using hn
          · simp only [c, if_false]
            rw [List.nodup_append]
            exact ⟨hn, List.nodup_singleton _, fun a ha b hb => by
              simp only [List.mem_singleton] at hb; rintro rfl; subst hb; exact c ha⟩
      · simp only [e, if_false]; exact hi.nodup j K
  | detach i f =>
    obtain ⟨L, hL⟩ := Option.ne_none_iff_exists'.mp ((hi.alive i).mp hl)
    have hn := hi.nodup i L hL
    refine ⟨_, _, by simp only [step, hL]; rfl, ?_, ?_, ?_⟩
    · intro j
      rw [alive_snoc, hi.alive]
      by_cases e : j = i
      · subst e; simp [hL]
      · simp [e]
    · intro j g
      rw [attached_snoc, hi.att]
      by_cases e : j = i
      · subst e
        simp only [if_true, hL, Option.some.injEq, exists_eq_left']
        cases f with
        | none => simp [detach]
        | some f =>
          simp only [detach]
          by_cases c : f ∈ L
          · simp only [c, if_true, hn.mem_erase_iff]
            constructor
            · rintro (h | h)
              · cases h
              · refine ⟨?_, h.1⟩
                rintro rfl; exact h.2.1 rfl
            · rintro ⟨h, h'⟩
              right
              refine ⟨h', ?_, by simp⟩
              intro q; cases q; exact h rfl
          · simp only [c, if_false]
            constructor
            · rintro (h | h)
              · cases h
              · exact h.1
            · intro h; right
              refine ⟨h, ?_, by simp⟩
              intro q; cases q; exact c h
      · have : i ≠ j := fun h => e h.symm
        simp [e, this]
    · intro j K
      by_cases e : j = i
      · subst e
        simp only [if_true, Option.some.injEq]
        rintro rfl
        cases f with
        | none => exact hn
        | some f =>
          simp only [detach]
          by_cases c : f ∈ L
          · simpa [c] using hn.erase f
          · simpa [c] using hn
      · simp only [e, if_false]; exact hi.nodup j K
  | destroy i =>
    obtain ⟨L, hL⟩ := Option.ne_none_iff_exists'.mp ((hi.alive i).mp hl)
    refine ⟨_, _, by simp only [step, hL]; rfl, ?_, ?_, ?_⟩
    · intro j
      rw [alive_snoc, hi.alive]
      by_cases e : j = i
      · subst e; simp
      · have : i ≠ j := fun h => e h.symm
        simp [e, this]
    · intro j g
      rw [attached_snoc, hi.att]
      by_cases e : j = i
      · subst e; simp
      · have : i ≠ j := fun h => e h.symm
        simp [e, this]
    · intro j K
      by_cases e : j = i
      · subst e; simp
      · simp only [e, if_false]; exact hi.nodup j K

theorem inv_start : Inv [] start := by
  refine ⟨fun i => ?_, fun i f => ?_, ?_⟩
  · simp [Alive, start]
  · simp [Attached, start]
  · intro i L h; cases h

theorem inv_run (l : List Op) (h : Legal l) : ∃ s, run start l = some s ∧ Inv l s := by
  induction l using List.reverseRecOn with
  | nil => exact ⟨_, rfl, inv_start⟩
  | append_singleton l o ih =>
    obtain ⟨hl, ho⟩ := Legal.snoc h
    obtain ⟨s, hs, hi⟩ := ih hl
    obtain ⟨s', w, hw, hi'⟩ := inv_step hi ho
    exact ⟨s', by rw [run_snoc, hs]; simp [hw], hi'⟩

theorem mem_step {l : List Op} {s s' : St} {w : Writes} (hi : Inv l s) {o : Op}
    (h : step s o = some (s', w))
    (hm : ∀ f, s.mem f = true ↔ ∃ i, Attached l i f)
    (ho : ∀ i f, o = .attach i (some f) → ∀ j, Attached l j f → j = i)
    (hu : ∀ f i j, Attached l i f → Attached l j f → i = j) :
    ∀ f, s'.mem f = true ↔ ∃ i, Attached (l ++ [o]) i f := by
  intro g
  simp only [attached_snoc]
  cases o with
  | make i =>
    simp only [step, Option.some.injEq, Prod.mk.injEq] at h
    rw [← h.1]; simp [hm]
  | attach i f =>
    simp only [step] at h
    cases hL : s.reg i with
    | none => simp [hL] at h
    | some L =>
      simp only [hL, Option.some.injEq, Prod.mk.injEq] at h
      rw [← h.1]
      cases f with
      | none => simp [attach, store, hm]
      | some f =>
        have hw : (attach L (some f)).2 = [(f, true)] := by
          simp only [attach]; split <;> rfl
        simp only [hw, store]
        by_cases e : g = f
        · subst e
          simp only [if_true, true_iff]
          exact ⟨i, Or.inl rfl⟩
        · simp only [e, if_false, hm]
          constructor
          · rintro ⟨j, hj⟩; exact ⟨j, Or.inr ⟨hj, by simp, by simp⟩⟩
          · rintro ⟨j, hj | hj⟩
            · cases hj; exact absurd rfl e
            · exact ⟨j, hj.1⟩
  | detach i f =>
    simp only [step] at h
    cases hL : s.reg i with
    | none => simp [hL] at h
    | some L =>
      simp only [hL, Option.some.injEq, Prod.mk.injEq] at h
      rw [← h.1]
      cases f with
      | none => simp [detach, store, hm]
      | some f =>
        by_cases c : f ∈ L
        · have hw : (detach L (some f)).2 = [(f, false)] := by simp [detach, c]
          simp only [hw, store]
          have hat : Attached l i f := (hi.att i f).mpr ⟨L, hL, c⟩
          by_cases e : g = f
          · subst e
            simp only [if_true, Bool.false_eq_true, false_iff]
            rintro ⟨j, hj | hj⟩
            · cases hj
            · exact hj.2.1 (by rw [hu g j i hj.1 hat])
          · simp only [e, if_false, hm]
            constructor
            · rintro ⟨j, hj⟩
              exact ⟨j, Or.inr ⟨hj, by intro q; cases q; exact e rfl, by simp⟩⟩
            · rintro ⟨j, hj | hj⟩
              · cases hj
              · exact ⟨j, hj.1⟩
        · have hw : (detach L (some f)).2 = [] := by simp [detach, c]
          simp only [hw, store, hm]
          constructor
          · rintro ⟨j, hj⟩
            refine ⟨j, Or.inr ⟨hj, ?_, by simp⟩⟩
            intro q; cases q
            obtain ⟨K, hK, hf⟩ := (hi.att _ _).mp hj
            rw [hL] at hK; cases hK; exact c hf
          · rintro ⟨j, hj | hj⟩
            · cases hj
            · exact ⟨j, hj.1⟩
  | destroy i =>
    simp only [step] at h
    cases hL : s.reg i with
    | none => simp [hL] at h
    | some L =>
      simp only [hL, Option.some.injEq, Prod.mk.injEq] at h
      rw [← h.1]
      simp only [store_const, Bool.and_eq_true, hm, decide_eq_true_eq]
      constructor
      · rintro ⟨⟨j, hj⟩, hn⟩
        refine ⟨j, Or.inr ⟨hj, by simp, ?_⟩⟩
        intro q; cases q
        obtain ⟨K, hK, hf⟩ := (hi.att _ _).mp hj
        rw [hL] at hK; cases hK; exact hn hf
      · rintro ⟨j, hj | hj⟩
        · cases hj
        · refine ⟨⟨j, hj.1⟩, fun hg => hj.2.2 ?_⟩
          rw [hu g j i hj.1 ((hi.att i g).mpr ⟨L, hL, hg⟩)]

theorem owner_unique {l : List Op} (h : OneOwner l) :
    ∀ f i j, Attached l i f → Attached l j f → i = j := by
  induction l using List.reverseRecOn with
  | nil => rintro f i j ⟨a, b, h, _⟩; simp at h
  | append_singleton l o ih =>
    obtain ⟨h1, h2⟩ := OneOwner.snoc h
    intro f i j hi hj
    rw [attached_snoc] at hi hj
    rcases hi with rfl | hi
    · rcases hj with hj | hj
      · cases hj; rfl
      · exact (h2 i f rfl j hj.1).symm
    · rcases hj with rfl | hj
      · exact h2 j f rfl i hi.1
      · exact ih h1 f i j hi.1 hj.1

/-- C22.  Partial: for programs that never attach a flag to a second object while it is attached
to another one (otherwise see `C22_fails_two_owners`).  In every such history no operation is
undefined, and every flag holds true exactly while it is attached to a living object. -/
theorem C22_flag_tracks_life_partial (l : List Op) (h : Legal l) (h1 : OneOwner l) :
    ∃ s, run start l = some s ∧
      ∀ f, s.mem f = true ↔ ∃ i, Alive l i ∧ Attached l i f := by
  have key : ∃ s, run start l = some s ∧ Inv l s ∧
      ∀ f, s.mem f = true ↔ ∃ i, Attached l i f := by
    induction l using List.reverseRecOn with
    | nil =>
      refine ⟨_, rfl, inv_start, fun f => ?_⟩
      simp [start, Attached]
    | append_singleton l o ih =>
      obtain ⟨hl, ho⟩ := Legal.snoc h
      obtain ⟨hq, hq'⟩ := OneOwner.snoc h1
      obtain ⟨s, hs, hi, hm⟩ := ih hl hq
      obtain ⟨s', w, hw, hi'⟩ := inv_step hi ho
      exact ⟨s', by rw [run_snoc, hs]; simp [hw], hi',
        mem_step hi hw hm hq' (owner_unique hq)⟩
  obtain ⟨s, hs, hi, hm⟩ := key
  refine ⟨s, hs, fun f => ?_⟩
  rw [hm]
  constructor
  · rintro ⟨i, hf⟩
    obtain ⟨L, hL, _⟩ := (hi.att i f).mp hf
    exact ⟨i, (hi.alive i).mpr (by simp [hL]), hf⟩
  · rintro ⟨i, _, hf⟩; exact ⟨i, hf⟩

/-- C22, the writes, for every legal history (several owners or not): an operation writes a flag
at most once, and only a flag just being attached, a flag being detached that was attached to
this object, or a flag attached to the object being destroyed.  So a flag that is not attached is
never written, except by attaching it again, and a flag attached twice is written once. -/
theorem C22_only_attached_flags_written (l : List Op) (o : Op) (h : Legal (l ++ [o])) :
    ∃ s s' w, run start l = some s ∧ step s o = some (s', w) ∧
      (w.map Prod.fst).Nodup ∧
      ∀ f b, (f, b) ∈ w →
        (∃ i, o = .attach i (some f) ∧ b = true) ∨
        (∃ i, o = .detach i (some f) ∧ Attached l i f ∧ b = false) ∨
        (∃ i, o = .destroy i ∧ Attached l i f ∧ b = false) := by
  obtain ⟨hl, ho⟩ := Legal.snoc h
  obtain ⟨s, hs, hi⟩ := inv_run l hl
  obtain ⟨s', w, hw, hi'⟩ := inv_step hi ho
  refine ⟨s, s', w, hs, hw, ?_⟩
  cases o with
  | make i =>
    simp only [step, Option.some.injEq, Prod.mk.injEq] at hw
    simp [← hw.2]
  | attach i f =>
    simp only [step] at hw
    cases hL : s.reg i with
    | none => simp [hL] at hw
    | some L =>
      simp only [hL, Option.some.injEq, Prod.mk.injEq] at hw
      rw [← hw.2]
      cases f with
      | none => simp [attach]
      | some f =>
        have : (attach L (some f)).2 = [(f, true)] := by simp only [attach]; split <;> rfl
        simp [this]
  | detach i f =>
    simp only [step] at hw
    cases hL : s.reg i with
    | none => simp [hL] at hw
    | some L =>
      simp only [hL, Option.some.injEq, Prod.mk.injEq] at hw
      rw [← hw.2]
      cases f with
      | none => simp [detach]
      | some f =>
        simp only [detach]
        split
        · rename_i c
          refine ⟨by simp, fun g b hg => Or.inr (Or.inl ⟨i, ?_⟩)⟩
          simp only [List.mem_singleton, Prod.mk.injEq] at hg
          obtain ⟨rfl, rfl⟩ := hg
          exact ⟨rfl, (hi.att i g).mpr ⟨L, hL, c⟩, rfl⟩
        · simp
  | destroy i =>
    simp only [step] at hw
    cases hL : s.reg i with
    | none => simp [hL] at hw
    | some L =>
      simp only [hL, Option.some.injEq, Prod.mk.injEq] at hw
      rw [← hw.2]
      refine ⟨?_, fun g b hg => Or.inr (Or.inr ⟨i, rfl, ?_⟩)⟩
      · have : (dropAll L).map Prod.fst = L := by simp [dropAll, Function.comp_def]
        rw [this]; exact hi.nodup i L hL
      · simp only [dropAll, List.mem_map, Prod.mk.injEq] at hg
        obtain ⟨x, hx, rfl, rfl⟩ := hg
        exact ⟨(hi.att i x).mpr ⟨L, hL, hx⟩, rfl⟩

/-- C22, destruction: every flag attached to the object is set to false. -/
theorem C22_destroy_reports (l : List Op) (i f : Nat) (h : Legal (l ++ [Op.destroy i]))
    (hf : Attached l i f) :
    ∃ s, run start (l ++ [Op.destroy i]) = some s ∧ s.mem f = false := by
  obtain ⟨hl, ho⟩ := Legal.snoc h
  obtain ⟨s, hs, hi⟩ := inv_run l hl
  obtain ⟨L, hL, hm⟩ := (hi.att i f).mp hf
  refine ⟨_, by rw [run_snoc, hs]; simp only [Option.bind_some, step, hL]; rfl, ?_⟩
  simp [store_const, hm]

/-! ### Concrete histories -/

/-- Builds `Legal` from the left. -/
def legalB (alive : List Nat) : List Op → Bool
  | [] => true
  | .make i :: l => !alive.contains i && legalB (i :: alive) l
  | .attach i _ :: l => alive.contains i && legalB alive l
  | .detach i _ :: l => alive.contains i && legalB alive l
  | .destroy i :: l => alive.contains i && legalB (alive.filter (· ≠ i)) l

theorem legal_of (p : List Op) (al : List Nat) (hal : ∀ i, i ∈ al ↔ Alive p i) (hp : Legal p) :
    ∀ l, legalB al l = true → Legal (p ++ l) := by
  intro l
  induction l generalizing p al with
  | nil => intro _; simpa using hp
  | cons o l ih =>
    intro h
    have hs : ∀ (al' : List Nat), LegalOp p o → (∀ i, i ∈ al' ↔ Alive (p ++ [o]) i) →
        legalB al' l = true → Legal (p ++ o :: l) := by
      intro al' hlo hal' hr
      have hp' : Legal (p ++ [o]) := by
        intro a x b e
        rcases snoc_split e with ⟨rfl, rfl, rfl⟩ | ⟨b', rfl, rfl⟩
        · exact hlo
        · exact hp a x b' rfl
      have := ih (p ++ [o]) al' hal' hp' hr
      simpa using this
    cases o with
    | make i =>
      simp only [legalB, Bool.and_eq_true, Bool.not_eq_true', List.contains_eq_mem,
        decide_eq_false_iff_not] at h
      refine hs (i :: al) (fun hx => h.1 ((hal i).mpr hx)) (fun j => ?_) h.2
      rw [alive_snoc, List.mem_cons, hal]
      constructor
      · rintro (rfl | h)
        · exact Or.inl rfl
        · exact Or.inr ⟨h, by simp⟩
      · rintro (h | h)
        · cases h; exact Or.inl rfl
        · exact Or.inr h.1
    | attach i f =>
      simp only [legalB, Bool.and_eq_true, List.contains_eq_mem, decide_eq_true_eq] at h
      refine hs al ((hal i).mp h.1) (fun j => ?_) h.2
      rw [alive_snoc, hal]; simp
    | detach i f =>
      simp only [legalB, Bool.and_eq_true, List.contains_eq_mem, decide_eq_true_eq] at h
      refine hs al ((hal i).mp h.1) (fun j => ?_) h.2
      rw [alive_snoc, hal]; simp
    | destroy i =>
      simp only [legalB, Bool.and_eq_true, List.contains_eq_mem, decide_eq_true_eq] at h
      refine hs (al.filter (· ≠ i)) ((hal i).mp h.1) (fun j => ?_) h.2
      rw [alive_snoc, List.mem_filter, hal]
      simp only [ne_eq, decide_not, Bool.not_eq_true', decide_eq_false_iff_not, reduceCtorEq,
        Op.destroy.injEq, false_or]
      constructor
      · rintro ⟨a, b⟩; exact ⟨a, fun e => b e.symm⟩
      · rintro ⟨a, b⟩; exact ⟨a, fun e => b e.symm⟩

theorem legal_of_legalB (l : List Op) (h : legalB [] l = true) : Legal l := by
  refine legal_of [] [] (fun i => by simp [Alive]) ?_ l h
  intro a x b e; simp at e

/-- Two objects, three flags: attach twice, detach, attach to the other object, destroy. -/
def sample : List Op :=
  [.make 1, .attach 1 (some 10), .attach 1 (some 10), .attach 1 (some 11), .make 2,
   .attach 2 (some 12), .detach 1 (some 10), .attach 2 (some 10), .attach 2 none, .destroy 1]

example : Legal sample := legal_of_legalB _ (by decide)

/-- The sample attaches flag 10 to object 1, then (after detaching) to object 2: one owner at a
time.  The values at the end: 10 and 12 are true, 11 is false. -/
example : (run start sample).map (fun s => [10, 11, 12].map s.mem) = some [true, false, true] := by
  decide

/-- Checks `OneOwner` from the left; `att` holds the attachments so far. -/
def ownerB (att : List (Nat × Nat)) : List Op → Bool
  | [] => true
  | .attach i (some f) :: l => att.all (fun q => q.2 != f || q.1 == i) && ownerB ((i, f) :: att) l
  | .detach i (some f) :: l => ownerB (att.filter (fun q => !(q.1 == i && q.2 == f))) l
  | .destroy i :: l => ownerB (att.filter (fun q => q.1 != i)) l
  | _ :: l => ownerB att l

theorem owner_of (p : List Op) (att : List (Nat × Nat))
    (ha : ∀ i f, (i, f) ∈ att ↔ Attached p i f) (hp : OneOwner p) :
    ∀ l, ownerB att l = true → OneOwner (p ++ l) := by
  intro l
  induction l generalizing p att with
  | nil => intro _; simpa using hp
  | cons o l ih =>
    intro h
    have hs : ∀ att', (∀ i f, o = .attach i (some f) → ∀ j, Attached p j f → j = i) →
        (∀ i f, (i, f) ∈ att' ↔ Attached (p ++ [o]) i f) → ownerB att' l = true →
        OneOwner (p ++ o :: l) := by
      intro att' ho ha' hr
      have hp' : OneOwner (p ++ [o]) := by
        intro a i f b e
        rcases snoc_split e with ⟨rfl, rfl, e'⟩ | ⟨b', rfl, rfl⟩
        · exact ho i f e'.symm
        · exact hp a i f b' rfl
      simpa using ih (p ++ [o]) att' ha' hp' hr
    cases o with
    | make i =>
      refine hs att (by simp) (fun j f => ?_) (by simpa [ownerB] using h)
      rw [attached_snoc, ha]; simp
    | attach i f =>
      cases f with
      | none =>
        refine hs att (by simp) (fun j f => ?_) (by simpa [ownerB] using h)
        rw [attached_snoc, ha]; simp
      | some f =>
        simp only [ownerB, Bool.and_eq_true, List.all_eq_true, Bool.or_eq_true, bne_iff_ne,
          beq_iff_eq] at h
        refine hs ((i, f) :: att) ?_ (fun j g => ?_) h.2
        · intro i' f' e j hj
          cases e
          have := h.1 (j, f) ((ha j f).mpr hj)
          simpa using this
        · rw [attached_snoc, List.mem_cons, ha]
          constructor
          · rintro (e | e)
            · cases e; exact Or.inl rfl
            · exact Or.inr ⟨e, by simp, by simp⟩
          · rintro (e | e)
            · cases e; exact Or.inl rfl
            · exact Or.inr e.1
    | detach i f =>
      cases f with
      | none =>
        refine hs att (by simp) (fun j f => ?_) (by simpa [ownerB] using h)
        rw [attached_snoc, ha]; simp
      | some f =>
        refine hs _ (by simp) (fun j g => ?_) (by simpa only [ownerB] using h)
        rw [attached_snoc, List.mem_filter, ha]
        simp only [Bool.not_eq_true', Bool.and_eq_false_iff, beq_eq_false_iff_ne, ne_eq,
          reduceCtorEq, Op.detach.injEq, Option.some.injEq, false_or, not_false_eq_true, and_true]
        constructor
        · rintro ⟨a, b⟩
          refine ⟨a, ?_⟩
          rintro ⟨rfl, rfl⟩
          rcases b with b | b <;> exact b rfl
        · rintro ⟨a, b⟩
          refine ⟨a, ?_⟩
          by_cases e : j = i
          · right; rintro rfl; exact b ⟨e.symm, rfl⟩
          · exact Or.inl e
    | destroy i =>
      refine hs _ (by simp) (fun j g => ?_) (by simpa only [ownerB] using h)
      rw [attached_snoc, List.mem_filter, ha]
      simp only [bne_iff_ne, ne_eq, reduceCtorEq, Op.destroy.injEq, false_or, not_false_eq_true,
        true_and]
      constructor
      · rintro ⟨a, b⟩; exact ⟨a, fun e => b e.symm⟩
      · rintro ⟨a, b⟩; exact ⟨a, fun e => b e.symm⟩

theorem oneOwner_of_ownerB (l : List Op) (h : ownerB [] l = true) : OneOwner l := by
  refine owner_of [] [] (fun i f => by simp [Attached]) ?_ l h
  intro a i f b e; simp at e

example : OneOwner sample := oneOwner_of_ownerB _ (by decide)

/-- C22 fails when a flag is attached to two objects: object 1 is alive and the flag is attached
to it, but destroying object 2 has set the flag to false. -/
theorem C22_fails_two_owners :
    let l := [Op.make 1, .make 2, .attach 1 (some 7), .attach 2 (some 7), .destroy 2]
    Legal l ∧ Alive l 1 ∧ Attached l 1 7 ∧ ∃ s, run start l = some s ∧ s.mem 7 = false := by
  refine ⟨legal_of_legalB _ (by decide), ⟨[], _, rfl, by decide⟩,
    ⟨[.make 1, .make 2], _, rfl, by decide, by decide⟩, _, rfl, by decide⟩

end Iges.Props.Flags
