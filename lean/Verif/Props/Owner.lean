import Verif.Props.ListsThm

/-!
C54: what a model owns is destroyed with it; entities are adopted.
-/

namespace Iges.Props.Lists

open Iges.Graph Iges.Lists Iges.Spec.Lists Iges.Props.Live Iges.Props.G

theorem uses_pos {h : Heap} {p c : Nat} (H : Ch h p c) : Spec.uses h p c ≠ 0 := by
  obtain ⟨o, h1, h2⟩ := H
  unfold Spec.uses
  rw [h1]
  exact Nat.pos_iff_ne_zero.mp (List.count_pos_iff.mpr h2)

theorem uses_ch {h : Heap} {p c : Nat} (H : Spec.uses h p c ≠ 0) : Ch h p c := by
  unfold Spec.uses at H
  split at H
  · exact absurd rfl H
  · rename_i o ho
    exact ⟨o, ho, List.count_pos_iff.mp (Nat.pos_of_ne_zero H)⟩

theorem before_head {x a b : Nat} {l : List Nat} (hn : (x :: l).Nodup) (H : Before (x :: l) a b) :
    b ≠ x ∧ (a = x ∨ Before l a b) := by
  obtain ⟨s, t, h1, h2⟩ := H
  cases s with
  | nil => cases h2
  | cons y s =>
    simp only [List.cons_append, List.cons.injEq] at h1
    obtain ⟨rfl, h1⟩ := h1
    refine ⟨?_, ?_⟩
    · rintro rfl
      have := (List.nodup_cons.mp hn).1
      rw [h1] at this
      simp at this
    · rcases List.mem_cons.mp h2 with h3 | h3
      · exact Or.inl h3
      · exact Or.inr ⟨s, t, h1, h3⟩

theorem destroyAll_ok {ty : Nat → Nat} : ∀ (l : List Nat) {h : Heap}, Good ty h → l.Nodup →
    (∀ e ∈ l, (h e).isSome = true) → SolidsFirst h l →
    ∃ h', destroyAll h l = some h' ∧ Good ty h' ∧ (∀ e ∈ l, h' e = none)
  | [], h, G, _, _, _ => ⟨h, rfl, G, by simp⟩
  | e :: l, h, G, hn, ha, hs => by
    obtain ⟨o, ho⟩ := Option.isSome_iff_exists.mp (ha e (by simp))
    have hno : ∀ p op, h p = some op → (op.etype = 180 ∨ op.etype = 504) → e ∉ op.children := by
      intro p op hp ht hc
      exact (before_head hn (hs p op e hp ht (uses_pos ⟨op, hp, hc⟩) (by simp))).1 rfl
    have hD : DelOk h e := by
      intro p op hp
      constructor
      · rintro ⟨h1, h2⟩
        exact absurd (by simp [Obj.children, h2]) (hno p op hp (Or.inl h1))
      · intro h1
        by_cases ht : op.etype = 504
        · exact hno p op hp (Or.inr ht) (by simp only [Obj.children, List.mem_append]; tauto)
        · rw [((G.loc p op hp).noEdge ht).2] at h1; cases h1
    obtain ⟨h1, a1, a2, a3, a4, F⟩ := destroy_ok G.loc G.sym ho hD
    have hl1 := destroy_live a1
    have hne := (List.nodup_cons.mp hn).1
    obtain ⟨h', b1, b2, b3⟩ := destroyAll_ok l ⟨a2, a3⟩ (List.nodup_cons.mp hn).2 (by
      intro x hx
      rw [hl1.2.2 x (fun h => hne (h ▸ hx))]
      exact ha x (by simp [hx])) (by
      intro p op x hp ht hu hx
      have hpe : p ≠ e := by rintro rfl; rw [a4] at hp; cases hp
      have hty := F.types p hpe
      rw [hp] at hty
      obtain ⟨op', hp'⟩ : ∃ op', h p = some op' := by
        cases hh : h p with
        | none => rw [hh] at hty; cases hty
        | some op' => exact ⟨op', rfl⟩
      rw [hp'] at hty
      simp only [Option.map_some, Option.some.injEq] at hty
      have hc := F.ch p x (uses_ch hu)
      rcases (before_head hn (hs p op' x hp' (hty ▸ ht) (uses_pos hc) (by simp [hx]))).2 with h2 | h2
      · exact absurd h2 hpe
      · exact h2)
    refine ⟨h', ?_, b2, ?_⟩
    · unfold destroyAll
      rw [a1]
      exact b1
    · intro x hx
      rcases List.mem_cons.mp hx with rfl | hx
      · have := destroyAll_live l b1 x hne
        rw [a4] at this
        simpa using this
      · exact b3 x hx

/-- **C54** (part): destroying a model destroys each of its entities, once, and no other entity;
the references among the others stay in order.  Missing: boolean trees and edge lists that come
after an entity they use (see `C54_fails_teardown`), and states that careless calls reach. -/
theorem C54_teardown_partial (W : World) (hr : Reached W) (hg : Props.Reached W.heap) (m : Nat)
    (L : List Nat) (hL : W.list m = some L) (hs : SolidsFirst W.heap L) :
    ∃ W', Lists.step W (.delModel m) = some (W', true) ∧ ¬ Open W' m
      ∧ (∀ e ∈ L, ¬ Alive W' e) ∧ (∀ e, e ∉ L → (Alive W' e ↔ Alive W e))
      ∧ (∀ n, n ≠ m → W'.list n = W.list n) ∧ Spec.Symmetric W'.heap := by
  obtain ⟨ty, G⟩ := hg.good
  obtain ⟨h', a1, a2, a3⟩ := destroyAll_ok L G (hr.inv.nd m L trivial hL)
    (fun e he => hr.inv.live m e trivial ⟨L, hL, he⟩) hs
  refine ⟨(({ W with heap := h' }).setList m (some [])).setList m none, ?_, ?_, ?_, ?_, ?_, ?_⟩
  · simp only [Lists.step, DelModel, Clear, hL, a1]
  · rintro ⟨K, hK⟩
    simp at hK
  · rintro e he ⟨o, ho⟩
    have ho : h' e = some o := ho
    rw [a3 e he] at ho; cases ho
  · intro e he
    unfold Alive
    rw [← Option.isSome_iff_exists, ← Option.isSome_iff_exists]
    show (h' e).isSome = true ↔ (W.heap e).isSome = true
    rw [destroyAll_live L a1 e he]
  · intro n hn
    simp [hn]
  · exact a2.symmetric

/-! ### Adoption -/

theorem args_adopts {h : Heap} {c : Call} (ht : (h (receiver c)).map Obj.etype ≠ some 314) {x : Nat}
    (hx : x ∈ args c) (hu : Spec.uses h (receiver c) x = 0) : x ∈ adopts h c true := by
  have hk : ∀ e, Spec.uses h e x = 0 → (!((h e).elim false (fun o => decide (x ∈ o.kids)))) = true := by
    intro e he
    cases hh : h e with
    | none => rfl
    | some o =>
      simp only [Option.elim_some, Bool.not_eq_true', decide_eq_false_iff_not]
      intro hm
      exact uses_pos ⟨o, hh, by simp [Obj.children, hm]⟩ he
  cases c <;> simp only [args, adopts, receiver] at * <;>
    first
    | simpa using hx
    | (simp only [if_true, List.mem_filter]; exact ⟨hx, hk _ hu⟩)
    | (rw [if_pos ⟨trivial, ht⟩]; exact hx)

theorem adoptAll_mem {e p : Nat} : ∀ (l : List Nat) {W W' : World}, W.parent e = some p →
    adoptAll W e l = some W' → (∀ x, W'.parent x = W.parent x ∨ W'.parent x = some p)
      ∧ (∀ n x, Holds W n x → Holds W' n x)
      ∧ ∀ x ∈ l, W.parent x ≠ some p → Holds W' p x
  | [], W, W', hp, H => by
    cases H
    exact ⟨fun _ => Or.inl rfl, fun _ _ h => h, by simp⟩
  | c :: l, W, W', hp, H => by
    unfold adoptAll at H
    split at H
    · cases H
    · rename_i W1 h1
      obtain ⟨_, a2, _, a4, _, a6⟩ := adopt_eff h1
      obtain ⟨b1, b2, b3⟩ := adoptAll_mem l (a2.trans hp) H
      refine ⟨?_, fun n x h => b2 n x (a4 n x h), ?_⟩
      · intro x
        rcases b1 x with h | h
        · rcases a6 x with h2 | ⟨_, h2⟩
          · exact Or.inl (h.trans h2)
          · exact Or.inr (h.trans (h2.trans hp))
        · exact Or.inr h
      · intro x hx hne
        by_cases hxc : x = c
        · subst hxc
          unfold adopt at h1
          rw [hp] at h1
          simp only [if_neg hne, Option.map_eq_some_iff] at h1
          obtain ⟨⟨W2, b⟩, h2, rfl⟩ := h1
          exact b2 p x (((addEntity_eff h2).2.2.1 p x).mpr (Or.inr ⟨rfl, rfl⟩))
        · have hx' : x ∈ l := by
            rcases List.mem_cons.mp hx with h | h
            · exact absurd h hxc
            · exact h
          by_cases h2 : W1.parent x = some p
          · rcases a6 x with h3 | ⟨h3, _⟩
            · exact absurd (h3.symm.trans h2) hne
            · exact absurd h3 hxc
          · exact b3 x hx' h2

/-- **C54**: when an entity of a model accepts another entity, which it did not use before and
which did not come from that model, the model holds the latter from then on.  (A colour
definition, type 314, ignores matrices and colours.) -/
theorem C54_adopted (W : World) (c : Call) (hc : ∀ i t, c ≠ .new i t) (p : Nat)
    (hp : W.parent (receiver c) = some p) (ht : ∀ o, W.heap (receiver c) = some o → o.etype ≠ 314)
    (x : Nat) (hx : x ∈ args c) (hu : Spec.uses W.heap (receiver c) x = 0) (hne : W.parent x ≠ some p)
    (W' : World) (H : Lists.step W (.call c) = some (W', true)) : Holds W' p x := by
  have hs : Lists.step W (.call c) = callEntity W c := by
    cases c <;> first | rfl | exact absurd rfl (hc _ _)
  rw [hs] at H
  unfold callEntity at H
  split at H
  · cases H
  · rename_i h1 b1 hst
    split at H
    · cases H
    · rename_i W1 hW1
      cases H
      refine (adoptAll_mem _ (W := { W with heap := h1 }) hp hW1).2.2 x ?_ hne
      refine args_adopts ?_ hx hu
      intro h
      rw [Option.map_eq_some_iff] at h
      obtain ⟨o, ho, h2⟩ := h
      exact ht o ho h2

/-! ### Where it fails -/

theorem LegalRun.cons {W : World} {o : Op} {l : List Op} (hl : Legal W o)
    {W1 : World} {b1 : Bool} (hs : Lists.step W o = some (W1, b1)) (hr : LegalRun W1 l) :
    LegalRun W (o :: l) := by
  refine ⟨hl, fun W' b h2 => ?_⟩
  rw [hs] at h2
  cases h2
  exact hr

theorem LegalRun.last {W : World} {o : Op} (hl : Legal W o) : LegalRun W [o] :=
  ⟨hl, fun _ _ _ => trivial⟩

theorem SoleRun.cons {W : World} {o : Op} {l : List Op} (hl : Legal W o) (ho : Sole W o)
    {W1 : World} {b1 : Bool} (hs : Lists.step W o = some (W1, b1)) (hr : SoleRun W1 l) :
    SoleRun W (o :: l) := by
  refine ⟨hl, ho, fun W' b h2 => ?_⟩
  rw [hs] at h2
  cases h2
  exact hr

/-- **C23 fails** (two models).  An entity is put into a second model and deleted from the first.
The second keeps the address; when a new entity of the second model gets it, that model holds the
entity twice (`/repo/src/iges/iges.cpp:948-999`). -/
theorem C23_fails_address_reuse : ∃ l W, LegalRun start l ∧ run l = some W ∧ W.list 2 = some [5, 5]
    ∧ ¬ NoDuplicates W := by
  refine ⟨[.newModel 1, .newModel 2, .new 1 5 110, .add 2 (some 5), .del 1 (some 5), .new 2 5 110], _, ?_,
    rfl, rfl, fun h => absurd (h 2 [5, 5] rfl 5) (by decide)⟩
  refine LegalRun.cons rfl rfl ?_
  refine LegalRun.cons rfl rfl ?_
  refine LegalRun.cons ⟨⟨_, rfl⟩, rfl⟩ rfl ?_
  refine LegalRun.cons ⟨⟨_, rfl⟩, ?_⟩ rfl ?_
  · rintro x h; cases h; exact ⟨_, rfl⟩
  refine LegalRun.cons ⟨⟨_, rfl⟩, ?_⟩ rfl ?_
  · rintro x h; cases h; exact ⟨_, rfl⟩
  exact LegalRun.last ⟨⟨_, rfl⟩, rfl⟩

/-- **C54 fails** (two models).  `AddEntity` leaves the entity in the model it came from; the two
destructors delete it twice (`iges.cpp:948-971`, `273-286`). -/
theorem C54_fails_two_models : ∃ l, LegalRun start l ∧ run l = none := by
  refine ⟨[.newModel 1, .newModel 2, .new 1 5 110, .add 2 (some 5), .delModel 1, .delModel 2], ?_, rfl⟩
  refine LegalRun.cons rfl rfl ?_
  refine LegalRun.cons rfl rfl ?_
  refine LegalRun.cons ⟨⟨_, rfl⟩, rfl⟩ rfl ?_
  refine LegalRun.cons ⟨⟨_, rfl⟩, ?_⟩ rfl ?_
  · rintro x h; cases h; exact ⟨_, rfl⟩
  refine LegalRun.cons ⟨_, rfl⟩ rfl ?_
  exact LegalRun.last ⟨_, rfl⟩

/-- **C54 fails** (two models, by a setter).  The same happens when an entity of one model is
handed to an entity of another one (`/repo/src/entities/entity122.cpp:420-421`). -/
theorem C54_fails_two_models_setter : ∃ l, LegalRun start l ∧ run l = none := by
  refine ⟨[.newModel 1, .newModel 2, .new 1 5 110, .new 2 6 122, .call (.setDE122 6 (some 5)), .delModel 2,
    .delModel 1], ?_, rfl⟩
  refine LegalRun.cons rfl rfl ?_
  refine LegalRun.cons rfl rfl ?_
  refine LegalRun.cons ⟨⟨_, rfl⟩, rfl⟩ rfl ?_
  refine LegalRun.cons ⟨⟨_, rfl⟩, rfl⟩ rfl ?_
  refine LegalRun.cons ⟨⟨_, rfl, rfl⟩, ?_, by simp⟩ rfl ?_
  · rintro x h; cases h; exact ⟨_, rfl, by unfold Spec.isCurve; decide⟩
  refine LegalRun.cons ⟨_, rfl⟩ rfl ?_
  exact LegalRun.last ⟨_, rfl⟩

/-- **C54 fails** (destruction order).  Destroying a model in which a vertex list was created
before the edge list that uses it is undefined behaviour, although the program kept every entity
in one model (`/repo/src/entities/entity504.cpp:280-343`). -/
theorem C54_fails_teardown : ∃ l, SoleRun start l ∧ run l = none := by
  refine ⟨[.newModel 1, .new 1 5 502, .new 1 6 504, .new 1 7 110, .call (.addVertex 5),
    .call (.addEdge 6 (some 7) (some 5) 1 (some 5) 1), .delModel 1], ?_, rfl⟩
  refine SoleRun.cons rfl trivial rfl ?_
  refine SoleRun.cons ⟨⟨_, rfl⟩, rfl⟩ trivial rfl ?_
  refine SoleRun.cons ⟨⟨_, rfl⟩, rfl⟩ trivial rfl ?_
  refine SoleRun.cons ⟨⟨_, rfl⟩, rfl⟩ trivial rfl ?_
  refine SoleRun.cons ⟨_, rfl, rfl⟩ (fun x hx => by cases hx) rfl ?_
  refine SoleRun.cons ⟨⟨_, rfl, rfl⟩, ?_, ?_, ?_⟩ ?_ rfl ?_
  · rintro x h; cases h; exact ⟨_, rfl, trivial⟩
  · rintro x h; cases h; exact ⟨_, rfl, rfl⟩
  · rintro x h; cases h; exact ⟨_, rfl, rfl⟩
  · intro x hx m p h hp
    cases hp
    obtain ⟨L, h1, _⟩ := h
    by_contra hm
    simp [setList_list, hm, start] at h1
  exact ⟨⟨_, rfl⟩, trivial, fun _ _ _ => trivial⟩

/-- **C54 fails** (unlinked entity).  An entity that was unlinked still names the model as its
parent, so that a setter that makes an entity of the model use it does not bring it back: the
model holds the user and not the used entity (`iges.cpp:1003-1026`). -/
theorem C54_fails_unlinked : ∃ l W, SoleRun start l ∧ run l = some W ∧ Holds W 1 5
    ∧ Spec.uses W.heap 5 6 = 1 ∧ ∀ m, ¬ Holds W m 6 := by
  refine ⟨[.newModel 1, .new 1 5 122, .new 1 6 110, .unlink 1 (some 6), .call (.setDE122 5 (some 6))], _, ?_,
    rfl, ⟨[5], rfl, by simp⟩, rfl, ?_⟩
  · refine SoleRun.cons rfl trivial rfl ?_
    refine SoleRun.cons ⟨⟨_, rfl⟩, rfl⟩ trivial rfl ?_
    refine SoleRun.cons ⟨⟨_, rfl⟩, rfl⟩ trivial rfl ?_
    refine SoleRun.cons ⟨⟨_, rfl⟩, ?_⟩ trivial rfl ?_
    · rintro x h; cases h; exact ⟨_, rfl⟩
    refine SoleRun.cons ⟨⟨_, rfl, rfl⟩, ?_, by simp⟩ ?_ rfl trivial
    · rintro x h; cases h; exact ⟨_, rfl, by unfold Spec.isCurve; decide⟩
    · intro x hx m p h hp
      cases hp
      obtain ⟨L, h1, _⟩ := h
      by_contra hm
      simp [setList_list, hm, start] at h1
  · rintro m ⟨L, h1, h2⟩
    by_cases hm : m = 1
    · subst hm
      cases h1
      exact absurd h2 (by decide)
    · simp [setList_list, hm, start] at h1

/-! ### States that meet the hypotheses -/

/-- Two models; one holds a cylinder and its directrix, which came from nowhere and was adopted,
the other an edge list with its curve and vertex list. -/
def sampleOps : List Op := [.newModel 1, .newModel 2, .new 1 5 122, .call (.new 6 110),
  .call (.setDE122 5 (some 6)), .new 2 7 504, .new 2 8 502, .new 2 9 110, .call (.addVertex 8),
  .call (.addEdge 7 (some 9) (some 8) 1 (some 8) 1), .new 1 4 110, .del 1 (some 4)]

/-- The same calls, without the models. -/
def sampleCalls : List Call := [.new 5 122, .new 6 110, .setDE122 5 (some 6), .new 7 504, .new 8 502,
  .new 9 110, .addVertex 8, .addEdge 7 (some 9) (some 8) 1 (some 8) 1, .new 4 110, .del 4]

theorem sample_sole : SoleRun start sampleOps := by
  refine SoleRun.cons rfl trivial rfl ?_
  refine SoleRun.cons rfl trivial rfl ?_
  refine SoleRun.cons ⟨⟨_, rfl⟩, rfl⟩ trivial rfl ?_
  refine SoleRun.cons rfl (fun x hx => by cases hx) rfl ?_
  refine SoleRun.cons ⟨⟨_, rfl, rfl⟩, ?_, by simp⟩ ?_ rfl ?_
  · rintro x h; cases h; exact ⟨_, rfl, by unfold Spec.isCurve; decide⟩
  · intro x hx m p h hp
    cases hp
    obtain ⟨L, h1, h2⟩ := h
    by_cases hm : m = 2
    · subst hm; cases h1; cases h2
    by_contra hm'
    simp [setList_list, hm, hm', start] at h1
  refine SoleRun.cons ⟨⟨_, rfl⟩, rfl⟩ trivial rfl ?_
  refine SoleRun.cons ⟨⟨_, rfl⟩, rfl⟩ trivial rfl ?_
  refine SoleRun.cons ⟨⟨_, rfl⟩, rfl⟩ trivial rfl ?_
  refine SoleRun.cons ⟨_, rfl, rfl⟩ (fun x hx => by cases hx) rfl ?_
  refine SoleRun.cons ⟨⟨_, rfl, rfl⟩, ?_, ?_, ?_⟩ ?_ rfl ?_
  · rintro x h; cases h; exact ⟨_, rfl, trivial⟩
  · rintro x h; cases h; exact ⟨_, rfl, rfl⟩
  · rintro x h; cases h; exact ⟨_, rfl, rfl⟩
  · intro x hx m p h hp
    cases hp
    obtain ⟨L, h1, h2⟩ := h
    by_cases hm : m = 1
    · subst hm
      cases h1
      simp [args] at hx
      rcases hx with rfl | rfl <;> simp at h2
    by_contra hm'
    simp [setList_list, hm, hm', start] at h1
  refine SoleRun.cons ⟨⟨_, rfl⟩, rfl⟩ trivial rfl ?_
  refine SoleRun.cons ⟨⟨_, rfl⟩, ?_⟩ trivial rfl trivial
  rintro x h; cases h; exact ⟨_, rfl⟩

/-- Only created entities are alive. -/
theorem alive_new : ∀ (l : List Call) {h h' : Heap}, Graph.runFrom h l = some h' → ∀ x,
    (h' x).isSome = true → (h x).isSome = true ∨ ∃ t, Call.new x t ∈ l
  | [], h, h', H, x, hx => by cases H; exact Or.inl hx
  | c :: l, h, h', H, x, hx => by
    unfold Graph.runFrom at H
    split at H
    · cases H
    · rename_i h1 b hs
      rcases alive_new l H x hx with h2 | ⟨t, h2⟩
      · by_cases hn : ∃ i t, c = .new i t
        · obtain ⟨i, t, rfl⟩ := hn
          simp only [Graph.step] at hs
          cases hs
          by_cases hxi : x = i
          · subst hxi; exact Or.inr ⟨t, by simp⟩
          · rw [put_ne _ _ hxi] at h2; exact Or.inl h2
        · by_cases hd : ∃ e, c = .del e
          · obtain ⟨e, rfl⟩ := hd
            simp only [Graph.step, Option.map_eq_some_iff] at hs
            obtain ⟨h3, h4, h5⟩ := hs
            cases h5
            obtain ⟨_, d1, d2⟩ := destroy_live h4
            by_cases hxe : x = e
            · subst hxe; rw [d1] at h2; cases h2
            · rw [d2 x hxe] at h2; exact Or.inl h2
          · have := step_same (fun i t h => hn ⟨i, t, h⟩) (fun e h => hd ⟨e, h⟩) hs x
            rw [this] at h2
            exact Or.inl h2
      · exact Or.inr ⟨t, by simp [h2]⟩

theorem sampleCalls_careful : Spec.CarefulRun emptyHeap sampleCalls := by
  refine CarefulRun.cons rfl trivial rfl ?_
  refine CarefulRun.cons rfl trivial rfl ?_
  refine CarefulRun.cons ⟨⟨_, rfl, rfl⟩, ?_, by simp⟩ trivial rfl ?_
  · rintro x h; cases h; exact ⟨_, rfl, by unfold Spec.isCurve; decide⟩
  refine CarefulRun.cons rfl trivial rfl ?_
  refine CarefulRun.cons rfl trivial rfl ?_
  refine CarefulRun.cons rfl trivial rfl ?_
  refine CarefulRun.cons ⟨_, rfl, rfl⟩ trivial rfl ?_
  refine CarefulRun.cons ⟨⟨_, rfl, rfl⟩, ?_, ?_, ?_⟩ trivial rfl ?_
  · rintro x h; cases h; exact ⟨_, rfl, trivial⟩
  · rintro x h; cases h; exact ⟨_, rfl, rfl⟩
  · rintro x h; cases h; exact ⟨_, rfl, rfl⟩
  refine CarefulRun.cons rfl trivial rfl ?_
  refine CarefulRun.cons ⟨_, rfl, trivial⟩ ?_ rfl trivial
  intro p o hp
  by_cases h4 : p = 4
  · subst h4; cases hp; decide
  by_cases h5 : p = 5
  · subst h5; cases hp; decide
  by_cases h6 : p = 6
  · subst h6; cases hp; decide
  by_cases h7 : p = 7
  · subst h7; cases hp; decide
  by_cases h8 : p = 8
  · subst h8; cases hp; decide
  by_cases h9 : p = 9
  · subst h9; cases hp; decide
  exfalso
  have := alive_new (sampleCalls.take 9) (h := emptyHeap) rfl p (Option.isSome_iff_exists.mpr ⟨o, hp⟩)
  simp [sampleCalls, emptyHeap, h4, h5, h6, h7, h8, h9] at this

/-- The hypotheses of C23 and C54 hold of a program with two models. -/
example : ∃ W, run sampleOps = some W ∧ Reached W ∧ Props.Reached W.heap ∧ W.list 1 = some [5, 6]
    ∧ W.list 2 = some [7, 8, 9] ∧ SolidsFirst W.heap [7, 8, 9] := by
  refine ⟨_, rfl, ⟨sampleOps, sample_sole, rfl⟩, ⟨sampleCalls, sampleCalls_careful, rfl⟩, rfl, rfl, ?_⟩
  intro p o e hp ht hu he
  by_cases h7 : p = 7
  · subst h7
    cases hp
    simp only [List.mem_cons, List.not_mem_nil, or_false] at he
    rcases he with rfl | rfl | rfl
    · exact absurd rfl hu
    · exact ⟨[7], [9], rfl, by simp⟩
    · exact ⟨[7, 8], [], rfl, by simp⟩
  by_cases h5 : p = 5
  · subst h5; cases hp; exact absurd ht (by decide)
  by_cases h6 : p = 6
  · subst h6; cases hp; exact absurd ht (by decide)
  by_cases h8 : p = 8
  · subst h8; cases hp; exact absurd ht (by decide)
  by_cases h9 : p = 9
  · subst h9; cases hp; exact absurd ht (by decide)
  by_cases h4 : p = 4
  · subst h4; cases hp
  exfalso
  have := alive_new sampleCalls (h := emptyHeap) rfl p (Option.isSome_iff_exists.mpr ⟨o, hp⟩)
  simp [sampleCalls, emptyHeap, h4, h5, h6, h7, h8, h9] at this

end Iges.Props.Lists
