import Verif.Spec.Lists
import Verif.Props.Live

/-!
Models and the entities they own: no duplicates (C23), one owner (C54).
-/

namespace Iges.Props.Lists

open Iges.Graph Iges.Lists Iges.Spec.Lists Iges.Props.Live

/-- The bookkeeping is right for the models of a set. -/
structure InvOn (P : Nat → Prop) (W : World) : Prop where
  nd : ∀ m L, P m → W.list m = some L → L.Nodup
  live : ∀ m e, P m → Holds W m e → (W.heap e).isSome = true
  one : ∀ m m' e, P m → P m' → Holds W m e → Holds W m' e → m = m'
  par : ∀ m e, P m → Holds W m e → W.parent e = some m

@[simp] theorem setList_list (W : World) (m : Nat) (l : Option (List Nat)) (n : Nat) :
    (W.setList m l).list n = if n = m then l else W.list n := rfl
@[simp] theorem setList_heap (W : World) (m : Nat) (l : Option (List Nat)) :
    (W.setList m l).heap = W.heap := rfl
@[simp] theorem setList_parent (W : World) (m : Nat) (l : Option (List Nat)) :
    (W.setList m l).parent = W.parent := rfl
@[simp] theorem setParent_list (W : World) (e : Nat) (p : Option Nat) :
    (W.setParent e p).list = W.list := rfl
@[simp] theorem setParent_heap (W : World) (e : Nat) (p : Option Nat) :
    (W.setParent e p).heap = W.heap := rfl
@[simp] theorem setParent_parent (W : World) (e : Nat) (p : Option Nat) (x : Nat) :
    (W.setParent e p).parent x = if x = e then p else W.parent x := rfl

theorem holds_setList (W : World) (m : Nat) (L : List Nat) (n e : Nat) :
    Holds (W.setList m (some L)) n e ↔ if n = m then e ∈ L else Holds W n e := by
  unfold Holds
  by_cases h : n = m
  · simp [h]
  · simp [h]

theorem holds_heap (W : World) (h : Heap) (m e : Nat) :
    Holds { W with heap := h } m e ↔ Holds W m e := Iff.rfl

theorem holds_of {W : World} {m : Nat} {L : List Nat} (h : W.list m = some L) (e : Nat) :
    Holds W m e ↔ e ∈ L := by simp [Holds, h]

/-- The heap changes, but the entities held by the models stay alive. -/
theorem InvOn.heap {P W} (I : InvOn P W) {h : Heap}
    (hl : ∀ m e, P m → Holds W m e → (h e).isSome = true) : InvOn P { W with heap := h } :=
  ⟨I.nd, hl, I.one, I.par⟩

/-- The list of one model is replaced by a part of it. -/
theorem InvOn.shrink {P W} (I : InvOn P W) {m : Nat} {L L' : List Nat} (hL : W.list m = some L)
    (hs : L'.Sublist L) : InvOn P (W.setList m (some L')) := by
  have hh : ∀ n e, Holds (W.setList m (some L')) n e → Holds W n e := by
    intro n e h
    rw [holds_setList] at h
    split at h
    · rename_i hn; subst hn
      exact (holds_of hL e).mpr (hs.subset h)
    · exact h
  refine ⟨?_, fun n e hn h => I.live n e hn (hh n e h), fun n n' e hn hn' h h' =>
    I.one n n' e hn hn' (hh n e h) (hh n' e h'), fun n e hn h => I.par n e hn (hh n e h)⟩
  intro n K hn hK
  simp only [setList_list] at hK
  split at hK
  · rename_i hnm; subst hnm
    cases hK
    exact (I.nd n L hn hL).sublist hs
  · exact I.nd n K hn hK

/-- A model disappears. -/
theorem InvOn.close {P W} (I : InvOn P W) (m : Nat) : InvOn P (W.setList m none) := by
  have hh : ∀ n e, Holds (W.setList m none) n e → Holds W n e := by
    rintro n e ⟨L, h1, h2⟩
    simp only [setList_list] at h1
    split at h1
    · cases h1
    · exact ⟨L, h1, h2⟩
  refine ⟨?_, fun n e hn h => I.live n e hn (hh n e h), fun n n' e hn hn' h h' =>
    I.one n n' e hn hn' (hh n e h) (hh n' e h'), fun n e hn h => I.par n e hn (hh n e h)⟩
  intro n K hn hK
  simp only [setList_list] at hK
  split at hK
  · cases hK
  · exact I.nd n K hn hK

/-- An empty model appears. -/
theorem InvOn.opened {P W} (I : InvOn P W) (m : Nat) : InvOn P (W.setList m (some [])) := by
  have hh : ∀ n e, Holds (W.setList m (some [])) n e → Holds W n e := by
    intro n e h
    rw [holds_setList] at h
    split at h
    · cases h
    · exact h
  refine ⟨?_, fun n e hn h => I.live n e hn (hh n e h), fun n n' e hn hn' h h' =>
    I.one n n' e hn hn' (hh n e h) (hh n' e h'), fun n e hn h => I.par n e hn (hh n e h)⟩
  intro n K hn hK
  simp only [setList_list] at hK
  split at hK
  · cases hK; exact List.nodup_nil
  · exact I.nd n K hn hK

/-- A live entity is appended to the list of a model. -/
theorem InvOn.push {P W} (I : InvOn P W) {m e : Nat} {L : List Nat} (hL : W.list m = some L)
    (he : e ∉ L) (hlive : (W.heap e).isSome = true) (hs : ∀ m', P m' → Holds W m' e → m' = m) :
    InvOn P ((W.setList m (some (L ++ [e]))).setParent e (some m)) := by
  have hno : ∀ m', P m' → ¬ Holds W m' e := by
    intro m' hP h
    have := hs m' hP h
    subst this
    exact he ((holds_of hL e).mp h)
  have hh : ∀ n x, Holds ((W.setList m (some (L ++ [e]))).setParent e (some m)) n x →
      Holds W n x ∨ (n = m ∧ x = e) := by
    intro n x h
    have h' : Holds (W.setList m (some (L ++ [e]))) n x := h
    rw [holds_setList] at h'
    split at h'
    · rename_i hn; subst hn
      rcases List.mem_append.mp h' with h2 | h2
      · exact Or.inl ((holds_of hL x).mpr h2)
      · exact Or.inr ⟨rfl, List.mem_singleton.mp h2⟩
    · exact Or.inl h'
  refine ⟨?_, ?_, ?_, ?_⟩
  · intro n K hn hK
    simp only [setParent_list, setList_list] at hK
    split at hK
    · rename_i hnm; subst hnm
      cases hK
      rw [List.nodup_append]
      refine ⟨I.nd n L hn hL, List.nodup_singleton e, ?_⟩
      intro a ha b hb
      rw [List.mem_singleton] at hb
      subst hb
      rintro rfl
      exact he ha
    · exact I.nd n K hn hK
  · intro n x hn h
    rcases hh n x h with h2 | ⟨rfl, rfl⟩
    · exact I.live n x hn h2
    · exact hlive
  · intro n n' x hn hn' h h'
    rcases hh n x h with h2 | ⟨rfl, rfl⟩
    · rcases hh n' x h' with h3 | ⟨rfl, rfl⟩
      · exact I.one n n' x hn hn' h2 h3
      · exact hs n hn h2
    · rcases hh n' x h' with h3 | ⟨rfl, _⟩
      · exact (hs n' hn' h3).symm
      · rfl
  · intro n x hn h
    simp only [setParent_parent, setList_parent]
    rcases hh n x h with h2 | ⟨rfl, rfl⟩
    · split
      · rename_i hx; subst hx
        exact absurd h2 (hno n hn)
      · exact I.par n x hn h2
    · simp

theorem addEntity_inv {P W m e W' b} (I : InvOn P W)
    (hs : ∀ x, e = some x → ∀ m', P m' → Holds W m' x → m' = m)
    (H : AddEntity W m e = some (W', b)) : InvOn P W' := by
  unfold AddEntity at H
  split at H
  · cases H
  · cases H; exact I
  · rename_i L x hL
    split at H
    · cases H; exact I
    · rename_i hx
      split at H
      · cases H
      · rename_i o ho
        cases H
        exact I.push hL hx (by rw [ho]; rfl) (hs x rfl)

/-- What `AddEntity` changes. -/
theorem addEntity_eff {W m e W' b} (H : AddEntity W m (some e) = some (W', b)) :
    b = true ∧ W'.heap = W.heap ∧ (∀ n x, Holds W' n x ↔ Holds W n x ∨ (n = m ∧ x = e))
      ∧ (∀ x, W'.parent x = W.parent x ∨ (x = e ∧ W'.parent x = some m))
      ∧ (∀ n, n ≠ m → W'.list n = W.list n) := by
  unfold AddEntity at H
  split at H
  · cases H
  · rename_i h; cases h
  · rename_i L x hL heq
    cases heq
    split at H
    · rename_i hm
      cases H
      refine ⟨rfl, rfl, ?_, fun x => Or.inl rfl, fun n hn => rfl⟩
      intro n x
      constructor
      · exact Or.inl
      · rintro (h | ⟨rfl, rfl⟩)
        · exact h
        · exact (holds_of hL _).mpr hm
    · split at H
      · cases H
      · cases H
        refine ⟨rfl, rfl, ?_, ?_, ?_⟩
        · intro n x
          have : Holds ((W.setList m (some (L ++ [e]))).setParent e (some m)) n x ↔
            Holds (W.setList m (some (L ++ [e]))) n x := Iff.rfl
          rw [this, holds_setList]
          split
          · rename_i hn; subst hn
            rw [holds_of hL]
            simp
          · rename_i hn
            simp [hn]
        · intro x
          simp only [setParent_parent, setList_parent]
          split
          · rename_i hx; exact Or.inr ⟨hx, rfl⟩
          · exact Or.inl rfl
        · intro n hn
          simp [hn]

theorem adopt_inv {P W e c W'} (I : InvOn P W)
    (hs : ∀ p, W.parent e = some p → ∀ m', P m' → Holds W m' c → m' = p)
    (H : adopt W e c = some W') : InvOn P W' := by
  unfold adopt at H
  split at H
  · cases H; exact I
  · rename_i p hp
    split at H
    · cases H; exact I
    · rw [Option.map_eq_some_iff] at H
      obtain ⟨⟨W1, b⟩, h1, rfl⟩ := H
      exact addEntity_inv I (fun x hx => by cases hx; exact hs p hp) h1

/-- What an adoption changes. -/
theorem adopt_eff {W e c W'} (H : adopt W e c = some W') :
    W'.heap = W.heap ∧ W'.parent e = W.parent e
      ∧ (∀ n x, Holds W' n x → Holds W n x ∨ (W.parent e = some n ∧ x = c))
      ∧ (∀ n x, Holds W n x → Holds W' n x)
      ∧ (∀ n, W.parent e ≠ some n → W'.list n = W.list n)
      ∧ (∀ x, W'.parent x = W.parent x ∨ (x = c ∧ W'.parent x = W.parent e)) := by
  unfold adopt at H
  split at H
  · cases H
    exact ⟨rfl, rfl, fun _ _ h => Or.inl h, fun _ _ h => h, fun _ _ => rfl, fun _ => Or.inl rfl⟩
  · rename_i p hp
    split at H
    · cases H
      exact ⟨rfl, rfl, fun _ _ h => Or.inl h, fun _ _ h => h, fun _ _ => rfl, fun _ => Or.inl rfl⟩
    · rw [Option.map_eq_some_iff] at H
      obtain ⟨⟨W1, b⟩, h1, rfl⟩ := H
      obtain ⟨_, a2, a3, a4, a5⟩ := addEntity_eff h1
      refine ⟨a2, ?_, ?_, ?_, ?_, ?_⟩
      · rcases a4 e with h | ⟨_, h⟩
        · exact h
        · exact h.trans hp.symm
      · intro n x h
        rcases (a3 n x).mp h with h2 | ⟨rfl, h3⟩
        · exact Or.inl h2
        · exact Or.inr ⟨hp, h3⟩
      · intro n x h; exact (a3 n x).mpr (Or.inl h)
      · intro n hn
        exact a5 n (fun h => hn (by rw [hp, h]))
      · intro x
        rcases a4 x with h | ⟨h, h'⟩
        · exact Or.inl h
        · exact Or.inr ⟨h, h'.trans hp.symm⟩

theorem adoptAll_inv {P : Nat → Prop} {e : Nat} : ∀ (l : List Nat) {W W' : World}, InvOn P W →
    (∀ c ∈ l, ∀ p, W.parent e = some p → ∀ m', P m' → Holds W m' c → m' = p) →
    adoptAll W e l = some W' → InvOn P W'
  | [], W, W', I, _, H => by cases H; exact I
  | c :: l, W, W', I, hs, H => by
    unfold adoptAll at H
    split at H
    · cases H
    · rename_i W1 h1
      obtain ⟨a1, a2, a3, a4, a5, a6⟩ := adopt_eff h1
      refine adoptAll_inv l (adopt_inv I (hs c (by simp)) h1) ?_ H
      intro c' hc' p hp m' hm' hh
      rw [a2] at hp
      rcases a3 m' c' hh with h2 | ⟨h2, _⟩
      · exact hs c' (by simp [hc']) p hp m' hm' h2
      · rw [h2] at hp; cases hp; rfl

theorem adoptEdge_args {h : Heap} {e : Nat} {c s t : Option Nat} :
    ∀ x ∈ adoptEdge h e c s t, x ∈ c.toList ++ s.toList ++ t.toList := by
  have hv : ∀ (h : Heap) (v : Option Nat), ∀ x ∈ adoptVertices h e v, x ∈ v.toList := by
    intro h v x hx
    unfold adoptVertices at hx
    split at hx
    · split at hx
      · cases hx
      · simpa using hx
    · cases hx
  intro x hx
  unfold adoptEdge at hx
  split at hx
  · cases hx
  · rename_i c
    split at hx
    · rename_i oc h1 _ _
      split at hx
      · rcases List.mem_cons.mp hx with rfl | hx
        · simp
        · split at hx
          · rcases List.mem_append.mp hx with hx | hx
            · have := hv _ _ x hx
              simp only [List.mem_append]; tauto
            · split at hx
              · have := hv _ _ x hx
                simp only [List.mem_append]; tauto
              · cases hx
          · cases hx
      · cases hx
    · cases hx

theorem adopts_args (h : Heap) (c : Call) (b : Bool) : ∀ x ∈ adopts h c b, x ∈ args c := by
  intro x hx
  cases c
  case addEdge e c s sv t tv =>
    simp only [adopts] at hx
    split at hx
    · exact hx
    · exact adoptEdge_args x hx
  all_goals
    simp only [adopts, args] at hx ⊢
    first
      | (split at hx
         · first | exact hx | exact (List.mem_filter.mp hx).1
         · cases hx)
      | (cases hx; done)

/-- A call to an entity (other than constructor and destructor) keeps the books. -/
theorem callEntity_inv {P W c W' b} (I : InvOn P W)
    (hn : ∀ i t, c ≠ .new i t) (hd : ∀ e, c ≠ .del e)
    (hs : ∀ x ∈ args c, ∀ p, W.parent (receiver c) = some p → ∀ m', P m' → Holds W m' x → m' = p)
    (H : callEntity W c = some (W', b)) : InvOn P W' := by
  unfold callEntity at H
  split at H
  · cases H
  · rename_i h1 b1 hst
    split at H
    · cases H
    · rename_i W1 hW1
      cases H
      have S := step_same hn hd hst
      refine adoptAll_inv _ (I.heap ?_) ?_ hW1
      · intro m e hm hh
        rw [S e]; exact I.live m e hm hh
      · intro x hx
        exact hs x (adopts_args _ _ _ x hx)

theorem destroyAll_live : ∀ (l : List Nat) {h h' : Heap}, destroyAll h l = some h' →
    ∀ x, x ∉ l → (h' x).isSome = (h x).isSome
  | [], h, h', H, x, _ => by cases H; rfl
  | e :: l, h, h', H, x, hx => by
    unfold destroyAll at H
    split at H
    · cases H
    · rename_i h1 hh
      rw [destroyAll_live l H x (fun h => hx (by simp [h])),
        (destroy_live hh).2.2 x (fun h => hx (by simp [h]))]

theorem cull_live (v : Bool) : ∀ (l : List Nat) {h h' : Heap} {l' : List Nat}, l.Nodup →
    Cull v h l = some (h', l') →
    l'.Sublist l ∧ (∀ x, x ∉ l → (h' x).isSome = (h x).isSome)
      ∧ (∀ x ∈ l', (h' x).isSome = true) ∧ (∀ x ∈ l, x ∉ l' → h' x = none)
  | [], h, h', l', _, H => by
    simp only [Cull, Option.some.injEq, Prod.mk.injEq] at H
    obtain ⟨rfl, rfl⟩ := H
    simp
  | e :: l, h, h', l', hn, H => by
    have hel := (List.nodup_cons.mp hn).1
    unfold Cull at H
    split at H
    · cases H
    · rename_i o ho
      split at H
      · split at H
        · cases H
        · rename_i h1 hh
          obtain ⟨i1, i2, i3, i4⟩ := cull_live v l (List.nodup_cons.mp hn).2 H
          obtain ⟨d1, d2, d3⟩ := destroy_live hh
          refine ⟨i1.cons e, ?_, i3, ?_⟩
          · intro x hx
            rw [i2 x (fun h => hx (by simp [h])), d3 x (fun h => hx (by simp [h]))]
          · intro x hx hx'
            rcases List.mem_cons.mp hx with rfl | hx
            · have := i2 x hel
              rw [d2] at this
              cases hy : h' x with
              | none => rfl
              | some y => rw [hy] at this; cases this
            · exact i4 x hx hx'
      · rw [Option.map_eq_some_iff] at H
        obtain ⟨⟨h1, l1⟩, hh, heq⟩ := H
        cases heq
        obtain ⟨i1, i2, i3, i4⟩ := cull_live v l (List.nodup_cons.mp hn).2 hh
        refine ⟨i1.cons_cons e, ?_, ?_, ?_⟩
        · intro x hx
          exact i2 x (fun h => hx (by simp [h]))
        · intro x hx
          rcases List.mem_cons.mp hx with rfl | hx
          · rw [i2 x hel, ho]; rfl
          · exact i3 x hx
        · intro x hx hx'
          rcases List.mem_cons.mp hx with rfl | hx
          · exact absurd (List.mem_cons_self) hx'
          · exact i4 x hx (fun h => hx' (by simp [h]))

theorem newEntity_inv {P W m i t W' b} (I : InvOn P W) (hi : W.heap i = none)
    (H : NewEntity W m i t = some (W', b)) : InvOn P W' := by
  unfold NewEntity at H
  split at H
  · cases H
  · rename_i L hL
    cases H
    have hno : ∀ m', P m' → ¬ Holds W m' i := by
      intro m' hm' hh
      have := I.live m' i hm' hh
      rw [hi] at this; cases this
    have I1 : InvOn P { W with heap := W.heap.put i (newObj t) } := by
      refine I.heap ?_
      intro m' e hm' hh
      have : e ≠ i := by rintro rfl; exact hno m' hm' hh
      rw [G.put_ne _ _ this]; exact I.live m' e hm' hh
    -- the model may be outside the set, so the list is handled by hand
    by_cases hP : P m
    · have he : i ∉ L := fun h => hno m hP ((holds_of hL i).mpr h)
      exact I1.push (m := m) (e := i) (L := L) hL he (by simp) (fun m' hm' hh => absurd hh (hno m' hm'))
    · by_cases he : i ∈ L
      · -- only a stale entry outside the set can have this address
        have hh : ∀ n x, P n → (Holds (({ W with heap := W.heap.put i (newObj t) }.setParent i (some m)).setList m
            (some (L ++ [i]))) n x ↔ Holds W n x) := by
          intro n x hn
          rw [holds_setList]
          split
          · rename_i h; subst h; exact absurd hn hP
          · exact Iff.rfl
        refine ⟨?_, ?_, ?_, ?_⟩
        · intro n K hn hK
          simp only [setList_list] at hK
          split at hK
          · rename_i h; subst h; exact absurd hn hP
          · exact I.nd n K hn hK
        · intro n x hn h
          exact I1.live n x hn ((hh n x hn).mp h)
        · intro n n' x hn hn' h h'
          exact I.one n n' x hn hn' ((hh n x hn).mp h) ((hh n' x hn').mp h')
        · intro n x hn h
          have h2 := (hh n x hn).mp h
          have hx : x ≠ i := by rintro rfl; exact hno n hn h2
          show (if x = i then some m else W.parent x) = some n
          rw [if_neg hx]
          exact I.par n x hn h2
      · exact I1.push (m := m) (e := i) (L := L) hL he (by simp) (fun m' hm' hh => absurd hh (hno m' hm'))

/-! ### Export -/

/-- What a call `AddDE` changes for the lists. -/
theorem callAddDE_eff {W p e W' b} (H : callEntity W (.addDE p (some e)) = some (W', b)) :
    Same W.heap W'.heap ∧ W'.parent p = W.parent p
      ∧ (∀ n x, Holds W' n x → Holds W n x ∨ (W.parent p = some n ∧ x = e))
      ∧ (∀ n x, Holds W n x → Holds W' n x)
      ∧ (∀ n, W.parent p ≠ some n → W'.list n = W.list n) := by
  unfold callEntity at H
  split at H
  · cases H
  · rename_i h1 b1 hst
    split at H
    · cases H
    · rename_i W1 hW1
      cases H
      have S := step_same (by simp) (by simp) hst
      have hsub := adopts_args W.heap (.addDE p (some e)) b
      generalize adopts W.heap (.addDE p (some e)) b = l at hW1 hsub
      have key : ∀ (l : List Nat) (V V' : World), (∀ x ∈ l, x = e) → adoptAll V p l = some V' →
          V'.heap = V.heap ∧ V'.parent p = V.parent p
          ∧ (∀ n x, Holds V' n x → Holds V n x ∨ (V.parent p = some n ∧ x = e))
          ∧ (∀ n x, Holds V n x → Holds V' n x)
          ∧ (∀ n, V.parent p ≠ some n → V'.list n = V.list n) := by
        intro l
        induction l with
        | nil =>
          intro V V' _ H
          cases H
          exact ⟨rfl, rfl, fun _ _ h => Or.inl h, fun _ _ h => h, fun _ _ => rfl⟩
        | cons c l ih =>
          intro V V' hl H
          unfold adoptAll at H
          split at H
          · cases H
          · rename_i V1 hV1
            have hc : c = e := hl c (by simp)
            subst hc
            obtain ⟨a1, a2, a3, a4, a5, _⟩ := adopt_eff hV1
            obtain ⟨b1, b2, b3, b4, b5⟩ := ih V1 V' (fun x hx => hl x (by simp [hx])) H
            refine ⟨b1.trans a1, b2.trans a2, ?_, fun n x h => b4 n x (a4 n x h), ?_⟩
            · intro n x h
              rcases b3 n x h with h2 | ⟨h2, h3⟩
              · exact a3 n x h2
              · exact Or.inr ⟨a2 ▸ h2, h3⟩
            · intro n hn
              rw [b5 n (a2 ▸ hn), a5 n hn]
      obtain ⟨b1, b2, b3, b4, b5⟩ := key l _ _ (fun x hx => by simpa [args] using hsub x hx) hW1
      refine ⟨?_, b2, b3, b4, b5⟩
      rw [b1]; exact S

theorem fill_inv {P : Nat → Prop} {p n : Nat} : ∀ (l : List Nat) {W W' : World}, InvOn P W →
    W.parent p = some n → (∀ x ∈ l, ∀ m', P m' → Holds W m' x → m' = n) →
    fill W p l = some W' → InvOn P W' ∧ W'.parent p = some n ∧ Same W.heap W'.heap
      ∧ (∀ m x, Holds W' m x → Holds W m x ∨ (m = n ∧ x ∈ l))
      ∧ (∀ m x, Holds W m x → Holds W' m x) ∧ (∀ m, m ≠ n → W'.list m = W.list m)
  | [], W, W', I, hp, _, H => by
    cases H
    exact ⟨I, hp, Same.refl _, fun _ _ h => Or.inl h, fun _ _ h => h, fun _ _ => rfl⟩
  | e :: l, W, W', I, hp, hs, H => by
    unfold fill at H
    split at H
    · rename_i W1 h1
      obtain ⟨a1, a2, a3, a4, a5⟩ := callAddDE_eff h1
      have I1 : InvOn P W1 := by
        refine callEntity_inv I (by simp) (by simp) ?_ h1
        intro x hx q hq m' hm' hh
        have hxe : x = e := by simpa [args] using hx
        have hqn : q = n := by
          have h2 : W.parent p = some q := hq
          rw [hp] at h2; cases h2; rfl
        subst hxe hqn
        exact hs x (by simp) m' hm' hh
      obtain ⟨b1, b2, b3, b4, b5, b6⟩ := fill_inv l I1 (a2.trans hp) (by
        intro x hx m' hm' hh
        rcases a3 m' x hh with h2 | ⟨h2, _⟩
        · exact hs x (by simp [hx]) m' hm' h2
        · rw [hp] at h2; cases h2; rfl) H
      refine ⟨b1, b2, a1.trans b3, ?_, fun m x h => b5 m x (a4 m x h), ?_⟩
      · intro m x h
        rcases b4 m x h with h2 | ⟨h2, h3⟩
        · rcases a3 m x h2 with h4 | ⟨h4, h5⟩
          · exact Or.inl h4
          · rw [hp] at h4; cases h4
            exact Or.inr ⟨rfl, by simp [h5]⟩
        · exact Or.inr ⟨h2, by simp [h3]⟩
      · intro m hm
        rw [b6 m hm, a5 m (by rw [hp]; intro h; cases h; exact hm rfl)]
    · cases H

theorem addAll_inv {P : Nat → Prop} {n : Nat} : ∀ (l : List Nat) {W W' : World}, InvOn P W →
    (∀ x ∈ l, ∀ m', P m' → Holds W m' x → m' = n) →
    addAll W n l = some W' → InvOn P W' ∧ W'.heap = W.heap
      ∧ (∀ m x, Holds W' m x ↔ Holds W m x ∨ (m = n ∧ x ∈ l))
      ∧ (∀ m, m ≠ n → W'.list m = W.list m)
  | [], W, W', I, _, H => by
    cases H
    exact ⟨I, rfl, fun _ _ => by simp, fun _ _ => rfl⟩
  | e :: l, W, W', I, hs, H => by
    unfold addAll at H
    split at H
    · rename_i W1 h1
      obtain ⟨_, a2, a3, a4, a5⟩ := addEntity_eff h1
      have I1 : InvOn P W1 := addEntity_inv I (by
        intro x hx; cases hx; exact hs _ (by simp)) h1
      obtain ⟨b1, b2, b3, b4⟩ := addAll_inv l I1 (by
        intro x hx m' hm' hh
        rcases (a3 m' x).mp hh with h2 | ⟨h2, _⟩
        · exact hs x (by simp [hx]) m' hm' h2
        · exact h2) H
      refine ⟨b1, b2.trans a2, ?_, fun m hm => by rw [b4 m hm, a5 m hm]⟩
      intro m x
      rw [b3, a3]
      simp only [List.mem_cons]
      tauto
    · cases H

/-- Everything is right again when the last model's list is right. -/
theorem InvOn.all {m W} (I : InvOn (· ≠ m) W) : InvOn (fun _ => True) (W.setList m (some [])) := by
  have hh : ∀ n e, Holds (W.setList m (some [])) n e → n ≠ m ∧ Holds W n e := by
    intro n e h
    rw [holds_setList] at h
    split at h
    · cases h
    · rename_i hn; exact ⟨hn, h⟩
  refine ⟨?_, ?_, ?_, ?_⟩
  · intro n K _ hK
    simp only [setList_list] at hK
    split at hK
    · cases hK; exact List.nodup_nil
    · rename_i hn; exact I.nd n K hn hK
  · intro n e _ h
    exact I.live n e (hh n e h).1 (hh n e h).2
  · intro n n' e _ _ h h'
    exact I.one n n' e (hh n e h).1 (hh n' e h').1 (hh n e h).2 (hh n' e h').2
  · intro n e _ h
    exact I.par n e (hh n e h).1 (hh n e h).2

theorem InvOn.mono {P Q : Nat → Prop} {W} (I : InvOn P W) (h : ∀ m, Q m → P m) : InvOn Q W :=
  ⟨fun m L hm => I.nd m L (h m hm), fun m e hm => I.live m e (h m hm),
    fun m m' e hm hm' => I.one m m' e (h m hm) (h m' hm'), fun m e hm => I.par m e (h m hm)⟩

/-- The bookkeeping is right. -/
abbrev Inv (W : World) : Prop := InvOn (fun _ => True) W

/-- The picked entities are entities of the list. -/
theorem pick_sub (h : Heap) (k : Nat) : ∀ (l r : List Nat), pick h k l = some r → r.Sublist l
  | [], r, H => by cases H; exact List.Sublist.refl _
  | e :: l, r, H => by
    unfold pick at H
    split at H
    · cases H
    · split at H
      · rename_i r' _ hr
        cases H
        exact (pick_sub h k l r' hr).cons_cons e
      · rename_i r' _ hr
        cases H
        exact (pick_sub h k l _ hr).cons e
      · cases H

theorem selected_sub {h : Heap} {l r : List Nat} (H : selected h l = some r) : r.Sublist l := by
  unfold selected at H
  split at H
  · rename_i tp ss br h1 h2 h3
    cases H
    split
    · exact pick_sub h 1 l ss h2
    · split
      · exact pick_sub h 0 l tp h1
      · exact pick_sub h 2 l br h3
  · cases H

theorem export_inv {W m n k p W' b r} (I : Inv W) (hp : W.heap p = none)
    (H : Export W m n k p = some (W', b, r)) : Inv W' := by
  unfold Export at H
  split at H
  · cases H
  · split at H
    · cases H
    · cases H; exact I
    · rename_i L n hL
      split at H
      · cases H; exact I
      · split at H
        · cases H
        · rename_i Ln hLn
          split at H
          · cases H
          · rename_i sel hsel
            split at H
            · cases H; exact I
            · split at H
              · cases H
              · rename_i W1 b1 hW1
                split at H
                · cases H
                · rename_i W2 hW2
                  split at H
                  · cases H
                  · rename_i W3 hW3
                    cases H
                    have I0 : InvOn (· ≠ m) W := I.mono (fun _ _ => trivial)
                    have I1 := newEntity_inv I0 hp hW1
                    -- entities of the source are in no other model
                    have hsole : ∀ x ∈ L, ∀ m', m' ≠ m → ¬ Holds W m' x := by
                      intro x hx m' hm' hh
                      exact hm' (I.one m' m x trivial trivial hh ((holds_of hL x).mpr hx))
                    have hW1' : W1.parent p = some n ∧ ∀ m' x, Holds W1 m' x → Holds W m' x ∨ (m' = n ∧ x = p) := by
                      unfold NewEntity at hW1
                      rw [hLn] at hW1
                      cases hW1
                      refine ⟨by show (if p = p then some n else W.parent p) = some n; simp, ?_⟩
                      intro m' x h
                      rw [holds_setList] at h
                      split at h
                      · rename_i hm'; subst hm'
                        rcases List.mem_append.mp h with h2 | h2
                        · exact Or.inl ((holds_of hLn x).mpr h2)
                        · exact Or.inr ⟨rfl, List.mem_singleton.mp h2⟩
                      · exact Or.inl h
                    have hs1 : ∀ x ∈ L, ∀ m', m' ≠ m → Holds W1 m' x → m' = n := by
                      intro x hx m' hm' hh
                      rcases hW1'.2 m' x hh with h2 | ⟨h2, _⟩
                      · exact absurd h2 (hsole x hx m' hm')
                      · exact h2
                    have hsub := (selected_sub hsel).subset
                    obtain ⟨I2, c2, c3, c4, c5, c6⟩ := fill_inv sel I1 hW1'.1
                      (fun x hx => hs1 x (hsub hx)) hW2
                    obtain ⟨I3, d2, d3, d4⟩ := addAll_inv L I2 (by
                      intro x hx m' hm' hh
                      rcases c4 m' x hh with h2 | ⟨h2, _⟩
                      · exact hs1 x hx m' hm' h2
                      · exact h2) hW3
                    exact I3.all

/-! ### All operations -/

theorem step_inv {W op W' b} (I : Inv W) (hl : Legal W op) (hs : Sole W op)
    (H : Lists.step W op = some (W', b)) : Inv W' := by
  cases op with
  | newModel m =>
    simp only [Lists.step] at H
    cases H; exact I.opened m
  | delModel m =>
    simp only [Lists.step] at H
    unfold DelModel Clear at H
    split at H
    · cases H
    · rename_i W1 b1 h1
      cases H
      split at h1
      · cases h1
      · rename_i L hL
        split at h1
        · cases h1
        · rename_i h2 hh
          cases h1
          have hd := destroyAll_live L hh
          refine ⟨?_, ?_, ?_, ?_⟩
          · intro n K _ hK
            simp only [setList_list] at hK
            split at hK
            · cases hK
            · exact I.nd n K trivial hK
          all_goals
            have hh' : ∀ n e, Holds ((({ W with heap := h2 }).setList m (some [])).setList m none) n e →
                n ≠ m ∧ Holds W n e := by
              rintro n e ⟨K, h1, h2⟩
              simp only [setList_list] at h1
              split at h1
              · cases h1
              · rename_i hn; exact ⟨hn, K, h1, h2⟩
          · intro n e _ h
            obtain ⟨hn, h3⟩ := hh' n e h
            show (h2 e).isSome = true
            rw [hd e]
            · exact I.live n e trivial h3
            · intro he
              exact hn (I.one n m e trivial trivial h3 ((holds_of hL e).mpr he))
          · intro n n' e _ _ h h'
            exact I.one n n' e trivial trivial (hh' n e h).2 (hh' n' e h').2
          · intro n e _ h
            exact I.par n e trivial (hh' n e h).2
  | new m i t => exact newEntity_inv I hl.2 H
  | add m e =>
    refine addEntity_inv I ?_ H
    intro x hx m' _ hh
    subst hx
    exact hs m' hh
  | del m e =>
    simp only [Lists.step] at H
    unfold DelEntity at H
    split at H
    · cases H
    · cases H; exact I
    · rename_i L x hL
      split at H
      · rename_i hx
        split at H
        · cases H
        · rename_i h1 hh
          cases H
          obtain ⟨d1, d2, d3⟩ := destroy_live hh
          have I1 := I.shrink hL (List.erase_sublist (a := x))
          refine I1.heap ?_
          intro n e _ h
          have hne : e ≠ x := by
            rintro rfl
            rw [holds_setList] at h
            split at h
            · exact ((I.nd m L trivial hL).mem_erase_iff.mp h).1 rfl
            · rename_i hn
              exact hn (I.one n m e trivial trivial h ((holds_of hL e).mpr hx))
          rw [d3 e hne]
          exact I1.live n e trivial h
      · cases H; exact I
  | unlink m e =>
    simp only [Lists.step] at H
    unfold UnlinkEntity at H
    split at H
    · cases H
    · cases H; exact I
    · rename_i L x hL
      split at H
      · cases H
        exact I.shrink hL (List.erase_sublist (a := x))
      · cases H; exact I
  | clear m =>
    simp only [Lists.step] at H
    unfold Clear at H
    split at H
    · cases H
    · rename_i L hL
      split at H
      · cases H
      · rename_i h1 hh
        cases H
        have hd := destroyAll_live L hh
        have I1 := I.shrink hL (List.nil_sublist L)
        refine I1.heap ?_
        intro n e _ h
        rw [hd e]
        · exact I1.live n e trivial h
        · intro he
          rw [holds_setList] at h
          split at h
          · cases h
          · rename_i hn
            exact hn (I.one n m e trivial trivial h ((holds_of hL e).mpr he))
  | cull m v =>
    simp only [Lists.step] at H
    unfold CullModel at H
    split at H
    · cases H
    · rename_i L hL
      split at H
      · cases H
      · rename_i h1 l' hh
        cases H
        obtain ⟨c1, c2, c3, c4⟩ := cull_live v L (I.nd m L trivial hL) hh
        have I1 := I.shrink hL c1
        refine I1.heap ?_
        intro n e _ h
        have h' := h
        rw [holds_setList] at h
        split at h
        · exact c3 e h
        · rename_i hn
          rw [c2 e]
          · exact I.live n e trivial h
          · intro he
            exact hn (I.one n m e trivial trivial h ((holds_of hL e).mpr he))
  | call c =>
    by_cases hn : ∃ i t, c = .new i t
    · obtain ⟨i, t, rfl⟩ := hn
      simp only [Lists.step] at H
      cases H
      have hi : W.heap i = none := hl
      have hne : ∀ m e, Holds W m e → e ≠ i := by
        intro m e h
        rintro rfl
        have := I.live m e trivial h
        rw [hi] at this; cases this
      refine ⟨I.nd, ?_, I.one, ?_⟩
      · intro m e _ h
        show (W.heap.put i (newObj t) e).isSome = true
        rw [G.put_ne _ _ (hne m e h)]
        exact I.live m e trivial h
      · intro m e _ h
        show (if e = i then none else W.parent e) = some m
        rw [if_neg (hne m e h)]
        exact I.par m e trivial h
    · have hst : Lists.step W (.call c) = callEntity W c := by
        cases c with
        | new i t => exact absurd ⟨i, t, rfl⟩ hn
        | _ => rfl
      rw [hst] at H
      by_cases hd : ∃ e, c = .del e
      · obtain ⟨e, rfl⟩ := hd
        unfold callEntity at H
        simp only [Graph.step, adopts, receiver] at H
        cases hh : destroy W.heap e with
        | none => rw [hh] at H; cases H
        | some h1 =>
          rw [hh] at H
          simp only [Option.map_some, adoptAll] at H
          cases H
          refine I.heap ?_
          intro m x _ h
          rw [(destroy_live hh).2.2 x]
          · exact I.live m x trivial h
          · rintro rfl
            exact hs m h
      · push Not at hn hd
        refine callEntity_inv I hn hd ?_ H
        intro x hx p hp m' _ hh
        have hs' : ∀ x ∈ args c, ∀ m p, Holds W m x → W.parent (receiver c) = some p → m = p := by
          cases c with
          | del e => exact absurd rfl (hd e)
          | _ => exact hs
        exact hs' x hx m' p hh hp
  | «export» m n k p =>
    simp only [Lists.step] at H
    rw [Option.map_eq_some_iff] at H
    obtain ⟨⟨W1, b1, r⟩, h1, h2⟩ := H
    cases h2
    exact export_inv I hl.2.2 h1

end Iges.Props.Lists
