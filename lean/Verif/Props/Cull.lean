import Verif.Props.Unused
import Verif.Props.Lists
import Verif.Spec.Cull

/-!
Culling (C24).
-/

namespace Iges.Props.Cull

open Iges.Graph Iges.Spec Iges.Spec.Cull Iges.Props.G

/-- No entity in use counts as orphaned. -/
def Used (h : Heap) : Prop := ∀ e o, h e = some o → isOrphaned o = true → o.refs = []

theorem isOrphaned_iff (o : Obj) : isOrphaned o = true ↔ Orphan o := by
  unfold isOrphaned Orphan Unsupported Unused Incomplete
  simp only [List.mem_cons, List.not_mem_nil, or_false]
  by_cases c0 : o.etype = 0
  · simp [c0]
  rw [if_neg c0]
  by_cases c1 : o.etype = 102 ∨ o.etype = 308 ∨ o.etype = 514
  · rw [if_pos c1]; rcases c1 with c | c | c <;> simp [c]
  rw [if_neg c1]
  by_cases c2 : o.etype = 120
  · rw [if_pos c2]; simp [c2, or_assoc]
  rw [if_neg c2]
  by_cases c3 : o.etype = 122 ∨ o.etype = 144 ∨ o.etype = 164 ∨ o.etype = 408
  · rw [if_pos c3]; rcases c3 with c | c | c | c <;> simp [c]
  rw [if_neg c3]
  by_cases c4 : o.etype = 124 ∨ o.etype = 314
  · rw [if_pos c4]; rcases c4 with c | c <;> simp [c]
  rw [if_neg c4]
  by_cases c5 : o.etype = 142
  · rw [if_pos c5]; simp [c5, or_assoc]
  rw [if_neg c5]
  by_cases c6 : o.etype = 186
  · rw [if_pos c6]; simp [c6]
  rw [if_neg c6]
  by_cases c7 : o.etype = 406
  · rw [if_pos c7]; simp [c7, or_comm]
  rw [if_neg c7]
  by_cases c8 : o.etype = 502
  · rw [if_pos c8]; simp [c8]
  rw [if_neg c8]
  by_cases c9 : o.etype = 504
  · rw [if_pos c9]; simp [c9]
  rw [if_neg c9]
  by_cases c10 : o.etype = 508
  · rw [if_pos c10]; simp [c10]
  rw [if_neg c10]
  by_cases c11 : o.etype = 510
  · rw [if_pos c11]; simp [c11, or_assoc]
  rw [if_neg c11]
  push Not at c1 c3 c4
  simp [c0, c1, c2, c3, c4, c5, c6, c7, c8, c9, c10, c11]

theorem Used.of {h : Heap} (U : UsedComplete h) : Used h := by
  intro e o he ho
  by_contra hr
  obtain ⟨a, b⟩ := U e o he hr
  rcases (isOrphaned_iff o).mp ho with h1 | h1 | h1
  · exact a h1
  · exact hr h1.1
  · exact b h1

theorem ite_imp {c : Prop} [Decidable c] {a b a' b' : Bool} (h1 : a = true → a' = true)
    (h2 : b = true → b' = true) : (if c then a else b) = true → (if c then a' else b') = true := by
  split
  · exact h1
  · exact h2

/-- Losing users makes an entity an orphan only if none is left. -/
theorem orphan_mono (o : Obj) (r : List Nat) (hr : r ≠ []) :
    isOrphaned { o with refs := r } = true → isOrphaned o = true := by
  have hr' : r.isEmpty = false := by
    cases r with
    | nil => exact absurd rfl hr
    | cons a l => rfl
  have hs : ∀ s, Obj.slot { o with refs := r } s = o.slot s := by intro s; cases s <;> rfl
  unfold isOrphaned
  simp only [hr', Bool.false_and, Bool.false_or, hs]
  repeat' refine ite_imp ?_ ?_
  all_goals
    try simp only [Bool.or_eq_true, Bool.false_eq_true]
    tauto

/-- The heap after the entities of `D` are gone, each without users when its turn came. -/
def without (h : Heap) (D : List Nat) : Heap := fun x =>
  if x ∈ D then none else (h x).map (fun o => { o with refs := o.refs.filter (fun u => u ∉ D) })

theorem without_nil (h : Heap) : without h [] = h := by
  funext x
  unfold without
  cases h x <;> simp

/-- What one deletion does, in these terms. -/
theorem without_cons {ty h} (G : Good ty h) {e : Nat} {h1 : Heap} (h1e : h1 e = none)
    (hx : ∀ x, x ≠ e → h1 x = (h x).map (fun ox => { ox with refs := ox.refs.erase e }))
    (D : List Nat) : without h1 D = without h (e :: D) := by
  funext x
  unfold without
  by_cases hxe : x = e
  · subst hxe
    simp [h1e]
  · rw [hx x hxe]
    by_cases hxD : x ∈ D
    · simp [hxD]
    · simp only [hxD, if_false, List.mem_cons, hxe, false_or]
      cases hh : h x with
      | none => rfl
      | some o =>
        simp only [Option.map_some, Option.some.injEq]
        congr 1
        rw [(G.loc x o hh).refsNd.erase_eq_filter, List.filter_filter]
        refine List.filter_congr ?_
        intro u _
        by_cases hu : u = e <;> simp [hu]

theorem Used.without {h : Heap} (U : Used h) (D : List Nat) :
    Used (without h D) := by
  intro e o he ho
  unfold Props.Cull.without at he
  split at he
  · cases he
  · rw [Option.map_eq_some_iff] at he
    obtain ⟨o', h1, rfl⟩ := he
    by_contra hne
    have := U e o' h1 (orphan_mono o' _ hne ho)
    simp [this] at hne

theorem culled_unused {h : Heap} (U : Used h) {v : Bool} {e : Nat} {o : Obj}
    (he : h e = some o) (hc : culled v o = true) : o.refs = [] := by
  unfold culled at hc
  rw [Bool.or_eq_true] at hc
  rcases hc with hc | hc
  · exact U e o he hc
  · simp only [Bool.and_eq_true, List.isEmpty_iff] at hc
    exact hc.1.2

/-- One pass. -/
theorem cull_pass (v : Bool) {ty : Nat → Nat} : ∀ (l : List Nat) {h : Heap}, Good ty h →
    Used h → l.Nodup → (∀ e ∈ l, (h e).isSome = true) →
    ∃ l' D, Graph.Cull v h l = some (without h D, l') ∧ Good ty (without h D) ∧ l'.Sublist l
      ∧ (∀ e, e ∈ D ↔ e ∈ l ∧ e ∉ l')
      ∧ (∀ e ∈ D, ∃ o, h e = some o ∧ o.refs.filter (fun u => u ∉ D) = []
          ∧ culled v { o with refs := [] } = true)
      ∧ (UsersFirst h l → ∀ e ∈ l', ∀ o, without h D e = some o → culled v o = false)
      ∧ (l' = l → ∀ e ∈ l, ∀ o, h e = some o → culled v o = false)
  | [], h, G, U, _, _ => by
    refine ⟨[], [], ?_, ?_, ?_, ?_, ?_, ?_, ?_⟩
    · rw [without_nil]; rfl
    · rw [without_nil]; exact G
    all_goals simp
  | e :: l, h, G, U, hn, hal => by
    obtain ⟨hel, hnl⟩ := List.nodup_cons.mp hn
    obtain ⟨o, he⟩ := Option.isSome_iff_exists.mp (hal e (by simp))
    by_cases hc : culled v o = true
    · have hr := culled_unused U he hc
      obtain ⟨h1, d1, d2, d3, d4⟩ := destroy_unused G he hr
      have hw : ∀ D, without h1 D = without h (e :: D) := without_cons G d3 d4
      have h1w : h1 = without h [e] := by rw [← hw, without_nil]
      have U1 : Used h1 := h1w ▸ U.without [e]
      obtain ⟨l', D, i1, i2, i3, i4, i5, i6, i7⟩ := cull_pass v l d2 U1 hnl (by
        intro x hx
        have hxe : x ≠ e := by rintro rfl; exact hel hx
        rw [d4 x hxe, Option.isSome_map]
        exact hal x (by simp [hx]))
      refine ⟨l', e :: D, ?_, hw D ▸ i2, i3.cons e, ?_, ?_, ?_, ?_⟩
      · unfold Graph.Cull
        rw [he]
        simp only
        rw [if_pos hc, d1]
        simp only
        rw [i1, hw]
      · intro x
        simp only [List.mem_cons, i4]
        constructor
        · rintro (rfl | ⟨a, b⟩)
          · exact ⟨Or.inl rfl, fun hx => hel (i3.subset hx)⟩
          · exact ⟨Or.inr a, b⟩
        · rintro ⟨rfl | a, b⟩
          · exact Or.inl rfl
          · exact Or.inr ⟨a, b⟩
      · intro x hx
        rcases List.mem_cons.mp hx with rfl | hx
        · refine ⟨o, he, by simp [hr], ?_⟩
          rw [← hr]; exact hc
        · obtain ⟨o1, a1, a2, a3⟩ := i5 x hx
          have hxe : x ≠ e := by
            rintro rfl
            rw [d3] at a1; cases a1
          rw [d4 x hxe, Option.map_eq_some_iff] at a1
          obtain ⟨o2, b1, rfl⟩ := a1
          refine ⟨o2, b1, ?_, a3⟩
          rw [← a2, (G.loc x o2 b1).refsNd.erase_eq_filter, List.filter_filter]
          refine List.filter_congr ?_
          intro u _
          by_cases hu : u = e <;> simp [hu]
      · intro hu x hx ox hox
        refine i6 ?_ x hx ox (by rw [hw]; exact hox)
        have hu2 := (List.pairwise_cons.mp hu).2
        unfold UsersFirst
        refine hu2.imp_of_mem ?_
        intro a b ha _ hab
        have hae : a ≠ e := by rintro rfl; exact hel ha
        unfold listed at hab ⊢
        rw [d4 a hae]
        cases hh : h a with
        | none => rfl
        | some oa =>
          rw [hh] at hab
          simp only [Option.map_some] at hab ⊢
          rw [List.count_eq_zero] at hab ⊢
          exact fun hm => hab (List.mem_of_mem_erase hm)
      · intro heq
        have := i3.length_le
        rw [heq] at this
        simp only [List.length_cons] at this
        omega
    · have hc' : culled v o = false := by simpa using hc
      obtain ⟨l', D, i1, i2, i3, i4, i5, i6, i7⟩ := cull_pass v l G U hnl
        (fun x hx => hal x (by simp [hx]))
      refine ⟨e :: l', D, ?_, i2, i3.cons_cons e, ?_, i5, ?_, ?_⟩
      · unfold Graph.Cull
        rw [he]
        simp only
        rw [if_neg hc, i1]
        rfl
      · intro x
        rw [i4]
        simp only [List.mem_cons, not_or]
        constructor
        · rintro ⟨a, b⟩
          exact ⟨Or.inr a, by rintro rfl; exact hel a, b⟩
        · rintro ⟨rfl | a, b, c⟩
          · exact absurd rfl b
          · exact ⟨a, c⟩
      · intro hu x hx ox hox
        obtain ⟨hu1, hu2⟩ := List.pairwise_cons.mp hu
        rcases List.mem_cons.mp hx with rfl | hx
        · -- none of the users of the kept entity is deleted later
          unfold without at hox
          split at hox
          · cases hox
          · rw [he] at hox
            cases hox
            have : o.refs.filter (fun u => u ∉ D) = o.refs := by
              rw [List.filter_eq_self]
              intro u hu'
              simp only [decide_eq_true_eq]
              intro huD
              have h0 := hu1 u ((i4 u).mp huD).1
              unfold listed at h0
              rw [he] at h0
              exact (List.count_eq_zero.mp h0) hu'
            simp only [this]
            exact hc'
        · exact i6 hu2 x hx ox hox
      · intro heq x hx ox hox
        rcases List.mem_cons.mp hx with rfl | hx
        · rw [he] at hox; cases hox; exact hc'
        · exact i7 (List.cons.inj heq).2 x hx ox hox

theorem without_append (h : Heap) (D E : List Nat) :
    without (without h D) E = without h (D ++ E) := by
  funext x
  unfold without
  by_cases hE : x ∈ E
  · simp [hE]
  · by_cases hD : x ∈ D
    · simp [hE, hD]
    · simp only [hE, hD, if_false, List.mem_append, or_self]
      cases h x with
      | none => rfl
      | some o =>
        simp only [Option.map_some, Option.some.injEq]
        congr 1
        rw [List.filter_filter]
        refine List.filter_congr ?_
        intro u _
        by_cases h1 : u ∈ D <;> by_cases h2 : u ∈ E <;> simp [h1, h2]

/-- A pass over entities none of which is culled changes nothing. -/
theorem cull_clean (v : Bool) : ∀ (l : List Nat) (h : Heap),
    (∀ e ∈ l, ∃ o, h e = some o ∧ culled v o = false) → Graph.Cull v h l = some (h, l)
  | [], h, _ => rfl
  | e :: l, h, hc => by
    obtain ⟨o, h1, h2⟩ := hc e (by simp)
    unfold Graph.Cull
    rw [h1]
    simp only
    rw [if_neg (by simp [h2]), cull_clean v l h (fun x hx => hc x (by simp [hx]))]
    rfl

theorem cullTimes_clean (v : Bool) : ∀ (n : Nat) (l : List Nat) (h : Heap),
    (∀ e ∈ l, ∃ o, h e = some o ∧ culled v o = false) → cullTimes v n h l = some (h, l)
  | 0, l, h, _ => rfl
  | n + 1, l, h, hc => by
    unfold cullTimes
    rw [cull_clean v l h hc]
    exact cullTimes_clean v n l h hc

theorem without_live {h : Heap} {D : List Nat} {e : Nat} (he : e ∉ D)
    (hl : (h e).isSome = true) : (without h D e).isSome = true := by
  unfold without
  rw [if_neg he, Option.isSome_map]
  exact hl

/-- As many passes as there are entities are enough. -/
theorem cull_repeat (v : Bool) {ty : Nat → Nat} : ∀ (n : Nat) (l : List Nat) {h : Heap}, Good ty h →
    Used h → l.Nodup → (∀ e ∈ l, (h e).isSome = true) → l.length ≤ n →
    ∃ l' D, cullTimes v n h l = some (without h D, l') ∧ Good ty (without h D) ∧ l'.Sublist l
      ∧ (∀ e, e ∈ D ↔ e ∈ l ∧ e ∉ l')
      ∧ (∀ e ∈ D, ∃ o, h e = some o ∧ o.refs.filter (fun u => u ∉ D) = []
          ∧ culled v { o with refs := [] } = true)
      ∧ (∀ e ∈ l', ∀ o, without h D e = some o → culled v o = false)
  | 0, l, h, G, U, _, _, hn => by
    have : l = [] := List.eq_nil_of_length_eq_zero (by omega)
    subst this
    refine ⟨[], [], by rw [without_nil]; rfl, by rw [without_nil]; exact G, ?_, ?_, ?_, ?_⟩ <;> simp
  | n + 1, l, h, G, U, hnd, hal, hn => by
    obtain ⟨l1, D1, i1, i2, i3, i4, i5, i6, i7⟩ := cull_pass v l G U hnd hal
    have hl1 : ∀ e ∈ l1, (without h D1 e).isSome = true := by
      intro e he
      exact without_live (fun h => ((i4 e).mp h).2 he) (hal e (i3.subset he))
    by_cases heq : l1 = l
    · have hc := i7 heq
      have hclean : ∀ e ∈ l, ∃ o, h e = some o ∧ culled v o = false := by
        intro e he
        obtain ⟨o, ho⟩ := Option.isSome_iff_exists.mp (hal e he)
        exact ⟨o, ho, hc e he o ho⟩
      refine ⟨l, [], ?_, by rw [without_nil]; exact G, List.Sublist.refl _, by simp, by simp, ?_⟩
      · rw [without_nil]
        exact cullTimes_clean v (n + 1) l h hclean
      · rw [without_nil]; exact hc
    · have hlt : l1.length < l.length := by
        rcases Nat.lt_or_ge l1.length l.length with h1 | h1
        · exact h1
        · exact absurd (i3.eq_of_length_le h1) heq
      obtain ⟨l2, D2, j1, j2, j3, j4, j5, j6⟩ := cull_repeat v n l1 i2 (U.without D1)
        (hnd.sublist i3) hl1 (by omega)
      rw [without_append] at j1 j2 j6
      refine ⟨l2, D1 ++ D2, ?_, j2, j3.trans i3, ?_, ?_, j6⟩
      · unfold cullTimes
        rw [i1]
        exact j1
      · intro e
        rw [List.mem_append, i4, j4]
        constructor
        · rintro (⟨a, b⟩ | ⟨a, b⟩)
          · exact ⟨a, fun h => b (j3.subset h)⟩
          · exact ⟨i3.subset a, b⟩
        · rintro ⟨a, b⟩
          by_cases h1 : e ∈ l1
          · exact Or.inr ⟨h1, b⟩
          · exact Or.inl ⟨a, h1⟩
      · intro e he
        rcases List.mem_append.mp he with he | he
        · obtain ⟨o, a1, a2, a3⟩ := i5 e he
          refine ⟨o, a1, ?_, a3⟩
          rw [List.filter_eq_nil_iff] at a2 ⊢
          intro u hu
          have := a2 u hu
          simp only [decide_eq_true_eq, not_not] at this ⊢
          simp [this]
        · obtain ⟨o, a1, a2, a3⟩ := j5 e he
          unfold without at a1
          split at a1
          · cases a1
          · rw [Option.map_eq_some_iff] at a1
            obtain ⟨o', b1, rfl⟩ := a1
            refine ⟨o', b1, ?_, a3⟩
            rw [← a2, List.filter_filter]
            refine List.filter_congr ?_
            intro u _
            by_cases h1 : u ∈ D1 <;> by_cases h2 : u ∈ D2 <;> simp [h1, h2]

/-- What is said about the result of culling: the list only shrinks and keeps its order; what
left the list is deleted, had no user left and is of no use (or, viciously, is top level); what
remains is unchanged apart from deleted users, and so is everything it points at. -/
structure Culled (v : Bool) (h : Heap) (l : List Nat) (h' : Heap) (l' : List Nat) : Prop where
  order : l'.Sublist l
  gone : ∀ e ∈ l, e ∉ l' → h' e = none
  useless : ∀ e ∈ l, e ∉ l' → ∃ o, h e = some o ∧ (∀ u ∈ o.refs, u ∈ l ∧ u ∉ l')
    ∧ (Orphan { o with refs := [] } ∨ (v = true ∧ o.etype ≠ 408))
  kept : ∀ p o, h p = some o → (p ∈ l → p ∈ l') →
    h' p = some { o with refs := o.refs.filter (fun u => decide (u ∉ l ∨ u ∈ l')) }
  needed : ∀ p c, h' p ≠ none → 0 < uses h p c → h' c ≠ none
  symmetric : Symmetric h'

theorem Culled.of {v : Bool} {ty h l l' D} (G : Good ty h) (Gd : Good ty (without h D))
    (hs : l'.Sublist l) (hD : ∀ e, e ∈ D ↔ e ∈ l ∧ e ∉ l')
    (hu : ∀ e ∈ D, ∃ o, h e = some o ∧ o.refs.filter (fun u => u ∉ D) = []
          ∧ culled v { o with refs := [] } = true) : Culled v h l (without h D) l' := by
  have hkept : ∀ p o, h p = some o → (p ∈ l → p ∈ l') →
      without h D p = some { o with refs := o.refs.filter (fun u => decide (u ∉ l ∨ u ∈ l')) } := by
    intro p o hp hk
    unfold without
    rw [if_neg (fun h => ((hD p).mp h).2 (hk ((hD p).mp h).1)), hp]
    simp only [Option.map_some, Option.some.injEq]
    congr 1
    refine List.filter_congr ?_
    intro u _
    rw [decide_eq_decide, hD]
    tauto
  refine ⟨hs, ?_, ?_, hkept, ?_, Gd.symmetric⟩
  · intro e he he'
    unfold without
    rw [if_pos ((hD e).mpr ⟨he, he'⟩)]
  · intro e he he'
    obtain ⟨o, a1, a2, a3⟩ := hu e ((hD e).mpr ⟨he, he'⟩)
    refine ⟨o, a1, ?_, ?_⟩
    · intro u hu'
      rw [List.filter_eq_nil_iff] at a2
      have := a2 u hu'
      simp only [decide_eq_true_eq, not_not] at this
      exact (hD u).mp this
    · unfold culled at a3
      rw [Bool.or_eq_true, isOrphaned_iff] at a3
      rcases a3 with a3 | a3
      · exact Or.inl a3
      · simp only [Bool.and_eq_true, bne_iff_ne, ne_eq] at a3
        exact Or.inr ⟨a3.1.1, a3.2⟩
  · intro p c hp hc
    cases hh : without h D p with
    | none => exact absurd hh hp
    | some op =>
      have hpc : Ch (without h D) p c := by
        unfold without at hh
        split at hh
        · cases hh
        · rename_i hpD
          rw [Option.map_eq_some_iff] at hh
          obtain ⟨o, b1, rfl⟩ := hh
          refine ⟨{ o with refs := o.refs.filter (fun u => u ∉ D) }, ?_, ?_⟩
          · unfold without
            rw [if_neg hpD, b1]; rfl
          · unfold uses at hc
            rw [b1] at hc
            exact List.count_pos_iff.mp hc
      obtain ⟨oc, h1, _⟩ := (Gd.sym p c).mp hpc
      rw [h1]; simp

/-- **C24** (partial).  Culling, in every reached state in which every entity in use is supported
and complete, is defined and does what `Culled` says: it keeps the order, deletes only entities of
no use, and keeps everything a kept entity points at.

Missing for the full property: after one pass orphans can remain (`C24_fails_orphan_left`), and an
incomplete entity is deleted although a kept one points at it (`C24_fails_needed_removed`). -/
theorem C24_cull_partial (h : Heap) (hr : Reached h) (hu : UsedComplete h) (v : Bool)
    (l : List Nat) (hn : l.Nodup) (hl : ∀ e ∈ l, h e ≠ none) :
    ∃ h' l', Graph.Cull v h l = some (h', l') ∧ Culled v h l h' l' := by
  obtain ⟨ty, G⟩ := hr.good
  obtain ⟨l', D, i1, i2, i3, i4, i5, _, _⟩ := cull_pass v l G (Used.of hu) hn
    (fun e he => Option.isSome_iff_ne_none.mpr (hl e he))
  exact ⟨_, l', i1, Culled.of G i2 i3 i4 i5⟩

/-- **C24** (partial).  If in addition users come before the entities they use, no orphan and no
unsupported entity remains after one pass. -/
theorem C24_cull_ordered_partial (h : Heap) (hr : Reached h) (hu : UsedComplete h) (v : Bool)
    (l : List Nat) (hn : l.Nodup) (hl : ∀ e ∈ l, h e ≠ none) (hf : UsersFirst h l) :
    ∃ h' l', Graph.Cull v h l = some (h', l') ∧ Culled v h l h' l'
      ∧ ∀ e ∈ l', ∀ o, h' e = some o → ¬ Orphan o := by
  obtain ⟨ty, G⟩ := hr.good
  obtain ⟨l', D, i1, i2, i3, i4, i5, i6, _⟩ := cull_pass v l G (Used.of hu) hn
    (fun e he => Option.isSome_iff_ne_none.mpr (hl e he))
  refine ⟨_, l', i1, Culled.of G i2 i3 i4 i5, ?_⟩
  intro e he o ho ho'
  have := i6 hf e he o ho
  unfold culled at this
  rw [(isOrphaned_iff o).mpr ho'] at this
  cases this

/-- **C24** (partial).  Culling as many times as there are entities leaves no orphan and no
unsupported entity, whatever the order; further calls change nothing. -/
theorem C24_cull_repeated_partial (h : Heap) (hr : Reached h) (hu : UsedComplete h) (v : Bool)
    (l : List Nat) (hn : l.Nodup) (hl : ∀ e ∈ l, h e ≠ none) :
    ∃ h' l', cullTimes v l.length h l = some (h', l') ∧ Culled v h l h' l'
      ∧ (∀ e ∈ l', ∀ o, h' e = some o → ¬ Orphan o)
      ∧ Graph.Cull v h' l' = some (h', l') := by
  obtain ⟨ty, G⟩ := hr.good
  have hl' : ∀ e ∈ l, (h e).isSome = true := fun e he => Option.isSome_iff_ne_none.mpr (hl e he)
  obtain ⟨l', D, i1, i2, i3, i4, i5, i6⟩ := cull_repeat v l.length l G (Used.of hu) hn hl' (Nat.le_refl _)
  refine ⟨_, l', i1, Culled.of G i2 i3 i4 i5, ?_, ?_⟩
  · intro e he o ho ho'
    have := i6 e he o ho
    unfold culled at this
    rw [(isOrphaned_iff o).mpr ho'] at this
    cases this
  · refine cull_clean v l' _ ?_
    intro e he
    obtain ⟨o, ho⟩ := Option.isSome_iff_exists.mp
      (without_live (D := D) (fun h => ((i4 e).mp h).2 he) (hl' e (i3.subset he)))
    exact ⟨o, ho, i6 e he o ho⟩

/-! ### Where it fails -/

/-- **C24 fails** (one pass is not enough).  A matrix used by another, unused matrix that comes
later: the second one is culled, which makes the first an orphan; it stays in the list
(`/repo/src/iges/iges.cpp:1753-1771`). -/
theorem C24_fails_orphan_left : ∃ h h' o, Reached h ∧ UsedComplete h ∧ (∀ e ∈ [1, 2], h e ≠ none)
    ∧ Graph.Cull false h [1, 2] = some (h', [1]) ∧ h' 1 = some o ∧ Orphan o := by
  refine ⟨_, _, _, ⟨[.new 1 124, .new 2 124, .setTransform 2 (some 1)], ?_, rfl⟩, ?_, ?_, rfl, rfl,
    (isOrphaned_iff _).mp rfl⟩
  · refine CarefulRun.cons rfl trivial rfl ?_
    refine CarefulRun.cons rfl trivial rfl ?_
    refine CarefulRun.cons ⟨⟨_, rfl, trivial⟩, ?_⟩ trivial rfl trivial
    rintro x h; cases h; exact ⟨_, rfl, trivial⟩
  · intro e o he hr
    by_cases h1 : e = 1
    · subst h1
      cases he
      exact ⟨by unfold Unsupported; decide, by unfold Incomplete; decide⟩
    by_cases h2 : e = 2
    · subst h2; cases he; exact absurd rfl hr
    · exfalso
      have : (none : Option Obj) = some o := by
        rw [← he]
        simp [Heap.put, h1, h2, emptyHeap]
      cases this
  · decide

/-- **C24 fails** (a needed entity is removed).  A tabulated cylinder whose directrix is a
composite curve that has no segments yet: culling deletes the curve and keeps the cylinder, which
has lost its directrix (`/repo/src/entities/entity102.cpp:442-451`). -/
theorem C24_fails_needed_removed : ∃ h h' o, Reached h ∧ (∀ e ∈ [1, 2], h e ≠ none)
    ∧ uses h 1 2 = 1 ∧ Graph.Cull false h [1, 2] = some (h', [1])
    ∧ h' 2 = none ∧ h' 1 = some o ∧ Incomplete o := by
  refine ⟨_, _, _, ⟨[.new 1 122, .new 2 102, .setDE122 1 (some 2)], ?_, rfl⟩, ?_, rfl, rfl, rfl, rfl, ?_⟩
  · refine CarefulRun.cons rfl trivial rfl ?_
    refine CarefulRun.cons rfl trivial rfl ?_
    refine CarefulRun.cons ⟨⟨_, rfl, rfl⟩, ?_, by simp⟩ trivial rfl trivial
    rintro x h; cases h; exact ⟨_, rfl, Or.inr (Or.inl rfl)⟩
  · decide
  · unfold Incomplete
    decide

/-! ### A state that meets the hypotheses -/

/-- A cylinder with its directrix, a line of its own, and an unused matrix. -/
def sample : List Call := [.new 1 122, .new 2 110, .setDE122 1 (some 2), .new 3 110, .new 4 124]

theorem sample_reached : ∃ h, run sample = some h ∧ Reached h ∧ UsedComplete h
    ∧ (∀ e ∈ [1, 2, 3, 4], h e ≠ none) ∧ UsersFirst h [1, 2, 3, 4]
    ∧ ∃ h', Graph.Cull false h [1, 2, 3, 4] = some (h', [1, 2, 3]) := by
  refine ⟨_, rfl, ⟨sample, ?_, rfl⟩, ?_, ?_, ?_, _, rfl⟩
  · refine CarefulRun.cons rfl trivial rfl ?_
    refine CarefulRun.cons rfl trivial rfl ?_
    refine CarefulRun.cons ⟨⟨_, rfl, rfl⟩, ?_, by simp⟩ trivial rfl ?_
    · rintro x h; cases h; exact ⟨_, rfl, by unfold isCurve; decide⟩
    refine CarefulRun.cons rfl trivial rfl ?_
    refine CarefulRun.cons rfl trivial rfl trivial
  · intro e o he hr
    by_cases h1 : e = 1
    · subst h1; cases he; exact absurd rfl hr
    by_cases h2 : e = 2
    · subst h2
      cases he
      exact ⟨by unfold Unsupported; decide, by unfold Incomplete; decide⟩
    by_cases h3 : e = 3
    · subst h3; cases he; exact absurd rfl hr
    by_cases h4 : e = 4
    · subst h4; cases he; exact absurd rfl hr
    · exfalso
      have : (none : Option Obj) = some o := by
        rw [← he]
        simp [Heap.put, h1, h2, h3, h4, emptyHeap, setDep]
        split <;> simp [h1, h2, emptyHeap]
      cases this
  · decide
  · unfold UsersFirst
    decide

/-- The hypotheses of the three C24 theorems hold of that state. -/
example : ∃ h h' l', Reached h ∧ UsedComplete h ∧ UsersFirst h [1, 2, 3, 4]
    ∧ Graph.Cull false h [1, 2, 3, 4] = some (h', l') ∧ Culled false h [1, 2, 3, 4] h' l' := by
  obtain ⟨h, _, h1, h2, h3, h4, _⟩ := sample_reached
  obtain ⟨h', l', h5, h6, _⟩ := C24_cull_ordered_partial h h1 h2 false [1, 2, 3, 4] (by decide) h3 h4
  exact ⟨h, h', l', h1, h2, h4, h5, h6⟩

end Iges.Props.Cull
