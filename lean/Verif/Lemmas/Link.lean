import Verif.Spec.Link
import Verif.Props.GraphInv
import Mathlib.Logic.Function.Basic
import Mathlib.Data.List.Nodup
import Mathlib.Tactic.Common
import Mathlib.Tactic.Push
/-
Lemmas about linking: every step changes the pointers of one entity and the user lists of the entities it
points at.
-/
namespace Iges.Props.L

open Iges.Graph Iges.Spec Iges.Link
open Iges.File (REnt Body)

/-- The entities without their lists of users. -/
def core (h : Heap) : Heap := fun x => (h x).map fun o => { o with refs := [] }

/-- The list of users of an entity. -/
def refsOf (h : Heap) (x : Nat) : List Nat := ((h x).map Obj.refs).getD []

theorem core_some {h : Heap} {x : Nat} {o : Obj} (hx : h x = some o) : core h x = some { o with refs := [] } := by
  simp [core, hx]

theorem refsOf_some {h : Heap} {x : Nat} {o : Obj} (hx : h x = some o) : refsOf h x = o.refs := by
  simp [refsOf, hx]

theorem of_core {h : Heap} {x : Nat} {o : Obj} (hx : core h x = some o) :
    h x = some { o with refs := refsOf h x } ∧ o.refs = [] := by
  unfold core at hx
  rw [Option.map_eq_some_iff] at hx
  obtain ⟨o', h1, rfl⟩ := hx
  rw [refsOf_some h1]
  exact ⟨h1, rfl⟩

theorem core_put (h : Heap) (x : Nat) (o : Obj) :
    core (h.put x o) = Function.update (core h) x (some { o with refs := [] }) := by
  funext y
  by_cases hy : y = x
  · subst hy; simp [core, Heap.put]
  · simp [core, Heap.put, hy]

theorem refsOf_put (h : Heap) (x : Nat) (o : Obj) :
    refsOf (h.put x o) = Function.update (refsOf h) x o.refs := by
  funext y
  by_cases hy : y = x
  · subst hy; simp [refsOf, Heap.put]
  · simp [refsOf, Heap.put, hy]

/-- A change of an entity that does not look at its users. -/
def Local (f : Obj → Obj) : Prop := ∀ o r, f { o with refs := r } = { f o with refs := r }

theorem setSlot_local (s : Slot) (v : Option Nat) : Local (·.setSlot s v) := by
  intro o r; cases s <;> rfl

theorem setSlot_refs (o : Obj) (s : Slot) (v : Option Nat) : (o.setSlot s v).refs = o.refs := by
  cases s <;> rfl

theorem edit_core {h h' : Heap} {e : Nat} {f : Obj → Obj} {o : Obj} (hf : Local f) (he : edit h e f = some h')
    (ho : core h e = some o) :
    core h' = Function.update (core h) e (some (f o)) ∧ refsOf h' = refsOf h := by
  obtain ⟨h1, h2⟩ := of_core ho
  unfold edit at he
  rw [h1] at he
  simp only [Option.map_some, Option.some.injEq] at he
  subst he
  have h3 : f o = { f o with refs := [] } := by
    have := hf o []
    rw [← h2] at this
    rw [h2] at this
    have h4 : ({ o with refs := [] } : Obj) = o := by rw [← h2]
    rw [h4] at this
    exact this
  rw [hf, core_put, refsOf_put]
  refine ⟨?_, ?_⟩
  · congr 1
    rw [h3]
  · exact Function.update_eq_self e (refsOf h)

theorem edit_some {h : Heap} {e : Nat} {o : Obj} (f : Obj → Obj) (ho : core h e = some o) :
    ∃ h', edit h e f = some h' := by
  obtain ⟨h1, _⟩ := of_core ho
  exact ⟨_, by unfold edit; rw [h1]; rfl⟩

/-- What `addReference` does, seen from outside. -/
theorem addRef_cases {h h' : Heap} {c p : Nat} {b d : Bool} (ha : addRef h c p = some (h', b, d)) :
    ∃ oc, core h c = some oc ∧
      ((b = true ∧ d = false ∧ core h' = core h
          ∧ refsOf h' = Function.update (refsOf h) c (refsOf h c ++ [p])
          ∧ p ∉ refsOf h c ∧ p ∉ oc.extras ∧ oc.etype ≠ 0)
        ∨ (b = true ∧ d = true ∧ h' = h ∧ (p ∈ refsOf h c ∨ p ∈ oc.extras) ∧ oc.etype ≠ 0)
        ∨ (b = false ∧ d = false ∧ h' = h)) := by
  unfold addRef at ha
  cases hc : h c with
  | none => simp [hc] at ha
  | some o =>
    cases hp : h p with
    | none => simp [hc, hp] at ha
    | some po =>
      simp only [hc, hp] at ha
      refine ⟨_, core_some hc, ?_⟩
      have hr := refsOf_some hc
      split_ifs at ha with h1 h2 h3 h4 h5 h6 h7 h8 h9 h10
      all_goals
        simp only [Option.some.injEq, Prod.mk.injEq] at ha
        obtain ⟨rfl, rfl, rfl⟩ := ha
      all_goals first
        | exact Or.inr (Or.inr ⟨rfl, rfl, rfl⟩)
        | exact Or.inr (Or.inl ⟨rfl, rfl, rfl, Or.inl (by rw [hr]; assumption), h1⟩)
        | exact Or.inr (Or.inl ⟨rfl, rfl, rfl, Or.inr (by assumption), h1⟩)
        | skip
      refine Or.inl ⟨rfl, rfl, ?_, ?_, by rw [hr]; exact h9, h10, h1⟩
      · rw [core_put]
        have := core_some hc
        exact (congrArg (Function.update (core h) c) this.symm).trans (Function.update_eq_self c (core h))
      · rw [refsOf_put, hr]

/-- `addReference` is refused only for these reasons. -/
theorem addRef_refused {h h' : Heap} {c p : Nat} {d : Bool} (ha : addRef h c p = some (h', false, d)) :
    ∃ oc op, core h c = some oc ∧ core h p = some op ∧
      (oc.etype = 0 ∨ (oc.etype = 102 ∧ op.etype = 102)
        ∨ ((oc.etype = 122 ∨ oc.etype = 142 ∨ oc.etype = 144 ∨ oc.etype = 164 ∨ oc.etype = 408)
            ∧ some p ∈ oc.own)
        ∨ ((oc.etype = 144 ∨ oc.etype = 308) ∧ p ∈ oc.kids)
        ∨ ((oc.etype = 502 ∨ oc.etype = 504 ∨ oc.etype = 508) ∧ p = c)
        ∨ (oc.etype = 504 ∧ p ∈ oc.edges.map Graph.Edge.curv)
        ∨ (oc.etype = 508 ∧ (p ∈ oc.loops.map Prod.fst ∨ p ∈ oc.loops.flatMap Prod.snd))
        ∨ some p ∈ oc.de) := by
  unfold addRef at ha
  cases hc : h c with
  | none => simp [hc] at ha
  | some o =>
    cases hp : h p with
    | none => simp [hc, hp] at ha
    | some po =>
      simp only [hc, hp] at ha
      refine ⟨_, _, core_some hc, core_some hp, ?_⟩
      split_ifs at ha with h1 h2 h3 h4 h5 h6 h7 h8 h9 h10
      all_goals try (simp only [Option.some.injEq, Prod.mk.injEq] at ha; obtain ⟨_, ha, _⟩ := ha; cases ha; done)
      all_goals simp only
      · exact Or.inl h1
      · exact Or.inr (Or.inl h2)
      · exact Or.inr (Or.inr (Or.inl h3))
      · exact Or.inr (Or.inr (Or.inr (Or.inl h4)))
      · exact Or.inr (Or.inr (Or.inr (Or.inr (Or.inl h5))))
      · exact Or.inr (Or.inr (Or.inr (Or.inr (Or.inr (Or.inl h6)))))
      · exact Or.inr (Or.inr (Or.inr (Or.inr (Or.inr (Or.inr (Or.inl h7))))))
      · exact Or.inr (Or.inr (Or.inr (Or.inr (Or.inr (Or.inr (Or.inr h8))))))

/-- `addReference` is defined between live entities. -/
theorem addRef_some {h : Heap} {c p : Nat} {oc op : Obj} (hc : core h c = some oc) (hp : core h p = some op) :
    ∃ h' b d, addRef h c p = some (h', b, d) := by
  obtain ⟨h1, _⟩ := of_core hc
  obtain ⟨h2, _⟩ := of_core hp
  unfold addRef
  rw [h1, h2]
  simp only
  have key : ∀ {P : Prop} [Decidable P] {a b : Option (Heap × Bool × Bool)},
      (∃ h' b d, a = some (h', b, d)) → (∃ h' x d, b = some (h', x, d)) →
      ∃ h' x d, (if P then a else b) = some (h', x, d) := by
    intro P _ a b ha hb
    split
    · exact ha
    · exact hb
  repeat' first
    | exact ⟨_, _, _, rfl⟩
    | refine key ?_ ?_

/-- A step of linking entity `e`: its pointers go from those of `o` to those of `o'`; elsewhere only the
lists of users change, and only as far as `e` is concerned. -/
structure Step (e : Nat) (h h' : Heap) (o o' : Obj) : Prop where
  before : core h e = some o
  after : core h' = Function.update (core h) e (some o')
  others : ∀ x p, p ≠ e → (refsOf h' x).count p = (refsOf h x).count p
  null : ∀ x ox, core h x = some ox → ox.etype = 0 → refsOf h x = [] → refsOf h' x = []
  etype : o'.etype = o.etype
  nodup : (∀ x, (refsOf h x).Nodup) → ∀ x, (refsOf h' x).Nodup

/-- The pointers of `e` agree with the lists of users. -/
def Bal (e : Nat) (h : Heap) : Prop := ∀ o, core h e = some o → ∀ x, o.children.count x = (refsOf h x).count e

theorem Step.now {e h h' o o'} (S : Step e h h' o o') : core h' e = some o' := by
  rw [S.after]; simp

theorem Step.trans {e h h1 h2 o o1 o2} (S : Step e h h1 o o1) (T : Step e h1 h2 o1 o2) : Step e h h2 o o2 := by
  refine ⟨S.before, ?_, fun x p hp => (T.others x p hp).trans (S.others x p hp), ?_, T.etype.trans S.etype,
    fun hn => T.nodup (S.nodup hn)⟩
  · rw [T.after, S.after, Function.update_idem]
  · intro x ox hx h0 hr
    have h1 := S.null x ox hx h0 hr
    by_cases hxe : x = e
    · subst hxe
      have hox : o = ox := Option.some.inj (S.before.symm.trans hx)
      exact T.null x o1 S.now (by rw [S.etype, hox]; exact h0) h1
    · exact T.null x ox (by rw [S.after, Function.update_of_ne hxe]; exact hx) h0 h1

theorem Step.refl {e h o} (ho : core h e = some o) : Step e h h o o :=
  ⟨ho, by rw [← ho]; exact (Function.update_eq_self e (core h)).symm, fun _ _ _ => rfl, fun _ _ _ _ h => h, rfl, id⟩

theorem Step.ne {e h h' o o'} (S : Step e h h' o o') {x : Nat} (hx : x ≠ e) : core h' x = core h x := by
  rw [S.after]; simp [hx]

/-- A change of pointers without any change of users. -/
theorem step_edit {e : Nat} {h h' : Heap} {f : Obj → Obj} {o : Obj} (hf : Local f) (he : edit h e f = some h')
    (ht : (f o).etype = o.etype) (ho : core h e = some o) : Step e h h' o (f o) := by
  obtain ⟨h1, h2⟩ := edit_core hf he ho
  exact ⟨ho, h1, fun x p _ => by rw [h2], fun x _ _ _ h => by rw [h2]; exact h, ht, fun hn => by rw [h2]; exact hn⟩

theorem bal_same {e : Nat} {h h' : Heap} {o o' : Obj} (B : Bal e h) (ho : core h e = some o)
    (ho' : core h' e = some o') (hr : refsOf h' = refsOf h)
    (hc : ∀ x, o'.children.count x = o.children.count x) : Bal e h' := by
  intro o2 h2 x
  rw [ho', Option.some.injEq] at h2
  subst h2
  rw [hc, hr]
  exact B o ho x

theorem count_add (l : List Nat) (e p : Nat) : (l ++ [e]).count p = l.count p + if p = e then 1 else 0 := by
  rw [List.count_append, List.count_singleton]
  by_cases h : p = e
  · simp [h]
  · have : ¬ (e == p) = true := by simpa using fun h' => h h'.symm
    simp [h, this]

/-- A new user. -/
theorem step_add {e c : Nat} {h h' : Heap} {o oc : Obj} (ho : core h e = some o) (hc : core h' = core h)
    (hcc : core h c = some oc) (h0 : oc.etype ≠ 0) (hne : e ∉ refsOf h c)
    (hr : refsOf h' = Function.update (refsOf h) c (refsOf h c ++ [e])) : Step e h h' o o := by
  refine ⟨ho, ?_, ?_, ?_, rfl, ?_⟩
  · rw [hc, ← ho]; exact (Function.update_eq_self e (core h)).symm
  · intro x p hp
    rw [hr]
    by_cases hx : x = c
    · subst hx
      rw [Function.update_self, count_add, if_neg hp, Nat.add_zero]
    · rw [Function.update_of_ne hx]
  · intro x ox hx h1 h2
    rw [hr]
    by_cases hxc : x = c
    · subst hxc
      exact absurd (Option.some.inj (hcc.symm.trans hx) ▸ h1) h0
    · rw [Function.update_of_ne hxc]; exact h2
  · intro hn x
    rw [hr]
    by_cases hxc : x = c
    · subst hxc
      rw [Function.update_self, List.nodup_append]
      refine ⟨hn x, by simp, ?_⟩
      rintro a ha b hb rfl
      exact hne (List.mem_singleton.mp hb ▸ ha)
    · rw [Function.update_of_ne hxc]; exact hn x

theorem bal_add {e c : Nat} {h h' : Heap} {o o' : Obj} (B : Bal e h) (ho : core h e = some o)
    (ho' : core h' e = some o')
    (hr : refsOf h' = Function.update (refsOf h) c (refsOf h c ++ [e]))
    (hc : ∀ x, o'.children.count x = o.children.count x + if x = c then 1 else 0) : Bal e h' := by
  intro o2 h2 x
  rw [ho', Option.some.injEq] at h2
  subst h2
  rw [hc, hr, B o ho x]
  by_cases hx : x = c
  · subst hx
    rw [Function.update_self, count_add, if_pos rfl, if_pos rfl]
  · rw [Function.update_of_ne hx, if_neg hx, Nat.add_zero]

/-- The entity is stored as user first or last, the pointer the other way round. -/
theorem store_then_add {e c : Nat} {h h1 h2 : Heap} {f : Obj → Obj} {o : Obj} (hf : Local f)
    (ht : (f o).etype = o.etype)
    (ho : core h e = some o) (he : edit h e f = some h1) (ha : addRef h1 c e = some (h2, true, false)) :
    Step e h h2 o (f o)
      ∧ ((∀ x, (f o).children.count x = o.children.count x + if x = c then 1 else 0) → Bal e h → Bal e h2) := by
  obtain ⟨k1, k2⟩ := edit_core hf he ho
  have S1 := step_edit hf he ht ho
  obtain ⟨oc, hc, h3 | h3 | h3⟩ := addRef_cases ha
  · obtain ⟨_, _, a, b, hne, _, h0⟩ := h3
    have S2 := step_add S1.now a hc h0 hne b
    refine ⟨S1.trans S2, fun hx B => bal_add B ho S2.now ?_ hx⟩
    rw [b, k2]
  · exact absurd h3.2.1 (by decide)
  · exact absurd h3.1 (by decide)

theorem add_then_store {e c : Nat} {h h1 h2 : Heap} {f : Obj → Obj} {o : Obj} (hf : Local f)
    (ht : (f o).etype = o.etype)
    (ho : core h e = some o) (ha : addRef h c e = some (h1, true, false)) (he : edit h1 e f = some h2) :
    Step e h h2 o (f o)
      ∧ ((∀ x, (f o).children.count x = o.children.count x + if x = c then 1 else 0) → Bal e h → Bal e h2) := by
  obtain ⟨oc, hc, h3 | h3 | h3⟩ := addRef_cases ha
  · obtain ⟨_, _, a, b, hne, _, h0⟩ := h3
    have S1 := step_add ho a hc h0 hne b
    obtain ⟨k1, k2⟩ := edit_core hf he S1.now
    have S2 := step_edit hf he ht S1.now
    refine ⟨S1.trans S2, fun hx B => bal_add B ho S2.now ?_ hx⟩
    rw [k2, b]
  · exact absurd h3.2.1 (by decide)
  · exact absurd h3.1 (by decide)

/-- Giving back a pointer of the directory entry. -/
theorem release_step {e i : Nat} {h h' : Heap} {o : Obj} (B : Bal e h) (ho : core h e = some o)
    (hn : ∀ x ox, core h x = some ox → ox.etype = 0 → refsOf h x = [])
    (hr : release h e (.de i) = some h') :
    Step e h h' o { o with de := o.de.set i none } ∧ Bal e h' := by
  obtain ⟨h1, h2⟩ := of_core ho
  unfold release at hr
  rw [h1] at hr
  simp only [Obj.slot] at hr
  cases hd : (o.de[i]?).join with
  | none =>
    simp only [hd, Option.some.injEq] at hr
    subst hr
    have h3 : ({ o with de := o.de.set i none } : Obj) = o := by
      have : o.de.set i none = o.de := by
        rw [Option.join_eq_none_iff] at hd
        apply List.ext_getElem?
        intro j
        rw [List.getElem?_set]
        by_cases hj : i = j
        · subst hj
          rcases hd with hd | hd
          · rw [hd]; simp only [if_true]
            rw [List.getElem?_eq_none_iff] at hd
            rw [if_neg (by omega)]
          · rw [hd]; simp only [if_true]
            have := (List.getElem?_eq_some_iff.mp hd).1
            rw [if_pos this]
        · rw [if_neg hj]
      rw [this]
    rw [h3]
    exact ⟨Step.refl ho, B⟩
  | some old =>
    simp only [hd] at hr
    have hmem : o.de[i]? = some (some old) := Option.join_eq_some_iff.mp hd
    have hch : old ∈ o.children := by
      have : some old ∈ o.de := List.mem_of_getElem? hmem
      unfold Obj.children
      simp only [List.mem_append, List.mem_filterMap, id]
      exact Or.inl (Or.inl (Or.inl (Or.inl (Or.inl (Or.inl (Or.inl ⟨_, this, rfl⟩))))))
    have hcnt := B o ho old
    have hpos : 0 < (refsOf h old).count e := by
      rw [← hcnt]; exact List.count_pos_iff.mpr hch
    have hin : e ∈ refsOf h old := List.count_pos_iff.mp hpos
    cases hold : h old with
    | none => simp [refsOf, hold] at hin
    | some oo =>
      have hro := refsOf_some hold
      have h0 : oo.etype ≠ 0 := by
        intro h0
        have := hn old _ (core_some hold) h0
        rw [this] at hin
        cases hin
      rw [hro] at hin
      have hdel : delRef h old e = some (h.put old { oo with refs := oo.refs.erase e }, true) := by
        simp [delRef, hold, h0, hin]
      rw [hdel] at hr
      simp only at hr
      have hcore : core (h.put old { oo with refs := oo.refs.erase e }) = core h := by
        rw [core_put]
        have := core_some hold
        exact (congrArg (Function.update (core h) old) this.symm).trans (Function.update_eq_self old (core h))
      have hrefs : refsOf (h.put old { oo with refs := oo.refs.erase e })
          = Function.update (refsOf h) old (oo.refs.erase e) := refsOf_put _ _ _
      have ho2 : core (h.put old { oo with refs := oo.refs.erase e }) e = some o := by rw [hcore]; exact ho
      obtain ⟨k1, k2⟩ := of_core ho2
      rw [k1] at hr
      simp only [Option.some.injEq] at hr
      have hed : edit (h.put old { oo with refs := oo.refs.erase e }) e (·.setSlot (.de i) none) = some h' := by
        unfold edit
        rw [k1, ← hr]
        rfl
      obtain ⟨k3, k4⟩ := edit_core (setSlot_local _ _) hed ho2
      have hcount : ∀ x p, (refsOf h' x).count p = (refsOf h x).count p - if p = e ∧ x = old then 1 else 0 := by
        intro x p
        rw [k4, hrefs]
        by_cases hx : x = old
        · subst hx
          rw [Function.update_self, List.count_erase, hro]
          by_cases hp : p = e
          · simp [hp]
          · have : ¬ (e == p) = true := by simpa using fun h' => hp h'.symm
            simp [hp, this]
        · rw [Function.update_of_ne hx]
          simp [hx]
      refine ⟨⟨ho, ?_, ?_, ?_, rfl, ?_⟩, ?_⟩
      · rw [k3, hcore]; rfl
      · intro x p hp
        rw [hcount]
        simp [hp]
      · intro x ox _ _ hr0
        rw [k4, hrefs]
        by_cases hx : x = old
        · subst hx
          rw [hro] at hr0
          rw [Function.update_self, hr0]; rfl
        · rw [Function.update_of_ne hx]; exact hr0
      · intro hn2 x
        rw [k4, hrefs]
        by_cases hx : x = old
        · subst hx
          rw [Function.update_self]
          exact (hro ▸ hn2 x).erase e
        · rw [Function.update_of_ne hx]; exact hn2 x
      · intro o2 ho3 x
        rw [k3, Function.update_self, Option.some.injEq] at ho3
        subst ho3
        rw [hcount, ← B o ho x]
        have hp := G.set_none_perm hmem
        have hc : o.children.count x = (if x = old then 1 else 0) + (o.setSlot (.de i) none).children.count x := by
          have := hp.count_eq x
          unfold Obj.children Obj.setSlot
          simp only [List.count_append]
          rw [this, List.count_cons]
          by_cases hx : x = old
          · simp [hx]; omega
          · have : ¬ (old == x) = true := by simpa using fun h' => hx h'.symm
            simp [hx, this]
        rw [hc]
        by_cases hx : x = old
        · simp [hx]
        · simp [hx]

end Iges.Props.L
