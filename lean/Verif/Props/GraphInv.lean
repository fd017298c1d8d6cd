import Verif.Spec.Graph
import Mathlib.Data.List.Perm.Basic
import Mathlib.Data.List.Nodup
import Mathlib.Tactic.Common
import Mathlib.Tactic.Push

/-!
Lemmas about the entity graph: what each step does to "points at" and "lists as user".
-/

namespace Iges.Props.G

open Iges.Graph Iges.Spec

/-- Entity `p` points at `c`. -/
def Ch (h : Heap) (p c : Nat) : Prop := ∃ o, h p = some o ∧ c ∈ o.children
/-- Entity `c` lists `p` as a user. -/
def Us (h : Heap) (c p : Nat) : Prop := ∃ o, h c = some o ∧ p ∈ o.refs

/-- The vertex lists of an edge list are counted right, up to the pending uses. -/
structure VertsOk (verts : List (Nat × Int)) (edges : List Edge) (pend : List Nat) : Prop where
  cnt : ∀ q ∈ verts, q.2 = (edgeUses edges q.1 : Int) + (pend.count q.1 : Int)
  pos : ∀ q ∈ verts, 0 < q.2
  mem : ∀ q ∈ edges, q.svp ∈ verts.map Prod.fst ∧ q.tvp ∈ verts.map Prod.fst
  pmem : ∀ v ∈ pend, v ∈ verts.map Prod.fst

/-- Number of single pointers of a class. -/
def ownSize (t : Nat) : Nat :=
  if t = 120 ∨ t = 144 then 2
  else if t = 122 ∨ t = 164 ∨ t = 186 ∨ t = 408 ∨ t = 510 then 1
  else if t = 142 then 3 else 0

/-- The local conditions on an entity; `ty` gives the types of all entities. -/
structure ObjOk (ty : Nat → Nat) (pend : List Nat) (x : Nat) (o : Obj) : Prop where
  type : o.etype = ty x
  no402 : o.etype ≠ 402
  refsNd : o.refs.Nodup
  chNd : o.children.Nodup
  noSelf : x ∉ o.children
  null : o.etype = 0 → o.refs = [] ∧ o.children = []
  t124 : o.etype = 124 → o.extras = [] ∧ o.kids = []
    ∧ ∀ c ∈ o.de.filterMap id, o.de[4]? = some (some c) ∧ ty c = 124
  noEdge : o.etype ≠ 504 → o.edges = [] ∧ o.verts = []
  noLoop : o.loops = [] ∧ o.redges = []
  noKids : o.etype = 504 ∨ o.etype = 508 → o.kids = []
  t504 : (∀ v ∈ o.verts.map Prod.fst, ty v = 502) ∧ (∀ q ∈ o.edges, ty q.curv ≠ 502)
  counts : VertsOk o.verts o.edges pend
  deLen : o.de.length = 7
  ownLen : o.own.length = ownSize o.etype

/-- All live entities satisfy their local conditions. -/
def Loc (ty : Nat → Nat) (pd : Nat → List Nat) (h : Heap) : Prop :=
  ∀ x o, h x = some o → ObjOk ty (pd x) x o

/-- Pointers and users agree (as relations). -/
def Sym (h : Heap) : Prop := ∀ p c, Ch h p c ↔ Us h c p

/-! ### Heap accesses -/

@[simp] theorem put_self (h : Heap) (i : Nat) (o : Obj) : h.put i o i = some o := by
  simp [Heap.put]

@[simp] theorem put_ne (h : Heap) (o : Obj) {i j : Nat} (hj : j ≠ i) : h.put i o j = h j := by
  simp [Heap.put, hj]

theorem put_apply (h : Heap) (i : Nat) (o : Obj) (j : Nat) :
    h.put i o j = if j = i then some o else h j := rfl

@[simp] theorem free_self (h : Heap) (i : Nat) : h.free i i = none := by simp [Heap.free]

@[simp] theorem free_ne (h : Heap) {i j : Nat} (hj : j ≠ i) : h.free i j = h j := by
  simp [Heap.free, hj]

theorem free_apply (h : Heap) (i j : Nat) :
    h.free i j = if j = i then none else h j := rfl

theorem Ch_put (h : Heap) (i : Nat) (o : Obj) (p c : Nat) :
    Ch (h.put i o) p c ↔ (p = i ∧ c ∈ o.children) ∨ (p ≠ i ∧ Ch h p c) := by
  unfold Ch
  by_cases hp : p = i
  · subst hp; simp
  · simp [hp]

theorem Us_put (h : Heap) (i : Nat) (o : Obj) (c p : Nat) :
    Us (h.put i o) c p ↔ (c = i ∧ p ∈ o.refs) ∨ (c ≠ i ∧ Us h c p) := by
  unfold Us
  by_cases hp : c = i
  · subst hp; simp
  · simp [hp]

theorem Ch_free (h : Heap) (i p c : Nat) : Ch (h.free i) p c ↔ p ≠ i ∧ Ch h p c := by
  unfold Ch
  by_cases hp : p = i
  · subst hp; simp
  · simp [hp]

theorem Us_free (h : Heap) (i c p : Nat) : Us (h.free i) c p ↔ c ≠ i ∧ Us h c p := by
  unfold Us
  by_cases hp : c = i
  · subst hp; simp
  · simp [hp]

theorem Ch_of {h : Heap} {p : Nat} {o : Obj} (hp : h p = some o) (c : Nat) :
    Ch h p c ↔ c ∈ o.children := by simp [Ch, hp]

theorem Us_of {h : Heap} {c : Nat} {o : Obj} (hc : h c = some o) (p : Nat) :
    Us h c p ↔ p ∈ o.refs := by simp [Us, hc]

theorem Loc.put {ty pd h} (L : Loc ty pd h) {i : Nat} {o : Obj} (ho : ObjOk ty (pd i) i o) :
    Loc ty pd (h.put i o) := by
  intro x ox hx
  by_cases hi : x = i
  · subst hi
    simp only [put_self, Option.some.injEq] at hx
    exact hx ▸ ho
  · exact L x ox (by simpa [hi] using hx)

theorem Loc.free {ty pd h} (L : Loc ty pd h) (i : Nat) : Loc ty pd (h.free i) := by
  intro x ox hx
  by_cases hi : x = i
  · subst hi; simp at hx
  · exact L x ox (by simpa [hi] using hx)

/-! ### Dropping users -/

/-- An entity with some users dropped is still in order. -/
theorem ObjOk.refs {ty pend x o} (H : ObjOk ty pend x o) {r : List Nat} (hr : r.Nodup)
    (h0 : o.etype = 0 → r = []) : ObjOk ty pend x { o with refs := r } := by
  refine ⟨H.type, H.no402, hr, H.chNd, H.noSelf, fun h => ⟨h0 h, (H.null h).2⟩, H.t124, H.noEdge,
    H.noLoop, H.noKids, H.t504, H.counts, H.deLen, H.ownLen⟩

theorem ObjOk.erase {ty pend x o} (H : ObjOk ty pend x o) (p : Nat) :
    ObjOk ty pend x { o with refs := o.refs.erase p } :=
  H.refs (H.refsNd.erase p) (fun h => by simp [(H.null h).1])

/-- Every entity of `S` drops its user `p`. -/
def eraseRefs (h : Heap) (S : List Nat) (p : Nat) : Heap := fun x =>
  if x ∈ S then (h x).map (fun o => { o with refs := o.refs.erase p }) else h x

theorem delRef_user {h : Heap} {c p : Nat} {o : Obj} (hc : h c = some o) (h0 : o.etype ≠ 0)
    (hp : p ∈ o.refs) :
    delRef h c p = some (h.put c { o with refs := o.refs.erase p }, true) := by
  simp [delRef, hc, h0, hp]

theorem put_eraseRefs {h : Heap} {c p : Nat} {o : Obj} (hc : h c = some o) (S : List Nat)
    (hn : c ∉ S) :
    eraseRefs (h.put c { o with refs := o.refs.erase p }) S p = eraseRefs h (c :: S) p := by
  funext x
  unfold eraseRefs
  by_cases hx : x = c
  · subst hx; simp [hn, hc]
  · simp [hx]

theorem delRefs_eq {S : List Nat} {p : Nat} : ∀ {h : Heap},
    (∀ c ∈ S, ∃ o, h c = some o ∧ o.etype ≠ 0 ∧ p ∈ o.refs) → S.Nodup →
    delRefs h S p = some (eraseRefs h S p) := by
  induction S with
  | nil => intro h _ _; simp [delRefs]; funext x; simp [eraseRefs]
  | cons c S ih =>
    intro h hS hn
    obtain ⟨o, ho, h0, hp⟩ := hS c (by simp)
    have hcS : c ∉ S := (List.nodup_cons.mp hn).1
    rw [delRefs, delRef_user ho h0 hp]
    simp only
    rw [ih, put_eraseRefs ho S hcS]
    · intro x hx
      have hxc : x ≠ c := fun e => hcS (e ▸ hx)
      simpa [hxc] using hS x (by simp [hx])
    · exact (List.nodup_cons.mp hn).2

theorem Ch_eraseRefs (h : Heap) (S : List Nat) (p x y : Nat) :
    Ch (eraseRefs h S p) x y ↔ Ch h x y := by
  unfold Ch eraseRefs
  by_cases hx : x ∈ S
  · cases hh : h x with
    | none => simp [hx]
    | some o => simp only [hx, if_true, Option.map_some, Option.some.injEq, exists_eq_left']; rfl
  · simp [hx]

theorem Us_eraseRefs {ty pd h} (L : Loc ty pd h) (S : List Nat) (p y x : Nat) :
    Us (eraseRefs h S p) y x ↔ Us h y x ∧ ¬ (x = p ∧ y ∈ S) := by
  unfold Us eraseRefs
  by_cases hy : y ∈ S
  · cases hh : h y with
    | none => simp [hy]
    | some o =>
      have := (L y o hh).refsNd
      simp [hy, this.mem_erase_iff, and_comm]
  · simp [hy]

theorem Loc.eraseRefs {ty pd h} (L : Loc ty pd h) (S : List Nat) (p : Nat) :
    Loc ty pd (eraseRefs h S p) := by
  intro x o hx
  unfold G.eraseRefs at hx
  by_cases hS : x ∈ S
  · simp only [hS, if_true, Option.map_eq_some_iff] at hx
    obtain ⟨o', ho', rfl⟩ := hx
    exact (L x o' ho').erase p
  · simp only [hS, if_false] at hx
    exact L x o hx

theorem eraseRefs_live {h : Heap} {S : List Nat} {p x : Nat} :
    (eraseRefs h S p x).isSome ↔ (h x).isSome := by
  unfold eraseRefs; split <;> simp

theorem eraseRefs_not_mem {h : Heap} {S : List Nat} {p x : Nat} (hx : x ∉ S) :
    eraseRefs h S p x = h x := by simp [eraseRefs, hx]

theorem free_eraseRefs (h : Heap) (S : List Nat) (p e : Nat) :
    (eraseRefs h S p).free e = eraseRefs (h.free e) S p := by
  funext x
  unfold eraseRefs Heap.free
  by_cases hx : x = e
  · simp [hx]
  · simp [hx]

/-! ### Pointer lists -/

theorem clearFirst_some {c : Nat} : ∀ {l l' : List (Option Nat)}, clearFirst l c = some l' →
    (l.filterMap id).Perm (c :: l'.filterMap id) ∧ l'.length = l.length
      ∧ ∀ (i x : Nat), l'[i]? = some (some x) → l[i]? = some (some x)
  | [], _, h => by simp [clearFirst] at h
  | a :: l, l', h => by
    rw [clearFirst] at h
    split at h
    · rename_i ha
      cases h
      subst ha
      refine ⟨by simp, by simp, ?_⟩
      intro i x hx
      cases i with
      | zero => simp at hx
      | succ i => simpa using hx
    · rename_i ha
      rw [Option.map_eq_some_iff] at h
      obtain ⟨m, hm, rfl⟩ := h
      obtain ⟨h1, h2, h3⟩ := clearFirst_some hm
      refine ⟨?_, by simp [h2], ?_⟩
      · cases a with
        | none => simpa using h1
        | some b =>
          simp only [List.filterMap_cons, id]
          exact (h1.cons b).trans (List.Perm.swap c b _)
      · intro i x hx
        cases i with
        | zero => simpa using hx
        | succ i => simpa using h3 i x (by simpa using hx)

theorem clearFirst_none {c : Nat} : ∀ {l : List (Option Nat)},
    clearFirst l c = none ↔ c ∉ l.filterMap id
  | [] => by simp [clearFirst]
  | a :: l => by
    rw [clearFirst]
    by_cases ha : a = some c
    · simp [ha]
    · rw [if_neg ha, Option.map_eq_none_iff, clearFirst_none]
      cases a with
      | none => simp
      | some b =>
        have : b ≠ c := fun e => ha (by rw [e])
        simp [this.symm]

theorem set_none_perm {c : Nat} : ∀ {l : List (Option Nat)} {i : Nat}, l[i]? = some (some c) →
    (l.filterMap id).Perm (c :: (l.set i none).filterMap id)
  | [], i, h => by simp at h
  | a :: l, 0, h => by
    simp only [List.getElem?_cons_zero, Option.some.injEq] at h
    subst h
    simp
  | a :: l, i + 1, h => by
    have ih := set_none_perm (l := l) (i := i) (by simpa using h)
    cases a with
    | none => simpa using ih
    | some b =>
      simp only [List.set_cons_succ, List.filterMap_cons, id]
      exact (ih.cons b).trans (List.Perm.swap c b _)

theorem set_some_perm {c : Nat} : ∀ {l : List (Option Nat)} {i : Nat}, l[i]? = some none →
    ((l.set i (some c)).filterMap id).Perm (c :: l.filterMap id)
  | [], i, h => by simp at h
  | a :: l, 0, h => by
    simp only [List.getElem?_cons_zero, Option.some.injEq] at h
    subst h
    simp
  | a :: l, i + 1, h => by
    have ih := set_some_perm (c := c) (l := l) (i := i) (by simpa using h)
    cases a with
    | none => simpa using ih
    | some b =>
      simp only [List.set_cons_succ, List.filterMap_cons, id]
      exact (ih.cons b).trans (List.Perm.swap c b _)

/-- The parts an entity's pointers are made of, when it has no loop data. -/
theorem children_eq {o : Obj} (h1 : o.loops = []) (h2 : o.redges = []) :
    o.children = o.de.filterMap id ++ o.extras ++ o.own.filterMap id ++ o.kids
      ++ o.edges.map Edge.curv ++ o.verts.map Prod.fst := by
  simp [Obj.children, h1, h2]

/-- Fewer pointers of the first four kinds: still in order. -/
theorem ObjOk.drop {ty pend x o} (H : ObjOk ty pend x o) {o' : Obj} (S : List Nat)
    (hperm : o.children.Perm (S ++ o'.children)) (he : o'.etype = o.etype)
    (hr : o'.refs = o.refs) (hE : o'.edges = o.edges) (hV : o'.verts = o.verts)
    (hL : o'.loops = o.loops) (hR : o'.redges = o.redges)
    (hd : o'.de.length = o.de.length) (hw : o'.own.length = o.own.length)
    (hk : ∀ c ∈ o'.kids, c ∈ o.kids) (hx : ∀ c ∈ o'.extras, c ∈ o.extras)
    (hde : ∀ (i c : Nat), o'.de[i]? = some (some c) → o.de[i]? = some (some c)) :
    ObjOk ty pend x o' := by
  have hsub : ∀ c ∈ o'.children, c ∈ o.children := fun c hc =>
    hperm.symm.subset (List.mem_append_right _ hc)
  have hnil : ∀ {l m : List Nat}, (∀ c ∈ l, c ∈ m) → m = [] → l = [] := by
    intro l m h1 h2
    subst h2
    exact List.eq_nil_iff_forall_not_mem.mpr (fun c hc => by simpa using h1 c hc)
  have hdm : ∀ c ∈ o'.de.filterMap id, ∃ i : Nat, o'.de[i]? = some (some c) := by
    intro c hc
    simp only [List.mem_filterMap, id] at hc
    obtain ⟨a, ha, rfl⟩ := hc
    exact List.getElem?_of_mem ha
  refine ⟨he ▸ H.type, he ▸ H.no402, hr ▸ H.refsNd, ?_, fun h => H.noSelf (hsub x h), ?_, ?_, ?_,
    ⟨hL ▸ H.noLoop.1, hR ▸ H.noLoop.2⟩, ?_, ?_, ?_, hd ▸ H.deLen, by rw [hw, H.ownLen, he]⟩
  · exact (List.nodup_append.mp (hperm.nodup_iff.mp H.chNd)).2.1
  · intro h0
    obtain ⟨a, b⟩ := H.null (he ▸ h0)
    exact ⟨hr ▸ a, hnil hsub b⟩
  · intro h
    obtain ⟨a, b, c⟩ := H.t124 (he ▸ h)
    refine ⟨hnil hx a, hnil hk b, ?_⟩
    intro y hy
    obtain ⟨i, hi⟩ := hdm y hy
    have hoi := hde i y hi
    have hy' : y ∈ o.de.filterMap id :=
      List.mem_filterMap.mpr ⟨some y, List.mem_of_getElem? hoi, rfl⟩
    obtain ⟨h4, ht⟩ := c y hy'
    refine ⟨?_, ht⟩
    by_cases hi4 : i = 4
    · rw [← hi4]; exact hi
    · exfalso
      -- the pointers are distinct, so only slot 4 may hold `y`
      have hnd : (o.de.filterMap id).Nodup := by
        have := H.chNd
        rw [children_eq H.noLoop.1 H.noLoop.2] at this
        simp only [List.append_assoc] at this
        exact (List.nodup_append.mp this).1
      have key : ∀ (l : List (Option Nat)), (l.filterMap id).Nodup → ∀ i j : Nat,
          l[i]? = some (some y) → l[j]? = some (some y) → i = j := by
        intro l
        induction l with
        | nil => intro _ i j h; simp at h
        | cons a l ih =>
          intro hn i j h1 h2
          have hnl : (l.filterMap id).Nodup := by
            cases a with
            | none => simpa using hn
            | some b => exact (List.nodup_cons.mp (by simpa using hn)).2
          cases i with
          | zero =>
            cases j with
            | zero => rfl
            | succ j =>
              simp only [List.getElem?_cons_zero, Option.some.injEq] at h1
              subst h1
              exfalso
              have : y ∈ l.filterMap id :=
                List.mem_filterMap.mpr ⟨some y, List.mem_of_getElem? (by simpa using h2), rfl⟩
              exact (List.nodup_cons.mp (by simpa using hn)).1 this
          | succ i =>
            cases j with
            | zero =>
              simp only [List.getElem?_cons_zero, Option.some.injEq] at h2
              subst h2
              exfalso
              have : y ∈ l.filterMap id :=
                List.mem_filterMap.mpr ⟨some y, List.mem_of_getElem? (by simpa using h1), rfl⟩
              exact (List.nodup_cons.mp (by simpa using hn)).1 this
            | succ j => rw [ih hnl i j (by simpa using h1) (by simpa using h2)]
      exact hi4 (key _ hnd i 4 hoi h4)
  · intro h; rw [hE, hV]; exact H.noEdge (he ▸ h)
  · intro h; exact hnil hk (H.noKids (by rw [← he]; exact h))
  · rw [hE, hV]; exact H.t504
  · rw [hE, hV]; exact H.counts

/-- The base `unlink` removes one pointer. -/
theorem baseUnlink_some {o o' : Obj} {c : Nat} (hL : o.loops = []) (hR : o.redges = [])
    (h : baseUnlink o c = some o') :
    o.children.Perm ([c] ++ o'.children) ∧ o'.etype = o.etype ∧ o'.refs = o.refs
      ∧ o'.edges = o.edges ∧ o'.verts = o.verts ∧ o'.loops = o.loops ∧ o'.redges = o.redges
      ∧ o'.de.length = o.de.length ∧ o'.own = o.own ∧ o'.kids = o.kids
      ∧ (∀ y ∈ o'.extras, y ∈ o.extras)
      ∧ (∀ (i x : Nat), o'.de[i]? = some (some x) → o.de[i]? = some (some x)) := by
  unfold baseUnlink at h
  split at h
  · rename_i d hd
    cases h
    obtain ⟨h1, h2, h3⟩ := clearFirst_some hd
    refine ⟨?_, rfl, rfl, rfl, rfl, rfl, rfl, h2, rfl, rfl, fun _ h => h, h3⟩
    rw [children_eq hL hR, children_eq (o := { o with de := d }) hL hR]
    simp only [List.append_assoc, List.cons_append, List.nil_append]
    exact List.Perm.append_right _ h1
  · split at h
    · rename_i hc
      cases h
      refine ⟨?_, rfl, rfl, rfl, rfl, rfl, rfl, rfl, rfl, rfl,
        fun y hy => List.mem_of_mem_erase hy, fun _ _ h => h⟩
      rw [children_eq hL hR, children_eq (o := { o with extras := o.extras.erase c }) hL hR]
      simp only [List.append_assoc, List.cons_append, List.nil_append]
      refine (List.Perm.append_left _ (List.Perm.append_right _ (List.perm_cons_erase hc))).trans ?_
      simp only [List.cons_append]
      exact List.perm_middle
    · exact absurd h (by simp)

theorem baseUnlink_none {o : Obj} {c : Nat} :
    baseUnlink o c = none ↔ c ∉ o.de.filterMap id ∧ c ∉ o.extras := by
  unfold baseUnlink
  split
  · rename_i d hd
    have : ¬ clearFirst o.de c = none := by rw [hd]; simp
    rw [clearFirst_none] at this
    constructor
    · intro h; exact absurd h (by simp)
    · intro h; exact absurd h.1 this
  · rename_i hd
    rw [clearFirst_none] at hd
    split <;> simp_all

/-! ### Counting vertex lists -/

/-- One use less. -/
def decV (verts : List (Nat × Int)) (v : Nat) : List (Nat × Int) :=
  match verts.find? (fun q => q.1 == v) with
  | none => verts
  | some (_, n) =>
    if n - 1 = 0 then verts.eraseP (fun q => q.1 == v)
    else verts.map (fun q => if q.1 = v then (q.1, q.2 - 1) else q)

/-- The vertex lists that drop out when one use of `v` ends. -/
def goneV (verts : List (Nat × Int)) (v : Nat) : List Nat :=
  match verts.find? (fun q => q.1 == v) with
  | none => []
  | some (_, n) => if n - 1 = 0 then [v] else []

theorem goneV_sub {verts : List (Nat × Int)} {v x : Nat} (h : x ∈ goneV verts v) :
    x = v ∧ x ∈ verts.map Prod.fst := by
  unfold goneV at h
  split at h
  · simp at h
  · rename_i a n hf
    split at h
    · have hv : a = v := by simpa using List.find?_some hf
      have := List.mem_of_find?_eq_some hf
      simp only [List.mem_singleton] at h
      subst h
      exact ⟨rfl, List.mem_map.mpr ⟨_, this, hv⟩⟩
    · simp at h

theorem goneV_nodup (verts : List (Nat × Int)) (v : Nat) : (goneV verts v).Nodup := by
  unfold goneV
  split
  · simp
  · split <;> simp

theorem map_dec_fst (verts : List (Nat × Int)) (v : Nat) (d : Int) :
    (verts.map (fun q => if q.1 = v then (q.1, q.2 + d) else q)).map Prod.fst
      = verts.map Prod.fst := by
  rw [List.map_map]
  apply List.map_congr_left
  intro q _
  by_cases h : q.1 = v <;> simp [h]

theorem decV_fst (verts : List (Nat × Int)) (v : Nat) :
    (verts.map Prod.fst).Perm (goneV verts v ++ (decV verts v).map Prod.fst) := by
  unfold decV goneV
  cases hf : verts.find? (fun q => q.1 == v) with
  | none => simp
  | some q =>
    obtain ⟨a, n⟩ := q
    have hv : a = v := by simpa using List.find?_some hf
    have hm := List.mem_of_find?_eq_some hf
    simp only
    split
    · simp only [List.cons_append, List.nil_append]
      clear hm
      induction verts with
      | nil => simp at hf
      | cons q l ih =>
        by_cases hq : q.1 = v
        · simp [hq]
        · have hq' : (q.1 == v) = false := by simp [hq]
          rw [List.find?_cons, hq'] at hf
          simp only [List.map_cons, List.eraseP_cons, hq', cond_false]
          exact ((ih hf).cons q.1).trans (List.Perm.swap _ _ _)
    · have := map_dec_fst verts v (-1)
      simp only [List.nil_append]
      rw [show (fun q : Nat × Int => if q.1 = v then (q.1, q.2 - 1) else q)
        = (fun q => if q.1 = v then (q.1, q.2 + -1) else q) from rfl, this]

theorem decV_ok {verts edges pend} (H : VertsOk verts edges pend)
    (hn : (verts.map Prod.fst).Nodup) {v : Nat} (hv : v ∈ pend) :
    VertsOk (decV verts v) edges (pend.erase v) := by
  have hmem := H.pmem v hv
  have hcount : ∀ w, (pend.erase v).count w = pend.count w - if w = v then 1 else 0 := by
    intro w
    rw [List.count_erase]
    by_cases h : w = v
    · simp [h]
    · simp [h, Ne.symm h]
  have hpos : 0 < pend.count v := List.count_pos_iff.mpr hv
  unfold decV
  cases hf : verts.find? (fun q => q.1 == v) with
  | none =>
    exfalso
    obtain ⟨q, hq, hqv⟩ := List.mem_map.mp hmem
    have := List.find?_eq_none.mp hf q hq
    simp [hqv] at this
  | some q =>
    obtain ⟨a, n⟩ := q
    have ha : a = v := by simpa using List.find?_some hf
    subst ha
    have hm := List.mem_of_find?_eq_some hf
    have hc := H.cnt _ hm
    simp only at hc
    simp only
    split
    · rename_i h1
      have hE : edgeUses edges a = 0 ∧ pend.count a = 1 := by omega
      have hne : ∀ q ∈ verts.eraseP (fun q => q.1 == a), q.1 ≠ a ∧ q ∈ verts := by
        intro q hq
        refine ⟨?_, List.mem_of_mem_eraseP hq⟩
        intro hqa
        have hp := decV_fst verts a
        unfold decV goneV at hp
        rw [hf] at hp
        simp only [h1, if_true, List.cons_append, List.nil_append] at hp
        have := (hp.nodup_iff.mp hn)
        exact (List.nodup_cons.mp this).1 (List.mem_map.mpr ⟨q, hq, hqa⟩)
      have hback : ∀ w ∈ verts.map Prod.fst, w ≠ a →
          w ∈ (verts.eraseP (fun q => q.1 == a)).map Prod.fst := by
        intro w hw hwa
        obtain ⟨q, hq, hqw⟩ := List.mem_map.mp hw
        refine List.mem_map.mpr ⟨q, ?_, hqw⟩
        exact (List.mem_eraseP_of_neg (by simp [hqw, hwa])).mpr hq
      have huse : ∀ q ∈ edges, q.svp ≠ a ∧ q.tvp ≠ a := by
        intro q hq
        obtain ⟨he, _⟩ := hE
        unfold edgeUses at he
        have h1 : edges.countP (fun q => q.svp == a) = 0 := by omega
        have h2 : edges.countP (fun q => q.tvp == a) = 0 := by omega
        rw [List.countP_eq_zero] at h1 h2
        exact ⟨by simpa using h1 q hq, by simpa using h2 q hq⟩
      refine ⟨?_, ?_, ?_, ?_⟩
      · intro q hq
        obtain ⟨h2, h3⟩ := hne q hq
        rw [H.cnt q h3, hcount]
        simp [h2]
      · intro q hq; exact H.pos q (hne q hq).2
      · intro q hq
        obtain ⟨h2, h3⟩ := H.mem q hq
        exact ⟨hback _ h2 (huse q hq).1, hback _ h3 (huse q hq).2⟩
      · intro w hw
        have : w ≠ a := by
          rintro rfl
          have h5 : 0 < (pend.erase w).count w := List.count_pos_iff.mpr hw
          rw [hcount] at h5
          simp at h5
          omega
        exact hback w (H.pmem w (List.mem_of_mem_erase hw)) this
    · rename_i h1
      have hfst := map_dec_fst verts a (-1)
      have hfun : (fun q : Nat × Int => if q.1 = a then (q.1, q.2 - 1) else q)
        = (fun q => if q.1 = a then (q.1, q.2 + -1) else q) := rfl
      refine ⟨?_, ?_, ?_, ?_⟩
      · intro q hq
        obtain ⟨r, hr, rfl⟩ := List.mem_map.mp hq
        have hr2 := H.cnt r hr
        by_cases h : r.1 = a
        · simp only [h, if_true]
          rw [hcount]
          simp only [if_true]
          rw [h] at hr2
          omega
        · simp only [h, if_false]
          rw [hr2, hcount]
          simp [h]
      · intro q hq
        obtain ⟨r, hr, rfl⟩ := List.mem_map.mp hq
        have h0 := H.pos r hr
        by_cases h : r.1 = a
        · simp only [h, if_true]
          have hrn : r = (a, n) := by
            have hinj := List.inj_on_of_nodup_map hn
            exact hinj hr hm (by simp [h])
          rw [hrn] at h0 ⊢
          simp only at h0 ⊢
          omega
        · simpa [h] using h0
      · intro q hq
        rw [hfun, hfst]
        exact H.mem q hq
      · intro w hw
        rw [hfun, hfst]
        exact H.pmem w (List.mem_of_mem_erase hw)

end Iges.Props.G
