import Verif.Spec.Link
/-
Linking is defined for files without optional pointers, self pointers and wrong vertex pointers.
-/
namespace Iges.Props.T

open Iges.Graph Iges.Link Iges.Spec
open Iges.File (REnt Body)

/-- The entities of the file are there, with their types; nothing has optional pointers; pointers of directory
entries and the vertex lists of edge lists lead to entities. -/
structure Fit (es : List REnt) (h : Heap) : Prop where
  ty : ∀ i, (h i).map (·.etype) = es[i]?.map (fun r => r.body.etype.toNat)
  ex : ∀ i o, h i = some o → o.extras = []
  de : ∀ i o c, h i = some o → some c ∈ o.de → c < es.length
  verts : ∀ i o q, h i = some o → q ∈ o.verts → q.1 < es.length

/-- A defined result with everything still there. -/
def Runs {α : Type} (es : List REnt) (x : Option (Heap × α)) : Prop := ∃ h a, x = some (h, a) ∧ Fit es h

def Runs1 (es : List REnt) (x : Option Heap) : Prop := ∃ h, x = some h ∧ Fit es h

variable {es : List REnt} {h : Heap}

theorem Runs.mk {α : Type} (F : Fit es h) (a : α) : Runs es (some (h, a)) := ⟨h, a, rfl, F⟩

theorem Fit.get (F : Fit es h) {i : Nat} (hi : i < es.length) : ∃ o, h i = some o := by
  have := F.ty i
  rw [List.getElem?_eq_getElem hi] at this
  cases hh : h i with
  | none => rw [hh] at this; cases this
  | some o => exact ⟨o, rfl⟩

theorem Fit.lt (F : Fit es h) {i : Nat} {o : Obj} (ho : h i = some o) : i < es.length := by
  have := F.ty i
  rw [ho] at this
  by_contra hn
  rw [List.getElem?_eq_none (by omega)] at this
  cases this

theorem Fit.etype (F : Fit es h) {i : Nat} {o : Obj} (ho : h i = some o) : o.etype = typeAt es i := by
  have := F.ty i
  rw [ho] at this
  unfold typeAt
  rw [← this]
  rfl

theorem Fit.put (F : Fit es h) {i : Nat} {o o' : Obj} (ho : h i = some o) (h1 : o'.etype = o.etype) (h2 : o'.extras = o.extras)
    (h3 : ∀ c, some c ∈ o'.de → c < es.length) (h4 : ∀ q ∈ o'.verts, q.1 < es.length) : Fit es (h.put i o') := by
  constructor
  · intro j
    by_cases hj : j = i
    · subst hj
      rw [← F.ty j, ho]
      simp [Heap.put, h1]
    · rw [← F.ty j]
      simp [Heap.put, hj]
  · intro j p hp
    by_cases hj : j = i
    · subst hj
      simp only [Heap.put, if_true, Option.some.injEq] at hp
      subst hp
      rw [h2]
      exact F.ex _ _ ho
    · simp only [Heap.put, if_neg hj] at hp
      exact F.ex _ _ hp
  · intro j p c hp hc
    by_cases hj : j = i
    · subst hj
      simp only [Heap.put, if_true, Option.some.injEq] at hp
      subst hp
      exact h3 c hc
    · simp only [Heap.put, if_neg hj] at hp
      exact F.de _ _ _ hp hc
  · intro j p q hp hq
    by_cases hj : j = i
    · subst hj
      simp only [Heap.put, if_true, Option.some.injEq] at hp
      subst hp
      exact h4 q hq
    · simp only [Heap.put, if_neg hj] at hp
      exact F.verts _ _ _ hp hq

/-- A change that leaves type, optional pointers, directory entry and vertex lists alone. -/
theorem Fit.same (F : Fit es h) {i : Nat} {o o' : Obj} (ho : h i = some o) (h1 : o'.etype = o.etype) (h2 : o'.extras = o.extras)
    (h3 : o'.de = o.de) (h4 : o'.verts = o.verts) : Fit es (h.put i o') :=
  F.put ho h1 h2 (fun c hc => F.de i o c ho (h3 ▸ hc)) (fun q hq => F.verts i o q ho (h4 ▸ hq))

theorem Fit.edit (F : Fit es h) {e : Nat} (he : e < es.length) {f : Obj → Obj}
    (hf : ∀ o, h e = some o → Fit es (h.put e (f o))) : Runs1 es (edit h e f) := by
  obtain ⟨o, ho⟩ := F.get he
  exact ⟨_, by simp [Link.edit, ho], hf o ho⟩

theorem Fit.setOwn (F : Fit es h) {e : Nat} (he : e < es.length) (i : Nat) (v : Option Nat) :
    Runs1 es (Link.edit h e (·.setSlot (.own i) v)) :=
  F.edit he fun _ ho => F.same ho rfl rfl rfl rfl

theorem Fit.setDE (F : Fit es h) {e : Nat} (he : e < es.length) (i : Nat) (v : Option Nat) (hv : ∀ c, v = some c → c < es.length) :
    Runs1 es (Link.edit h e (·.setSlot (.de i) v)) :=
  F.edit he fun o ho => F.put ho rfl rfl (by
    intro c hc
    rcases List.mem_or_eq_of_mem_set hc with h1 | h1
    · exact F.de _ _ _ ho h1
    · exact hv c h1.symm) (fun q hq => F.verts _ _ q ho hq)

theorem Fit.addRef (F : Fit es h) {c e : Nat} (hc : c < es.length) (he : e < es.length) : Runs es (addRef h c e) := by
  obtain ⟨o, ho⟩ := F.get hc
  obtain ⟨p, hp⟩ := F.get he
  unfold Graph.addRef
  rw [ho, hp]
  dsimp only
  repeat' split
  all_goals first | exact Runs.mk F _ | exact ⟨_, _, rfl, F.same ho rfl rfl rfl rfl⟩

theorem Fit.delRef (F : Fit es h) {c : Nat} (hc : c < es.length) (e : Nat) : Runs es (delRef h c e) := by
  obtain ⟨o, ho⟩ := F.get hc
  unfold Graph.delRef
  rw [ho]
  dsimp only
  rw [F.ex _ _ ho]
  dsimp only
  repeat' split
  all_goals first | exact Runs.mk F _ | exact ⟨_, _, rfl, F.same ho rfl (F.ex _ _ ho).symm rfl rfl⟩

theorem Fit.delRefs (e : Nat) : ∀ (l : List Nat) {h : Heap}, Fit es h → (∀ c ∈ l, c < es.length) → Runs1 es (delRefs h l e)
  | [], h, F, _ => ⟨h, rfl, F⟩
  | c :: l, h, F, hl => by
    obtain ⟨h1, b, h2, F1⟩ := F.delRef (hl c List.mem_cons_self) e
    obtain ⟨h3, h4, F2⟩ := Fit.delRefs e l F1 (fun c hc => hl c (List.mem_cons_of_mem _ hc))
    exact ⟨h3, by simp [Graph.delRefs, h2, h4], F2⟩

theorem Fit.release (F : Fit es h) {e : Nat} (he : e < es.length) (i : Nat) : Runs1 es (release h e (.de i)) := by
  obtain ⟨o, ho⟩ := F.get he
  unfold Graph.release
  rw [ho]
  dsimp only
  cases hs : o.slot (.de i) with
  | none => exact ⟨h, rfl, F⟩
  | some old =>
    have hold : old < es.length := by
      refine F.de e o old ho ?_
      simp only [Obj.slot] at hs
      rw [Option.join_eq_some_iff] at hs
      exact List.mem_of_getElem? hs
    obtain ⟨h1, b, h2, F1⟩ := F.delRef hold e
    obtain ⟨h3, h4, F2⟩ := F1.setDE he i none (by simp)
    refine ⟨h3, ?_, F2⟩
    dsimp only
    rw [h2]
    obtain ⟨o1, ho1⟩ := F1.get he
    simp only [Link.edit, ho1] at h4 ⊢
    exact h4

theorem Fit.dropDEs {e : Nat} (he : e < es.length) : ∀ (l : List Nat) {h : Heap}, Fit es h → Runs1 es (Link.dropDEs h e l)
  | [], h, F => ⟨h, rfl, F⟩
  | i :: l, h, F => by
    obtain ⟨h1, h2, F1⟩ := F.release he i
    obtain ⟨h3, h4, F2⟩ := Fit.dropDEs he l F1
    exact ⟨h3, by simp [Link.dropDEs, h2, h4], F2⟩

theorem Fit.dropped (F : Fit es h) {e : Nat} (he : e < es.length) (l : List Nat) : Runs es ((Link.dropDEs h e l).map (·, true)) := by
  obtain ⟨h1, h2, F1⟩ := Fit.dropDEs he l F
  exact ⟨h1, true, by simp [h2], F1⟩

theorem Fit.linkDE (F : Fit es h) {e : Nat} (he : e < es.length) (s : Nat) (v : Int) (hv : pos v ≠ e) :
    Runs es (linkDE h es.length e s v) := by
  unfold Link.linkDE
  dsimp only
  split
  · rename_i hlt
    obtain ⟨oc, hoc⟩ := F.get hlt
    simp only [Link.get, hoc, Option.bind_eq_bind, Option.bind_some]
    split
    · exact Runs.mk F _
    split
    · rename_i h1
      exact absurd h1 hv
    obtain ⟨h1, h2, F1⟩ := F.setDE he s (some (v / 2).toNat) (by rintro c hc; cases hc; exact hlt)
    simp only [h2, Option.bind_some]
    obtain ⟨h3, a, h4, F2⟩ := F1.addRef hlt he
    obtain ⟨h5, h6, F3⟩ := F2.setDE he s none (by simp)
    simp only [h4, Option.bind_some]
    split
    · simp_all only [Prod.mk.injEq, Option.bind_some]
      exact Runs.mk F3 _
    · simp_all only [Prod.mk.injEq, Option.bind_some]
      exact Runs.mk F3 _
    · rename_i heq
      cases heq
      split
      · exact Runs.mk F2 _
      · simp only [h6, Option.bind_some]
        exact Runs.mk F3 _
  · exact Runs.mk F _

theorem Fit.linkDEs {e : Nat} (he : e < es.length) : ∀ (l : List (Nat × Int)) (ok : Bool) {h : Heap}, Fit es h →
    (∀ q ∈ l, pos q.2 ≠ e) → Runs es (linkDEs es.length e l ok h)
  | [], ok, h, F, _ => Runs.mk F _
  | (s, v) :: l, ok, h, F, hl => by
    obtain ⟨h1, a, h2, F1⟩ := F.linkDE he s v (hl _ List.mem_cons_self)
    have hl' := fun q hq => hl q (List.mem_cons_of_mem _ hq)
    unfold Link.linkDEs
    simp only [h2, Option.bind_eq_bind, Option.bind_some]
    cases a with
    | fine => exact Fit.linkDEs he l _ F1 hl'
    | bad => exact Fit.linkDEs he l _ F1 hl'
    | stop => exact Runs.mk F1 _

theorem Fit.linkBase (F : Fit es h) {e : Nat} (he : e < es.length) (r : REnt) (hx : r.extras = [])
    (hs : ∀ q ∈ dePointers r.de, pos q.2 ≠ e) (done : List Nat) : Runs es (linkBase es.length e r h done) := by
  unfold Link.linkBase
  split
  · exact Runs.mk F _
  · obtain ⟨h1, ⟨a, b⟩, h2, F1⟩ := Fit.linkDEs he (dePointers r.de) true F hs
    simp only [h2, Option.bind_eq_bind, Option.bind_some, hx]
    cases b with
    | true => exact Runs.mk F1 _
    | false => exact Runs.mk F1 _

/-- How numbers are looked up. -/
def Finds (n : Nat) (find : Find) (v : Int) : Prop := find v = some none ∨ ∃ c, find v = some (some c) ∧ c < n

theorem finds_range (n : Nat) (v : Int) : Finds n (findRange n) v := by
  unfold Finds findRange
  split
  · rename_i h
    exact .inr ⟨_, rfl, h.2⟩
  · exact .inl rfl

theorem finds_odd (n : Nat) (v : Int) : Finds n (findOdd n) v := by
  unfold Finds findOdd
  split
  · exact .inl rfl
  · exact finds_range n v

theorem finds_above (n : Nat) (v : Int) (hv : 0 ≤ v) : Finds n (findAbove n) v := by
  unfold Finds findAbove
  rw [if_neg (by omega)]
  exact finds_range n v

theorem Fit.linkOwn (F : Fit es h) {e c : Nat} (he : e < es.length) (hc : c < es.length) (i : Nat) (b : Bool) (d : OnDup) :
    Runs es (linkOwn h e i c b d) := by
  unfold Link.linkOwn
  obtain ⟨h1, h2, F1⟩ := F.setOwn he i (some c)
  simp only [h2, Option.bind_eq_bind, Option.bind_some]
  obtain ⟨h3, ⟨a1, a2⟩, h4, F2⟩ := F1.addRef hc he
  obtain ⟨h5, h6, F3⟩ := F2.setOwn he i none
  simp only [h4, Option.bind_some]
  cases a1 <;> cases a2 <;> cases d <;> simp only [h6, Option.bind_some] <;>
    first | exact Runs.mk F2 _ | exact Runs.mk F3 _

theorem Fit.linkOwnAt (F : Fit es h) {e : Nat} (he : e < es.length) {find : Find} {v : Int} (hf : Finds es.length find v)
    (good : Obj → Bool) (i : Nat) (b : Bool) (d : OnDup) : Runs es (linkOwnAt find good h e i v b d) := by
  unfold Link.linkOwnAt
  rcases hf with h1 | ⟨c, h1, hc⟩
  · simp only [h1, Option.bind_eq_bind, Option.bind_some]
    exact Runs.mk F _
  · obtain ⟨oc, hoc⟩ := F.get hc
    simp only [h1, Option.bind_eq_bind, Option.bind_some, Link.get, hoc]
    split
    · exact F.linkOwn he hc i b d
    · exact Runs.mk F _

theorem Fit.linkKid (F : Fit es h) {e c : Nat} (he : e < es.length) (hc : c < es.length) (b : Bool) : Runs es (linkKid h e c b) := by
  unfold Link.linkKid
  obtain ⟨h3, ⟨a1, a2⟩, h4, F2⟩ := F.addRef hc he
  simp only [h4, Option.bind_eq_bind, Option.bind_some]
  cases a1 with
  | false => exact Runs.mk F2 _
  | true =>
    dsimp only
    split
    · exact Runs.mk F2 _
    · obtain ⟨h5, h6, F3⟩ := F2.edit he (f := fun o => { o with kids := o.kids ++ [c] }) fun o ho => F2.same ho rfl rfl rfl rfl
      simp only [h6, Option.bind_some]
      exact Runs.mk F3 _

theorem Fit.linkKids {e : Nat} (he : e < es.length) {find : Find} (good : Obj → Bool) (b : Bool) : ∀ (l : List Int) {h : Heap},
    Fit es h → (∀ v ∈ l, Finds es.length find v) → Runs es (linkKids find good b e l h)
  | [], h, F, _ => Runs.mk F _
  | v :: l, h, F, hl => by
    unfold Link.linkKids
    rcases hl v List.mem_cons_self with h1 | ⟨c, h1, hc⟩
    · simp only [h1, Option.bind_eq_bind, Option.bind_some]
      exact Runs.mk F _
    · obtain ⟨oc, hoc⟩ := F.get hc
      simp only [h1, Option.bind_eq_bind, Option.bind_some, Link.get, hoc]
      split
      · obtain ⟨h3, a, h4, F2⟩ := F.linkKid he hc b
        simp only [h4, Option.bind_some]
        cases a with
        | true => exact Fit.linkKids he good b l F2 (fun v hv => hl v (List.mem_cons_of_mem _ hv))
        | false => exact Runs.mk F2 _
      · exact Runs.mk F _

theorem Runs.andThen {x : Option (Heap × Bool)} (hx : Runs es x) {f : Heap → Option (Heap × Bool)} (hf : ∀ h, Fit es h → Runs es (f h)) :
    Runs es (Link.andThen x f) := by
  obtain ⟨h, a, rfl, F⟩ := hx
  unfold Link.andThen
  simp only [Option.bind_eq_bind, Option.bind_some]
  cases a with
  | false => exact Runs.mk F _
  | true => exact hf h F

theorem Fit.linkArgs {e : Nat} (he : e < es.length) : ∀ (l : List Int) {h : Heap}, Fit es h → Runs es (linkArgs es.length e l h)
  | [], h, F => Runs.mk F _
  | v :: l, h, F => by
    unfold Link.linkArgs
    rcases finds_range es.length v with h1 | ⟨c, h1, hc⟩
    · simp only [h1, Option.bind_eq_bind, Option.bind_some]
      exact Runs.mk F _
    · obtain ⟨oc, hoc⟩ := F.get hc
      simp only [h1, Option.bind_eq_bind, Option.bind_some, Link.get, hoc]
      split
      · obtain ⟨h5, h6, F3⟩ := F.edit he (f := fun o => { o with kids := o.kids ++ [c] }) fun o ho => F.same ho rfl rfl rfl rfl
        simp only [h6, Option.bind_some]
        obtain ⟨h3, ⟨a1, a2⟩, h4, F2⟩ := F3.addRef hc he
        simp only [h4, Option.bind_some]
        cases a1 <;> cases a2 <;> first | exact Fit.linkArgs he l F2 | exact Runs.mk F2 _
      · exact Runs.mk F _

theorem Fit.addVertexList (F : Fit es h) {e v : Nat} (he : e < es.length) (hv : v < es.length) :
    Runs es (addVertexList h e (some v)) := by
  obtain ⟨o, ho⟩ := F.get he
  unfold Graph.addVertexList
  rw [ho]
  dsimp only
  split
  · refine ⟨_, _, rfl, F.put ho rfl rfl (fun c hc => F.de _ _ _ ho hc) ?_⟩
    intro q hq
    simp only [List.mem_map] at hq
    obtain ⟨p, hp, rfl⟩ := hq
    have := F.verts _ _ p ho hp
    split <;> exact this
  · obtain ⟨h3, ⟨a1, a2⟩, h4, F2⟩ := F.addRef hv he
    rw [h4]
    dsimp only
    split
    · obtain ⟨o1, ho1⟩ := F2.get he
      rw [ho1]
      dsimp only
      refine ⟨_, _, rfl, F2.put ho1 rfl rfl (fun c hc => F2.de _ _ _ ho1 hc) ?_⟩
      intro q hq
      simp only [List.mem_append, List.mem_singleton] at hq
      rcases hq with h1 | rfl
      · exact F2.verts _ _ _ ho1 h1
      · exact hv
    · exact Runs.mk F2 _

theorem Fit.delVertexList (F : Fit es h) {e : Nat} (he : e < es.length) (v : Nat) : Runs1 es (delVertexList h e v) := by
  obtain ⟨o, ho⟩ := F.get he
  unfold Graph.delVertexList
  rw [ho]
  dsimp only
  cases hfd : o.verts.find? (fun q => q.1 == v) with
  | none => exact ⟨h, rfl, F⟩
  | some q =>
    obtain ⟨w, n⟩ := q
    have hm := List.mem_of_find?_eq_some hfd
    have hw : w = v := by simpa using List.find?_some hfd
    subst hw
    have hwl := F.verts _ _ _ ho hm
    dsimp only
    split
    · obtain ⟨h1, a, h2, F1⟩ := F.delRef hwl e
      obtain ⟨o1, ho1⟩ := F1.get he
      rw [h2]
      dsimp only
      rw [ho1]
      dsimp only
      exact ⟨_, rfl, F1.put ho1 rfl rfl (fun c hc => F1.de _ _ _ ho1 hc)
        (fun q hq => F1.verts _ _ q ho1 (List.mem_of_mem_eraseP hq))⟩
    · refine ⟨_, rfl, F.put ho rfl rfl (fun c hc => F.de _ _ _ ho hc) ?_⟩
      intro q hq
      simp only [List.mem_map] at hq
      obtain ⟨p, hp, rfl⟩ := hq
      have := F.verts _ _ p ho hp
      split <;> exact this

theorem Fit.AddEdge (F : Fit es h) {e c s t : Nat} (he : e < es.length) (hc : c < es.length) (hs : s < es.length)
    (ht : t < es.length) (sv tv : Int) : Runs es (AddEdge h e (some c) (some s) sv (some t) tv) := by
  obtain ⟨oc, hoc⟩ := F.get hc
  unfold Graph.AddEdge
  dsimp only
  rw [hoc]
  dsimp only
  split
  · exact Runs.mk F _
  obtain ⟨h1, ⟨a1, a2⟩, h2, F1⟩ := F.addRef hc he
  rw [h2]
  dsimp only
  split
  · exact Runs.mk F1 _
  obtain ⟨h3, b, h4, F2⟩ := F1.addVertexList he hs
  rw [h4]
  cases b with
  | false =>
    obtain ⟨h5, a, h6, F3⟩ := F2.delRef hc e
    dsimp only
    rw [h6]
    exact Runs.mk F3 _
  | true =>
    dsimp only
    obtain ⟨h5, b, h6, F3⟩ := F2.addVertexList he ht
    rw [h6]
    cases b with
    | false =>
      dsimp only
      obtain ⟨h7, a, h8, F4⟩ := F3.delRef hc e
      rw [h8]
      dsimp only [Option.elim]
      obtain ⟨h9, h10, F5⟩ := F4.delVertexList he s
      rw [h10]
      exact Runs.mk F5 _
    | true =>
      dsimp only
      obtain ⟨os, hos⟩ := F3.get hs
      obtain ⟨ot, hot⟩ := F3.get ht
      rw [hos, hot]
      dsimp only
      split
      · obtain ⟨h7, a, h8, F4⟩ := F3.delRef hc e
        rw [h8]
        dsimp only
        obtain ⟨h9, h10, F5⟩ := F4.delVertexList he s
        rw [h10]
        dsimp only
        obtain ⟨h11, h12, F6⟩ := F5.delVertexList he t
        rw [h12]
        exact Runs.mk F6 _
      · obtain ⟨o, ho⟩ := F3.get he
        rw [ho]
        exact ⟨_, _, rfl, F3.same ho rfl rfl rfl rfl⟩

theorem Fit.linkEdges {e : Nat} (he : e < es.length) : ∀ (l : List Iges.Edge) {h : Heap}, Fit es h →
    (∀ q ∈ l, (pos q.svp < es.length → typeAt es (pos q.svp) = 502) ∧ (pos q.tvp < es.length → typeAt es (pos q.tvp) = 502)) →
    Runs es (linkEdges es.length e l h)
  | [], h, F, _ => Runs.mk F _
  | q :: l, h, F, hl => by
    obtain ⟨q1, q2⟩ := hl q List.mem_cons_self
    have hpos : ∀ v c, findRange es.length v = some (some c) → c = pos v ∧ c < es.length := by
      intro v c hc
      unfold findRange at hc
      split at hc
      · rename_i hr
        cases hc
        exact ⟨rfl, hr.2⟩
      · cases hc
    unfold Link.linkEdges
    simp only [Option.bind_eq_bind]
    rcases finds_range es.length q.curv with h1 | ⟨c, h1, hc⟩ <;> rcases finds_range es.length q.svp with h2 | ⟨s, h2, hs⟩ <;>
      rcases finds_range es.length q.tvp with h3 | ⟨t, h3, ht⟩ <;> simp only [h1, h2, h3, Option.bind_some]
    all_goals try exact Runs.mk F _
    · obtain ⟨os, hos⟩ := F.get hs
      simp only [Link.get, hos, Option.bind_some]
      have e1 := F.etype hos
      rw [(hpos _ _ h2).1, q1 ((hpos _ _ h2).1 ▸ hs)] at e1
      rw [if_neg (by simp [e1])]
      exact Runs.mk F _
    · obtain ⟨os, hos⟩ := F.get hs
      obtain ⟨ot, hot⟩ := F.get ht
      simp only [Link.get, hos, hot, Option.bind_some]
      have e1 := F.etype hos
      rw [(hpos _ _ h2).1, q1 ((hpos _ _ h2).1 ▸ hs)] at e1
      have e2 := F.etype hot
      rw [(hpos _ _ h3).1, q2 ((hpos _ _ h3).1 ▸ ht)] at e2
      rw [if_neg (by simp [e1, e2])]
      obtain ⟨h5, b, h6, F2⟩ := F.AddEdge he hc hs ht q.sv q.tv
      simp only [h6, Option.bind_some]
      cases b with
      | true => exact Fit.linkEdges he l F2 (fun q hq => hl q (List.mem_cons_of_mem _ hq))
      | false => exact Runs.mk F2 _

theorem Fit.addLoopEdge (F : Fit es h) {e c : Nat} (he : e < es.length) (hc : c < es.length) : Runs es (addLoopEdge h e c) := by
  obtain ⟨o, ho⟩ := F.get he
  unfold Link.addLoopEdge
  simp only [Link.get, ho, Option.bind_eq_bind, Option.bind_some]
  split
  · obtain ⟨h5, h6, F3⟩ := F.edit he
      (f := fun o => { o with redges := o.redges.map fun q => if q.1 = c then (q.1, q.2 + 1) else q }) fun o ho => F.same ho rfl rfl rfl rfl
    simp only [h6, Option.bind_some]
    exact Runs.mk F3 _
  · obtain ⟨h3, ⟨a1, a2⟩, h4, F2⟩ := F.addRef hc he
    obtain ⟨h5, h6, F3⟩ := F2.edit he (f := fun o => { o with redges := o.redges ++ [(c, 1)] }) fun o ho => F2.same ho rfl rfl rfl rfl
    simp only [h4, Option.bind_some]
    cases a1 <;> cases a2 <;> simp only [h6, Option.bind_some] <;> first | exact Runs.mk F2 _ | exact Runs.mk F3 _

theorem Fit.addPCurves {e : Nat} (he : e < es.length) : ∀ (l seen : List Nat) {h : Heap}, Fit es h → (∀ c ∈ l, c < es.length) →
    (∀ c ∈ seen, c < es.length) → Runs es (addPCurves e seen l h)
  | [], seen, h, F, _, _ => Runs.mk F _
  | c :: l, seen, h, F, hl, hs => by
    obtain ⟨o, ho⟩ := F.get he
    have hc := hl c List.mem_cons_self
    have hs' : ∀ x ∈ c :: seen, x < es.length := by
      intro x hx
      rcases List.mem_cons.mp hx with rfl | hx
      · exact hc
      · exact hs x hx
    unfold Link.addPCurves
    simp only [Link.get, ho, Option.bind_eq_bind, Option.bind_some]
    split
    · obtain ⟨h1, h2, F1⟩ := Fit.delRefs e (c :: seen) F hs'
      simp only [h2, Option.bind_some]
      exact Runs.mk F1 _
    · obtain ⟨h3, ⟨a1, a2⟩, h4, F2⟩ := F.addRef hc he
      obtain ⟨h5, h6, F3⟩ := Fit.delRefs e (c :: seen) F2 hs'
      simp only [h4, Option.bind_some]
      cases a1 <;> cases a2 <;> simp only [h6, Option.bind_some] <;>
        first | exact Runs.mk F3 _ | exact Fit.addPCurves he l (c :: seen) F2 (fun x hx => hl x (List.mem_cons_of_mem _ hx)) hs'

theorem findAll_lt (n : Nat) : ∀ (l : List Int) (ps : List Nat), findAll n l = some ps → ∀ c ∈ ps, c < n
  | [], ps, h => by cases h; simp
  | v :: l, ps, h => by
    unfold findAll at h
    rcases finds_range n v with h1 | ⟨c, h1, hc⟩
    · simp [h1] at h
    · simp only [h1, Option.map_eq_some_iff] at h
      obtain ⟨ps', h2, rfl⟩ := h
      intro x hx
      rcases List.mem_cons.mp hx with rfl | hx
      · exact hc
      · exact findAll_lt n l ps' h2 x hx

theorem Fit.linkLoops {e : Nat} (he : e < es.length) : ∀ (l : List LoopEdge) {h : Heap}, Fit es h → Runs es (linkLoops es.length e l h)
  | [], h, F => Runs.mk F _
  | q :: l, h, F => by
    unfold Link.linkLoops
    rcases finds_range es.length q.data with h1 | ⟨c, h1, hc⟩
    · simp only [h1, Option.bind_eq_bind, Option.bind_some]
      exact Runs.mk F _
    · simp only [h1, Option.bind_eq_bind, Option.bind_some]
      cases hps : findAll es.length (q.pcurves.map Prod.snd) with
      | none => exact Runs.mk F _
      | some ps =>
        dsimp only
        obtain ⟨h3, b, h4, F2⟩ := F.addLoopEdge he hc
        simp only [h4, Option.bind_some]
        cases b with
        | false => exact Runs.mk F2 _
        | true =>
          dsimp only
          obtain ⟨h5, b, h6, F3⟩ := Fit.addPCurves he ps [] F2 (findAll_lt _ _ _ hps) (by simp)
          simp only [h6, Option.bind_some]
          cases b with
          | false => exact Runs.mk F3 _
          | true =>
            dsimp only
            obtain ⟨h7, h8, F4⟩ := F3.edit he (f := fun o => { o with loops := o.loops ++ [(c, ps)] }) fun o ho => F3.same ho rfl rfl rfl rfl
            simp only [h8, Option.bind_some]
            exact Fit.linkLoops he l F4

theorem _root_.Iges.Spec.Linkable.noSelf {e : Nat} {r : REnt} (S : Linkable es e r) : ∀ q ∈ dePointers r.de, pos q.2 ≠ e := by
  intro q hq
  simp only [dePointers, deNumbers, List.mem_filter, decide_eq_true_eq] at hq
  refine S.self q.2 ?_ hq.2
  have := List.mem_map_of_mem (f := Prod.snd) hq.1
  simpa using this

theorem Fit.linkClass (G : Geo) (F : Fit es h) {e : Nat} (he : e < es.length) {r : REnt} (S : Linkable es e r) :
    Runs es (linkClass G es.length e r.body h) := by
  have D := fun l => F.dropped he l
  cases hb : r.body with
  | arc _ => exact D _
  | conic _ => exact D _
  | line _ => exact D _
  | cylinder _ => exact D _
  | composite _ => exact Runs.mk F _
  | curve _ => exact Runs.mk F _
  | surf _ => exact Runs.mk F _
  | vertices _ => exact Runs.mk F _
  | null _ => exact Runs.mk F _
  | tx _ => exact D _
  | colour _ => exact D _
  | name _ => exact D _
  | revolution k =>
    refine Runs.andThen ?_ fun h1 F1 => ?_
    · split
      · exact Runs.mk F _
      · exact F.linkOwnAt he (finds_range _ _) _ _ _ _
    · split
      · exact Runs.mk F1 _
      · exact F1.linkOwnAt he (finds_range _ _) _ _ _ _
  | tabCyl k =>
    refine Runs.andThen (D _) fun h1 F1 => ?_
    split
    · exact Runs.mk F1 _
    · exact F1.linkOwnAt he (finds_odd _ _) _ _ _ _
  | onSurface k =>
    unfold Link.linkClass
    dsimp only
    split
    · exact Runs.mk F _
    refine Runs.andThen (F.linkOwnAt he (finds_range _ _) _ _ _ _) fun h1 F1 => Runs.andThen ?_ fun h2 F2 => ?_
    · split
      · exact Runs.mk F1 _
      · exact F1.linkOwnAt he (finds_range _ _) _ _ _ _
    · split
      · exact Runs.mk F2 _
      · exact F2.linkOwnAt he (finds_range _ _) _ _ _ _
  | trimmed k =>
    unfold Link.linkClass
    dsimp only
    split
    · exact Runs.mk F _
    refine Runs.andThen (F.linkOwnAt he (finds_range _ _) _ _ _ _) fun h1 F1 => ?_
    split
    · exact Runs.mk F1 _
    refine Runs.andThen (F1.linkOwnAt he (finds_range _ _) _ _ _ _) fun h2 F2 => ?_
    exact Fit.linkKids he _ _ _ F2 fun v _ => finds_odd _ _
  | extrusion k =>
    refine Runs.andThen (D _) fun h1 F1 => ?_
    split
    · exact Runs.mk F1 _
    rcases finds_range es.length k.PTR with h2 | ⟨c, h2, hc⟩
    · simp only [h2, Option.bind_eq_bind, Option.bind_some]
      exact Runs.mk F1 _
    · simp only [h2, Option.bind_eq_bind, Option.bind_some]
      obtain ⟨h3, ⟨a1, a2⟩, h4, F2⟩ := F1.addRef hc he
      obtain ⟨h5, h6, F3⟩ := F2.setOwn he 0 (some c)
      obtain ⟨oc, hoc⟩ := F2.get hc
      simp only [h4, Option.bind_some]
      cases a1 <;> cases a2 <;> simp only [Link.get, hoc, h6, Option.bind_some]
      all_goals try exact Runs.mk F2 _
      split
      · exact Runs.mk F3 _
      · exact Runs.mk F2 _
  | tree k => exact Runs.andThen (D _) fun h1 F1 => Fit.linkArgs he _ F1
  | solid k =>
    unfold Link.linkClass
    dsimp only
    split
    · exact Runs.mk F _
    refine Runs.andThen (F.linkOwnAt he (finds_range _ _) _ _ _ _) fun h1 F1 => ?_
    refine Fit.linkKids he _ _ _ F1 fun v hv => finds_above _ _ ?_
    obtain ⟨p, hp, rfl⟩ := List.mem_map.mp hv
    exact S.voids k hb p hp
  | subfigure k => exact Fit.linkKids he _ _ _ F fun v _ => finds_odd _ _
  | inst k =>
    refine Runs.andThen (D _) fun h1 F1 => ?_
    split
    · exact Runs.mk F1 _
    · exact F1.linkOwnAt he (finds_odd _ _) _ _ _ _
  | edges k => exact Fit.linkEdges he k F (S.vertices k hb)
  | loop k => exact Fit.linkLoops he k F
  | face k =>
    unfold Link.linkClass
    dsimp only
    split
    · exact Runs.mk F _
    refine Runs.andThen (F.linkOwnAt he (finds_range _ _) _ _ _ _) fun h1 F1 => ?_
    exact Fit.linkKids he _ _ _ F1 fun v hv => finds_above _ _ (S.loops k hb v hv)
  | shell k =>
    unfold Link.linkClass
    dsimp only
    split
    · exact Runs.mk F _
    refine Fit.linkKids he _ _ _ F fun v hv => finds_above _ _ ?_
    obtain ⟨p, hp, rfl⟩ := List.mem_map.mp hv
    exact S.faces k hb p hp

theorem Fit.linkPlain (G : Geo) (F : Fit es h) {e : Nat} (he : e < es.length) {r : REnt} (S : Linkable es e r) (done : List Nat) :
    Runs es (linkPlain G es.length e r h done) := by
  unfold Link.linkPlain
  obtain ⟨h1, ⟨d, b⟩, h2, F1⟩ := F.linkBase he r S.extras S.noSelf done
  simp only [h2, Option.bind_eq_bind, Option.bind_some]
  split
  · obtain ⟨h3, b, h4, F2⟩ := Fit.linkClass G F1 he S
    simp only [h4, Option.bind_some]
    exact Runs.mk F2 _
  · exact Runs.mk F1 _

theorem Fit.linkCurves (G : Geo) (S : ∀ i r, es[i]? = some r → Linkable es i r) {e : Nat} (he : e < es.length) : ∀ (l : List Int) (ok : Bool)
    {h : Heap} (done : List Nat), Fit es h → Runs es (linkCurves G es e l ok h done)
  | [], ok, h, done, F => Runs.mk F _
  | v :: l, ok, h, done, F => by
    unfold Link.linkCurves
    rcases finds_range es.length v with h1 | ⟨c, h1, hc⟩
    · simp only [h1, Option.bind_eq_bind, Option.bind_some]
      exact Fit.linkCurves G S he l _ _ F
    · obtain ⟨oc, hoc⟩ := F.get hc
      simp only [h1, Option.bind_eq_bind, Option.bind_some, Link.get, hoc]
      split
      · obtain ⟨h3, ⟨a1, a2⟩, h4, F2⟩ := F.addRef hc he
        simp only [h4, Option.bind_some]
        cases a1 with
        | false => exact Fit.linkCurves G S he l _ _ F2
        | true =>
          cases a2 with
          | true => exact Fit.linkCurves G S he l _ _ F2
          | false =>
            obtain ⟨h5, h6, F3⟩ := F2.edit he (f := fun o => { o with kids := o.kids ++ [c] }) fun o ho => F2.same ho rfl rfl rfl rfl
            have hr : es[c]? = some es[c] := List.getElem?_eq_getElem hc
            obtain ⟨h7, ⟨d, b⟩, h8, F4⟩ := Fit.linkPlain G F3 hc (S c _ hr) done
            simp only [h6, hr, h8, Option.bind_some]
            exact Fit.linkCurves G S he l _ _ F4
      · exact Fit.linkCurves G S he l _ _ F

theorem Fit.linkEnt (G : Geo) (S : ∀ i r, es[i]? = some r → Linkable es i r) {e : Nat} (he : e < es.length) (F : Fit es h) (done : List Nat) :
    Runs es (linkEnt G es e h done) := by
  have hr : es[e]? = some es[e] := List.getElem?_eq_getElem he
  have Se := S e _ hr
  unfold Link.linkEnt
  simp only [hr, Option.bind_eq_bind, Option.bind_some]
  split
  · obtain ⟨h1, ⟨d, b⟩, h2, F1⟩ := F.linkBase he _ Se.extras Se.noSelf done
    simp only [h2, Option.bind_some]
    split
    · obtain ⟨h3, h4, F2⟩ := Fit.dropDEs he [0] F1
      simp only [h4, Option.bind_some]
      rename_i k _ _
      obtain ⟨h5, ⟨d, b⟩, h6, F3⟩ := Fit.linkCurves G S he k true d F2
      simp only [h6, Option.bind_some]
      exact Runs.mk F3 _
    · exact Runs.mk F1 _
  · exact Fit.linkPlain G F he Se done

theorem Fit.linkFrom (G : Geo) (S : ∀ i r, es[i]? = some r → Linkable es i r) : ∀ (l : List Nat) {h : Heap} (done : List Nat),
    (∀ e ∈ l, e < es.length) → Fit es h → Runs es (linkFrom G es l h done)
  | [], h, done, _, F => Runs.mk F _
  | e :: l, h, done, hl, F => by
    obtain ⟨h1, ⟨d, b⟩, h2, F1⟩ := Fit.linkEnt G S (hl e List.mem_cons_self) F done
    unfold Link.linkFrom
    simp only [h2, Option.bind_eq_bind, Option.bind_some]
    cases b with
    | true => exact Fit.linkFrom G S l d (fun e he => hl e (List.mem_cons_of_mem _ he)) F1
    | false => exact Runs.mk F1 _

theorem fit_heapOf (es : List REnt) : Fit es (heapOf es) := by
  have hde : ∀ r : REnt, (objOf r).de = List.replicate 7 none ∧ (objOf r).extras = [] ∧ (objOf r).verts = [] ∧
      (objOf r).etype = r.body.etype.toNat := by
    rintro ⟨d, b, x, c⟩
    cases b <;> exact ⟨rfl, rfl, rfl, rfl⟩
  constructor
  · intro i
    unfold heapOf
    rw [Option.map_map]
    congr 1
    funext r
    exact (hde r).2.2.2
  · intro i o ho
    unfold heapOf at ho
    rw [Option.map_eq_some_iff] at ho
    obtain ⟨r, _, rfl⟩ := ho
    exact (hde r).2.1
  · intro i o c ho hc
    unfold heapOf at ho
    rw [Option.map_eq_some_iff] at ho
    obtain ⟨r, _, rfl⟩ := ho
    rw [(hde r).1] at hc
    simp at hc
  · intro i o q ho hc
    unfold heapOf at ho
    rw [Option.map_eq_some_iff] at ho
    obtain ⟨r, _, rfl⟩ := ho
    rw [(hde r).2.2.1] at hc
    simp at hc

/-- Linking is defined. -/
theorem linkAll_runs (G : Geo) (S : ∀ i r, es[i]? = some r → Linkable es i r) : Runs es (linkAll G es) := by
  unfold linkAll
  exact Fit.linkFrom G S _ _ (fun e he => List.mem_range.mp he) (fit_heapOf es)

end Iges.Props.T
