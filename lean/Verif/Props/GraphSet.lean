import Verif.Props.GraphDel

/-!
Setting pointers: what becomes of the graph.
-/

namespace Iges.Props.G

open Iges.Graph Iges.Spec

/-- Types are fixed and nothing is created or destroyed. -/
def SameTypes (h h' : Heap) : Prop := ∀ x, (h' x).map Obj.etype = (h x).map Obj.etype

theorem SameTypes.refl (h) : SameTypes h h := fun _ => rfl

theorem SameTypes.trans {h h' h''} (a : SameTypes h h') (b : SameTypes h' h'') :
    SameTypes h h'' := fun x => (b x).trans (a x)

theorem SameTypes.put {h : Heap} {i : Nat} {o o' : Obj} (hi : h i = some o)
    (ht : o'.etype = o.etype) : SameTypes h (h.put i o') := by
  intro x
  by_cases hx : x = i
  · subst hx; simp [hi, ht]
  · simp [hx]

theorem SameTypes.some {h h'} (a : SameTypes h h') {x : Nat} {o : Obj} (hx : h x = some o) :
    ∃ o', h' x = some o' ∧ o'.etype = o.etype := by
  have := a x
  rw [hx] at this
  cases hh : h' x with
  | none => rw [hh] at this; cases this
  | some o' => rw [hh] at this; exact ⟨o', rfl, by simpa using this⟩

theorem SameTypes.eraseRefs (h : Heap) (S : List Nat) (p : Nat) :
    SameTypes h (eraseRefs h S p) := by
  intro x
  unfold G.eraseRefs
  split
  · cases h x <;> rfl
  · rfl

/-- The graph is in order. -/
structure Good (ty : Nat → Nat) (h : Heap) : Prop where
  loc : Loc ty (fun _ => []) h
  sym : Sym h

/-- The outcome of a call: the graph is in order and nothing was created or destroyed. -/
def Fine (ty : Nat → Nat) (h h' : Heap) : Prop := Good ty h' ∧ SameTypes h h'

theorem Good.fine {ty h} (G : Good ty h) : Fine ty h h := ⟨G, SameTypes.refl h⟩

theorem Fine.trans {ty h h' h''} (a : SameTypes h h') (b : Fine ty h' h'') : Fine ty h h'' :=
  ⟨b.1, a.trans b.2⟩

theorem addRef_cases {h : Heap} {c e : Nat} {oc oe : Obj} (hc : h c = some oc)
    (he : h e = some oe) :
    addRef h c e = some (h, false, false) ∨ addRef h c e = some (h, true, true)
      ∨ (addRef h c e = some (h.put c { oc with refs := oc.refs ++ [e] }, true, false)
          ∧ oc.etype ≠ 0 ∧ e ∉ oc.refs ∧ some e ∉ oc.de ∧ e ∉ oc.extras) := by
  unfold addRef
  rw [hc, he]
  simp only
  by_cases h0 : oc.etype = 0
  · simp [h0]
  by_cases c1 : oc.etype = 102 ∧ oe.etype = 102
  · simp [c1]
  by_cases c2 : (oc.etype = 122 ∨ oc.etype = 142 ∨ oc.etype = 144 ∨ oc.etype = 164
      ∨ oc.etype = 408) ∧ some e ∈ oc.own
  · simp [h0, c1, c2]
  by_cases c3 : (oc.etype = 144 ∨ oc.etype = 308) ∧ e ∈ oc.kids
  · simp [h0, c1, c2, c3]
  by_cases c4 : (oc.etype = 502 ∨ oc.etype = 504 ∨ oc.etype = 508) ∧ e = c
  · simp only [if_neg h0, if_neg c1, if_neg c2, if_neg c3, if_pos c4, true_or]
  by_cases c5 : oc.etype = 504 ∧ e ∈ oc.edges.map Edge.curv
  · simp only [if_neg h0, if_neg c1, if_neg c2, if_neg c3, if_neg c4, if_pos c5, true_or]
  by_cases c6 : oc.etype = 508 ∧ (e ∈ oc.loops.map Prod.fst ∨ e ∈ oc.loops.flatMap Prod.snd)
  · simp only [if_neg h0, if_neg c1, if_neg c2, if_neg c3, if_neg c4, if_neg c5, if_pos c6, true_or]
  by_cases c7 : some e ∈ oc.de
  · simp only [if_neg h0, if_neg c1, if_neg c2, if_neg c3, if_neg c4, if_neg c5, if_neg c6,
      if_pos c7, true_or]
  by_cases c8 : e ∈ oc.refs
  · simp only [if_neg h0, if_neg c1, if_neg c2, if_neg c3, if_neg c4, if_neg c5, if_neg c6,
      if_neg c7, if_pos c8, true_or, or_true]
  by_cases c9 : e ∈ oc.extras
  · simp only [if_neg h0, if_neg c1, if_neg c2, if_neg c3, if_neg c4, if_neg c5, if_neg c6,
      if_neg c7, if_neg c8, if_pos c9, true_or, or_true]
  · refine Or.inr (Or.inr ⟨?_, h0, c8, c7, c9⟩)
    simp only [if_neg h0, if_neg c1, if_neg c2, if_neg c3, if_neg c4, if_neg c5, if_neg c6,
      if_neg c7, if_neg c8, if_neg c9]

theorem addRef_self_refused {h : Heap} {e : Nat} {o : Obj} (he : h e = some o)
    (hr : some e ∈ o.de ∨ (o.etype = 142 ∧ some e ∈ o.own)) :
    addRef h e e = some (h, false, false) := by
  rcases addRef_cases he he with h1 | h1 | ⟨h1, h2, h3, h4, h5⟩
  · exact h1
  · exfalso
    unfold addRef at h1
    rw [he] at h1
    simp only at h1
    split_ifs at h1 with c0 c1 c2 c3 c4 c5 c6 c7 <;>
      first
        | (simp only [Option.some.injEq, Prod.mk.injEq, Bool.false_eq_true,
            and_false] at h1; done)
        | (rcases hr with hr | hr
           · exact c7 hr
           · exact c2 ⟨Or.inr (Or.inl hr.1), hr.2⟩)
  · exfalso
    rcases hr with hr | ⟨hr, hr'⟩
    · exact h4 hr
    · unfold addRef at h1
      rw [he] at h1
      simp only [hr] at h1
      simp [hr'] at h1

theorem ObjOk.depends {ty pend x o} (H : ObjOk ty pend x o) (d : Nat) :
    ObjOk ty pend x { o with depends := d } :=
  ⟨H.type, H.no402, H.refsNd, H.chNd, H.noSelf, H.null, H.t124, H.noEdge, H.noLoop, H.noKids,
    H.t504, H.counts, H.deLen, H.ownLen⟩

theorem ObjOk.npts {ty pend x o} (H : ObjOk ty pend x o) (d : Nat) :
    ObjOk ty pend x { o with npts := d } :=
  ⟨H.type, H.no402, H.refsNd, H.chNd, H.noSelf, H.null, H.t124, H.noEdge, H.noLoop, H.noKids,
    H.t504, H.counts, H.deLen, H.ownLen⟩

theorem ObjOk.addUser {ty pend x o} (H : ObjOk ty pend x o) {e : Nat} (he : e ∉ o.refs)
    (h0 : o.etype ≠ 0) : ObjOk ty pend x { o with refs := o.refs ++ [e] } :=
  H.refs (by
    rw [List.nodup_append]
    refine ⟨H.refsNd, by simp, ?_⟩
    intro a ha b hb
    simp only [List.mem_singleton] at hb
    subst hb
    rintro rfl
    exact he ha) (fun h => absurd h h0)

/-- Adding a link on both sides. -/
theorem Good.link {ty h} (G : Good ty h) {e c : Nat} {oe oe' oc oc' : Obj} (hec : e ≠ c)
    (he : h e = some oe) (hc : h c = some oc) (hn : e ∉ oc.refs)
    (hr : oe'.refs = oe.refs) (hch : oe'.children.Perm (c :: oe.children))
    (hoe : ObjOk ty [] e oe') (hr' : oc'.refs = oc.refs ++ [e])
    (hch' : oc'.children = oc.children) (hoc : ObjOk ty [] c oc') :
    Fine ty h ((h.put c oc').put e oe') := by
  refine ⟨⟨(G.loc.put hoc).put hoe, ?_⟩, ?_⟩
  · intro x y
    rw [Ch_put, Ch_put, Us_put, Us_put]
    have hnu : ¬ Us h c e := by rw [Us_of hc]; exact hn
    by_cases hx : x = e
    · subst hx
      have h1 : ∀ y, y ∈ oe'.children ↔ y = c ∨ Ch h x y := by
        intro y; rw [hch.mem_iff, List.mem_cons, Ch_of he]
      rw [h1, G.sym]
      by_cases hy : y = x
      · subst hy
        simp only [hr, true_and, ne_eq, not_true_eq_false, false_and, or_false, Us_of he]
        constructor
        · rintro (h | h)
          · exact absurd h hec
          · exact h
        · exact Or.inr
      · by_cases hyc : y = c
        · subst hyc; simp [hy, hr']
        · simp [hy, hyc]
    · by_cases hxc : x = c
      · subst hxc
        simp only [hch', ← Ch_of hc]
        have hs := G.sym x y
        by_cases hy : y = e
        · subst hy; rw [Us_of he] at hs; simp [hx, hr, hs]
        · by_cases hyx : y = x
          · subst hyx; rw [Us_of hc] at hs; simp [hx, hr', hs]
          · simp [hx, hy, hyx, hs]
      · simp only [hx, hxc, false_and, ne_eq, not_false_eq_true, true_and, false_or]
        rw [G.sym]
        by_cases hy : y = e
        · subst hy; simp [hr, Us_of he]
        · by_cases hyc : y = c
          · subst hyc; simp [hy, hr', Us_of hc, hx]
          · simp [hy, hyc]
  · refine (SameTypes.put hc ?_).trans (SameTypes.put (o := oe) (by simp [hec, he]) ?_)
    · rw [hoc.type, (G.loc c oc hc).type]
    · rw [hoe.type, (G.loc e oe he).type]

/-- Removing links on both sides. -/
theorem Good.cut {ty h} (G : Good ty h) {e : Nat} {o o' : Obj} {S : List Nat}
    (he : h e = some o) (hr : o'.refs = o.refs)
    (hp : o.children.Perm (S ++ o'.children)) (ho : ObjOk ty [] e o') :
    Fine ty h ((eraseRefs h S e).put e o') := by
  have hS : e ∉ S := fun h1 =>
    (G.loc e o he).noSelf (hp.symm.subset (List.mem_append_left _ h1))
  have ht : o'.etype = o.etype := by rw [ho.type, (G.loc e o he).type]
  have C := cut_of G.loc he hS hr ht hp
  refine ⟨⟨(G.loc.eraseRefs S e).put ho, ?_⟩, ?_⟩
  · intro x c
    rw [C.ch, C.us, G.sym]
  · intro x
    by_cases hx : x = e
    · subst hx; exact C.self
    · cases hh : h x with
      | none => rw [C.dead x hh]
      | some ox =>
        obtain ⟨r, hr⟩ := C.other x hx ox hh
        rw [hr]; rfl

/-- Changing nothing that matters. -/
theorem Good.put {ty h} (G : Good ty h) {e : Nat} {o o' : Obj} (he : h e = some o)
    (hr : o'.refs = o.refs) (hch : o'.children = o.children) (ho : ObjOk ty [] e o') :
    Fine ty h (h.put e o') := by
  have := G.cut (S := []) he hr (by rw [hch]; simp) ho
  rwa [eraseRefs_nil] at this

theorem Good.live {ty h} (G : Good ty h) {e c : Nat} {o : Obj} (he : h e = some o)
    (hc : c ∈ o.children) : ∃ oc, h c = some oc ∧ oc.etype ≠ 0 ∧ e ∈ oc.refs := by
  obtain ⟨oc, h1, h2⟩ := (G.sym e c).mp ⟨o, he, hc⟩
  refine ⟨oc, h1, ?_, h2⟩
  intro h0
  rw [((G.loc c oc h1).null h0).1] at h2
  cases h2

/-! ### Single pointers -/

/-- The pointer exists in this class. -/
def SlotIn (o : Obj) : Slot → Prop
  | .de i => i < 7
  | .own i => i < ownSize o.etype

theorem slot_get {ty pend x o} (H : ObjOk ty pend x o) {s : Slot} (hs : SlotIn o s) :
    (match s with | .de i => o.de[i]? | .own i => o.own[i]?) = some (o.slot s) := by
  cases s with
  | de i =>
    have : i < o.de.length := by rw [H.deLen]; exact hs
    simp [Obj.slot, List.getElem?_eq_getElem this]
  | own i =>
    have : i < o.own.length := by rw [H.ownLen]; exact hs
    simp [Obj.slot, List.getElem?_eq_getElem this]

theorem setSlot_none_perm {ty pend x o} (H : ObjOk ty pend x o) {s : Slot} (hs : SlotIn o s)
    {c : Nat} (hc : o.slot s = some c) :
    o.children.Perm ([c] ++ (o.setSlot s none).children) := by
  have hg := slot_get H hs
  rw [hc] at hg
  rw [children_eq H.noLoop.1 H.noLoop.2]
  cases s with
  | de i =>
    rw [children_eq (o := o.setSlot (.de i) none) H.noLoop.1 H.noLoop.2]
    have := set_none_perm hg
    simp only [Obj.setSlot]
    rw [List.perm_iff_count] at this ⊢
    intro a
    have := this a
    simp only [List.count_append, List.count_cons, List.count_nil] at this ⊢
    omega
  | own i =>
    rw [children_eq (o := o.setSlot (.own i) none) H.noLoop.1 H.noLoop.2]
    have := set_none_perm hg
    simp only [Obj.setSlot]
    rw [List.perm_iff_count] at this ⊢
    intro a
    have := this a
    simp only [List.count_append, List.count_cons, List.count_nil] at this ⊢
    omega

theorem setSlot_some_perm {ty pend x o} (H : ObjOk ty pend x o) {s : Slot} (hs : SlotIn o s)
    (hc : o.slot s = none) (c : Nat) :
    (o.setSlot s (some c)).children.Perm (c :: o.children) := by
  have hg := slot_get H hs
  rw [hc] at hg
  rw [children_eq H.noLoop.1 H.noLoop.2]
  cases s with
  | de i =>
    rw [children_eq (o := o.setSlot (.de i) (some c)) H.noLoop.1 H.noLoop.2]
    have := set_some_perm (c := c) hg
    simp only [Obj.setSlot]
    rw [List.perm_iff_count] at this ⊢
    intro a
    have := this a
    simp only [List.count_append, List.count_cons] at this ⊢
    omega
  | own i =>
    rw [children_eq (o := o.setSlot (.own i) (some c)) H.noLoop.1 H.noLoop.2]
    have := set_some_perm (c := c) hg
    simp only [Obj.setSlot]
    rw [List.perm_iff_count] at this ⊢
    intro a
    have := this a
    simp only [List.count_append, List.count_cons] at this ⊢
    omega

theorem set_same {l : List (Option Nat)} {i : Nat} {v : Option Nat} (h : l[i]? = some v) :
    l.set i v = l := by
  apply List.ext_getElem?
  intro j
  rw [List.getElem?_set]
  split
  · rename_i hij
    subst hij
    rw [h]
    split
    · rfl
    · rename_i hl
      rw [List.getElem?_eq_none (by omega)] at h
      cases h
  · rfl

theorem setSlot_same {ty pend x o} (H : ObjOk ty pend x o) {s : Slot} (hs : SlotIn o s)
    (hc : o.slot s = none) : o.setSlot s none = o := by
  have hg := slot_get H hs
  rw [hc] at hg
  cases s with
  | de i => simp only [Obj.setSlot]; rw [set_same hg]
  | own i => simp only [Obj.setSlot]; rw [set_same hg]

theorem setSlot_setSlot (o : Obj) (s : Slot) (v w : Option Nat) :
    (o.setSlot s v).setSlot s w = o.setSlot s w := by
  cases s <;> simp [Obj.setSlot, List.set_set]

theorem slot_setSlot_none (o : Obj) (s : Slot) : (o.setSlot s none).slot s = none := by
  cases s with
  | de i =>
    simp only [Obj.setSlot, Obj.slot, List.getElem?_set]
    split
    · split <;> rfl
    · rename_i h; exact absurd trivial h
  | own i =>
    simp only [Obj.setSlot, Obj.slot, List.getElem?_set]
    split
    · split <;> rfl
    · rename_i h; exact absurd trivial h

@[simp] theorem setSlot_etype (o : Obj) (s : Slot) (v) : (o.setSlot s v).etype = o.etype := by
  cases s <;> rfl

@[simp] theorem setSlot_refs (o : Obj) (s : Slot) (v) : (o.setSlot s v).refs = o.refs := by
  cases s <;> rfl

theorem setSlot_none_ok {ty pend x o} (H : ObjOk ty pend x o) {s : Slot} (hs : SlotIn o s) :
    ObjOk ty pend x (o.setSlot s none) := by
  have hset : ∀ (l : List (Option Nat)) (i j c : Nat), (l.set i none)[j]? = some (some c) →
      l[j]? = some (some c) := by
    intro l i j c h
    rw [List.getElem?_set] at h
    split at h
    · split at h <;> simp at h
    · exact h
  cases hc : o.slot s with
  | none => rw [setSlot_same H hs hc]; exact H
  | some c =>
    have hp := setSlot_none_perm H hs hc
    cases s with
    | de i =>
      exact H.drop [c] hp rfl rfl rfl rfl rfl rfl (by simp [Obj.setSlot]) rfl (fun _ h => h)
        (fun _ h => h) (fun j c' h => hset o.de i j c' h)
    | own i =>
      exact H.drop [c] hp rfl rfl rfl rfl rfl rfl rfl (by simp [Obj.setSlot]) (fun _ h => h)
        (fun _ h => h) (fun _ _ h => h)

theorem setSlot_some_ok {ty pend x o} (H : ObjOk ty pend x o) {s : Slot} (hs : SlotIn o s)
    (hc : o.slot s = none) {c : Nat} (h0 : o.etype ≠ 0) (hx : c ≠ x) (hn : c ∉ o.children)
    (h124 : o.etype = 124 → s = .de 4 ∧ ty c = 124) :
    ObjOk ty pend x (o.setSlot s (some c)) := by
  have hp := setSlot_some_perm H hs hc c
  have hE : (o.setSlot s (some c)).edges = o.edges := by cases s <;> rfl
  have hV : (o.setSlot s (some c)).verts = o.verts := by cases s <;> rfl
  have hK : (o.setSlot s (some c)).kids = o.kids := by cases s <;> rfl
  have hX : (o.setSlot s (some c)).extras = o.extras := by cases s <;> rfl
  have hLo : (o.setSlot s (some c)).loops = o.loops := by cases s <;> rfl
  have hRe : (o.setSlot s (some c)).redges = o.redges := by cases s <;> rfl
  have hde : (o.setSlot s (some c)).de.length = o.de.length := by
    cases s <;> simp [Obj.setSlot]
  have how : (o.setSlot s (some c)).own.length = o.own.length := by
    cases s <;> simp [Obj.setSlot]
  refine ⟨by simpa using H.type, by simpa using H.no402, by simpa using H.refsNd, ?_, ?_, ?_, ?_,
    ?_, ⟨hLo ▸ H.noLoop.1, hRe ▸ H.noLoop.2⟩, ?_, ?_, ?_, hde ▸ H.deLen, ?_⟩
  · exact hp.symm.nodup (List.nodup_cons.mpr ⟨hn, H.chNd⟩)
  · intro h
    rcases List.mem_cons.mp (hp.subset h) with h | h
    · exact hx h.symm
    · exact H.noSelf h
  · intro h; rw [setSlot_etype] at h; exact absurd h h0
  · intro h
    rw [setSlot_etype] at h
    obtain ⟨a, b, d⟩ := H.t124 h
    obtain ⟨rfl, ht⟩ := h124 h
    refine ⟨hX ▸ a, hK ▸ b, ?_⟩
    have hg := slot_get H hs
    rw [hc] at hg
    have hnil : o.de.filterMap id = [] := by
      apply List.eq_nil_iff_forall_not_mem.mpr
      intro y hy
      have := (d y hy).1
      simp only at hg
      rw [hg] at this
      cases this
    have hpm := set_some_perm (c := c) hg
    rw [hnil] at hpm
    intro y hy
    have hy' : y ∈ [c] := hpm.subset hy
    simp only [List.mem_singleton] at hy'
    subst hy'
    refine ⟨?_, ht⟩
    simp only [Obj.setSlot]
    rw [List.getElem?_set]
    simp [H.deLen]
  · intro h; rw [setSlot_etype] at h; rw [hE, hV]; exact H.noEdge h
  · intro h; rw [setSlot_etype] at h; rw [hK]; exact H.noKids h
  · rw [hE, hV]; exact H.t504
  · rw [hE, hV]; exact H.counts
  · rw [how, H.ownLen, setSlot_etype]

/-- Releasing a pointer is defined and keeps the graph in order. -/
theorem release_ok {ty h} (G : Good ty h) {e : Nat} {o : Obj} (he : h e = some o) {s : Slot}
    (hs : SlotIn o s) :
    ∃ h1, release h e s = some h1 ∧ Fine ty h h1 ∧ h1 e = some (o.setSlot s none) := by
  have H := G.loc e o he
  unfold release
  rw [he]
  simp only
  cases hc : o.slot s with
  | none =>
    refine ⟨h, rfl, G.fine, ?_⟩
    rw [setSlot_same H hs hc, he]
  | some old =>
    have hp := setSlot_none_perm H hs hc
    have hmem : old ∈ o.children := hp.symm.subset (by simp)
    obtain ⟨oc, h1, h2, h3⟩ := G.live he hmem
    have hne : e ≠ old := by rintro rfl; exact H.noSelf hmem
    simp only
    rw [delRef_user h1 h2 h3]
    simp only
    rw [put_ne _ _ hne, he]
    simp only
    have hput : h.put old { oc with refs := oc.refs.erase e } = eraseRefs h [old] e := by
      have := put_eraseRefs (p := e) h1 [] (by simp)
      rwa [eraseRefs_nil] at this
    refine ⟨_, rfl, ?_, by simp⟩
    rw [hput]
    exact G.cut he (by simp) hp (setSlot_none_ok H hs)

theorem setDep_ok {ty h} (G : Good ty h) (c : Nat) : Fine ty h (setDep h c) := by
  unfold setDep
  cases hc : h c with
  | none => exact G.fine
  | some o =>
    simp only
    split
    · exact G.fine
    · exact G.put hc rfl rfl ((G.loc c o hc).depends 1)

theorem Fine.depIf {ty h h'} (F : Fine ty h h') (b : Bool) (c : Nat) :
    Fine ty h (if b then setDep h' c else h') := by
  cases b
  · exact F
  · exact Fine.trans F.2 (setDep_ok F.1 c)

/-- The conditions under which entity `e` may point at `c` by slot `s`. -/
def SlotFor (ty : Nat → Nat) (o : Obj) (s : Slot) (c : Nat) : Prop :=
  SlotIn o s ∧ o.etype ≠ 0 ∧ (o.etype = 124 → s = .de 4 ∧ ty c = 124)

theorem setAfter_ok {ty h} (G : Good ty h) {e c : Nat} {o oc : Obj} (he : h e = some o)
    (hc : h c = some oc) (hne : e ≠ c) {s : Slot} (hs : SlotFor ty o s c) (dep : Bool) :
    ∃ h' b, setAfter h e s c dep = some (h', b) ∧ Fine ty h h' := by
  obtain ⟨h1, hr, F1, he1⟩ := release_ok G he hs.1
  obtain ⟨oc1, hc1, _⟩ := F1.2.some hc
  have H1 := F1.1.loc e _ he1
  unfold setAfter
  rw [hr]
  simp only
  rcases addRef_cases hc1 he1 with h2 | h2 | ⟨h2, h3, h4, _, _⟩
  · rw [h2]; exact ⟨h1, false, rfl, F1⟩
  · rw [h2]; exact ⟨h1, false, rfl, F1⟩
  · rw [h2]
    simp only [and_self, if_true]
    rw [put_ne _ _ hne, he1]
    simp only [setSlot_setSlot]
    refine ⟨_, true, rfl, ?_⟩
    refine Fine.trans F1.2 (Fine.depIf ?_ dep c)
    have hs1 : SlotIn (o.setSlot s none) s := by
      cases s <;> simpa [SlotIn] using hs.1
    have hsn := slot_setSlot_none o s
    have hnc : c ∉ (o.setSlot s none).children := by
      intro hm
      obtain ⟨oc', h5, _, h6⟩ := F1.1.live he1 hm
      rw [hc1] at h5
      cases h5
      exact h4 h6
    have hp := setSlot_some_perm H1 hs1 hsn c
    have hok := setSlot_some_ok H1 hs1 hsn (c := c) (by simpa using hs.2.1) hne.symm hnc
      (fun h => hs.2.2 (by simpa using h))
    rw [setSlot_setSlot] at hp hok
    exact F1.1.link hne he1 hc1 h4 (by simp) hp hok rfl rfl
      ((F1.1.loc c oc1 hc1).addUser h4 h3)

theorem setBefore_ok {ty h} (G : Good ty h) {e c : Nat} {o oc : Obj} (he : h e = some o)
    (hc : h c = some oc) {s : Slot} (hs : SlotFor ty o s c)
    (hself : e = c → (∃ i, s = .de i) ∨ o.etype = 142) (dep : Bool) :
    ∃ h' b, setBefore h e s c dep = some (h', b) ∧ Fine ty h h' := by
  obtain ⟨h1, hr, F1, he1⟩ := release_ok G he hs.1
  obtain ⟨oc1, hc1, _⟩ := F1.2.some hc
  have H1 := F1.1.loc e _ he1
  have hs1 : SlotIn (o.setSlot s none) s := by cases s <;> simpa [SlotIn] using hs.1
  have hsn := slot_setSlot_none o s
  unfold setBefore
  rw [hr]
  simp only
  rw [he1]
  simp only [setSlot_setSlot]
  have hback : (h1.put e (o.setSlot s (some c))).put e (o.setSlot s none) = h1 := by
    rw [put_put, put_eq_self he1]
  by_cases hne : e = c
  · subst hne
    have href : addRef (h1.put e (o.setSlot s (some e))) e e
        = some (h1.put e (o.setSlot s (some e)), false, false) := by
      apply addRef_self_refused (put_self _ _ _)
      have hH := G.loc e o he
      cases s with
      | de i =>
        left
        simp only [Obj.setSlot]
        exact List.mem_set (by rw [hH.deLen]; exact hs.1) _
      | own i =>
        right
        rcases hself rfl with ⟨j, hj⟩ | h142
        · cases hj
        · refine ⟨h142, ?_⟩
          simp only [Obj.setSlot]
          exact List.mem_set (by rw [hH.ownLen]; exact hs.1) _
    rw [href]
    simp only [Bool.false_eq_true, false_and, if_false, put_self, setSlot_setSlot, hback]
    exact ⟨h1, false, rfl, F1⟩
  · have hcp : (h1.put e (o.setSlot s (some c))) c = some oc1 := by
      rw [put_ne _ _ (Ne.symm hne), hc1]
    rcases addRef_cases hcp (put_self _ _ _) with h2 | h2 | ⟨h2, h3, h4, _, _⟩
    · rw [h2]
      simp only [Bool.false_eq_true, false_and, if_false, put_self, setSlot_setSlot, hback]
      exact ⟨h1, false, rfl, F1⟩
    · rw [h2]
      simp only [Bool.true_eq_false, and_false, if_false, put_self, setSlot_setSlot, hback]
      exact ⟨h1, false, rfl, F1⟩
    · rw [h2]
      simp only [and_self, if_true]
      refine ⟨_, true, rfl, ?_⟩
      refine Fine.trans F1.2 (Fine.depIf ?_ dep c)
      have hcomm : (h1.put e (o.setSlot s (some c))).put c { oc1 with refs := oc1.refs ++ [e] }
          = (h1.put c { oc1 with refs := oc1.refs ++ [e] }).put e (o.setSlot s (some c)) := by
        funext x
        by_cases hx : x = e
        · subst hx; simp [hne]
        · by_cases hxc : x = c
          · subst hxc; simp [hx]
          · simp [hx, hxc]
      rw [hcomm]
      have hnc : c ∉ (o.setSlot s none).children := by
        intro hm
        obtain ⟨oc', h5, _, h6⟩ := F1.1.live he1 hm
        rw [hc1] at h5
        cases h5
        exact h4 h6
      have hp := setSlot_some_perm H1 hs1 hsn c
      have hok := setSlot_some_ok H1 hs1 hsn (c := c) (by simpa using hs.2.1) (Ne.symm hne) hnc
        (fun h => hs.2.2 (by simpa using h))
      rw [setSlot_setSlot] at hp hok
      exact F1.1.link hne he1 hc1 h4 (by simp) hp hok rfl rfl
        ((F1.1.loc c oc1 hc1).addUser h4 h3)

end Iges.Props.G
