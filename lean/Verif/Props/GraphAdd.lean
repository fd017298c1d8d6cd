import Verif.Props.GraphSet

/-!
Growing and emptying pointer lists: what becomes of the graph.
-/

namespace Iges.Props.G

open Iges.Graph Iges.Spec

theorem setDep_form {h : Heap} {c : Nat} {o : Obj} (hc : h c = some o) (b : Bool) :
    ∃ d, (if b then setDep h c else h) = h.put c { o with depends := d } := by
  have hself : h = h.put c { o with depends := o.depends } := (put_eq_self (h := h) hc).symm
  cases b
  · exact ⟨o.depends, hself⟩
  · simp only [if_true]
    unfold setDep
    rw [hc]
    simp only
    split
    · exact ⟨o.depends, hself⟩
    · exact ⟨1, rfl⟩

/-- More pointers of the second or fourth kind: still in order. -/
theorem ObjOk.grow {ty pend x o} (H : ObjOk ty pend x o) {c : Nat} (hx : c ≠ x)
    (hn : c ∉ o.children) (h0 : o.etype ≠ 0) (h124 : o.etype ≠ 124) {k : List Nat} {y : List Nat}
    (hk : (y = o.extras ++ [c] ∧ k = o.kids)
      ∨ (y = o.extras ∧ k = o.kids ++ [c] ∧ o.etype ≠ 504 ∧ o.etype ≠ 508)) :
    ObjOk ty pend x { o with extras := y, kids := k }
      ∧ ({ o with extras := y, kids := k } : Obj).children.Perm (c :: o.children) := by
  have hp : ({ o with extras := y, kids := k } : Obj).children.Perm (c :: o.children) := by
    rw [children_eq H.noLoop.1 H.noLoop.2,
      children_eq (o := { o with extras := y, kids := k }) H.noLoop.1 H.noLoop.2]
    rcases hk with ⟨rfl, rfl⟩ | ⟨rfl, rfl, _⟩ <;>
    · rw [List.perm_iff_count]
      intro a
      simp only [List.count_append, List.count_cons, List.count_nil]
      omega
  refine ⟨⟨H.type, H.no402, H.refsNd, ?_, ?_, ?_, ?_, H.noEdge, H.noLoop, ?_, H.t504, H.counts,
    H.deLen, H.ownLen⟩, hp⟩
  · exact hp.symm.nodup (List.nodup_cons.mpr ⟨hn, H.chNd⟩)
  · intro h
    rcases List.mem_cons.mp (hp.subset h) with h | h
    · exact hx h.symm
    · exact H.noSelf h
  · intro h; exact absurd h h0
  · intro h; exact absurd h h124
  · rcases hk with ⟨_, rfl⟩ | ⟨_, _, h1, h2⟩
    · exact H.noKids
    · intro h; rcases h with h | h
      · exact absurd h h1
      · exact absurd h h2

theorem Good.not_child {ty h} (G : Good ty h) {e c : Nat} {o oc : Obj} (he : h e = some o)
    (hc : h c = some oc) (hn : e ∉ oc.refs) : c ∉ o.children := by
  intro hm
  obtain ⟨oc', h5, _, h6⟩ := G.live he hm
  rw [hc] at h5
  cases h5
  exact hn h6

theorem addKid_ok {ty h} (G : Good ty h) {e c : Nat} {o oc : Obj} (he : h e = some o)
    (hc : h c = some oc) (hne : e ≠ c)
    (ht : o.etype ≠ 0 ∧ o.etype ≠ 124 ∧ o.etype ≠ 504 ∧ o.etype ≠ 508) (dep dupOk : Bool) :
    ∃ h' b, addKid h e c dep dupOk = some (h', b) ∧ Fine ty h h' := by
  unfold addKid
  rcases addRef_cases hc he with h2 | h2 | ⟨h2, h3, h4, _, _⟩
  · rw [h2]; exact ⟨h, false, rfl, G.fine⟩
  · rw [h2]; exact ⟨h, dupOk, rfl, G.fine⟩
  · rw [h2]
    simp only [if_true, Bool.false_eq_true, if_false]
    obtain ⟨d, hd⟩ := setDep_form (h := h.put c { oc with refs := oc.refs ++ [e] })
      (put_self _ _ _) dep
    rw [hd, put_put, put_ne _ _ hne, he]
    refine ⟨_, true, rfl, ?_⟩
    have H := G.loc e o he
    have hg := H.grow (c := c) hne.symm (G.not_child he hc h4) ht.1 ht.2.1
      (k := o.kids ++ [c]) (y := o.extras) (Or.inr ⟨rfl, rfl, ht.2.2⟩)
    exact G.link hne he hc h4 rfl hg.2 hg.1 rfl rfl
      (((G.loc c oc hc).addUser h4 h3).depends d)

theorem addOptional_ok {ty h} (G : Good ty h) {e c : Nat} {o oc : Obj} (he : h e = some o)
    (hc : h c = some oc) (hne : e ≠ c) (ht : o.etype ≠ 124 ∧ o.etype ≠ 0) :
    ∃ h' b, AddOptionalEntity h e c = some (h', b) ∧ Fine ty h h' := by
  unfold AddOptionalEntity
  rw [he, hc]
  simp only
  rw [if_neg (G.loc c oc hc).no402]
  split
  · rcases addRef_cases hc he with h2 | h2 | ⟨h2, h3, h4, _, _⟩
    · rw [h2]; exact ⟨h, false, rfl, G.fine⟩
    · rw [h2]; exact ⟨h, false, rfl, G.fine⟩
    · rw [h2]
      simp only [and_self, if_true]
      rw [put_ne _ _ hne, he]
      refine ⟨_, true, rfl, ?_⟩
      have H := G.loc e o he
      have hg := H.grow (c := c) hne.symm (G.not_child he hc h4) ht.2 ht.1
        (k := o.kids) (y := o.extras ++ [c]) (Or.inl ⟨rfl, rfl⟩)
      exact G.link hne he hc h4 rfl hg.2 hg.1 rfl rfl ((G.loc c oc hc).addUser h4 h3)
  · exact ⟨h, false, rfl, G.fine⟩

theorem clearNodes_ok {ty h} (G : Good ty h) {e : Nat} {o : Obj} (he : h e = some o) :
    ∃ h', ClearNodes h e = some h' ∧ Fine ty h h' := by
  have H := G.loc e o he
  have hp : o.children.Perm (o.kids ++ ({ o with kids := [] } : Obj).children) := by
    rw [children_eq H.noLoop.1 H.noLoop.2,
      children_eq (o := { o with kids := [] }) H.noLoop.1 H.noLoop.2]
    rw [List.perm_iff_count]
    intro a
    simp only [List.count_append, List.count_nil]
    omega
  have hsub : ∀ c ∈ o.kids, c ∈ o.children := fun c hc =>
    hp.symm.subset (List.mem_append_left _ hc)
  have hek : e ∉ o.kids := fun h1 => H.noSelf (hsub e h1)
  unfold ClearNodes
  rw [he]
  simp only
  rw [delRefs_eq (fun c hc => G.live he (hsub c hc))
    (List.nodup_append.mp (hp.nodup_iff.mp H.chNd)).1]
  simp only
  rw [eraseRefs_not_mem hek, he]
  refine ⟨_, rfl, ?_⟩
  exact G.cut he rfl hp (H.drop o.kids hp rfl rfl rfl rfl rfl rfl rfl rfl (by simp)
    (fun _ h => h) (fun _ _ h => h))

/-! ### Edge lists -/

/-- The users of entities in `K` already know `e`, which does not yet point at them. -/
def Semi (h : Heap) (e : Nat) (K : List Nat) : Prop :=
  ∀ p x, Us h x p ↔ Ch h p x ∨ (p = e ∧ x ∈ K)

/-- Pending vertex uses of `e` only. -/
def pdAt (e : Nat) (l : List Nat) : Nat → List Nat := fun x => if x = e then l else []

theorem pdAt_nil (e : Nat) : pdAt e [] = fun _ => [] := by funext x; simp [pdAt]

@[simp] theorem pdAt_self (e : Nat) (l) : pdAt e l e = l := by simp [pdAt]

theorem pdAt_ne {e x : Nat} (l) (h : x ≠ e) : pdAt e l x = [] := by simp [pdAt, h]

theorem Loc.pd {ty h} {e : Nat} {l l' : List Nat} (L : Loc ty (pdAt e l) h) {o : Obj}
    (ho : ObjOk ty l' e o) : Loc ty (pdAt e l') (h.put e o) := by
  intro x ox hx
  by_cases hi : x = e
  · subst hi
    simp only [put_self, Option.some.injEq] at hx
    subst hx
    rw [pdAt_self]; exact ho
  · have := L x ox (by simpa [hi] using hx)
    rw [pdAt_ne _ hi] at this ⊢
    exact this

/-- One more use. -/
def incV (verts : List (Nat × Int)) (v : Nat) : List (Nat × Int) :=
  if v ∈ verts.map Prod.fst then verts.map (fun q => if q.1 = v then (q.1, q.2 + 1) else q)
  else verts ++ [(v, 1)]

theorem edgeUses_zero {verts edges pend} (H : VertsOk verts edges pend) {v : Nat}
    (hv : v ∉ verts.map Prod.fst) : edgeUses edges v = 0 := by
  unfold edgeUses
  have h1 : edges.countP (fun q => q.svp == v) = 0 := by
    rw [List.countP_eq_zero]
    intro q hq h
    have : q.svp = v := by simpa using h
    exact hv (this ▸ (H.mem q hq).1)
  have h2 : edges.countP (fun q => q.tvp == v) = 0 := by
    rw [List.countP_eq_zero]
    intro q hq h
    have : q.tvp = v := by simpa using h
    exact hv (this ▸ (H.mem q hq).2)
  omega

theorem incV_ok {verts edges pend} (H : VertsOk verts edges pend) (v : Nat) :
    VertsOk (incV verts v) edges (v :: pend) := by
  unfold incV
  by_cases hv : v ∈ verts.map Prod.fst
  · rw [if_pos hv]
    have hfst := map_dec_fst verts v 1
    refine ⟨?_, ?_, ?_, ?_⟩
    · intro q hq
      obtain ⟨r, hr, rfl⟩ := List.mem_map.mp hq
      have h1 := H.cnt r hr
      by_cases hrv : r.1 = v
      · simp only [hrv, if_true, List.count_cons_self] at h1 ⊢
        push_cast
        omega
      · simp only [hrv, if_false]
        rw [List.count_cons_of_ne (Ne.symm hrv)]
        exact h1
    · intro q hq
      obtain ⟨r, hr, rfl⟩ := List.mem_map.mp hq
      have h1 := H.pos r hr
      split
      · simp only; omega
      · exact h1
    · rw [hfst]; exact H.mem
    · rw [hfst]
      intro w hw
      rcases List.mem_cons.mp hw with rfl | hw
      · exact hv
      · exact H.pmem w hw
  · rw [if_neg hv]
    refine ⟨?_, ?_, ?_, ?_⟩
    · intro q hq
      rcases List.mem_append.mp hq with hq | hq
      · have : q.1 ≠ v := fun h => hv (h ▸ List.mem_map_of_mem hq)
        rw [List.count_cons_of_ne (Ne.symm this)]
        exact H.cnt q hq
      · simp only [List.mem_singleton] at hq
        subst hq
        simp only [List.count_cons_self, edgeUses_zero H hv]
        have : pend.count v = 0 := List.count_eq_zero.mpr (fun h => hv (H.pmem v h))
        omega
    · intro q hq
      rcases List.mem_append.mp hq with hq | hq
      · exact H.pos q hq
      · simp only [List.mem_singleton] at hq
        subst hq; exact Int.one_pos
    · intro q hq
      simp only [List.map_append, List.mem_append]
      exact ⟨Or.inl (H.mem q hq).1, Or.inl (H.mem q hq).2⟩
    · intro w hw
      simp only [List.map_append, List.mem_append]
      rcases List.mem_cons.mp hw with rfl | hw
      · right; simp
      · left; exact H.pmem w hw

/-- `addVertexList` on an edge list: refused without effect, or one more use is counted. -/
theorem addVertexList_ok {ty h e K pend} (L : Loc ty (pdAt e pend) h) (S : Semi h e K) {o : Obj}
    (he : h e = some o) (h504 : o.etype = 504) {v : Nat} {ov : Obj} (hv : h v = some ov)
    (hv2 : ov.etype = 502) :
    addVertexList h e (some v) = some (h, false)
    ∨ ∃ h' o', addVertexList h e (some v) = some (h', true) ∧ Loc ty (pdAt e (v :: pend)) h'
      ∧ Semi h' e K ∧ SameTypes h h' ∧ h' e = some o'
      ∧ (∀ x o, h x = some o → ∃ o', h' x = some o' ∧ o'.npts = o.npts)
      ∧ (∀ y, Ch h' e y → Ch h e y ∨ y = v) := by
  have H := L e o he
  rw [pdAt_self] at H
  have hne : v ≠ e := by rintro rfl; rw [he] at hv; cases hv; omega
  unfold addVertexList
  rw [he]
  simp only
  by_cases hm : v ∈ o.verts.map Prod.fst
  · right
    rw [if_pos hm]
    have hinc : o.verts.map (fun q => if q.1 = v then (q.1, q.2 + 1) else q) = incV o.verts v := by
      unfold incV; rw [if_pos hm]
    have hfst : (incV o.verts v).map Prod.fst = o.verts.map Prod.fst := by
      rw [← hinc]; exact map_dec_fst o.verts v 1
    rw [hinc]
    have hch : ({ o with verts := incV o.verts v } : Obj).children = o.children := by
      rw [children_eq H.noLoop.1 H.noLoop.2,
        children_eq (o := { o with verts := incV o.verts v }) H.noLoop.1 H.noLoop.2]
      simp only [hfst]
    have hok : ObjOk ty (v :: pend) e { o with verts := incV o.verts v } := by
      refine ⟨H.type, H.no402, H.refsNd, hch ▸ H.chNd, hch ▸ H.noSelf, ?_, H.t124, ?_, H.noLoop,
        H.noKids, ?_, incV_ok H.counts v, H.deLen, H.ownLen⟩
      · intro h; rw [hch]; exact H.null h
      · intro h; exact absurd h504 h
      · exact ⟨by rw [hfst]; exact H.t504.1, H.t504.2⟩
    refine ⟨_, _, rfl, L.pd hok, ?_, SameTypes.put he rfl, put_self _ _ _, ?_, ?_⟩
    · intro p x
      rw [Us_put, Ch_put, hch, ← Ch_of he]
      have := S p x
      by_cases hx : x = e
      · subst hx
        rw [Us_of he] at this
        by_cases hp : p = x
        · subst hp; simpa using this
        · simpa [hp] using this
      · by_cases hp : p = e
        · subst hp; simpa [hx] using this
        · simpa [hp, hx] using this
    · intro x ox hx
      by_cases hxe : x = e
      · subst hxe; rw [he] at hx; cases hx; exact ⟨_, put_self _ _ _, rfl⟩
      · exact ⟨ox, by simp [hxe, hx], rfl⟩
    · intro y hy
      rw [Ch_of (put_self _ _ _), hch, ← Ch_of he] at hy
      exact Or.inl hy
  · rw [if_neg hm]
    rcases addRef_cases hv he with h2 | h2 | ⟨h2, h3, h4, _, _⟩
    · left; rw [h2]; rfl
    · left; rw [h2]; rfl
    · right
      rw [h2]
      simp only [and_self, if_true]
      rw [put_ne _ _ hne.symm, he]
      simp only
      have hinc : o.verts ++ [(v, 1)] = incV o.verts v := by
        unfold incV; rw [if_neg hm]
      rw [hinc]
      have hp : ({ o with verts := incV o.verts v } : Obj).children.Perm (v :: o.children) := by
        rw [children_eq H.noLoop.1 H.noLoop.2,
          children_eq (o := { o with verts := incV o.verts v }) H.noLoop.1 H.noLoop.2, ← hinc]
        rw [List.perm_iff_count]
        intro a
        simp only [List.map_append, List.map_cons, List.map_nil, List.count_append,
          List.count_cons, List.count_nil]
        omega
      have hnc : v ∉ o.children := by
        intro hc
        have := (S e v).mpr (Or.inl ⟨o, he, hc⟩)
        rw [Us_of hv] at this
        exact h4 this
      have hvty : ty v = 502 := by rw [← (L v ov hv).type, hv2]
      have hok : ObjOk ty (v :: pend) e { o with verts := incV o.verts v } := by
        refine ⟨H.type, H.no402, H.refsNd, hp.symm.nodup (List.nodup_cons.mpr ⟨hnc, H.chNd⟩), ?_,
          ?_, H.t124, ?_, H.noLoop, H.noKids, ?_, incV_ok H.counts v, H.deLen, H.ownLen⟩
        · intro h
          rcases List.mem_cons.mp (hp.subset h) with h | h
          · exact hne h.symm
          · exact H.noSelf h
        · intro h; simp only at h; omega
        · intro h; exact absurd h504 h
        · refine ⟨?_, H.t504.2⟩
          rw [← hinc]
          intro w hw
          simp only [List.map_append, List.mem_append, List.map_cons, List.map_nil,
            List.mem_singleton] at hw
          rcases hw with hw | rfl
          · exact H.t504.1 w hw
          · exact hvty
      have hvok := (L v ov hv).addUser h4 h3
      have he' : (h.put v { ov with refs := ov.refs ++ [e] }) e = some o := by
        rw [put_ne _ _ hne.symm, he]
      refine ⟨_, _, rfl, (L.put hvok).pd hok, ?_,
        SameTypes.trans (h' := h.put v { ov with refs := ov.refs ++ [e] })
          (SameTypes.put hv rfl) (SameTypes.put he' rfl),
        put_self _ _ _, ?_, ?_⟩
      · intro p x
        rw [Us_put, Us_put, Ch_put, Ch_put]
        have h1 : ∀ y, y ∈ ({ o with verts := incV o.verts v } : Obj).children
            ↔ y = v ∨ Ch h e y := by
          intro y; rw [hp.mem_iff, List.mem_cons, Ch_of he]
        have hs := S p x
        rw [h1]
        have hchv : ∀ y, y ∈ ({ ov with refs := ov.refs ++ [e] } : Obj).children ↔ Ch h v y := by
          intro y; rw [Ch_of hv]; rfl
        rw [hchv]
        by_cases hx : x = e
        · subst hx
          rw [Us_of he] at hs
          by_cases hpx : p = x
          · subst hpx; simpa [hne, hne.symm] using hs
          · by_cases hpv : p = v
            · subst hpv; simpa [hpx] using hs
            · simpa [hpx, hpv] using hs
        · by_cases hxv : x = v
          · subst hxv
            rw [Us_of hv] at hs
            by_cases hpe : p = e
            · subst hpe; simp [hx]
            · by_cases hpv : p = x
              · subst hpv; simpa [hpe] using hs
              · simpa [hpe, hpv, hx] using hs
          · by_cases hpe : p = e
            · subst hpe; simpa [hx, hxv] using hs
            · by_cases hpv : p = v
              · subst hpv; simpa [hx, hxv, hpe] using hs
              · simpa [hx, hxv, hpe, hpv] using hs
      · intro x ox hx
        by_cases hxe : x = e
        · subst hxe; rw [he] at hx; cases hx; exact ⟨_, put_self _ _ _, rfl⟩
        · by_cases hxv : x = v
          · subst hxv; rw [hv] at hx; cases hx
            exact ⟨{ ov with refs := ov.refs ++ [e] }, by simp [hxe], rfl⟩
          · exact ⟨ox, by simp [hxe, hxv, hx], rfl⟩
      · intro y hy
        rw [Ch_of (put_self _ _ _), hp.mem_iff, List.mem_cons, ← Ch_of he] at hy
        exact hy.symm

/-- `delVertexList` ends a pending use. -/
theorem delVertexList_ok {ty h e K pend} (L : Loc ty (pdAt e pend) h) (S : Semi h e K) {o : Obj}
    (he : h e = some o) (h504 : o.etype = 504) {v : Nat} (hv : v ∈ pend)
    (hK : ∀ c ∈ K, ty c ≠ 502) :
    ∃ h' o', delVertexList h e v = some h' ∧ Loc ty (pdAt e (pend.erase v)) h' ∧ Semi h' e K
      ∧ SameTypes h h' ∧ h' e = some o' := by
  have H := L e o he
  rw [pdAt_self] at H
  have hvm := H.counts.pmem v hv
  have hmch : ∀ w ∈ o.verts.map Prod.fst, w ∈ o.children := by
    intro w hw
    rw [children_eq H.noLoop.1 H.noLoop.2]
    exact List.mem_append_right _ hw
  have hne : v ≠ e := by rintro rfl; exact H.noSelf (hmch _ hvm)
  have hlive : ∃ ov, h v = some ov ∧ ov.etype ≠ 0 ∧ e ∈ ov.refs := by
    obtain ⟨ov, h1, h2⟩ := (S e v).mpr (Or.inl ⟨o, he, hmch v hvm⟩)
    refine ⟨ov, h1, ?_, h2⟩
    intro h0
    rw [((L v ov h1).null h0).1] at h2
    cases h2
  rw [delVertexList_eq he hne (fun _ => hlive)]
  have hg : ∀ w ∈ goneV o.verts v, w = v := fun w hw => (goneV_sub hw).1
  have hS : e ∉ goneV o.verts v := fun h1 => hne (hg e h1).symm
  have hpf := decV_fst o.verts v
  have hp : o.children.Perm
      (goneV o.verts v ++ ({ o with verts := decV o.verts v } : Obj).children) := by
    rw [children_eq H.noLoop.1 H.noLoop.2,
      children_eq (o := { o with verts := decV o.verts v }) H.noLoop.1 H.noLoop.2]
    rw [List.perm_iff_count] at hpf ⊢
    intro a
    have := hpf a
    simp only [List.count_append] at this ⊢
    omega
  have hnd := hp.nodup_iff.mp H.chNd
  have hfnd : (o.verts.map Prod.fst).Nodup := by
    have := H.chNd
    rw [children_eq H.noLoop.1 H.noLoop.2] at this
    exact (List.nodup_append.mp this).2.1
  have hsubv : ∀ w ∈ (decV o.verts v).map Prod.fst, w ∈ o.verts.map Prod.fst := fun w hw =>
    hpf.symm.subset (List.mem_append_right _ hw)
  have hok : ObjOk ty (pend.erase v) e { o with verts := decV o.verts v } := by
    refine ⟨H.type, H.no402, H.refsNd, (List.nodup_append.mp hnd).2.1,
      fun h => H.noSelf (hp.symm.subset (List.mem_append_right _ h)), ?_, H.t124, ?_, H.noLoop,
      H.noKids, ?_, decV_ok H.counts hfnd hv, H.deLen, H.ownLen⟩
    · intro h; simp only at h; omega
    · intro h; exact absurd h504 h
    · exact ⟨fun w hw => H.t504.1 w (hsubv w hw), H.t504.2⟩
  have C := cut_of (o' := { o with verts := decV o.verts v }) L he hS rfl rfl hp
  refine ⟨_, _, rfl, (L.eraseRefs _ e).pd hok, ?_, ?_, put_self _ _ _⟩
  · intro p x
    rw [C.ch, C.us, S p x]
    constructor
    · rintro ⟨h1 | h1, h2⟩
      · exact Or.inl ⟨h1, h2⟩
      · exact Or.inr h1
    · rintro (h1 | ⟨rfl, h1⟩)
      · exact ⟨Or.inl h1.1, h1.2⟩
      · refine ⟨Or.inr ⟨rfl, h1⟩, ?_⟩
        rintro ⟨_, h2⟩
        exact hK x h1 (by rw [hg x h2]; exact H.t504.1 v hvm)
  · intro x
    by_cases hx : x = e
    · subst hx; exact C.self
    · cases hh : h x with
      | none => rw [C.dead x hh]
      | some ox =>
        obtain ⟨r, hr⟩ := C.other x hx ox hh
        rw [hr]; rfl

/-- Taking back the reference of the pending child. -/
theorem delRef_semi {ty h e c pend} (L : Loc ty (pdAt e pend) h) (S : Semi h e [c])
    (hn : ¬ Ch h e c) (hec : e ≠ c) :
    ∃ h', delRef h c e = some (h', true) ∧ Loc ty (pdAt e pend) h' ∧ Semi h' e []
      ∧ SameTypes h h' ∧ h' e = h e := by
  obtain ⟨oc, h1, h2⟩ := (S e c).mpr (Or.inr ⟨rfl, by simp⟩)
  have h0 : oc.etype ≠ 0 := by
    intro h0
    rw [((L c oc h1).null h0).1] at h2
    cases h2
  rw [delRef_user h1 h0 h2]
  have hput : h.put c { oc with refs := oc.refs.erase e } = eraseRefs h [c] e := by
    have := put_eraseRefs (p := e) h1 [] (by simp)
    rwa [eraseRefs_nil] at this
  rw [hput]
  refine ⟨_, rfl, L.eraseRefs _ _, ?_, SameTypes.eraseRefs _ _ _, ?_⟩
  · intro p x
    rw [Us_eraseRefs L, Ch_eraseRefs, S p x]
    constructor
    · rintro ⟨h | ⟨rfl, hx⟩, hh⟩
      · exact Or.inl h
      · exact absurd ⟨rfl, hx⟩ hh
    · rintro (h | ⟨_, hx⟩)
      · refine ⟨Or.inl h, ?_⟩
        rintro ⟨rfl, hx⟩
        simp only [List.mem_singleton] at hx
        subst hx
        exact hn h
      · cases hx
  · exact eraseRefs_not_mem (by simpa using hec)

theorem Semi.good {ty h e} (L : Loc ty (pdAt e []) h) (S : Semi h e []) : Good ty h := by
  rw [pdAt_nil] at L
  refine ⟨L, fun p x => ?_⟩
  have := S p x
  simp only [List.not_mem_nil, and_false, or_false] at this
  exact this.symm

theorem curve504_ne {o : Obj} (h : curve504 o = true) :
    o.etype ≠ 502 ∧ o.etype ≠ 504 := by
  constructor <;> intro h1 <;> simp [curve504, h1] at h

theorem addEdge_ok {ty h} (G : Good ty h) {e : Nat} {o : Obj} (he : h e = some o)
    (h504 : o.etype = 504) {c s t : Option Nat}
    (hc : ∀ x, c = some x → ∃ o, h x = some o)
    (hs : ∀ x, s = some x → ∃ o, h x = some o ∧ o.etype = 502)
    (ht : ∀ x, t = some x → ∃ o, h x = some o ∧ o.etype = 502) (sv tv : Int) :
    ∃ h' b, AddEdge h e c s sv t tv = some (h', b) ∧ Fine ty h h' := by
  unfold AddEdge
  cases c with
  | none => exact ⟨h, false, rfl, G.fine⟩
  | some c =>
    obtain ⟨oc, hc⟩ := hc c rfl
    simp only [hc]
    cases hcur : curve504 oc with
    | false => exact ⟨h, false, by simp, G.fine⟩
    | true =>
      simp only [Bool.true_eq_false, if_false]
      have hcn := curve504_ne hcur
      have hec : e ≠ c := by rintro rfl; rw [he] at hc; cases hc; exact hcn.2 h504
      have hcty : ty c ≠ 502 := by rw [← (G.loc c oc hc).type]; exact hcn.1
      rcases addRef_cases hc he with h2 | h2 | ⟨h2, h3, h4, _, _⟩
      · rw [h2]; exact ⟨h, false, by simp, G.fine⟩
      · rw [h2]; exact ⟨h, false, by simp, G.fine⟩
      · rw [h2]
        simp only [Bool.true_eq_false, Bool.false_eq_true, or_self, if_false]
        -- the curve knows the edge list, which does not point at it yet
        generalize hh1 : h.put c { oc with refs := oc.refs ++ [e] } = h1
        have L1 : Loc ty (pdAt e []) h1 := by
          rw [pdAt_nil, ← hh1]
          exact G.loc.put ((G.loc c oc hc).addUser h4 h3)
        have T1 : SameTypes h h1 := by rw [← hh1]; exact SameTypes.put hc rfl
        have he1 : h1 e = some o := by rw [← hh1, put_ne _ _ hec, he]
        have hnc : c ∉ o.children := G.not_child he hc h4
        have n1 : ¬ Ch h1 e c := by rw [Ch_of he1]; exact hnc
        have S1 : Semi h1 e [c] := by
          intro p x
          rw [← hh1, Us_put, Ch_put]
          have hs := G.sym p x
          have hchc : ∀ y, y ∈ ({ oc with refs := oc.refs ++ [e] } : Obj).children ↔ Ch h c y := by
            intro y; rw [Ch_of hc]; rfl
          rw [hchc]
          by_cases hx : x = c
          · subst hx
            rw [Us_of hc] at hs
            by_cases hp : p = x
            · subst hp; simp [hs, or_comm, Ne.symm hec]
            · simp [hs, hp]
          · by_cases hp : p = c
            · subst hp; simp [hs, hx]
            · simp [hs, hx, hp]
        clear hh1 h2
        have fail : ∀ {h' : Heap} {pend}, Loc ty (pdAt e pend) h' → Semi h' e [c] → ¬ Ch h' e c →
            SameTypes h h' → ∃ h'', delRef h' c e = some (h'', true) ∧ Loc ty (pdAt e pend) h''
              ∧ Semi h'' e [] ∧ SameTypes h h'' ∧ h'' e = h' e := by
          intro h' pend a b n d
          obtain ⟨h'', q1, q2, q3, q4, q5⟩ := delRef_semi a b n hec
          exact ⟨h'', q1, q2, q3, d.trans q4, q5⟩
        have hlive : ∀ {h' : Heap}, SameTypes h h' → ∃ o', h' e = some o' ∧ o'.etype = 504 := by
          intro h' T
          obtain ⟨o', a, b⟩ := T.some he
          exact ⟨o', a, b.trans h504⟩
        -- start vertex
        have A1 : addVertexList h1 e s = some (h1, false) ∨ ∃ v h' o', s = some v
            ∧ addVertexList h1 e s = some (h', true) ∧ Loc ty (pdAt e [v]) h' ∧ Semi h' e [c]
            ∧ SameTypes h h' ∧ h' e = some o' ∧ ¬ Ch h' e c
            ∧ (∀ x o, h1 x = some o → ∃ o', h' x = some o' ∧ o'.npts = o.npts) := by
          cases s with
          | none => left; simp [addVertexList, he1]
          | some v =>
            obtain ⟨ov, hv, hv2⟩ := hs v rfl
            obtain ⟨ov1, hv1, hv12⟩ := T1.some hv
            rcases addVertexList_ok L1 S1 he1 h504 hv1 (hv12.trans hv2) with h5 |
              ⟨h', o', h5, h6, h7, h8, h9, h10, h11⟩
            · left; exact h5
            · right
              refine ⟨v, h', o', rfl, h5, h6, h7, T1.trans h8, h9, ?_, h10⟩
              intro hh
              rcases h11 c hh with hh | hh
              · exact n1 hh
              · have := (G.loc v ov hv).type; rw [hh] at hcty; omega
        rcases A1 with h5 | ⟨v, h2, o2, rfl, h5, L2, S2, T2, he2, n2, np2⟩
        · rw [h5]
          simp only
          obtain ⟨h'', q1, q2, q3, q4, q5⟩ := fail L1 S1 n1 T1
          rw [q1]
          exact ⟨h'', false, rfl, Semi.good q2 q3, q4⟩
        · rw [h5]
          simp only
          clear h5
          have A2 : addVertexList h2 e t = some (h2, false) ∨ ∃ w h' o', t = some w
              ∧ addVertexList h2 e t = some (h', true) ∧ Loc ty (pdAt e [w, v]) h'
              ∧ Semi h' e [c] ∧ SameTypes h h' ∧ h' e = some o' ∧ ¬ Ch h' e c := by
            cases t with
            | none => left; simp [addVertexList, he2]
            | some w =>
              obtain ⟨ow, hw, hw2⟩ := ht w rfl
              obtain ⟨ow1, hw1, hw12⟩ := T2.some hw
              obtain ⟨o2', e1, e2⟩ := hlive T2
              rw [he2] at e1
              cases e1
              rcases addVertexList_ok L2 S2 he2 e2 hw1 (hw12.trans hw2) with h5 |
                ⟨h', o', h5, h6, h7, h8, h9, h10, h11⟩
              · left; exact h5
              · right
                refine ⟨w, h', o', rfl, h5, h6, h7, T2.trans h8, h9, ?_⟩
                intro hh
                rcases h11 c hh with hh | hh
                · exact n2 hh
                · have := (G.loc w ow hw).type; rw [hh] at hcty; omega
          rcases A2 with h5 | ⟨w, h3, o3, rfl, h5, L3, S3, T3, he3, n3⟩
          · rw [h5]
            simp only
            obtain ⟨h'', q1, q2, q3, q4, q5⟩ := fail L2 S2 n2 T2
            rw [q1]
            simp only [Option.elim]
            obtain ⟨o'', e1, e2⟩ := hlive q4
            obtain ⟨h4, o4, r1, r2, r3, r4, _⟩ :=
              delVertexList_ok q2 q3 e1 e2 (v := v) (by simp) (by simp)
            rw [r1]
            simp only [List.erase_cons_head] at r2
            exact ⟨h4, false, rfl, Semi.good r2 r3, q4.trans r4⟩
          · rw [h5]
            simp only
            obtain ⟨ov, hv, _⟩ := hs v rfl
            obtain ⟨ow, hw, _⟩ := ht w rfl
            obtain ⟨ov3, hv3, _⟩ := T3.some hv
            obtain ⟨ow3, hw3, _⟩ := T3.some hw
            rw [hv3, hw3]
            simp only
            split
            · obtain ⟨h'', q1, q2, q3, q4, q5⟩ := fail L3 S3 n3 T3
              rw [q1]
              simp only
              obtain ⟨o'', e1, e2⟩ := hlive q4
              obtain ⟨h4, o4, r1, r2, r3, r4, _⟩ :=
                delVertexList_ok q2 q3 e1 e2 (v := v) (by simp) (by simp)
              rw [r1]
              simp only
              obtain ⟨oZ, f1, f2⟩ := hlive (q4.trans r4)
              have hw' : w ∈ [w, v].erase v := by
                by_cases hwv : w = v
                · subst hwv; simp
                · simp [hwv]
              obtain ⟨h5, o5, t1, t2, t3, t4, _⟩ :=
                delVertexList_ok r2 r3 f1 f2 (v := w) hw' (by simp)
              rw [t1]
              have hnil : ([w, v].erase v).erase w = [] := by
                by_cases hwv : w = v
                · subst hwv; simp
                · simp [hwv]
              rw [hnil] at t2
              exact ⟨h5, false, rfl, Semi.good t2 t3, (q4.trans r4).trans t4⟩
            · rw [he3]
              simp only
              refine ⟨_, true, rfl, ?_⟩
              have H := L3 e o3 he3
              rw [pdAt_self] at H
              rw [Ch_of he3] at n3
              have hp : ({ o3 with edges := o3.edges ++ [⟨c, v, sv, w, tv⟩] } : Obj).children.Perm
                  (c :: o3.children) := by
                rw [children_eq H.noLoop.1 H.noLoop.2,
                  children_eq (o := { o3 with edges := o3.edges ++ [⟨c, v, sv, w, tv⟩] })
                    H.noLoop.1 H.noLoop.2]
                rw [List.perm_iff_count]
                intro a
                simp only [List.map_append, List.map_cons, List.map_nil, List.count_append,
                  List.count_cons, List.count_nil]
                omega
              have h504' : o3.etype = 504 := by
                obtain ⟨a, b, d⟩ := hlive T3
                rw [he3] at b; cases b; exact d
              have hok : ObjOk ty [] e { o3 with edges := o3.edges ++ [⟨c, v, sv, w, tv⟩] } := by
                refine ⟨H.type, H.no402, H.refsNd,
                  hp.symm.nodup (List.nodup_cons.mpr ⟨n3, H.chNd⟩), ?_, ?_, H.t124, ?_, H.noLoop,
                  H.noKids, ⟨H.t504.1, ?_⟩, ?_, H.deLen, H.ownLen⟩
                · intro h
                  rcases List.mem_cons.mp (hp.subset h) with h | h
                  · exact hec h
                  · exact H.noSelf h
                · intro h; simp only at h; omega
                · intro h; exact absurd h504' h
                · intro q hq
                  rcases List.mem_append.mp hq with hq | hq
                  · exact H.t504.2 q hq
                  · simp only [List.mem_singleton] at hq
                    subst hq; exact hcty
                · refine ⟨?_, H.counts.pos, ?_, by simp⟩
                  · intro q hq
                    have := H.counts.cnt q hq
                    simp only [edgeUses, List.countP_append, List.countP_cons, List.countP_nil,
                      List.count_cons, List.count_nil] at this ⊢
                    split_ifs at this ⊢ <;> omega
                  · intro q hq
                    rcases List.mem_append.mp hq with hq | hq
                    · exact H.counts.mem q hq
                    · simp only [List.mem_singleton] at hq
                      subst hq
                      exact ⟨H.counts.pmem v (by simp), H.counts.pmem w (by simp)⟩
              refine ⟨Semi.good (L3.pd hok) ?_, T3.trans (SameTypes.put he3 rfl)⟩
              intro p x
              rw [Us_put, Ch_put, hp.mem_iff, List.mem_cons, ← Ch_of he3]
              have hsm := S3 p x
              by_cases hx : x = e
              · subst hx
                rw [Us_of he3] at hsm
                by_cases hp : p = x
                · subst hp; simpa [hec, or_comm] using hsm
                · simpa [hp] using hsm
              · by_cases hp : p = e
                · subst hp; simpa [hx, or_comm] using hsm
                · simpa [hp, hx] using hsm

end Iges.Props.G
