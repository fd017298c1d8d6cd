import Verif.Props.GraphInv

/-!
Destroying an entity: what becomes of the graph.
-/

namespace Iges.Props.G

open Iges.Graph Iges.Spec

/-- From `h` to `h'` the links from `e` to the entities of `S` vanish, on both sides, and nothing
else changes except inside `e`. -/
structure Cut (h h' : Heap) (e : Nat) (S : List Nat) : Prop where
  ch : ∀ x c, Ch h' x c ↔ Ch h x c ∧ ¬ (x = e ∧ c ∈ S)
  us : ∀ c x, Us h' c x ↔ Us h c x ∧ ¬ (x = e ∧ c ∈ S)
  other : ∀ x, x ≠ e → ∀ o, h x = some o → ∃ r, h' x = some { o with refs := r }
  self : (h' e).map Obj.etype = (h e).map Obj.etype
  dead : ∀ x, h x = none → h' x = none

theorem cut_of {ty pd h} (L : Loc ty pd h) {e : Nat} {o o' : Obj} (he : h e = some o)
    {S : List Nat} (hS : e ∉ S) (hr : o'.refs = o.refs) (ht : o'.etype = o.etype)
    (hp : o.children.Perm (S ++ o'.children)) :
    Cut h ((eraseRefs h S e).put e o') e S := by
  have hnd := hp.nodup_iff.mp (L e o he).chNd
  have hdis := (List.nodup_append.mp hnd).2.2
  refine ⟨?_, ?_, ?_, ?_, ?_⟩
  · intro x c
    rw [Ch_put, Ch_eraseRefs]
    by_cases hx : x = e
    · subst hx
      rw [Ch_of he]
      simp only [true_and, ne_eq, not_true_eq_false, false_and, or_false]
      constructor
      · intro hc
        exact ⟨hp.symm.subset (List.mem_append_right _ hc), fun hcS => hdis c hcS c hc rfl⟩
      · rintro ⟨hc, hcS⟩
        rcases List.mem_append.mp (hp.subset hc) with h | h
        · exact absurd h hcS
        · exact h
    · simp [hx]
  · intro c x
    rw [Us_put, Us_eraseRefs L]
    by_cases hc : c = e
    · subst hc
      rw [Us_of he, hr]
      simp [hS]
    · simp [hc]
  · intro x hx ox hox
    rw [put_ne _ _ hx]
    unfold eraseRefs
    by_cases hxS : x ∈ S
    · exact ⟨ox.refs.erase e, by simp [hxS, hox]⟩
    · exact ⟨ox.refs, by simp [hxS, hox]⟩
  · simp [he, ht]
  · intro x hx
    have : x ≠ e := by rintro rfl; rw [he] at hx; cases hx
    rw [put_ne _ _ this]
    unfold eraseRefs
    split <;> simp [hx]

theorem eraseRefs_nil (h : Heap) (p : Nat) : eraseRefs h [] p = h := by
  funext x; simp [eraseRefs]

theorem eraseRefs_cons_dead {h : Heap} {e : Nat} (he : h e = none) (S : List Nat) (p : Nat) :
    eraseRefs h (e :: S) p = eraseRefs h S p := by
  funext x
  unfold eraseRefs
  by_cases hx : x = e
  · subst hx; simp [he]
  · simp [hx]

theorem put_eq_self {h : Heap} {e : Nat} {o : Obj} (he : h e = some o) : h.put e o = h := by
  funext x
  by_cases hx : x = e
  · subst hx; simp [he]
  · simp [hx]

theorem eraseRefs_put {h : Heap} {e : Nat} {o : Obj} {S : List Nat} (hS : e ∉ S) (p : Nat) :
    eraseRefs (h.put e o) S p = (eraseRefs h S p).put e o := by
  funext x
  by_cases hx : x = e
  · subst hx; simp [eraseRefs, hS]
  · simp [eraseRefs, hx]

theorem put_put (h : Heap) (e : Nat) (o o' : Obj) : (h.put e o).put e o' = h.put e o' := by
  funext x
  by_cases hx : x = e <;> simp [hx]

/-- Counting a vertex list down, in closed form. -/
theorem delVertexList_eq {h : Heap} {e v : Nat} {o : Obj} (he : h e = some o) (hv : v ≠ e)
    (hu : v ∈ o.verts.map Prod.fst → ∃ ov, h v = some ov ∧ ov.etype ≠ 0 ∧ e ∈ ov.refs) :
    delVertexList h e v
      = some ((eraseRefs h (goneV o.verts v) e).put e { o with verts := decV o.verts v }) := by
  unfold delVertexList goneV decV
  rw [he]
  simp only
  cases hf : o.verts.find? (fun q => q.1 == v) with
  | none =>
    simp only
    rw [eraseRefs_nil, put_eq_self he]
  | some q =>
    obtain ⟨a, n⟩ := q
    have ha : a = v := by simpa using List.find?_some hf
    subst ha
    have hm := List.mem_of_find?_eq_some hf
    simp only
    split
    · rename_i h1
      obtain ⟨ov, h2, h3, h4⟩ := hu (List.mem_map.mpr ⟨_, hm, rfl⟩)
      rw [delRef_user h2 h3 h4]
      simp only
      rw [put_ne _ _ hv.symm, he]
      simp only
      congr 1
      funext x
      by_cases hx : x = e
      · subst hx; simp
      · by_cases hxa : x = a
        · subst hxa; simp [hx, eraseRefs, h2]
        · simp [hx, hxa, eraseRefs]
    · rw [eraseRefs_nil]

theorem edgeUses_erase {edges : List Edge} {e : Nat} {q : Edge}
    (hq : edges.find? (fun q => q.curv == e) = some q) (v : Nat) :
    edgeUses edges v = edgeUses (edges.eraseP (fun q => q.curv == e)) v
      + [q.svp, q.tvp].count v := by
  induction edges with
  | nil => simp at hq
  | cons r l ih =>
    by_cases hr : r.curv = e
    · simp only [List.find?_cons, hr, beq_self_eq_true, Option.some.injEq] at hq
      subst hq
      simp only [edgeUses, List.countP_cons, List.eraseP_cons, hr, beq_self_eq_true, cond_true,
        List.count_cons, List.count_nil]
      omega
    · have hr' : (r.curv == e) = false := by simp [hr]
      rw [List.find?_cons, hr'] at hq
      have := ih hq
      simp only [edgeUses, List.countP_cons, List.eraseP_cons, hr', cond_false] at this ⊢
      omega

theorem eraseP_curv {edges : List Edge} {e : Nat} {q : Edge}
    (hq : edges.find? (fun q => q.curv == e) = some q) :
    (edges.map Edge.curv).Perm (e :: (edges.eraseP (fun q => q.curv == e)).map Edge.curv) := by
  induction edges with
  | nil => simp at hq
  | cons r l ih =>
    by_cases hr : r.curv = e
    · simp [hr]
    · have hr' : (r.curv == e) = false := by simp [hr]
      rw [List.find?_cons, hr'] at hq
      simp only [List.map_cons, List.eraseP_cons, hr', cond_false]
      exact ((ih hq).cons r.curv).trans (List.Perm.swap _ _ _)

/-- Without the edge, its two uses are pending. -/
theorem VertsOk.pend {verts edges} (H : VertsOk verts edges []) {e : Nat} {q : Edge}
    (hq : edges.find? (fun q => q.curv == e) = some q) :
    VertsOk verts (edges.eraseP (fun q => q.curv == e)) [q.svp, q.tvp] := by
  have hm := H.mem q (List.mem_of_find?_eq_some hq)
  refine ⟨?_, H.pos, ?_, ?_⟩
  · intro r hr
    have h1 := H.cnt r hr
    rw [edgeUses_erase hq] at h1
    simpa using h1
  · intro r hr; exact H.mem r (List.mem_of_mem_eraseP hr)
  · intro v hv
    simp only [List.mem_cons, List.not_mem_nil, or_false] at hv
    rcases hv with rfl | rfl
    · exact hm.1
    · exact hm.2

/-- A user `p` of the dying entity `e` forgets it. -/
theorem unlink_cut {ty h} (L : Loc ty (fun _ => []) h) {p e : Nat} {o : Obj} (hp : h p = some o)
    (hdead : h e = none) (hc : e ∈ o.children)
    (hsib : ∀ s ∈ o.children, s ≠ e → ∃ os, h s = some os ∧ os.etype ≠ 0 ∧ p ∈ os.refs)
    (h180 : o.etype = 180 ∧ e ∈ o.kids → o.kids = [e]) (hv : e ∉ o.verts.map Prod.fst) :
    ∃ h' b S, unlink h p e (ty e) = some (h', b) ∧ Cut h h' p (e :: S)
      ∧ Loc ty (fun _ => []) h' ∧ (o.etype ≠ 102 → o.etype ≠ 504 → S = []) := by
  have H := L p o hp
  have hL := H.noLoop.1
  have hR := H.noLoop.2
  have hpe : p ≠ e := by rintro rfl; rw [hp] at hdead; cases hdead
  have hkey : ∀ (S : List Nat) (o' : Obj), p ∉ S → o'.refs = o.refs → o'.etype = o.etype →
      o.children.Perm (e :: S ++ o'.children) → ObjOk ty [] p o' →
      Cut h ((eraseRefs h S p).put p o') p (e :: S)
        ∧ Loc ty (fun _ => []) ((eraseRefs h S p).put p o') := by
    intro S o' h1 h2 h3 h4 h5
    refine ⟨?_, (L.eraseRefs S p).put h5⟩
    rw [← eraseRefs_cons_dead hdead]
    exact cut_of L hp (by simp [h1, hpe]) h2 h3 h4
  have hkey0 : ∀ (o' : Obj), o'.refs = o.refs → o'.etype = o.etype →
      o.children.Perm ([e] ++ o'.children) → ObjOk ty [] p o' →
      Cut h (h.put p o') p [e] ∧ Loc ty (fun _ => []) (h.put p o') := by
    intro o' h2 h3 h4 h5
    have := hkey [] o' (by simp) h2 h3 h4 h5
    rwa [eraseRefs_nil] at this
  have hsplit : e ∈ o.de.filterMap id ∨ e ∈ o.extras ∨ e ∈ o.own.filterMap id ∨ e ∈ o.kids
      ∨ e ∈ o.edges.map Edge.curv := by
    have h1 := hc
    rw [children_eq hL hR] at h1
    simp only [List.mem_append] at h1
    tauto
  have h0 : o.etype ≠ 0 := by
    intro h0
    have := (H.null h0).2
    rw [this] at hc
    cases hc
  unfold unlink
  rw [hp]
  simp only
  by_cases t124 : o.etype = 124
  · -- a transformation matrix: only its own transform
    rw [if_pos t124]
    obtain ⟨hx, hk, hde⟩ := H.t124 t124
    have hown : o.own = [] := by
      have := H.ownLen
      rw [t124] at this
      exact List.eq_nil_of_length_eq_zero (by simpa [ownSize] using this)
    have hed := (H.noEdge (by rw [t124]; decide)).1
    have hm : e ∈ o.de.filterMap id := by
      rcases hsplit with h | h | h | h | h
      · exact h
      · rw [hx] at h; cases h
      · rw [hown] at h; cases h
      · rw [hk] at h; cases h
      · rw [hed] at h; cases h
    obtain ⟨h4, hty⟩ := hde e hm
    rw [if_neg (by simp [hty]), if_pos h4]
    have hperm : o.children.Perm ([e] ++ ({ o with de := o.de.set 4 none } : Obj).children) := by
      rw [children_eq hL hR, children_eq (o := { o with de := o.de.set 4 none }) hL hR]
      simp only [List.append_assoc, List.cons_append, List.nil_append]
      have : (o.de.filterMap id).Perm (e :: (o.de.set 4 none).filterMap id) := set_none_perm h4
      exact List.Perm.append_right _ this
    have := hkey0 { o with de := o.de.set 4 none } rfl rfl hperm
      (H.drop [e] hperm rfl rfl rfl rfl rfl rfl (by simp) rfl (fun _ h => h) (fun _ h => h) (by
        intro i c hi
        simp only [List.getElem?_set] at hi
        split at hi
        · split at hi <;> simp at hi
        · exact hi))
    exact ⟨_, _, [], rfl, this.1, this.2, fun _ _ => rfl⟩
  · rw [if_neg t124, if_neg h0]
    cases hb : baseUnlink o e with
    | some o' =>
      simp only
      obtain ⟨a1, a2, a3, a4, a5, a6, a7, a8, a9, a10, a11, a12⟩ := baseUnlink_some hL hR hb
      have := hkey0 o' a3 a2 a1 (H.drop [e] a1 a2 a3 a4 a5 a6 a7 a8 (by rw [a9])
        (by rw [a10]; exact fun _ h => h) a11 a12)
      exact ⟨_, _, [], rfl, this.1, this.2, fun _ _ => rfl⟩
    | none =>
      simp only
      obtain ⟨hnd, hnx⟩ := baseUnlink_none.mp hb
      have hsplit' : e ∈ o.own.filterMap id ∨ e ∈ o.kids ∨ e ∈ o.edges.map Edge.curv := by tauto
      have hownnil : ownSize o.etype = 0 → o.own = [] := fun h =>
        List.eq_nil_of_length_eq_zero (by rw [H.ownLen, h])
      have hpermK : e ∈ o.kids →
          o.children.Perm ([e] ++ ({ o with kids := o.kids.erase e } : Obj).children) := by
        intro hk
        rw [children_eq hL hR, children_eq (o := { o with kids := o.kids.erase e }) hL hR]
        simp only [List.append_assoc, List.cons_append, List.nil_append]
        have h1 := List.perm_cons_erase hk
        refine (List.Perm.append_left _ (List.Perm.append_left _ (List.Perm.append_left _
          (List.Perm.append_right _ h1)))).trans ?_
        simp only [List.cons_append]
        rw [← List.append_assoc, ← List.append_assoc]
        refine List.perm_middle.trans ?_
        simp only [List.append_assoc]
        exact List.Perm.refl _
      have hkidOk : e ∈ o.kids → Cut h (h.put p { o with kids := o.kids.erase e }) p [e]
          ∧ Loc ty (fun _ => []) (h.put p { o with kids := o.kids.erase e }) := by
        intro hk
        exact hkey0 { o with kids := o.kids.erase e } rfl rfl (hpermK hk)
          (H.drop [e] (hpermK hk) rfl rfl rfl rfl rfl rfl rfl rfl
            (fun _ h => List.mem_of_mem_erase h) (fun _ h => h) (fun _ _ h => h))
      by_cases t102 : o.etype = 102
      · rw [if_pos t102]
        have hown := hownnil (by rw [t102]; rfl)
        have hed := (H.noEdge (by rw [t102]; decide)).1
        have hk : e ∈ o.kids := by
          rcases hsplit' with h | h | h
          · rw [hown] at h; cases h
          · exact h
          · rw [hed] at h; cases h
        rw [if_pos hk]
        split
        · -- a curve in the middle
          have hpk : p ∉ o.kids.erase e := by
            intro hpk
            apply H.noSelf
            rw [children_eq hL hR]
            simp only [List.mem_append]
            exact Or.inl (Or.inl (Or.inr (List.mem_of_mem_erase hpk)))
          have hkn : o.kids.Nodup := by
            have := H.chNd
            rw [children_eq hL hR] at this
            simp only [List.append_assoc] at this
            have h2 := (List.nodup_append.mp (List.nodup_append.mp
              (List.nodup_append.mp this).2.1).2.1).2.1
            exact (List.nodup_append.mp h2).1
          have hne : ∀ s ∈ o.kids.erase e, s ≠ e := by
            rintro s hs rfl
            exact (hkn.mem_erase_iff.mp hs).1 rfl
          have hmemc : ∀ s ∈ o.kids, s ∈ o.children := by
            intro s hs
            rw [children_eq hL hR]
            simp only [List.mem_append]
            exact Or.inl (Or.inl (Or.inr hs))
          have hd : delRefs (h.put p { o with kids := o.kids.erase e }) (o.kids.erase e) p
              = some (eraseRefs (h.put p { o with kids := o.kids.erase e }) (o.kids.erase e) p) := by
            apply delRefs_eq
            · intro s hs
              have hsp : s ≠ p := fun h => hpk (h ▸ hs)
              rw [put_ne _ _ hsp]
              exact hsib s (hmemc s (List.mem_of_mem_erase hs)) (hne s hs)
            · exact hkn.erase e
          rw [hd, eraseRefs_put hpk]
          simp only [put_self, put_put]
          have hperm : o.children.Perm (e :: o.kids.erase e ++ ({ o with kids := [] } : Obj).children) := by
            refine (hpermK hk).trans ?_
            rw [children_eq (o := { o with kids := o.kids.erase e }) hL hR,
              children_eq (o := { o with kids := [] }) hL hR]
            simp only [List.cons_append, List.nil_append, List.append_nil, List.append_assoc]
            refine List.Perm.cons e ?_
            rw [List.perm_iff_count]
            intro a
            simp only [List.count_append]
            omega
          have := hkey (o.kids.erase e) { o with kids := [] } hpk rfl rfl hperm
            (H.drop (e :: o.kids.erase e) hperm rfl rfl rfl rfl rfl rfl rfl rfl
              (fun _ h => by cases h) (fun _ h => h) (fun _ _ h => h))
          exact ⟨_, _, _, rfl, this.1, this.2, fun h => absurd t102 h⟩
        · have := hkidOk hk
          exact ⟨_, _, [], rfl, this.1, this.2, fun _ _ => rfl⟩
      · rw [if_neg t102]
        by_cases t180 : o.etype = 180
        · rw [if_pos t180]
          have hown := hownnil (by rw [t180]; rfl)
          have hed := (H.noEdge (by rw [t180]; decide)).1
          have hk : e ∈ o.kids := by
            rcases hsplit' with h | h | h
            · rw [hown] at h; cases h
            · exact h
            · rw [hed] at h; cases h
          rw [if_pos hk]
          have hke : o.kids.erase e = [] := by rw [h180 ⟨t180, hk⟩]; simp
          have := hkidOk hk
          rw [hke] at this
          exact ⟨_, _, [], rfl, this.1, this.2, fun _ _ => rfl⟩
        · rw [if_neg t180]
          by_cases t504 : o.etype = 504
          · rw [if_pos t504]
            have hown := hownnil (by rw [t504]; rfl)
            have hkn := H.noKids (Or.inl t504)
            have hce : e ∈ o.edges.map Edge.curv := by
              rcases hsplit' with h | h | h
              · rw [hown] at h; cases h
              · rw [hkn] at h; cases h
              · exact h
            have hte : ty e ≠ 502 := by
              obtain ⟨q, hq, rfl⟩ := List.mem_map.mp hce
              exact H.t504.2 q hq
            rw [if_neg hte]
            cases hq : o.edges.find? (fun q => q.curv == e) with
            | none =>
              exfalso
              obtain ⟨q, hqm, hqe⟩ := List.mem_map.mp hce
              have := List.find?_eq_none.mp hq q hqm
              simp [hqe] at this
            | some q =>
              simp only
              have hmemv : ∀ s ∈ o.verts.map Prod.fst, s ∈ o.children := by
                intro s hs
                rw [children_eq hL hR]
                exact List.mem_append_right _ hs
              have hvn : (o.verts.map Prod.fst).Nodup := by
                have := H.chNd
                rw [children_eq hL hR] at this
                exact (List.nodup_append.mp this).2.1
              have hvp : ∀ s ∈ o.verts.map Prod.fst, s ≠ p ∧ s ≠ e := by
                intro s hs
                refine ⟨?_, ?_⟩
                · rintro rfl; exact H.noSelf (hmemv _ hs)
                · rintro rfl; exact hv hs
              have hVP := H.counts.pend hq
              have hqm := H.counts.mem q (List.mem_of_find?_eq_some hq)
              have hs1 := hvp _ hqm.1
              have ht1 := hvp _ hqm.2
              have hlive : ∀ s ∈ o.verts.map Prod.fst, ∃ os, h s = some os ∧ os.etype ≠ 0
                  ∧ p ∈ os.refs := fun s hs => hsib s (hmemv s hs) (hvp s hs).2
              rw [delVertexList_eq hp hs1.1 (fun h => hlive _ h)]
              simp only
              have hg1 : p ∉ goneV o.verts q.svp := fun h => (hvp _ (goneV_sub h).2).1 rfl
              have hperm1 := decV_fst o.verts q.svp
              have hnd1 := hperm1.nodup_iff.mp hvn
              have hsub1 : ∀ s ∈ (decV o.verts q.svp).map Prod.fst, s ∈ o.verts.map Prod.fst
                  ∧ s ∉ goneV o.verts q.svp := by
                intro s hs
                refine ⟨hperm1.symm.subset (List.mem_append_right _ hs), ?_⟩
                intro hg
                exact (List.nodup_append.mp hnd1).2.2 s hg s hs rfl
              rw [delVertexList_eq (o := { o with verts := decV o.verts q.svp }) (put_self _ _ _)
                ht1.1 (by
                  intro hm
                  obtain ⟨h1, h2⟩ := hsub1 _ hm
                  obtain ⟨os, h3, h4, h5⟩ := hlive _ h1
                  refine ⟨os, ?_, h4, h5⟩
                  rw [put_ne _ _ ht1.1, eraseRefs_not_mem h2, h3])]
              simp only [put_self]
              have hg2 : p ∉ goneV (decV o.verts q.svp) q.tvp := fun h =>
                (hvp _ (hsub1 _ (goneV_sub h).2).1).1 rfl
              set S := goneV o.verts q.svp ++ goneV (decV o.verts q.svp) q.tvp with hSdef
              have hpS : p ∉ S := by simp [S, hg1, hg2]
              have hperm2 := decV_fst (decV o.verts q.svp) q.tvp
              have hpermV : (o.verts.map Prod.fst).Perm
                  (S ++ (decV (decV o.verts q.svp) q.tvp).map Prod.fst) := by
                rw [hSdef, List.append_assoc]
                exact hperm1.trans (List.Perm.append_left _ hperm2)
              have hSn : S.Nodup := (List.nodup_append.mp (hpermV.nodup_iff.mp hvn)).1
              have hheap : eraseRefs ((eraseRefs h (goneV o.verts q.svp) p).put p
                  { o with verts := decV o.verts q.svp }) (goneV (decV o.verts q.svp) q.tvp) p
                  = (eraseRefs h S p).put p { o with verts := decV o.verts q.svp } := by
                rw [eraseRefs_put hg2]
                congr 1
                funext x
                unfold eraseRefs
                by_cases h1 : x ∈ goneV o.verts q.svp
                · have h2 : x ∉ goneV (decV o.verts q.svp) q.tvp := by
                    intro h2
                    exact (List.nodup_append.mp hSn).2.2 x h1 x h2 rfl
                  simp [S, h1, h2]
                · by_cases h2 : x ∈ goneV (decV o.verts q.svp) q.tvp
                  · simp [S, h1, h2]
                  · simp [S, h1, h2]
              rw [hheap, put_put, put_put]
              have hVn1 : ((decV o.verts q.svp).map Prod.fst).Nodup :=
                (List.nodup_append.mp hnd1).2.1
              have hV1 := decV_ok hVP hvn (v := q.svp) (by simp)
              have hV2 := decV_ok hV1 hVn1 (v := q.tvp) (by
                by_cases hst : q.svp = q.tvp <;> simp [hst])
              have hpnil : ([q.svp, q.tvp].erase q.svp).erase q.tvp = [] := by simp
              rw [hpnil] at hV2
              set o2 : Obj := { o with
                verts := decV (decV o.verts q.svp) q.tvp
                edges := o.edges.eraseP (fun q => q.curv == e) } with ho2
              have hperm : o.children.Perm (e :: S ++ o2.children) := by
                rw [children_eq hL hR, children_eq (o := o2) hL hR]
                simp only [o2]
                have e1 := eraseP_curv hq
                have step1 := List.Perm.append (List.Perm.append_left
                  (o.de.filterMap id ++ o.extras ++ o.own.filterMap id ++ o.kids) e1) hpermV
                refine step1.trans ?_
                simp only [List.append_assoc, List.cons_append]
                generalize (o.edges.eraseP (fun q => q.curv == e)).map Edge.curv = E
                generalize (decV (decV o.verts q.svp) q.tvp).map Prod.fst = V
                generalize o.de.filterMap id = X1
                generalize o.own.filterMap id = X2
                rw [List.perm_iff_count]
                intro a
                simp only [List.count_append, List.count_cons]
                omega
              have hobj : ObjOk ty [] p o2 := by
                have hsubc : ∀ c ∈ o2.children, c ∈ o.children := fun c hc =>
                  hperm.symm.subset (List.mem_append_right _ hc)
                refine ⟨H.type, H.no402, H.refsNd,
                  (List.nodup_append.mp (hperm.nodup_iff.mp H.chNd)).2.1,
                  fun h => H.noSelf (hsubc _ h), fun h => absurd h h0, fun h => absurd h t124,
                  fun h => absurd t504 h, H.noLoop, H.noKids, ?_, hV2, H.deLen, H.ownLen⟩
                refine ⟨?_, ?_⟩
                · intro v hv'
                  apply H.t504.1
                  exact hpermV.symm.subset (List.mem_append_right _ hv')
                · intro q' hq'
                  exact H.t504.2 q' (List.mem_of_mem_eraseP hq')
              have := hkey S o2 hpS rfl rfl hperm hobj
              exact ⟨_, _, S, rfl, this.1, this.2, fun _ h => absurd t504 h⟩
          · rw [if_neg t504]
            have hed := (H.noEdge t504).1
            have hsplit2 : e ∈ o.own.filterMap id ∨ e ∈ o.kids := by
              rcases hsplit' with h | h | h
              · exact Or.inl h
              · exact Or.inr h
              · rw [hed] at h; cases h
            by_cases t508 : o.etype = 508
            · exfalso
              have hown := hownnil (by rw [t508]; rfl)
              have hk := H.noKids (Or.inr t508)
              rcases hsplit2 with h | h
              · rw [hown] at h; cases h
              · rw [hk] at h; cases h
            · rw [if_neg t508]
              cases hw : clearFirst o.own e with
              | some w =>
                simp only
                obtain ⟨a1, a2, _⟩ := clearFirst_some hw
                have hperm : o.children.Perm ([e] ++ ({ o with own := w } : Obj).children) := by
                  rw [children_eq hL hR, children_eq (o := { o with own := w }) hL hR]
                  simp only [List.append_assoc, List.cons_append, List.nil_append]
                  refine (List.Perm.append_left _ (List.Perm.append_left _
                    (List.Perm.append_right _ a1))).trans ?_
                  rw [List.perm_iff_count]
                  intro a
                  simp only [List.count_append, List.count_cons]
                  omega
                have := hkey0 { o with own := w } rfl rfl hperm
                  (H.drop [e] hperm rfl rfl rfl rfl rfl rfl rfl a2 (fun _ h => h) (fun _ h => h)
                    (fun _ _ h => h))
                exact ⟨_, _, [], rfl, this.1, this.2, fun _ _ => rfl⟩
              | none =>
                simp only
                have hk : e ∈ o.kids := by
                  rcases hsplit2 with h | h
                  · exact absurd h (clearFirst_none.mp hw)
                  · exact h
                rw [if_pos hk]
                have := hkidOk hk
                exact ⟨_, _, [], rfl, this.1, this.2, fun _ _ => rfl⟩

/-- The state of the graph while `e` is being destroyed: `R` still point at it, `C` still list it
as a user; everything else agrees. -/
structure Half (ty : Nat → Nat) (h : Heap) (e : Nat) (R C : List Nat) : Prop where
  loc : Loc ty (fun _ => []) h
  dead : h e = none
  sym : ∀ p c, p ≠ e → c ≠ e → (Ch h p c ↔ Us h c p)
  par : ∀ p, Ch h p e ↔ p ∈ R
  kid : ∀ c, Us h c e ↔ c ∈ C

/-- The deletion of `e` is careful. -/
def DelOk (h : Heap) (e : Nat) : Prop :=
  ∀ p o, h p = some o → (o.etype = 180 ∧ e ∈ o.kids → o.kids = [e]) ∧ e ∉ o.verts.map Prod.fst

/-- From `h` to `h'` links only vanish, and outside composite curves and edge lists only links
with `e`. -/
structure Fewer (ty : Nat → Nat) (h h' : Heap) (e : Nat) : Prop where
  ch : ∀ p c, Ch h' p c → Ch h p c
  keep : ∀ p c, ty p ≠ 102 → ty p ≠ 504 → p ≠ e → c ≠ e → Ch h p c → Ch h' p c
  types : ∀ x, x ≠ e → (h' x).map Obj.etype = (h x).map Obj.etype

theorem Fewer.refl (ty h e) : Fewer ty h h e :=
  ⟨fun _ _ h => h, fun _ _ _ _ _ _ h => h, fun _ _ => rfl⟩

theorem Fewer.trans {ty h h' h'' e} (a : Fewer ty h h' e) (b : Fewer ty h' h'' e) :
    Fewer ty h h'' e :=
  ⟨fun p c h => a.ch p c (b.ch p c h),
   fun p c h1 h2 h3 h4 h5 => b.keep p c h1 h2 h3 h4 (a.keep p c h1 h2 h3 h4 h5),
   fun x hx => (b.types x hx).trans (a.types x hx)⟩

theorem unlinkAll_ok {ty : Nat → Nat} {e : Nat} {C : List Nat} : ∀ (R : List Nat) (h : Heap),
    R.Nodup → Half ty h e R C → DelOk h e →
    ∃ h', unlinkAll h R e (ty e) = some h' ∧ Half ty h' e [] C ∧ Fewer ty h h' e
  | [], h, _, H, _ => ⟨h, rfl, H, Fewer.refl ty h e⟩
  | p :: R, h, hn, H, hD => by
    obtain ⟨o, hp, hc⟩ := (H.par p).mpr (by simp)
    have hpe : p ≠ e := by rintro rfl; rw [H.dead] at hp; cases hp
    have hsib : ∀ s ∈ o.children, s ≠ e → ∃ os, h s = some os ∧ os.etype ≠ 0 ∧ p ∈ os.refs := by
      intro s hs hse
      obtain ⟨os, h1, h2⟩ := (H.sym p s hpe hse).mp ⟨o, hp, hs⟩
      refine ⟨os, h1, ?_, h2⟩
      intro h0
      rw [((H.loc s os h1).null h0).1] at h2
      cases h2
    obtain ⟨h1, b, S, hun, hcut, hloc, hS⟩ :=
      unlink_cut H.loc hp H.dead hc hsib (hD p o hp).1 (hD p o hp).2
    have hnoUs : ∀ x, ¬ Us h e x := by
      rintro x ⟨oe, h2, _⟩
      rw [H.dead] at h2
      cases h2
    have H1 : Half ty h1 e R C := by
      refine ⟨hloc, hcut.dead e H.dead, ?_, ?_, ?_⟩
      · intro x c hx hce
        rw [hcut.ch, hcut.us, H.sym x c hx hce]
      · intro x
        rw [hcut.ch, H.par]
        have := (List.nodup_cons.mp hn).1
        constructor
        · rintro ⟨h2, h3⟩
          rcases List.mem_cons.mp h2 with rfl | h2
          · exact absurd ⟨rfl, by simp⟩ h3
          · exact h2
        · intro h2
          refine ⟨by simp [h2], ?_⟩
          rintro ⟨rfl, _⟩
          exact this h2
      · intro c
        rw [hcut.us, H.kid]
        constructor
        · exact fun h => h.1
        · intro h2
          exact ⟨h2, fun h3 => hpe h3.1.symm⟩
    have hD1 : DelOk h1 e := by
      intro x ox hx
      by_cases hxp : x = p
      · subst hxp
        have hnc : e ∉ ox.children := by
          intro hce
          have := (H1.par x).mp ⟨ox, hx, hce⟩
          exact (List.nodup_cons.mp hn).1 this
        refine ⟨fun h2 => absurd ?_ hnc, fun h2 => hnc ?_⟩
        · simp only [Obj.children, List.mem_append]; tauto
        · simp only [Obj.children, List.mem_append]; tauto
      · cases hhx : h x with
        | none => rw [hcut.dead x hhx] at hx; cases hx
        | some o' =>
          obtain ⟨r, hr⟩ := hcut.other x hxp o' hhx
          rw [hr] at hx
          cases hx
          exact hD x o' hhx
    obtain ⟨h', hh, hH, hF⟩ := unlinkAll_ok R h1 (List.nodup_cons.mp hn).2 H1 hD1
    refine ⟨h', ?_, hH, ?_⟩
    · rw [unlinkAll, hun]
      exact hh
    · refine Fewer.trans ⟨fun x c h2 => ((hcut.ch x c).mp h2).1, ?_, ?_⟩ hF
      · intro x c t1 t2 hx hce h2
        rw [hcut.ch]
        refine ⟨h2, ?_⟩
        rintro ⟨rfl, h3⟩
        have ht := (H.loc x o hp).type
        rw [hS (by rw [ht]; exact t1) (by rw [ht]; exact t2)] at h3
        simp only [List.mem_singleton] at h3
        exact hce h3
      · intro x hx
        by_cases hxp : x = p
        · subst hxp; exact hcut.self
        · cases hhx : h x with
          | none => rw [hcut.dead x hhx]
          | some o' =>
            obtain ⟨r, hr⟩ := hcut.other x hxp o' hhx
            rw [hr]; rfl

/-- One entity drops the dying `e` as a user. -/
theorem Half.drop {ty h e R C S C'} (H : Half ty h e R C)
    (hC : ∀ c, c ∈ C ↔ c ∈ S ∨ c ∈ C') (hd : ∀ c ∈ S, c ∉ C') :
    Half ty (eraseRefs h S e) e R C' ∧ Fewer ty h (eraseRefs h S e) e := by
  refine ⟨⟨H.loc.eraseRefs S e, ?_, ?_, ?_, ?_⟩, ⟨?_, ?_, ?_⟩⟩
  · unfold eraseRefs
    split <;> simp [H.dead]
  · intro p c hp hc
    rw [Ch_eraseRefs, Us_eraseRefs H.loc, H.sym p c hp hc]
    simp [hp]
  · intro p; rw [Ch_eraseRefs]; exact H.par p
  · intro c
    rw [Us_eraseRefs H.loc, H.kid, hC]
    constructor
    · rintro ⟨h1 | h1, h2⟩
      · exact absurd ⟨rfl, h1⟩ h2
      · exact h1
    · intro h1
      exact ⟨Or.inr h1, fun h2 => hd c h2.2 h1⟩
  · intro p c; rw [Ch_eraseRefs]; exact fun h => h
  · intro p c _ _ _ _; rw [Ch_eraseRefs]; exact fun h => h
  · intro x _
    unfold eraseRefs
    split
    · cases h x <;> rfl
    · rfl

theorem Half.live {ty h e R C} (H : Half ty h e R C) {c : Nat} (hc : c ∈ C) :
    ∃ o, h c = some o ∧ o.etype ≠ 0 ∧ e ∈ o.refs := by
  obtain ⟨o, h1, h2⟩ := (H.kid c).mpr hc
  refine ⟨o, h1, ?_, h2⟩
  intro h0
  rw [((H.loc c o h1).null h0).1] at h2
  cases h2

theorem dropExtras_eq {ty : Nat → Nat} {e et : Nat} : ∀ (l : List Nat) (h : Heap) (R C : List Nat),
    Half ty h e R (l ++ C) → l.Nodup → (∀ c ∈ l, c ∉ C) →
    dropExtras h l e et = some (eraseRefs h l e)
  | [], h, _, _, _, _, _ => by simp [dropExtras, eraseRefs_nil]
  | x :: l, h, R, C, H, hn, hd => by
    obtain ⟨o, h1, h2, h3⟩ := H.live (c := x) (by simp)
    have hx := (List.nodup_cons.mp hn).1
    rw [dropExtras, h1]
    simp only
    rw [if_neg (H.loc x o h1).no402, delRef_user h1 h2 h3]
    simp only [Option.map_some]
    have hput : h.put x { o with refs := o.refs.erase e } = eraseRefs h [x] e := by
      have := put_eraseRefs (p := e) h1 [] (by simp)
      rwa [eraseRefs_nil] at this
    have H1 := (H.drop (S := [x]) (C' := l ++ C) (by simp) (by
      intro c hc
      simp only [List.mem_singleton] at hc
      subst hc
      simp [hx, hd c (by simp)])).1
    rw [hput, dropExtras_eq l _ R C H1 (List.nodup_cons.mp hn).2 (fun c hc => hd c (by simp [hc])),
      ← hput, put_eraseRefs h1 l hx]

/-- Destroying an entity, carefully, is defined and leaves the graph in order. -/
theorem destroy_ok {ty h} (L : Loc ty (fun _ => []) h) (hs : Sym h) {e : Nat} {o : Obj}
    (he : h e = some o) (hD : DelOk h e) :
    ∃ h', destroy h e = some h' ∧ Loc ty (fun _ => []) h' ∧ Sym h' ∧ h' e = none
      ∧ Fewer ty h h' e := by
  have H := L e o he
  have hL := H.noLoop.1
  have hR := H.noLoop.2
  set own := o.own.filterMap id ++ o.kids ++ o.edges.map Edge.curv ++ o.verts.map Prod.fst with hown
  have hperm : o.children.Perm (own ++ (o.extras ++ o.de.filterMap id)) := by
    rw [children_eq hL hR, hown]
    generalize o.own.filterMap id = X1
    generalize o.de.filterMap id = X2
    rw [List.perm_iff_count]
    intro a
    simp only [List.count_append]
    omega
  have hnd := hperm.nodup_iff.mp H.chNd
  obtain ⟨hn1, hn23, hd1⟩ := List.nodup_append.mp hnd
  obtain ⟨hn2, hn3, hd2⟩ := List.nodup_append.mp hn23
  have hsub1 : ∀ c ∈ own, c ∈ o.children := fun c hc =>
    hperm.symm.subset (List.mem_append_left _ hc)
  have heown : e ∉ own := fun h => H.noSelf (hsub1 e h)
  have hlive : ∀ c ∈ o.children, ∃ oc, h c = some oc ∧ oc.etype ≠ 0 ∧ e ∈ oc.refs := by
    intro c hc
    obtain ⟨oc, h1, h2⟩ := (hs e c).mp ⟨o, he, hc⟩
    refine ⟨oc, h1, ?_, h2⟩
    intro h0
    rw [((L c oc h1).null h0).1] at h2
    cases h2
  have hdtor : ownDtor h e = some (eraseRefs h own e) := by
    unfold ownDtor
    rw [he]
    simp only
    split
    · rename_i t508
      have a1 : o.own = [] := List.eq_nil_of_length_eq_zero (by rw [H.ownLen, t508]; rfl)
      have a2 := H.noKids (Or.inr t508)
      have a3 := H.noEdge (by rw [t508]; decide)
      rw [hL, hR, hown, a1, a2, a3.1, a3.2]
      simp [eraseRefs_nil]
    · exact delRefs_eq (fun c hc => hlive c (hsub1 c hc)) hn1
  have H0 : Half ty (h.free e) e o.refs (own ++ (o.extras ++ o.de.filterMap id)) := by
    refine ⟨L.free e, free_self h e, ?_, ?_, ?_⟩
    · intro p c hp hc
      rw [Ch_free, Us_free, hs p c]
      simp [hp, hc]
    · intro p
      rw [Ch_free, hs p e, Us_of he]
      constructor
      · exact fun h => h.2
      · intro h1
        refine ⟨?_, h1⟩
        rintro rfl
        exact H.noSelf ((Ch_of he _).mp ((hs _ _).mpr ((Us_of he _).mpr h1)))
    · intro c
      rw [Us_free, ← hs e c, Ch_of he, hperm.mem_iff]
      constructor
      · exact fun h => h.2
      · intro h1
        refine ⟨?_, h1⟩
        rintro rfl
        exact H.noSelf (hperm.symm.subset h1)
  obtain ⟨H1, F1⟩ := H0.drop (S := own) (C' := o.extras ++ o.de.filterMap id)
    (fun c => by simp only [List.mem_append])
    (fun c hc hc2 => hd1 c hc c hc2 rfl)
  have hD1 : DelOk (eraseRefs (h.free e) own e) e := by
    intro p op hp
    unfold eraseRefs at hp
    by_cases hpe : p = e
    · subst hpe
      split at hp <;> simp at hp
    · split at hp
      · rw [free_ne _ hpe, Option.map_eq_some_iff] at hp
        obtain ⟨o', h1, rfl⟩ := hp
        exact hD p o' h1
      · rw [free_ne _ hpe] at hp
        exact hD p op hp
  obtain ⟨h2, hun, H2, F2⟩ := unlinkAll_ok o.refs _ H.refsNd H1 hD1
  have hx := dropExtras_eq (et := o.etype) o.extras h2 [] (o.de.filterMap id) H2 hn2
    (fun c hc hc2 => hd2 c hc c hc2 rfl)
  obtain ⟨H3, F3⟩ := H2.drop (S := o.extras) (C' := o.de.filterMap id)
    (fun c => by simp only [List.mem_append])
    (fun c hc hc2 => hd2 c hc c hc2 rfl)
  obtain ⟨H4, F4⟩ := H3.drop (S := o.de.filterMap id) (C' := [])
    (fun c => by simp) (by simp)
  have hlast := delRefs_eq (S := o.de.filterMap id) (p := e) (h := eraseRefs h2 o.extras e)
    (fun c hc => H3.live hc) hn3
  refine ⟨_, ?_, H4.loc, ?_, H4.dead, ?_⟩
  · unfold destroy
    rw [hdtor]
    simp only
    rw [eraseRefs_not_mem heown, he]
    simp only
    rw [free_eraseRefs, H.type, hun]
    simp only
    rw [← H.type, hx]
    exact hlast
  · intro p c
    by_cases hp : p = e
    · subst hp
      constructor
      · rintro ⟨o', h5, _⟩; rw [H4.dead] at h5; cases h5
      · intro h5; exact absurd ((H4.kid c).mp h5) (by simp)
    · by_cases hc : c = e
      · subst hc
        constructor
        · intro h5; exact absurd ((H4.par p).mp h5) (by simp)
        · rintro ⟨o', h5, _⟩; rw [H4.dead] at h5; cases h5
      · exact H4.sym p c hp hc
  · refine Fewer.trans ?_ ((F1.trans F2).trans (F3.trans F4))
    refine ⟨fun p c h5 => ((Ch_free h e p c).mp h5).2, ?_, ?_⟩
    · intro p c _ _ hp _ h5
      exact (Ch_free h e p c).mpr ⟨hp, h5⟩
    · intro x hx'
      rw [free_ne _ hx']

end Iges.Props.G
