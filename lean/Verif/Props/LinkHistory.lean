import Verif.Props.Link
import Verif.Props.Cull
import Verif.Lemmas.LinkTotal
/-
What a program may do with a model that was read from a file.
-/
namespace Iges.Props

open Iges.Graph Iges.Spec Iges.Spec.Cull Iges.Link Iges.Props.G Iges.Props.Cull
open Iges.File (REnt Body)

/-- Conditions on an entity of a file under which histories are covered: no solid, face or shell lists a part twice, the
entity is no loop, an entity of unknown type and a transformation matrix have no pointers (the matrix none but its
transformation), the entity does not point at itself. -/
structure Plain (es : List REnt) (i : Nat) (r : REnt) : Prop where
  once : ListedOnce r
  noLoop : ∀ k, r.body ≠ .loop k
  alien : r.body.etype = 0 → (wanted es r []).children = []
  matrix : ∀ k, r.body = .tx k → r.extras = []
  self : i ∉ (wanted es r []).children

theorem children_refs (es : List REnt) (r : REnt) (refs : List Nat) :
    (wanted es r refs).children = (wanted es r []).children := rfl

theorem count_firsts (l : List Nat) (x : Nat) : x ∈ firsts l ↔ x ∈ l := L.mem_firsts

theorem tally_mem {l : List Nat} {q : Nat × Int} (h : q ∈ tally l) : q.1 ∈ l ∧ q.2 = (l.count q.1 : Int) := by
  unfold tally at h
  rw [List.mem_map] at h
  obtain ⟨x, hx, rfl⟩ := h
  exact ⟨(count_firsts l x).mp hx, rfl⟩

theorem edge_uses (k : List Iges.Edge) (v : Nat) :
    (k.flatMap fun q => [pos q.svp, pos q.tvp]).count v
      = edgeUses (k.map fun q => (⟨pos q.curv, pos q.svp, q.sv, pos q.tvp, q.tv⟩ : Graph.Edge)) v := by
  unfold edgeUses
  induction k with
  | nil => rfl
  | cons q k ih =>
    simp only [List.flatMap_cons, List.count_append, List.map_cons, List.countP_cons]
    rw [ih]
    simp only [List.count_cons, List.count_nil]
    omega

theorem wanted_verts (b : Body) : VertsOk (wantVerts b) (wantEdges b) [] := by
  cases b
  case edges k =>
    refine ⟨?_, ?_, ?_, by simp⟩
    · intro q hq
      obtain ⟨_, h2⟩ := tally_mem hq
      rw [h2, edge_uses]
      simp [wantEdges]
    · intro q hq
      obtain ⟨h1, h2⟩ := tally_mem hq
      rw [h2]
      have := List.count_pos_iff.mpr h1
      omega
    · intro q hq
      simp only [wantEdges, List.mem_map] at hq
      obtain ⟨e, he, rfl⟩ := hq
      simp only [wantVerts, L.tally_fst]
      constructor
      · rw [count_firsts, List.mem_flatMap]
        exact ⟨e, he, by simp⟩
      · rw [count_firsts, List.mem_flatMap]
        exact ⟨e, he, by simp⟩
  all_goals exact ⟨by simp [wantVerts], by simp [wantVerts], by simp [wantEdges], by simp⟩

/-- A model that was read from a file of plain entities is in order. -/
theorem linked_good {es : List REnt} (hf : FromFile es) (hp : ∀ i r, es[i]? = some r → Plain es i r) {G : Geo} {h : Heap}
    (hl : linkAll G es = some (h, true)) : Good (typeAt es) h := by
  have h1 : ∀ r ∈ es, ListedOnce r := by
    intro r hr
    obtain ⟨i, hi⟩ := List.mem_iff_getElem?.mp hr
    exact (hp i r hi).once
  have B := linked_bal hf h1 hl
  obtain ⟨C, H⟩ := L.linkAll_ok hf.structure hl
  have sym : Sym h := by
    intro p c
    have hS := C57_users_after_read_partial es hf h1 G h hl p c
    unfold uses listed at hS
    constructor
    · rintro ⟨o, ho, hc⟩
      rw [ho] at hS
      have := List.count_pos_iff.mpr hc
      simp only at hS
      rw [hS] at this
      cases hh : h c with
      | none => simp [hh] at this
      | some oc =>
        simp only [hh] at this
        exact ⟨oc, hh, List.count_pos_iff.mp this⟩
    · rintro ⟨o, ho, hc⟩
      rw [ho] at hS
      have := List.count_pos_iff.mpr hc
      simp only at hS
      rw [← hS] at this
      cases hh : h p with
      | none => simp [hh] at this
      | some oc =>
        simp only [hh] at this
        exact ⟨oc, hh, List.count_pos_iff.mp this⟩
  refine ⟨?_, sym⟩
  intro x o hx
  obtain ⟨r, hr, _⟩ := C.static x _ (L.core_some hx)
  obtain ⟨w1, w2, w3, w4⟩ := H x r hr
  have hw : o = wanted es r o.refs := by
    have := (L.of_core w1).1
    rw [hx, Option.some.injEq] at this
    rw [L.refsOf_some hx] at this
    exact this
  have P := hp x r hr
  have hch : o.children = (wanted es r []).children := by rw [hw, children_refs]
  have ht : o.etype = typeAt es x := by
    have := C.ty (L.core_some hx)
    exact this
  have hb : o.etype = r.body.etype.toNat := by rw [hw]; exact L.objOf_etype r
  have hrefs : o.refs.Nodup := by
    have := C.nodup x
    rwa [L.refsOf_some hx] at this
  refine ⟨ht, ?_, hrefs, ?_, by rw [hch]; exact P.self, ?_, ?_, ?_, ?_, ?_, ?_, ?_, ?_, ?_⟩
  · rw [hb]
    cases r.body <;> simp [Body.etype]
  · rw [List.nodup_iff_count_le_one]
    intro c
    rw [B x o hx c]
    exact List.nodup_iff_count_le_one.mp (C.nodup c) x
  · intro h0
    refine ⟨?_, ?_⟩
    · have := C.null x _ (L.core_some hx) h0
      rwa [L.refsOf_some hx] at this
    · rw [hch]
      refine P.alien ?_
      rw [hb] at h0
      cases hbb : r.body <;> rw [hbb] at h0 <;> simp [Body.etype] at h0 ⊢
  · intro h0
    have htx : ∃ k, r.body = .tx k := by
      rw [hb] at h0
      cases hbb : r.body <;> rw [hbb] at h0 <;> simp [Body.etype] at h0 ⊢
    obtain ⟨k, hk⟩ := htx
    have hex := P.matrix k hk
    rw [hw]
    refine ⟨by simp [wanted, hex], by simp [wanted, wantKids, hk], ?_⟩
    intro c hc
    simp only [wanted, wantDE, deNumbers, hk, wantsSlot, List.map_cons, List.map_nil, List.filterMap_cons, id,
      List.filterMap_nil] at hc ⊢
    have hc : dePtr es r.de.transform = some c := by
      cases hd : dePtr es r.de.transform with
      | none => simp [hd] at hc
      | some b => simp [hd] at hc; rw [hc]
    refine ⟨by simp [hc], ?_⟩
    unfold dePtr at hc
    split at hc
    · rename_i hpos
      simp only [Option.some.injEq] at hc
      subst hc
      have := (typed_DE w4).2.2.2.1 hpos.1
      simpa using this.2.2
    · cases hc
  · intro h0
    rw [hw]
    have : ∀ k, r.body ≠ .edges k := by
      intro k hk
      rw [hb, hk] at h0
      exact h0 rfl
    simp only [wanted]
    cases hbb : r.body <;> first | exact ⟨rfl, rfl⟩ | exact absurd hbb (this _)
  · rw [hw]
    simp only [wanted]
    cases hbb : r.body <;> first | exact ⟨rfl, rfl⟩ | exact absurd hbb (P.noLoop _)
  · intro h0
    rw [hw]
    simp only [wanted]
    rw [hb] at h0
    cases hbb : r.body <;> rw [hbb] at h0 <;> first | rfl | (simp [Body.etype] at h0)
  · rw [hw]
    simp only [wanted]
    cases hbb : r.body
    case edges k =>
      simp only [Typed, hbb] at w3
      constructor
      · intro v hv
        simp only [wantVerts, L.tally_fst, count_firsts, List.mem_flatMap] at hv
        obtain ⟨q, hq, hv⟩ := hv
        obtain ⟨e1, e2, _⟩ := w3 q hq
        simp only [List.mem_cons, List.not_mem_nil, or_false] at hv
        rcases hv with rfl | rfl
        · simpa using e1.2.2
        · simpa using e2.2.2
      · intro q hq
        simp only [wantEdges, List.mem_map] at hq
        obtain ⟨e, he, rfl⟩ := hq
        have := (w3 e he).2.2.1.2.2
        intro h5
        rw [h5] at this
        simp [simpleCurves] at this
    all_goals simp [wantVerts, wantEdges]
  · rw [hw]
    exact wanted_verts r.body
  · rw [hw]
    simp [wanted, wantDE, deNumbers]
  · rw [hb, hw]
    simp only [wanted]
    cases r.body <;> rfl

/-- **C20** (partial).  After any careful calls on a model that was read from a file of plain entities, pointers and
lists of users agree.  Missing: loops (508), files that list a part twice (`C57_fails_face_twice`), entities that point
at themselves, and the calls `Careful` leaves out. -/
theorem C20_after_read_partial (es : List REnt) (hf : FromFile es) (hp : ∀ i r, es[i]? = some r → Plain es i r) (G : Geo)
    (h : Heap) (hl : linkAll G es = some (h, true)) (calls : List Call) (hc : CarefulRun h calls) :
    ∃ h', runFrom h calls = some h' ∧ Symmetric h' := by
  obtain ⟨_, h', h1, G'⟩ := runFrom_ok calls _ _ (linked_good hf hp hl) hc
  exact ⟨h', h1, G'.symmetric⟩

/-- **C24** (partial).  The removal of orphans at the end of a successful read of a file of plain entities is defined if
entities in use are supported and complete; it removes only entities nobody needs, keeps the rest, and any careful
calls may follow. -/
theorem C24_after_read_partial (es : List REnt) (hf : FromFile es) (hp : ∀ i r, es[i]? = some r → Plain es i r) (G : Geo)
    (h : Heap) (hl : linkAll G es = some (h, true)) (hu : UsedComplete h) :
    ∃ h1 l, readGraph G es = some (h1, l, true) ∧ Culled false h (List.range es.length) h1 l ∧
      ∀ calls, CarefulRun h1 calls → ∃ h', runFrom h1 calls = some h' ∧ Symmetric h' := by
  have g := linked_good hf hp hl
  have hall : ∀ e ∈ List.range es.length, (h e).isSome = true := by
    intro e he
    obtain ⟨refs, hr⟩ := (C56_pointers_of_the_file es hf G h hl).1 e _
      (List.getElem?_eq_getElem (List.mem_range.mp he))
    rw [hr]; rfl
  obtain ⟨l', D, i1, i2, i3, i4, i5, _, _⟩ := cull_pass false (List.range es.length) g (Used.of hu) List.nodup_range hall
  refine ⟨_, l', ?_, Culled.of g i2 i3 i4 i5, ?_⟩
  · unfold readGraph
    simp [hl, i1]
  · intro calls hc
    obtain ⟨_, h', h1, G'⟩ := runFrom_ok calls _ _ i2 hc
    exact ⟨h', h1, G'.symmetric⟩

/-- **C58** (partial).  Linking never runs into undefined behaviour if all entities of the file are `Linkable`; whether
it succeeds or fails, every entity is still there and has its type.  Missing: files with optional pointers; the other
conditions are needed (`C58_fails_self_pointer`, `C58_fails_vertex_pointer`). -/
theorem C58_linking_defined_partial (es : List REnt) (hs : ∀ i r, es[i]? = some r → Linkable es i r) (G : Geo) :
    ∃ h ok, linkAll G es = some (h, ok) ∧
      ∀ i, (h i).map (·.etype) = es[i]?.map (fun r => r.body.etype.toNat) := by
  obtain ⟨h, ok, h1, F⟩ := T.linkAll_runs G hs
  exact ⟨h, ok, h1, F.ty⟩

end Iges.Props
