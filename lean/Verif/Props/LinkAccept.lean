import Verif.Lemmas.LinkAccepts
import Verif.Spec.Written
import Verif.Props.Link
import Verif.Props.File
/-
C60: files whose pointers are in order are linked; a model that is written and read has its pointers again.
-/
namespace Iges.Props

open Iges.Graph Iges.Spec Iges.Link Iges.File

/-! ### Records that agree in their pointers -/

/-- What the pointers of a class depend on. -/
structure SamePointers (a b : Body) : Prop where
  etype : b.etype = a.etype
  own : wantOwn b = wantOwn a
  kids : wantKids b = wantKids a
  edges : wantEdges b = wantEdges a
  verts : wantVerts b = wantVerts a
  loops : wantLoops b = wantLoops a
  redges : wantRedges b = wantRedges a
  slots : wantsSlot b = wantsSlot a
  req : required b = required a
  typed : ∀ es d d' x x' c c', Typed es ⟨d, a, x, c⟩ → Typed es ⟨d', b, x', c'⟩
  shell : b = .shell [] → a = .shell []
  extr : ∀ k, b = .extrusion k → ∃ k', a = .extrusion k' ∧ k.PTR = k'.PTR
  comp : ∀ k, b = .composite k → a = .composite k
  points : ∀ d d' x x' c c', A.points ⟨d', b, x', c'⟩ = A.points ⟨d, a, x, c⟩

theorem samePointers {res : ℚ} {a b : Body} (h : BodyNear res a b) : SamePointers a b := by
  have same : ∀ x : Body, SamePointers x x := fun x =>
    ⟨rfl, rfl, rfl, rfl, rfl, rfl, rfl, rfl, rfl, fun _ _ _ _ _ _ _ h => h, fun h => h, fun k hk => ⟨k, hk, rfl⟩, fun _ h => h,
      fun _ _ _ _ _ _ => rfl⟩
  cases a <;> cases b <;> first
    | exact h.elim
    | (simp only [BodyNear] at h; subst h; exact same _)
    | skip
  case revolution.revolution a b =>
    obtain ⟨h1, h2, -⟩ := h
    constructor <;> first
      | rfl
      | (simp only [wantOwn, h1, h2])
      | (intro es d d' x x' c c'; simp only [Typed, h1, h2]; exact id)
      | (intros; trivial)
      | (intro hh; cases hh)
      | (intro k hh; cases hh)
  case tabCyl.tabCyl a b =>
    obtain ⟨h1, -⟩ := h
    constructor <;> first
      | rfl
      | (simp only [wantOwn, required, h1])
      | (intro es d d' x x' c c'; simp only [Typed, h1]; exact id)
      | (intros; trivial)
      | (intro hh; cases hh)
      | (intro k hh; cases hh)
  case inst.inst a b =>
    obtain ⟨h1, -⟩ := h
    constructor <;> first
      | rfl
      | (simp only [wantOwn, required, h1])
      | (intro es d d' x x' c c'; simp only [Typed, h1]; exact id)
      | (intros; trivial)
      | (intro hh; cases hh)
      | (intro k hh; cases hh)
  case extrusion.extrusion a b =>
    have h1 := h.PTR
    constructor <;> first
      | rfl
      | (simp only [wantOwn, required, h1])
      | (intro es d d' x x' c c'; simp only [Typed, h1]; exact id)
      | (intro k hh; cases hh; exact ⟨a, rfl, h1⟩)
      | (intros; trivial)
      | (intro hh; cases hh)
      | (intro k hh; cases hh)
  case vertices.vertices a b =>
    have h1 : a.length = b.length := h.length_eq
    constructor <;> first
      | rfl
      | (intro d d' x x' c c'; simp only [A.points, h1])
      | (intros; trivial)
      | (intro hh; cases hh)
      | (intro k hh; cases hh)
  case onSurface.onSurface a b =>
    have h1 : b.SPTR = a.SPTR ∧ b.BPTR = a.BPTR ∧ b.CPTR = a.CPTR := by
      simp only [BodyNear] at h
      rw [h]
      exact ⟨rfl, rfl, rfl⟩
    obtain ⟨h1, h2, h3⟩ := h1
    constructor <;> first
      | rfl
      | (simp only [wantOwn, required, h1, h2, h3])
      | (intro es d d' x x' c c'; simp only [Typed, h1, h2, h3]; exact id)
      | (intros; trivial)
      | (intro hh; cases hh)
      | (intro k hh; cases hh)
  all_goals
    constructor <;> first
      | rfl
      | (intros; trivial)
      | (intro hh; cases hh)
      | (intro k hh; cases hh)

/-- Two records agree in what linking looks at. -/
structure Alike (r r' : REnt) : Prop where
  form : r'.de.form = r.de.form
  de : (deNumbers r'.de).map (fun q => (q.1, max 0 q.2)) = (deNumbers r.de).map (fun q => (q.1, max 0 q.2))
  body : SamePointers r.body r'.body
  extras : r'.extras.Perm r.extras

theorem Alike.slot {r r' : REnt} (h : Alike r r') {q : Nat × Int} (hq : q ∈ deNumbers r'.de) (h0 : 0 < q.2) :
    q ∈ deNumbers r.de := by
  have h1 : (q.1, max 0 q.2) ∈ (deNumbers r.de).map (fun q => (q.1, max 0 q.2)) := by
    rw [← h.de]
    exact List.mem_map_of_mem hq
  obtain ⟨p, hp, he⟩ := List.mem_map.mp h1
  obtain ⟨p1, p2⟩ := p
  obtain ⟨q1, q2⟩ := q
  simp only [Prod.mk.injEq] at he h0
  obtain ⟨rfl, he⟩ := he
  have : p2 = q2 := by omega
  subst this
  exact hp

structure AlikeAll (es es' : List REnt) : Prop where
  len : es'.length = es.length
  at_ : ∀ (i : Nat) (r r' : REnt), es[i]? = some r → es'[i]? = some r' → Alike r r'

namespace AlikeAll
variable {es es' : List REnt} (H : AlikeAll es es')
include H

theorem get {i : Nat} {r' : REnt} (h : es'[i]? = some r') : ∃ r, es[i]? = some r ∧ Alike r r' := by
  have h1 : i < es.length := H.len ▸ (List.getElem?_eq_some_iff.mp h).1
  exact ⟨es[i], List.getElem?_eq_getElem h1, H.at_ i _ _ (List.getElem?_eq_getElem h1) h⟩

theorem none {i : Nat} : es'[i]? = none ↔ es[i]? = none := by
  simp only [List.getElem?_eq_none_iff, H.len]

theorem type (i : Nat) : typeAt es' i = typeAt es i := by
  unfold typeAt
  cases h : es'[i]? with
  | none => rw [H.none.mp h]
  | some r' =>
    obtain ⟨r, h1, h2⟩ := H.get h
    rw [h1]
    simp [h2.body.etype]

theorem form (i : Nat) : formAt es' i = formAt es i := by
  unfold formAt
  cases h : es'[i]? with
  | none => rw [H.none.mp h]
  | some r' =>
    obtain ⟨r, h1, h2⟩ := H.get h
    rw [h1]
    simp [h2.form]

theorem points (i : Nat) : pointsAt es' i = pointsAt es i := by
  have key : ∀ (l : List REnt) i, pointsAt l i = (l[i]?.map A.points).getD 0 := by
    intro l i
    unfold pointsAt
    cases l[i]? with
    | none => rfl
    | some r =>
      obtain ⟨d, b, x, c⟩ := r
      cases b <;> rfl
  rw [key, key]
  cases h : es'[i]? with
  | none => rw [H.none.mp h]
  | some r' =>
    obtain ⟨r, h1, h2⟩ := H.get h
    rw [h1]
    obtain ⟨d, b, x, c⟩ := r
    obtain ⟨d', b', x', c'⟩ := r'
    exact h2.body.points d d' x x' c c'

theorem leads {l : List Nat} {v : Int} : Leads es' l v ↔ Leads es l v := by
  simp only [Leads, H.len, H.type]

theorem inFile {v : Int} : InFile es' v ↔ InFile es v := by
  simp only [InFile, H.len]

theorem typed (r : REnt) : Typed es' r ↔ Typed es r := by
  unfold Typed
  split <;> simp only [H.leads, H.inFile, H.form, H.points]

theorem dePtr (v : Int) : dePtr es' v = dePtr es v := by
  simp only [Spec.dePtr, H.type]

theorem wantDE {r r' : REnt} (h : Alike r r') : wantDE es' r' = wantDE es r := by
  have hp : ∀ v, Spec.dePtr es' v = Spec.dePtr es (max 0 v) := by
    intro v
    rw [H.dePtr]
    unfold Spec.dePtr
    by_cases h0 : 0 < v
    · rw [max_eq_right (by omega)]
    · rw [max_eq_left (by omega), if_neg (by omega), if_neg (by omega)]
  have hq : ∀ v, Spec.dePtr es v = Spec.dePtr es (max 0 v) := fun v => by rw [← hp, H.dePtr]
  have key : ∀ (r : REnt), Spec.wantDE es r = ((deNumbers r.de).map fun q => (q.1, max 0 q.2)).map
      (fun q => if wantsSlot r.body q.1 then Spec.dePtr es q.2 else Option.none) := by
    intro r
    unfold Spec.wantDE
    rw [List.map_map]
    apply List.map_congr_left
    intro q _
    simp only [Function.comp]
    rw [hq]
  have h1 : Spec.wantDE es' r' = Spec.wantDE es r' := by
    unfold Spec.wantDE
    apply List.map_congr_left
    intro q _
    rw [H.dePtr]
  rw [h1, key, key, h.de, h.body.slots]

theorem targets {r r' : REnt} (h : Alike r r') : (targets es' r').Perm (targets es r) := by
  unfold Spec.targets
  rw [H.wantDE h, h.body.own, h.body.kids, h.body.edges, h.body.verts, h.body.loops, h.body.redges]
  simp only [List.append_assoc]
  exact List.Perm.append_left _ (List.Perm.append_right _ (h.extras.map pos))

theorem acceptable {G : Geo} (A : Acceptable G es) : Acceptable G es' := by
  have mem : ∀ r' ∈ es', ∃ (i : Nat) (r : REnt), es[i]? = some r ∧ es'[i]? = some r' ∧ r ∈ es ∧ Alike r r' := by
    intro r' hr
    obtain ⟨i, hi⟩ := List.mem_iff_getElem?.mp hr
    obtain ⟨r, h1, h2⟩ := H.get hi
    exact ⟨i, r, h1, hi, List.mem_of_getElem? h1, h2⟩
  constructor
  · rw [H.len]
    exact A.size
  · intro i r' hr q hq h0
    obtain ⟨r, h1, h2⟩ := H.get hr
    have := A.de i r h1 q (h2.slot hq h0) h0
    rw [h2.body.slots, H.len]
    unfold DeTarget at *
    simp only [H.type, H.form]
    exact this
  · intro r' hr v hv
    obtain ⟨i, r, -, -, h1, h2⟩ := mem r' hr
    rw [H.leads]
    exact A.extras r h1 v (h2.extras.mem_iff.mp hv)
  · intro r' hr
    obtain ⟨i, r, -, -, h1, h2⟩ := mem r' hr
    rw [H.typed]
    obtain ⟨d, b, x, c⟩ := r
    obtain ⟨d', b', x', c'⟩ := r'
    exact h2.body.typed es d d' x x' c c' (A.typed _ h1)
  · intro r' hr v hv
    obtain ⟨i, r, -, -, h1, h2⟩ := mem r' hr
    rw [h2.body.req] at hv
    exact A.odd r h1 v hv
  · intro r' hr hb
    obtain ⟨i, r, -, -, h1, h2⟩ := mem r' hr
    exact A.faces r h1 (h2.body.shell hb)
  · intro r' hr c hc
    obtain ⟨i, r, -, -, h1, h2⟩ := mem r' hr
    rw [H.type]
    exact A.known r h1 c ((H.targets h2).mem_iff.mp hc)
  · intro r' hr
    obtain ⟨i, r, -, -, h1, h2⟩ := mem r' hr
    exact (H.targets h2).nodup_iff.mpr (A.once r h1)
  · intro i j r' q' hr hq hj hi
    obtain ⟨r, h1, h2⟩ := H.get hr
    obtain ⟨q, h3, h4⟩ := H.get hq
    exact A.apart i j r q h1 h3 ((H.targets h2).mem_iff.mp hj) ((H.targets h4).mem_iff.mp hi)
  · intro r' hr k hk
    obtain ⟨i, r, -, -, h1, h2⟩ := mem r' hr
    obtain ⟨k', h3, h4⟩ := h2.body.extr k hk
    rw [h4]
    exact A.closed r h1 k' h3
  · intro i r' k hr hk
    obtain ⟨r, h1, h2⟩ := H.get hr
    exact A.points i r k h1 (h2.body.comp k hk)

end AlikeAll

/-- What is read for a written entity asks for the pointers the entity had. -/
theorem alike_kept {res : ℚ} {i : Nat} {e : Ent} {r : REnt} {note : Bool} {grad : Int} (K : EntKept res i e r)
    (L : LegalEnt res note grad i e) (P : PtrsOfType e) : Alike (recordFor e) r := by
  obtain ⟨first, count, D⟩ := K.de
  refine ⟨D.form, ?_, samePointers K.body, K.extras⟩
  have hs := D.noStructure
  have hd := L.de
  have hsp : ∀ {x : Option Int}, PtrOk x → 0 ≤ x.getD 0 := by
    intro x hx
    cases x with
    | none => exact Int.le_refl 0
    | some v => exact Int.le_of_lt (hx v rfl).1
  obtain ⟨-, p1, p3, p4, p5, p6⟩ := hd.ptrs
  have font : max 0 (-r.de.lineFontPattern) = max 0 (e.ptrs.pLineFontPattern.getD 0) := by
    by_cases ht : e.body.etype ∈ [124, 314, 406, 502, 504, 510, 514]
    · rw [D.noFont ht, P.font ht]
      rfl
    · rw [D.font ht]
      have := hd.font.1
      simp only [placed] at this
      cases hp : e.ptrs.pLineFontPattern with
      | none => simp [storedDE, placed, hp, this]
      | some v => simp [storedDE, hp]
  have level : max 0 (-r.de.level) = max 0 (e.ptrs.pLevel.getD 0) := by
    rw [L.level]
    by_cases ht : e.body.etype ∈ [124, 314]
    · rw [D.noLevel ht]
      rfl
    · rw [D.level ht]
      have := hd.level.1
      simp only [placed] at this
      simp [storedDE, placed, L.level, this]
  have view : r.de.view = e.ptrs.pView.getD 0 := by
    by_cases ht : e.body.etype ∈ [124, 314, 406, 502, 504, 508, 510, 514]
    · rw [D.noView ht, P.view ht]
      rfl
    · rw [D.view ht]
      rfl
  have transform : r.de.transform = e.ptrs.pTransform.getD 0 := by
    by_cases ht : e.body.etype ∈ [314, 406, 502, 504, 508, 510, 514]
    · rw [D.noTransform ht, P.transform ht]
      rfl
    · rw [D.transform ht]
      rfl
  have label : r.de.labelAssoc = e.ptrs.pLabelAssoc.getD 0 := by
    by_cases ht : e.body.etype ∈ [124, 314, 406]
    · rw [D.noLabel ht, P.label ht]
      rfl
    · rw [D.labelAssoc ht]
      rfl
  have color : max 0 (-r.de.colorNum) = max 0 (e.ptrs.pColor.getD 0) := by
    by_cases ht : e.body.etype ∈ [502, 504, 510, 514]
    · rw [D.noColor ht, P.color ht]
      rfl
    · rw [D.color ht]
      have := hd.color.1
      simp only [placed] at this
      cases hp : e.ptrs.pColor with
      | none => simp [storedDE, placed, hp, this]
      | some v => simp [storedDE, hp]
  simp only [deNumbers, recordFor, List.map_cons, List.map_nil, neg_neg, hs, P.structure_, Option.getD_none, font, level, view,
    transform, label, color]

/-! ### C60 -/

/-- Linking as the last step of reading. -/
def linking (G : Geo) (es : List REnt) : Option Bool := (linkAll G es).map Prod.snd

theorem listedOnce {G : Geo} {es : List REnt} (Ac : Acceptable G es) : ∀ r ∈ es, ListedOnce r := by
  intro r hr
  have h := Ac.once r hr
  rw [A.targets_eq, List.nodup_append] at h
  have h := h.2.1
  unfold ListedOnce
  split
  · rename_i k hb
    have h0 := (Ac.odd r hr k.shell (by simp [required, hb])).1
    simpa [A.rest, hb, wantOwn, wantKids, wantEdges, wantVerts, wantLoops, wantRedges, ptr, show k.shell ≠ 0 by omega] using h
  · rename_i k hb
    have h0 := (Ac.odd r hr k.surf (by simp [required, hb])).1
    simp only [A.rest, hb, wantOwn, wantKids, wantEdges, wantVerts, wantLoops, wantRedges, List.nodup_append] at h
    exact h.2.1.1
  · rename_i k hb
    simp only [A.rest, hb, wantOwn, wantKids, wantEdges, wantVerts, wantLoops, wantRedges, List.nodup_append] at h
    exact h.2.1.1
  · trivial

/-- **C60**.  Read accepts every file with well-formed records whose pointers are in order (`Acceptable`): it
succeeds, every entity has exactly the pointers its record asks for, and the pointers agree with the lists of
users. -/
theorem C60_read_accepts (S : Sys) (G : Geo) (finish : State → State) (m st : State) (path text : Str) (hm : m.ents = [])
    (hr : readSections S m path text = .val st) (Ac : Acceptable G st.ents) :
    Read S (linking G) finish m (some path) (some text) = .val (true, finish st) ∧
    ∃ h, linkAll G st.ents = some (h, true) ∧ (∀ i r, st.ents[i]? = some r → ∃ refs, h i = some (wanted st.ents r refs)) ∧
      Symmetric h := by
  obtain ⟨h, hl⟩ := A.linkAll_accepts G Ac
  have hf : FromFile st.ents := ⟨S, m, st, path, text, hr, rfl⟩
  refine ⟨?_, h, hl, (C56_pointers_of_the_file _ hf G h hl).1, C57_users_after_read_partial _ hf (listedOnce Ac) G h hl⟩
  unfold Read linking
  simp only [hm, hr, hl]
  rfl

/-- **C55**, the pointers.  A legal model whose pointers are in order is written, and `Read` with the linking of the
code accepts the text and gives every entity the pointers it had.  Missing: the models that are not legal, and those
whose pointers `Acceptable` excludes. -/
theorem C55_pointers_partial (S : Sys) (hS : SysOk S) (m : Model) (path base : Str) (ext : Option Str)
    (hparts : Spec.NameParts (SetPath (some path)).full base ext) (hpne : path ≠ []) (hdot : '.' ∈ path ∨ base = [])
    (h : LegalModel S (Spec.fileName base ext) m) (hp : ∀ e ∈ m.ents, PtrsOfType e) (G : Geo)
    (Ac : Acceptable G (recordsFor m)) (overwrite : Bool) (disk : Option OnDisk) (creatable : Bool)
    (hw : CanWrite overwrite disk creatable) (finish : State → State) :
    ∃ text start g st hp, Write S m (some path) overwrite disk creatable = .val (.done text start g) ∧
      Read S (linking G) finish cleared (some path) (some text) = .val (true, finish st) ∧
      st.ents.length = m.ents.length ∧
      (∀ i e r, m.ents[i]? = some e → st.ents[i]? = some r → EntKept m.globals.minResolution i e r) ∧
      linkAll G st.ents = some (hp, true) ∧ Symmetric hp ∧
      ∀ i e, m.ents[i]? = some e → ∃ o, hp i = some o ∧ o.etype = e.body.etype.toNat ∧ o.form = e.attrs.form ∧
        o.de = wantDE (recordsFor m) (recordFor e) ∧ o.extras.Perm (e.extras.map fun x => pos x.de) ∧
        o.own = wantOwn e.body ∧ o.kids = wantKids e.body ∧ o.edges = wantEdges e.body ∧ o.verts = wantVerts e.body ∧
        o.loops = wantLoops e.body ∧ o.redges = wantRedges e.body := by
  obtain ⟨text, front, h1, -, -, -, st, r, h2, -, -, -, hlen, h3⟩ := file_roundtrip hS hparts hpne hdot h
  have al : AlikeAll (recordsFor m) st.ents := by
    refine ⟨by rw [hlen]; simp [recordsFor], ?_⟩
    intro i r r' hr hr'
    unfold recordsFor at hr
    rw [List.getElem?_map, Option.map_eq_some_iff] at hr
    obtain ⟨e, he, rfl⟩ := hr
    exact alike_kept (h3 i e r' he hr') (h.ents i e he) (hp e (List.mem_of_getElem? he))
  obtain ⟨c1, hp', c2, c3, c4⟩ := C60_read_accepts S G finish cleared st path text rfl h2 (al.acceptable Ac)
  refine ⟨text, _, _, st, hp', h1 overwrite disk creatable hw, c1, hlen, h3, c2, c4, ?_⟩
  intro i e he
  have hi : i < st.ents.length := by
    rw [hlen]
    exact (List.getElem?_eq_some_iff.mp he).1
  have hr : st.ents[i]? = some st.ents[i] := List.getElem?_eq_getElem hi
  have ai : Alike (recordFor e) st.ents[i] := al.at_ i _ _ (by simp [recordsFor, he]) hr
  obtain ⟨refs, ho⟩ := c3 i _ hr
  have ht : (objOf st.ents[i]).etype = st.ents[i].body.etype.toNat := by
    show (newObj st.ents[i].body.etype.toNat).etype = _
    cases st.ents[i].body <;> simp [newObj, Body.etype]
  refine ⟨_, ho, ?_, ai.form, al.wantDE ai, ?_, ai.body.own, ai.body.kids, ai.body.edges, ai.body.verts, ai.body.loops, ai.body.redges⟩
  · rw [show e.body.etype = st.ents[i].body.etype from ai.body.etype.symm]
    exact ht
  · have := ai.extras.map pos
    simp only [recordFor, List.map_map] at this
    exact this

end Iges.Props
