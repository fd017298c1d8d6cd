import Verif.Lemmas.LinkAll
import Verif.Props.TreeBuild
import Verif.Props.Graph
/-
C56, C57, C59: the pointers between entities after a file has been read and linked.
-/
namespace Iges.Props

open Iges.Graph Iges.Spec Iges.Link
open TreeBuild (val_of_bind)
open Iges.File (REnt Body Sys State readSections readDEs readPDs orFail)

/-- The entities, as read from the text of some file into some model, before linking. -/
def FromFile (es : List REnt) : Prop :=
  ∃ (S : Sys) (m st : State) (path text : Str), readSections S m path text = .val st ∧ st.ents = es

/-! ### The structure number is never positive -/

theorem some_of_bind {α β : Type} {r : Option α} {f : α → Option β} {b : β} (h : (r >>= f) = some b) :
    ∃ a, r = some a ∧ f a = some b := Option.bind_eq_some_iff.mp h

theorem of_guard {α : Type} {c : Prop} [Decidable c] {x : Option α} {b : α}
    (h : (if c then none else x) = some b) : x = some b := by
  split at h
  · cases h
  · exact h

theorem readDE_structure {t : Int} {g : Option Int} {rec : Record} {l : Option Str} {d : DE}
    (h : readDE t g rec l = some d) : d.structure_ ≤ 0 := by
  unfold readDE at h
  repeat' first
    | replace h := of_guard h
    | (replace h := some_of_bind h; obtain ⟨_, _, h⟩ := h)
  simp only [Option.some.injEq] at h
  subst h
  simp only
  split <;> omega

theorem fixDE_structure {t : Nat} {d d' : DE} (hd : d.structure_ ≤ 0) (h : fixDE t d = some d') :
    d'.structure_ ≤ 0 := by
  unfold fixDE at h
  split at h <;> (try split at h) <;> first | cases h; done | (simp only [Option.some.injEq] at h; subst h; first | exact Int.le_refl 0 | exact hd)

theorem readDEs_structure {g : Int} : ∀ {ls : List Str} {rec : Record} {ds : List (Int × DE)} {c : Char} {r : List Str},
    readDEs g rec ls = some (ds, c, r) → ∀ q ∈ ds, q.2.structure_ ≤ 0
  | [], rec, ds, c, r, h => by simp [readDEs] at h
  | [_], rec, ds, c, r, h => by simp [readDEs] at h
  | l2 :: l3 :: ls, rec, ds, c, r, h => by
    unfold readDEs at h
    simp only [Option.bind_eq_bind, Option.bind_eq_some_iff] at h
    obtain ⟨t, _, d, hd, rc, _, h⟩ := h
    have hs : d.structure_ ≤ 0 := by
      split at hd
      · unfold readEntityDE at hd
        rw [Option.bind_eq_some_iff] at hd
        obtain ⟨d0, h1, h2⟩ := hd
        exact fixDE_structure (readDE_structure h1) h2
      · rw [Option.map_eq_some_iff] at hd
        obtain ⟨d0, h1, rfl⟩ := hd
        have := readDE_structure h1
        exact this
    split at h
    · simp only [Option.some.injEq, Prod.mk.injEq] at h
      obtain ⟨rfl, _⟩ := h
      simpa using hs
    · simp only [Option.bind_eq_some_iff] at h
      obtain ⟨⟨ds', c', r'⟩, h1, h⟩ := h
      simp only [Option.some.injEq, Prod.mk.injEq] at h
      obtain ⟨rfl, _⟩ := h
      intro q hq
      rcases List.mem_cons.mp hq with rfl | hq
      · exact hs
      · exact readDEs_structure h1 q hq

theorem readPDs_structure {E : PdEnv} : ∀ {ds : List (Int × DE)} {ls r : List Str} {es : List REnt},
    readPDs E ds ls = .val (es, r) → (∀ q ∈ ds, q.2.structure_ ≤ 0) → ∀ e ∈ es, e.de.structure_ ≤ 0
  | [], ls, r, es, h, _ => by
    simp only [readPDs, Rd.val.injEq, Prod.mk.injEq] at h
    obtain ⟨rfl, _⟩ := h
    simp
  | (t, d) :: ds, ls, r, es, h, hd => by
    unfold readPDs at h
    obtain ⟨⟨b, xs, cs⟩, _, h⟩ := val_of_bind h
    obtain ⟨⟨es', r'⟩, h1, h⟩ := val_of_bind h
    simp only [Rd.val.injEq, Prod.mk.injEq] at h
    obtain ⟨rfl, _⟩ := h
    intro e he
    rcases List.mem_cons.mp he with rfl | he
    · exact hd (t, d) (by simp)
    · exact readPDs_structure h1 (fun q hq => hd q (by simp [hq])) e he

theorem orFail_val {α : Type} {r : Option α} {a : α} (h : orFail r = .val a) : r = some a := by
  cases r with
  | none => cases h
  | some b =>
    simp only [orFail, Rd.val.injEq] at h
    rw [h]

theorem FromFile.structure {es : List REnt} (h : FromFile es) : ∀ r ∈ es, r.de.structure_ ≤ 0 := by
  obtain ⟨S, m, st, path, text, h, rfl⟩ := h
  unfold readSections at h
  obtain ⟨⟨rc, ls⟩, _, h⟩ := val_of_bind h
  obtain ⟨_, _, h⟩ := val_of_bind h
  obtain ⟨⟨ss, rc2, ls2⟩, _, h⟩ := val_of_bind h
  obtain ⟨_, _, h⟩ := val_of_bind h
  obtain ⟨⟨gs, rc3, ls3⟩, _, h⟩ := val_of_bind h
  obtain ⟨g, _, h⟩ := val_of_bind h
  obtain ⟨name, _, h⟩ := val_of_bind h
  obtain ⟨_, _, h⟩ := val_of_bind h
  obtain ⟨_, _, h⟩ := val_of_bind h
  obtain ⟨⟨ds, c, ls4⟩, h1, h⟩ := val_of_bind h
  obtain ⟨_, _, h⟩ := val_of_bind h
  obtain ⟨⟨es, ls5⟩, h2, h⟩ := val_of_bind h
  obtain ⟨_, _, h⟩ := val_of_bind h
  simp only [Rd.val.injEq] at h
  subst h
  exact readPDs_structure h2 (readDEs_structure (orFail_val h1))

/-! ### C56: the pointers are those of the file -/

/-- **C56**.  If a file is read and its entities are linked without an error, every entity has exactly the pointers its
record asks for: those of the directory entry, the optional ones and those of its parameters, at the places where they
stand in the record.  There are no other entities. -/
theorem C56_pointers_of_the_file (es : List REnt) (hf : FromFile es) (G : Geo) (h : Heap)
    (hl : linkAll G es = some (h, true)) :
    (∀ i r, es[i]? = some r → ∃ refs, h i = some (wanted es r refs)) ∧ ∀ i, es.length ≤ i → h i = none := by
  obtain ⟨C, H⟩ := L.linkAll_ok hf.structure hl
  refine ⟨fun i r hr => ⟨L.refsOf h i, (L.of_core (H i r hr).1).1⟩, ?_⟩
  intro i hi
  cases hh : h i with
  | none => rfl
  | some o =>
    have := C.lt (L.core_some hh)
    omega

/-! ### C57: pointers and lists of users agree -/

theorem linked_bal {es : List REnt} (hf : FromFile es) (h1 : ∀ r ∈ es, ListedOnce r) {G : Geo} {h : Heap}
    (hl : linkAll G es = some (h, true)) : ∀ p o, h p = some o → ∀ c, o.children.count c = (L.refsOf h c).count p := by
  obtain ⟨C, H⟩ := L.linkAll_ok hf.structure hl
  intro p o hp c
  have hc := L.core_some hp
  obtain ⟨r, hr, _⟩ := C.static p _ hc
  exact (H p r hr).2.1 (h1 r (List.mem_of_getElem? hr)) _ hc c

/-- **C57** (partial).  After successful linking of a file in which no solid, face or shell lists a part twice, pointers
and lists of users agree.

Missing for the full property: parts listed twice, for which it is false (`C57_fails_face_twice`). -/
theorem C57_users_after_read_partial (es : List REnt) (hf : FromFile es) (h1 : ∀ r ∈ es, ListedOnce r) (G : Geo)
    (h : Heap) (hl : linkAll G es = some (h, true)) : Symmetric h := by
  have B := linked_bal hf h1 hl
  obtain ⟨C, _⟩ := L.linkAll_ok hf.structure hl
  have hlist : ∀ c p, listed h c p = (L.refsOf h c).count p := by
    intro c p
    unfold listed L.refsOf
    cases h c <;> rfl
  intro p c
  rw [hlist]
  unfold uses
  cases hp : h p with
  | some o => exact B p o hp c
  | none =>
    refine (List.count_eq_zero.mpr ?_).symm
    intro hm
    obtain ⟨o, ho⟩ := C.all p (C.users c p hm)
    rw [(L.of_core ho).1] at hp
    cases hp

/-! ### C59: the types of what entities point at -/

/-- The types of what the numbers of a directory entry refer to; 0 is an entity of a type the library does not know. -/
def TypedDE (es : List REnt) (d : DE) : Prop :=
  (d.lineFontPattern < 0 → Leads es [0, 304] (-d.lineFontPattern)) ∧
  (d.level < 0 → Leads es [0, 406] (-d.level)) ∧
  (0 < d.view → Leads es [0, 402, 410] d.view) ∧
  (0 < d.transform → Leads es [124] d.transform) ∧
  (0 < d.labelAssoc → Leads es [0, 402] d.labelAssoc) ∧
  (d.colorNum < 0 → Leads es [0, 314] (-d.colorNum))

theorem typed_DE {es : List REnt} {e : Nat} {r : REnt} (S : L.Sound es e r) : TypedDE es r.de := by
  have key : ∀ s v T, (s, v) ∈ deNumbers r.de → 0 < v →
      (∀ o : Obj, goodTarget s o = true → (s = 4 → o.etype = 124) → o.etype ∈ T) → Leads es T v := by
    intro s v T hm hv hT
    obtain ⟨_, rc, h1, h2, h3⟩ := S.1 (s, v) (by
      unfold dePointers
      rw [List.mem_filter]
      exact ⟨hm, by simpa using hv⟩)
    refine ⟨by omega, (List.getElem?_eq_some_iff.mp h1).1, ?_⟩
    have := hT (objOf rc) h2 h3
    rw [L.objOf_etype] at this
    simp only at h1
    rw [typeAt, h1]
    exact this
  refine ⟨fun h => ?_, fun h => ?_, fun h => ?_, fun h => ?_, fun h => ?_, fun h => ?_⟩
  · refine key 1 _ _ (by simp [deNumbers]) (by omega) ?_
    intro o ho _
    simp [goodTarget] at ho
    simp; omega
  · refine key 2 _ _ (by simp [deNumbers]) (by omega) ?_
    intro o ho _
    simp [goodTarget] at ho
    simp; omega
  · refine key 3 _ _ (by simp [deNumbers]) (by omega) ?_
    intro o ho _
    simp [goodTarget] at ho
    simp; omega
  · refine key 4 _ _ (by simp [deNumbers]) (by omega) ?_
    intro o _ ho
    simp [ho rfl]
  · refine key 5 _ _ (by simp [deNumbers]) (by omega) ?_
    intro o ho _
    simp [goodTarget] at ho
    simp; omega
  · refine key 6 _ _ (by simp [deNumbers]) (by omega) ?_
    intro o ho _
    simp [goodTarget] at ho
    simp; omega

/-- **C59**.  After successful linking every number in the file that stands for a pointer leads to an entity of the file,
and its type is one that makes sense there: a shell has faces, a face a surface and loops, an edge a curve and vertices
that exist in the vertex lists, and so on. -/
theorem C59_pointers_typed (es : List REnt) (hf : FromFile es) (G : Geo) (h : Heap)
    (hl : linkAll G es = some (h, true)) (r : REnt) (hr : r ∈ es) :
    Typed es r ∧ TypedDE es r.de ∧ ∀ v ∈ r.extras, Leads es [212, 312, 406] v := by
  obtain ⟨C, H⟩ := L.linkAll_ok hf.structure hl
  obtain ⟨i, hi⟩ := List.mem_iff_getElem?.mp hr
  obtain ⟨_, _, T, S⟩ := H i r hi
  refine ⟨T, typed_DE S, ?_⟩
  intro v hv
  obtain ⟨h1, h2, h3⟩ := S.2.1 v hv
  refine ⟨by omega, h2, ?_⟩
  rcases h3 with h3 | h3 | h3 <;> simp [h3]

end Iges.Props
