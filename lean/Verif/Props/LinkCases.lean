import Verif.Props.LinkHistory
import Verif.Props.FileCases
/-
Files for which linking goes wrong, and concrete cases for the theorems on linking.
-/
namespace Iges.Props

open Iges.Graph Iges.Spec Iges.Spec.Cull Iges.Link Iges.Props.G Iges.Props.Cull
open Iges.File

deriving instance DecidableEq for Iges.Point, Iges.Mat, Iges.Transform
deriving instance DecidableEq for Iges.Arc, Iges.Conic, Iges.Line, Iges.Revolution, Iges.TabCyl, Iges.Nurbs, Iges.Cylinder,
  Iges.Extrusion, Iges.Colour, Iges.SubInstance
deriving instance DecidableEq for Iges.File.Body
deriving instance DecidableEq for Iges.File.REnt

namespace LinkCases

/-- The text that is written for some entities. -/
def textOf (es : List Ent) : Str :=
  match Write (exSys id) { fileModel with ents := es } (some "a.igs".toList) true none true with
  | .val (.done t _ _) => t
  | _ => []

/-- The first `a` in a text is replaced by `b`, of the same length. -/
def swap (a b : Str) : Str → Str
  | [] => []
  | c :: t => if a.isPrefixOf (c :: t) then b ++ (c :: t).drop a.length else c :: swap a b t

/-- The records of a text. -/
def records (text : Str) : List REnt :=
  match readSections (exSys id) cleared "a.igs".toList text with
  | .val st => st.ents
  | _ => []

theorem records_file {text : Str} (h : (records text).isEmpty = false) : FromFile (records text) := by
  unfold records at *
  cases hr : readSections (exSys id) cleared "a.igs".toList text with
  | val st => exact ⟨_, _, st, _, _, hr, rfl⟩
  | fail => rw [hr] at h; cases h
  | ub => rw [hr] at h; cases h
  | exn => rw [hr] at h; cases h

def aLine : Ent := ⟨exAttrs 0, noPtrs, .line ⟨0, 0, 0, 1, 1, 1⟩, [], []⟩

/-- Composite curves have their points, closed curves are closed. -/
def geo : Geo := ⟨fun _ => true, fun _ => true⟩

theorem of_isNone {α : Type} {x : Option α} (h : x.isNone = true) : x = none := by
  cases x with
  | none => rfl
  | some _ => cases h

/-- A linked file and the flag. -/
theorem of_flag {es : List REnt} {b : Bool} (h : (linkAll geo es).map Prod.snd = some b) : ∃ hp, linkAll geo es = some (hp, b) := by
  rw [Option.map_eq_some_iff] at h
  obtain ⟨⟨hp, c⟩, h1, rfl⟩ := h
  exact ⟨hp, h1⟩

/-- A solid with one face, which has one loop of one edge. -/
def brep (faces : List (Int × Bool)) : List Ent :=
 [ ⟨exAttrs 1, noPtrs, .vertices [⟨0, 0, 0⟩, ⟨1, 1, 1⟩], [], []⟩,                          -- 1
   aLine,                                                                                      -- 3
   ⟨exAttrs 1, noPtrs, .edges [⟨3, 1, 1, 1, 2⟩], [], []⟩,                                     -- 5
   aLine,                                                                                      -- 7
   ⟨exAttrs 0, noPtrs, .tabCyl ⟨7, 0, 0, 1⟩, [], []⟩,                                         -- 9
   aLine,                                                                                      -- 11
   ⟨exAttrs 1, noPtrs, .loop [⟨false, 5, 1, true, [(false, 11)]⟩], [], []⟩,                   -- 13
   ⟨exAttrs 1, noPtrs, .face ⟨9, true, [13]⟩, [], []⟩,                                        -- 15
   ⟨exAttrs 1, noPtrs, .shell faces, [], []⟩,                                                 -- 17
   ⟨exAttrs 0, noPtrs, .solid ⟨17, true, []⟩, [], []⟩ ]                                       -- 19

/-- The file of this solid.  What the library writes for a loop cannot be read (C30_loop_lost), so this line is
corrected. -/
def brepText (faces : List (Int × Bool)) : Str :=
  swap "508,1,0,5,1,1,1;     ".toList "508,1,0,5,1,1,1,0,11;".toList (textOf (brep faces))

def selfView : List Ent := [⟨exAttrs 0, { noPtrs with pView := some 1 }, .line ⟨0, 0, 0, 1, 1, 1⟩, [], []⟩]
def wrongVertex : List Ent := [aLine, aLine, ⟨exAttrs 1, noPtrs, .edges [⟨1, 3, 1, 3, 1⟩], [], []⟩]
def wrongFont : List Ent :=
  [⟨exAttrs 0, { noPtrs with pLineFontPattern := some 3 }, .line ⟨0, 0, 0, 1, 1, 1⟩, [], []⟩,
   ⟨exAttrs 0, noPtrs, .colour ⟨100, 25, 1 / 2, []⟩, [], []⟩]
def selfFigure : List Ent := [⟨exAttrs 0, noPtrs, .subfigure ⟨0, "A".toList, [1]⟩, [], []⟩]
def curveTwice : List Ent := [aLine, ⟨exAttrs 0, noPtrs, .composite [1, 1], [], []⟩]

/-- A line in a subfigure that is placed twice, once with a transformation. -/
def figures : List Ent :=
  [aLine, ⟨exAttrs 0, noPtrs, .subfigure ⟨0, "A".toList, [1]⟩, [], []⟩, ⟨exAttrs 0, noPtrs, .inst ⟨3, 0, 0, 0, 1⟩, [], []⟩,
   ⟨exAttrs 0, { noPtrs with pTransform := some 9 }, .inst ⟨3, 1, 2, 3, 1⟩, [], []⟩,
   ⟨exAttrs 0, noPtrs, .tx ⟨⟨0, -1, 0, 1, 0, 0, 0, 0, 1⟩, ⟨1, 2, -3⟩⟩, [], []⟩]

/-- A line with a colour and a name, and a composite curve. -/
def named3 : List Ent :=
  [⟨exAttrs 0, { noPtrs with pColor := some 3 }, .line ⟨0, 0, 0, 1, 1, 1⟩, [⟨406, 7⟩], []⟩,
   ⟨exAttrs 0, noPtrs, .colour ⟨100, 25, 1 / 2, []⟩, [], []⟩, ⟨exAttrs 0, noPtrs, .composite [1], [], []⟩,
   ⟨exAttrs 15, noPtrs, .name "front; left".toList, [], []⟩]

/-- A record, with the first line and the number of lines of its parameter data. -/
def recordOf (seq pd count : Int) (e : Ent) : REnt :=
  let d := { e.attrs with
    seq := seq, entityType := e.body.etype, parameterData := pd, paramLineCount := count,
    lineFontPattern := e.ptrs.pLineFontPattern.elim e.attrs.lineFontPattern (-·), view := e.ptrs.pView.getD 0,
    transform := e.ptrs.pTransform.getD 0, colorNum := e.ptrs.pColor.elim e.attrs.colorNum (-·) }
  ⟨(fixDE e.body.etype.toNat d).getD d, e.body, e.extras.map (·.de), []⟩

/-- Records with one line of parameter data each. -/
def recordsOf (seq pd : Int) : List Ent → List REnt
  | [] => []
  | e :: l => recordOf seq pd 1 e :: recordsOf (seq + 2) (pd + 1) l

/-- The records of the solid; the vertex list takes three lines. -/
def brepRecords (faces : List (Int × Bool)) : List REnt :=
  match brep faces with
  | [] => []
  | e :: l => recordOf 1 1 3 e :: recordsOf 3 4 l

theorem selfView_records : records (textOf selfView) = recordsOf 1 1 selfView := by decide +kernel
theorem wrongVertex_records : records (textOf wrongVertex) = recordsOf 1 1 wrongVertex := by decide +kernel
theorem wrongFont_records : records (textOf wrongFont) = recordsOf 1 1 wrongFont := by decide +kernel
theorem selfFigure_records : records (textOf selfFigure) = recordsOf 1 1 selfFigure := by decide +kernel
theorem curveTwice_records : records (textOf curveTwice) = recordsOf 1 1 curveTwice := by decide +kernel
theorem placed_records : records (textOf figures) = recordsOf 1 1 figures := by decide +kernel
theorem named3_records : records (textOf named3) = recordsOf 1 1 named3 := by decide +kernel
theorem brep_records : records (brepText [(15, true)]) = brepRecords [(15, true)] := by decide +kernel
theorem brep2_records : records (brepText [(15, true), (15, true)]) = brepRecords [(15, true), (15, true)] := by decide +kernel

theorem file_of {text : Str} {es : List REnt} (h : records text = es) (hne : es ≠ []) : FromFile es := by
  subst h
  refine records_file ?_
  cases hr : records text with
  | nil => exact absurd hr hne
  | cons _ _ => rfl

/-! ### Tests of the conditions -/

def plainTest (es : List REnt) (i : Nat) (r : REnt) : Bool :=
  (match r.body with
    | .solid _ | .face _ | .shell _ | .loop _ => false
    | .tx _ => r.extras.isEmpty
    | _ => true) &&
  (decide (r.body.etype ≠ 0) || (wanted es r []).children.isEmpty) && decide (i ∉ (wanted es r []).children)

/-- All entities of a list, with their position. -/
def allAt (f : Nat → REnt → Bool) (es : List REnt) : Bool := es.zipIdx.all fun q => f q.2 q.1

theorem of_allAt {f : Nat → REnt → Bool} {es : List REnt} (h : allAt f es = true) {i : Nat} {r : REnt} (hr : es[i]? = some r) :
    f i r = true := by
  unfold allAt at h
  rw [List.all_eq_true] at h
  exact h (r, i) (List.mem_zipIdx_iff_getElem?.mpr hr)

theorem plain_of {es : List REnt} (h : allAt (plainTest es) es = true) (i : Nat) (r : REnt) (hr : es[i]? = some r) :
    Plain es i r := by
  have := of_allAt h hr
  simp only [plainTest, Bool.and_eq_true, Bool.or_eq_true, decide_eq_true_eq] at this
  obtain ⟨⟨h1, h2⟩, h3⟩ := this
  refine ⟨?_, ?_, ?_, ?_, h3⟩
  · unfold ListedOnce
    split
    · rename_i hb; rw [hb] at h1; cases h1
    · rename_i hb; rw [hb] at h1; cases h1
    · rename_i hb; rw [hb] at h1; cases h1
    · trivial
  · intro k hb
    rw [hb] at h1
    cases h1
  · intro h0
    rcases h2 with h2 | h2
    · exact absurd h0 h2
    · exact List.isEmpty_iff.mp h2
  · intro k hb
    rw [hb] at h1
    exact List.isEmpty_iff.mp h1

def linkableTest (i : Nat) (r : REnt) : Bool :=
  (match r.body with
    | .solid _ | .face _ | .shell _ | .edges _ => false
    | _ => true) && r.extras.isEmpty &&
  [r.de.structure_, -r.de.lineFontPattern, -r.de.level, r.de.view, r.de.transform, r.de.labelAssoc, -r.de.colorNum].all
    fun v => decide (0 < v → pos v ≠ i)

theorem linkable_of {es : List REnt} (h : allAt linkableTest es = true) (i : Nat) (r : REnt) (hr : es[i]? = some r) :
    Linkable es i r := by
  have := of_allAt h hr
  simp only [linkableTest, Bool.and_eq_true] at this
  obtain ⟨⟨h1, h2⟩, h3⟩ := this
  refine ⟨List.isEmpty_iff.mp h2, ?_, ?_, ?_, ?_, ?_⟩
  · intro v hv
    have := List.all_eq_true.mp h3 v hv
    exact of_decide_eq_true this
  all_goals
    intro k hb
    rw [hb] at h1
    cases h1

def onceTest (r : REnt) : Bool :=
  match r.body with
  | .solid k => decide (pos k.shell :: k.voids.map fun v => pos v.1).Nodup
  | .face k => decide (k.loops.map pos).Nodup
  | .shell k => decide (k.map fun v => pos v.1).Nodup
  | _ => true

theorem once_of {es : List REnt} (h : es.all onceTest = true) : ∀ r ∈ es, ListedOnce r := by
  intro r hr
  have := List.all_eq_true.mp h r hr
  unfold onceTest at this
  unfold ListedOnce
  split at this <;> rename_i hb <;> simp_all

end LinkCases

open LinkCases

/-! ### Cases of the theorems -/

/-- The file of a line with a colour and a name and of a composite curve meets the hypotheses of the theorems on
linking. -/
theorem named3_linked : FromFile (recordsOf 1 1 named3) ∧
    (∃ h, linkAll geo (recordsOf 1 1 named3) = some (h, true)) ∧
    (∀ i r, (recordsOf 1 1 named3)[i]? = some r → Plain (recordsOf 1 1 named3) i r) :=
  ⟨file_of named3_records (by simp [named3, recordsOf]), of_flag (by decide +kernel), plain_of (by decide +kernel)⟩

example := C56_pointers_of_the_file _ named3_linked.1 geo _ named3_linked.2.1.choose_spec
example := C59_pointers_typed _ named3_linked.1 geo _ named3_linked.2.1.choose_spec
example := C20_after_read_partial _ named3_linked.1 named3_linked.2.2 geo _ named3_linked.2.1.choose_spec

theorem brep_file : FromFile (brepRecords [(15, true)]) := file_of brep_records (by simp [brep, brepRecords])

/-- The file of a solid meets the hypotheses, too. -/
theorem brep_linked : (∃ h, linkAll geo (brepRecords [(15, true)]) = some (h, true)) ∧
    ∀ r ∈ brepRecords [(15, true)], ListedOnce r :=
  ⟨of_flag (by decide +kernel), once_of (by decide +kernel)⟩

example := C56_pointers_of_the_file _ brep_file geo _ brep_linked.1.choose_spec
example := C57_users_after_read_partial _ brep_file brep_linked.2 geo _ brep_linked.1.choose_spec
example := C59_pointers_typed _ brep_file geo _ brep_linked.1.choose_spec

/-! ### Files for which it goes wrong -/

/-- **C57** fails.  A file whose shell lists its face twice is read; the shell points twice at the face, which lists the
shell once.  Deleting the face leaves a pointer to it. -/
theorem C57_fails_face_twice : ∃ (es : List REnt) (G : Geo) (h h' : Heap), FromFile es ∧ linkAll G es = some (h, true) ∧
    uses h 8 7 = 2 ∧ listed h 7 8 = 1 ∧ ¬ Symmetric h ∧ destroy h 7 = some h' ∧ h' 7 = none ∧ uses h' 8 7 = 1 := by
  obtain ⟨h, hl⟩ : ∃ h, linkAll geo (brepRecords [(15, true), (15, true)]) = some (h, true) := of_flag (by decide +kernel)
  have key : ((linkAll geo (brepRecords [(15, true), (15, true)])).bind fun r => (destroy r.1 7).map fun h' =>
      (uses r.1 8 7, listed r.1 7 8, (h' 7).isNone, uses h' 8 7)) = some (2, 1, true, 1) := by decide +kernel
  rw [hl] at key
  simp only [Option.bind_some, Option.map_eq_some_iff] at key
  obtain ⟨h', h1, h2⟩ := key
  simp only [Prod.mk.injEq] at h2
  refine ⟨_, geo, h, h', file_of brep2_records (by simp [brep, brepRecords]), hl, h2.1, h2.2.1, ?_, h1, of_isNone h2.2.2.1, h2.2.2.2⟩
  intro hs
  have := hs 8 7
  rw [h2.1, h2.2.1] at this
  cases this

/-- **C58** fails.  A line whose view pointer leads to the line itself: undefined behaviour. -/
theorem C58_fails_self_pointer : ∃ es r, FromFile es ∧ es = [r] ∧ r.de.view = 1 ∧ ∀ G, linkAll G es = none :=
  ⟨recordsOf 1 1 selfView, _, file_of selfView_records (by simp [selfView, recordsOf]), rfl, rfl, fun _ => rfl⟩

/-- **C58** fails.  An edge list whose vertex pointers lead to a line, not a vertex list: the line is used as a vertex
list. -/
theorem C58_fails_vertex_pointer : ∃ es r, FromFile es ∧ typeAt es 1 = 110 ∧ es[2]? = some r ∧
    r.body = .edges [⟨1, 3, 1, 3, 1⟩] ∧ ∀ G, linkAll G es = none :=
  ⟨recordsOf 1 1 wrongVertex, _, file_of wrongVertex_records (by simp [wrongVertex, recordsOf]), by decide +kernel, rfl, rfl,
    fun _ => rfl⟩

/-- **C58** fails.  A line whose line font pointer leads to a colour: linking fails, and the model cannot be cleared
without undefined behaviour, because the colour still lists the line. -/
theorem C58_fails_clear : ∃ es G h, FromFile es ∧ linkAll G es = some (h, false) ∧ uses h 0 1 = 0 ∧ listed h 1 0 = 1 ∧
    clearAll (List.range es.length) h = none := by
  obtain ⟨h, hl⟩ : ∃ h, linkAll geo (recordsOf 1 1 wrongFont) = some (h, false) := of_flag (by decide +kernel)
  have key : ((linkAll geo (recordsOf 1 1 wrongFont)).map fun r =>
      (uses r.1 0 1, listed r.1 1 0, (clearAll (List.range (recordsOf 1 1 wrongFont).length) r.1).isNone)) = some (0, 1, true) := by
    decide +kernel
  rw [hl] at key
  simp only [Option.map_some, Option.some.injEq, Prod.mk.injEq] at key
  exact ⟨_, geo, h, file_of wrongFont_records (by simp [wrongFont, recordsOf]), hl, key.1, key.2.1, of_isNone key.2.2⟩

/-- **C58** fails.  The file of an ordinary solid, which lists every part once, is read, no entity is removed as orphan,
and the model cannot be cleared without undefined behaviour, neither in the order of the file nor in the reverse order:
the destructor of a loop leaves its curve with a pointer to it. -/
theorem C58_fails_clear_solid : ∃ es G h, FromFile es ∧ (∀ r ∈ es, ListedOnce r) ∧
    readGraph G es = some (h, List.range es.length, true) ∧ clearAll (List.range es.length) h = none ∧
    clearAll (List.range es.length).reverse h = none := by
  have key : ((readGraph geo (brepRecords [(15, true)])).map fun r =>
      (r.2, (clearAll (List.range (brepRecords [(15, true)]).length) r.1).isNone,
        (clearAll (List.range (brepRecords [(15, true)]).length).reverse r.1).isNone)) =
      some ((List.range (brepRecords [(15, true)]).length, true), true, true) := by decide +kernel
  rw [Option.map_eq_some_iff] at key
  obtain ⟨⟨h, l⟩, h1, h2⟩ := key
  simp only [Prod.mk.injEq] at h2
  obtain ⟨rfl, h3, h4⟩ := h2
  exact ⟨_, geo, h, brep_file, brep_linked.2, h1, of_isNone h3, of_isNone h4⟩

/-- **C28** fails.  A file whose subfigure lists itself is read; afterwards the subfigure is a member of itself. -/
theorem C28_fails_file : ∃ es G h, FromFile es ∧ linkAll G es = some (h, true) ∧ uses h 0 0 = 1 := by
  obtain ⟨h, hl⟩ : ∃ h, linkAll geo (recordsOf 1 1 selfFigure) = some (h, true) := of_flag (by decide +kernel)
  have key : ((linkAll geo (recordsOf 1 1 selfFigure)).map fun r => uses r.1 0 0) = some 1 := by decide +kernel
  rw [hl] at key
  exact ⟨_, geo, h, file_of selfFigure_records (by simp [selfFigure, recordsOf]), hl, by simpa using key⟩

/-- A composite curve that uses a curve twice has it once after reading. -/
theorem C56_curve_twice_once : ∃ es G h r, FromFile es ∧ linkAll G es = some (h, true) ∧ es[1]? = some r ∧
    r.body = .composite [1, 1] ∧ uses h 1 0 = 1 := by
  obtain ⟨h, hl⟩ : ∃ h, linkAll geo (recordsOf 1 1 curveTwice) = some (h, true) := of_flag (by decide +kernel)
  have key : ((linkAll geo (recordsOf 1 1 curveTwice)).map fun r => uses r.1 1 0) = some 1 := by decide +kernel
  rw [hl] at key
  exact ⟨_, geo, h, _, file_of curveTwice_records (by simp [curveTwice, recordsOf]), hl, rfl, rfl, by simpa using key⟩

/-- The records of a subfigure that is placed twice are `Linkable`, and all theorems apply. -/
theorem placed_linked : FromFile (recordsOf 1 1 figures) ∧
    (∀ i r, (recordsOf 1 1 figures)[i]? = some r → Linkable (recordsOf 1 1 figures) i r) ∧
    (∀ i r, (recordsOf 1 1 figures)[i]? = some r → Plain (recordsOf 1 1 figures) i r) ∧
    ∃ h, linkAll geo (recordsOf 1 1 figures) = some (h, true) ∧ UsedComplete h := by
  have hf : FromFile (recordsOf 1 1 figures) := file_of placed_records (by simp [figures, recordsOf])
  refine ⟨hf, linkable_of (by decide +kernel), plain_of (by decide +kernel), ?_⟩
  obtain ⟨h, hl⟩ : ∃ h, linkAll geo (recordsOf 1 1 figures) = some (h, true) := of_flag (by decide +kernel)
  refine ⟨h, hl, ?_⟩
  intro e o he hr
  obtain ⟨h1, h2⟩ := C56_pointers_of_the_file _ hf geo h hl
  have key : ((linkAll geo (recordsOf 1 1 figures)).map fun r => (List.range 5).map fun e =>
      match r.1 e with | none => true | some o => o.refs.isEmpty || !isOrphaned { o with refs := [0] }) =
        some [true, true, true, true, true] := by decide +kernel
  rw [hl] at key
  simp only [Option.map_some, Option.some.injEq] at key
  have hlen : (recordsOf 1 1 figures).length = 5 := rfl
  have he5 : e < 5 := by
    by_contra hn
    rw [h2 e (by omega)] at he
    cases he
  have hk : (match h e with | none => true | some o => o.refs.isEmpty || !isOrphaned { o with refs := [0] }) = true := by
    have hm := congrArg (fun l => l[e]?) key
    simp only [List.getElem?_map, List.getElem?_range he5, Option.map_some] at hm
    have : ∀ e, e < 5 → [true, true, true, true, true][e]? = some true := by decide
    rw [this e he5] at hm
    simpa using hm
  rw [he] at hk
  simp only [Bool.or_eq_true, Bool.not_eq_true', List.isEmpty_iff] at hk
  rcases hk with hk | hk
  · exact absurd hk hr
  · have hno : ¬ Orphan { o with refs := [0] } := by
      intro hO
      rw [(isOrphaned_iff _).mpr hO] at hk
      cases hk
    exact ⟨fun hu => hno (.inl hu), fun hi => hno (.inr (.inr hi))⟩

example := C58_linking_defined_partial _ placed_linked.2.1 geo

example := C24_after_read_partial _ placed_linked.1 placed_linked.2.2.1 geo _ placed_linked.2.2.2.choose_spec.1
  placed_linked.2.2.2.choose_spec.2

end Iges.Props
