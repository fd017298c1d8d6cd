import Verif.Props.File
import Verif.Props.EntityCases
/-
Concrete cases for the whole-file theorems.
-/
namespace Iges.Props
open Iges Iges.File

/-- Surroundings used in the examples. -/
def exSys (sqrt : ℚ → ℚ) : Sys where
  est := (exEnv sqrt 1).est
  num := (exEnv sqrt 1).num
  sqrt := sqrt
  ver := "0.1".toList
  now := "20260101.000000".toList

theorem exSys_ok {sqrt : ℚ → ℚ} (h : SqrtOk sqrt) : SysOk (exSys sqrt) where
  est := (exEnv_ok sqrt (res := 1) (by norm_num)).est
  num := (exEnv_ok sqrt (res := 1) (by norm_num)).num
  sqrt := h
  hundred := fun _ h => h

/-- Directory attributes of the example. -/
def exAttrs (form : Int) : DE :=
  { seq := 0, entityType := 0, parameterData := 0, structure_ := 0, lineFontPattern := 1, level := 3,
    view := 0, transform := 0, labelAssoc := 0, visible := true, depends := 0, use := 0, hierarchy := 0,
    lineWeightNum := 1, colorNum := 4, paramLineCount := 0, form := form, label := "PART".toList, entitySubscript := 41 }

def noPtrs : DEPtrs := ⟨none, none, none, none, none, none, none⟩

/-- A line coloured by the second entity and part of the third, with a name; an arc with a transformation. -/
def fileModel : Model where
  start := []
  globals := { initGlobals with creationDate := "20251231.235959".toList, author := "me; you, too".toList,
                                modelScale := 2, minResolution := 1 / 1000 }
  ents :=
    [⟨exAttrs 0, { noPtrs with pColor := some 3 }, .line ⟨1, -2, 3, 100 / 3, 0, -1 / 7⟩, [⟨406, 7⟩], []⟩,
     ⟨exAttrs 0, noPtrs, .colour ⟨100, 25, 1 / 2, "dark, red".toList⟩, [], []⟩,
     ⟨exAttrs 0, noPtrs, .composite [1, 9], [], []⟩,
     ⟨exAttrs 15, noPtrs, .name "front; left".toList, [], []⟩,
     ⟨exAttrs 0, { noPtrs with pTransform := some 11 }, .arc ⟨2, 1, 2, 4, 2, 1, 5⟩, [], []⟩,
     ⟨exAttrs 10, noPtrs, .tx ⟨⟨0, -1, 0, 1, 0, 0, 0, 0, 1⟩, ⟨1, 2, -3⟩⟩, [], []⟩]

theorem exGlobals : LegalGlobals "0.1".toList "20260101.000000".toList (named fileModel.globals "a.igs".toList) where
  delims := ⟨by decide, by decide, by decide, by decide, by decide⟩
  file := by decide
  nl := by decide
  scale := small_ok (by norm_num [named, fileModel])
  res := ⟨by norm_num [named, fileModel], by norm_num [named, fileModel]⟩
  units := by decide
  grad := by decide
  draft := by decide
  created := ⟨"2025".toList, 12, 31, 23, 59, 59, by decide, by decide, by decide, by decide⟩
  today := ⟨"2026".toList, 1, 1, 0, 0, 0, by decide, by decide, by decide, by decide⟩
  room := by decide

/-- Tests of a directory entry, as a decidable statement. -/
theorem legalDE_of {d : DE} {p : DEPtrs} {grad : Int}
    (h : (0 < d.entityType ∧ d.entityType ≤ 99999) ∧
      (0 ≤ d.parameterData ∧ 0 < d.paramLineCount ∧ d.parameterData + d.paramLineCount ≤ 10000000) ∧
      (∀ q ∈ [p.pStructure, p.pLineFontPattern, p.pView, p.pTransform, p.pLabelAssoc, p.pColor], ∀ s ∈ q.toList, 0 < s ∧ s ≤ 9999999) ∧
      (0 ≤ d.lineFontPattern ∧ d.lineFontPattern ≤ 5) ∧ (0 ≤ d.level ∧ d.level ≤ 99999999) ∧ (0 ≤ d.colorNum ∧ d.colorNum ≤ 8) ∧
      (0 ≤ d.depends ∧ d.depends ≤ 3 ∧ 0 ≤ d.use ∧ d.use ≤ 6 ∧ 0 ≤ d.hierarchy ∧ d.hierarchy ≤ 2) ∧
      (0 ≤ d.lineWeightNum ∧ d.lineWeightNum ≤ grad ∧ d.lineWeightNum ≤ 99999999) ∧ (0 ≤ d.form ∧ d.form ≤ 99999999) ∧
      (d.label.length ≤ 8 ∧ d.label.head? ≠ some ' ' ∧ '\n' ∉ d.label) ∧
      (0 ≤ d.entitySubscript ∧ d.entitySubscript ≤ 99999999) ∧ (0 < d.seq ∧ d.seq < 9999997 ∧ d.seq % 2 = 1)) : LegalDE d p grad := by
  obtain ⟨h1, h2, h3, h4, h5, h6, h7, h8, h9, h10, h11, h12⟩ := h
  have k : ∀ q ∈ [p.pStructure, p.pLineFontPattern, p.pView, p.pTransform, p.pLabelAssoc, p.pColor], PtrOk q := by
    intro q hq s hs
    exact h3 q hq s (by simp [hs])
  exact ⟨h1, h2, ⟨k _ (by simp), k _ (by simp), k _ (by simp), k _ (by simp), k _ (by simp), k _ (by simp)⟩, h4, h5, h6, h7, h8,
    h9, h10, h11, h12⟩

theorem exLegal (sqrt : ℚ → ℚ) : LegalModel (exSys sqrt) "a.igs".toList fileModel where
  start := by simp [fileModel]
  startLen := by decide
  globals := exGlobals
  ne := by simp [fileModel]
  count := by decide
  room := by decide +kernel
  ents := by
    intro i e h
    have hi : i < 6 := by
      have := (List.getElem?_eq_some_iff.mp h).1
      simpa [fileModel] using this
    have hb : ∀ x ∈ [(1 : ℚ), -2, 3, 100 / 3, 0, -1 / 7], |x| ≤ 10 ^ (300 : ℤ) := fun x hx => small_ok (by revert x; decide +kernel)
    have hb2 : ∀ x ∈ [(0 : ℚ), -1, 0, 1, 1, 0, 0, 2, 0, 0, 1, -3], |x| ≤ 10 ^ (300 : ℤ) :=
      fun x hx => small_ok (by revert x; decide +kernel)
    rcases i with _ | _ | _ | _ | _ | _ | i
    · cases h
      exact ⟨legalDE_of (by decide), rfl, .inr ⟨[0, 1, 2], by decide, by decide, by decide⟩, ⟨by decide, by decide⟩, rfl, hb⟩
    · cases h
      exact ⟨legalDE_of (by decide), rfl, .inr ⟨[0], by decide, by decide, by decide⟩, ⟨by decide, by decide⟩, rfl,
        .inr rfl, .inl (by norm_num), .inl (by norm_num), by decide, by decide⟩
    · cases h
      exact ⟨legalDE_of (by decide), rfl, .inr ⟨[0], by decide, by decide, by decide⟩, ⟨by decide, by decide⟩, rfl,
        by decide, by decide⟩
    · cases h
      exact ⟨legalDE_of (by decide), rfl, .inr ⟨[15], by decide, by decide, by decide⟩, ⟨by decide, by decide⟩, rfl,
        (by decide : '\n' ∉ "front; left".toList)⟩
    · cases h
      exact ⟨legalDE_of (by decide), rfl, .inr ⟨[0], by decide, by decide, by decide⟩, ⟨by decide, by decide⟩, rfl,
        by decide, 10, by norm_num, by simp only [Arc.coords]; decide +kernel, by simp only [fileModel]; decide +kernel,
        by simp only [fileModel]; decide +kernel⟩
    · cases h
      exact ⟨legalDE_of (by decide), rfl, .inl rfl, ⟨by decide, by decide⟩, rfl, hb2⟩
    · omega

theorem exParts : Spec.NameParts (SetPath (some "dir/a.igs".toList)).full "a".toList (some "igs".toList) := by
  rw [C49_native_path]
  exact .dotted "dir/".toList "a".toList "igs".toList ⟨by decide, by decide, by decide⟩ (by decide) (by decide)

example := C55_whole_file_partial (exSys exSqrt.choose) (exSys_ok exSqrt.choose_spec) fileModel "dir/a.igs".toList
  "a".toList (some "igs".toList) exParts (by decide) (.inl (by decide)) (exLegal _) true (some ⟨"old".toList, true, true⟩) false
  (.inl ⟨_, rfl, rfl, .inl rfl⟩)

example := C14_file_counts_partial (exSys exSqrt.choose) (exSys_ok exSqrt.choose_spec) fileModel "dir/a.igs".toList
  "a".toList (some "igs".toList) exParts (by decide) (.inl (by decide)) (exLegal _) false none true (.inr ⟨rfl, rfl⟩)

example := C25_failed_link_keeps_entities (exSys exSqrt.choose) (exSys_ok exSqrt.choose_spec) fileModel "dir/a.igs".toList
  "a".toList (some "igs".toList) exParts (by decide) (.inl (by decide)) (exLegal _)

example := C26_write_only_overwritten (exSys exSqrt.choose) (exSys_ok exSqrt.choose_spec) fileModel "dir/a.igs".toList
  "a".toList (some "igs".toList) exParts (by decide) (.inl (by decide)) (exLegal _) "old".toList true

example := C25_refuses_nonempty (exSys id) (fun _ => some true) id
  { cleared with ents := [⟨exAttrs 0, .line ⟨1, -2, 3, 100 / 3, 0, -1 / 7⟩, [], []⟩] } (some "a.igs".toList) (some []) (by simp)

example := C25_failed_empty_partial (exSys id) (fun _ => some true) id cleared cleared (some "a.igs".toList)
  (some "x\n".toList) rfl (fun _ => by simp) rfl

example : ∃ text, text.length = 81 ∧
    Read (exSys id) (fun _ => some true) id { cleared with start := ["old text".toList] } (some "a.igs".toList) (some text) =
      .val (false, cleared) := by
  refine ⟨pad72 "a start line".toList ++ "S      1\n".toList, by decide +kernel, ?_⟩
  cases hr : ReadIGESRecord (pad72 "a start line".toList ++ "S      1".toList) with
  | none => exact absurd hr (by decide +kernel)
  | some r =>
    refine C25_start_text_blocks _ _ _ _ _ _ (pad72 "a start line".toList ++ "S      1".toList) [] r rfl (by simp)
      (by decide +kernel) hr ?_
    have : (ReadIGESRecord (pad72 "a start line".toList ++ "S      1".toList)).map (·.index) = some 1 := by decide +kernel
    rw [hr] at this
    simpa using this

/-- Whether a write was refused. -/
def isRefused : Rd WriteOut → Bool
  | .val .refused => true
  | _ => false

theorem of_isRefused {x : Rd WriteOut} (h : isRefused x = true) : x = .val .refused := by
  unfold isRefused at h
  split at h
  · rfl
  · cases h

example := C26_existing_kept_partial (exSys id) fileModel (some "a.igs".toList) false ⟨"old".toList, true, true⟩ true .refused
  (.inl ⟨rfl, rfl⟩) (of_isRefused (by decide +kernel))

/-- Whether a write ended with the file destroyed. -/
def isBroken : Rd WriteOut → Bool
  | .val .broken => true
  | _ => false

/-- A directory attribute that does not fit in its column is noticed only after the file has been truncated. -/
theorem C26_failed_write_destroys : ∃ (m : Model) (e : Ent), m.ents = [e] ∧ e.attrs.level = 100000000 ∧
    isBroken (Write (exSys id) m (some "a.igs".toList) true (some ⟨"old".toList, true, true⟩) true) = true :=
  ⟨{ fileModel with ents := [⟨{ exAttrs 0 with level := 100000000 }, noPtrs, .line ⟨1, -2, 3, 100 / 3, 0, -1 / 7⟩, [], []⟩] }, _,
    rfl, rfl, by decide +kernel⟩

end Iges.Props
