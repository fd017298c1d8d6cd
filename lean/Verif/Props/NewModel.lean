import Verif.Props.FileCases
/-
C47, C55 for models that were not read from a file: they have no date of creation, and the current time is written for it.
-/
namespace Iges.Props
open Iges Iges.File

/-- The model with a date of creation. -/
def dated (d : Str) (m : Model) : Model := { m with globals := { m.globals with creationDate := d } }

namespace NewModel

theorem prep_dated (g : Globals) (d : Str) : prepGlobals { g with creationDate := d } = { prepGlobals g with creationDate := d } := by
  unfold prepGlobals
  by_cases h1 : g.minResolution < 1 / 10 ^ 12 <;> by_cases h2 : g.maxLinewidthGrad < 1 <;>
    by_cases h3 : g.maxLinewidth < 1 / 10 ^ 6 <;> simp only [h1, h2, h3, if_true, if_false]

theorem prep_back (g : Globals) (d : Str) :
    ({ prepGlobals { g with creationDate := d } with creationDate := g.creationDate } : Globals) = prepGlobals g := by
  unfold prepGlobals
  by_cases h1 : g.minResolution < 1 / 10 ^ 12 <;> by_cases h2 : g.maxLinewidthGrad < 1 <;>
    by_cases h3 : g.maxLinewidth < 1 / 10 ^ 6 <;> simp only [h1, h2, h3, if_true, if_false]

theorem ops_dated (est : ℚ → ℚ → Nat) (ver now : Str) (g : Globals) (h0 : checkDate g.creationDate = .ok false)
    (hn : checkDate now = .ok true) : globalOps est ver now { g with creationDate := now } = globalOps est ver now g := by
  unfold globalOps
  simp only [prep_dated]
  rw [h0, hn]
  rfl

theorem globals_dated (est : ℚ → ℚ → Nat) (ver now : Str) (g : Globals) (h0 : checkDate g.creationDate = .ok false)
    (hn : checkDate now = .ok true) {t : Str} {n : Int} {g' : Globals}
    (h : writeGlobals est ver now { g with creationDate := now } = .val (t, n, g')) :
    writeGlobals est ver now g = .val (t, n, { g' with creationDate := g.creationDate }) := by
  unfold writeGlobals at h ⊢
  rw [ops_dated est ver now g h0 hn] at h
  cases ho : globalOps est ver now g with
  | ub => rw [ho] at h; cases h
  | exn => rw [ho] at h; cases h
  | ok o =>
    rw [ho] at h
    cases o with
    | none => cases h
    | some ops =>
      simp only [Rd.lift] at h ⊢
      cases hr : runSecOps g.pdelim g.rdelim ops ⟨delimPrefix g.pdelim g.rdelim, [], 1⟩ with
      | ub => rw [hr] at h; cases h
      | exn => rw [hr] at h; cases h
      | ok r =>
        rw [hr] at h
        simp only at h ⊢
        split at h
        · rename_i hr2
          rw [if_pos hr2]
          simp only [Rd.val.injEq, Prod.mk.injEq] at h ⊢
          obtain ⟨h1, h2, h3⟩ := h
          refine ⟨h1, h2, ?_⟩
          rw [← h3]; exact (prep_back g now).symm
        · cases h

theorem sections_dated (S : Sys) (start : List Str) (g : Globals) (xs : List (DE × DEPtrs × Str)) (nP : Int)
    (h0 : checkDate g.creationDate = .ok false) (hn : checkDate S.now = .ok true) {t : Str} {st : List Str} {g' : Globals}
    (h : writeSections S start { g with creationDate := S.now } xs nP = .val (t, st, g')) :
    writeSections S start g xs nP = .val (t, st, { g' with creationDate := g.creationDate }) := by
  unfold writeSections at h ⊢
  cases hs : writeStart start with
  | ub => rw [hs] at h; cases h
  | exn => rw [hs] at h; cases h
  | ok r =>
    rw [hs] at h
    simp only [Rd.lift] at h ⊢
    cases r with
    | none => cases h
    | some r =>
      simp only [orFail, Rd.val_bind] at h ⊢
      cases hg : writeGlobals S.est S.ver S.now { g with creationDate := S.now } with
      | ub => rw [hg] at h; cases h
      | exn => rw [hg] at h; cases h
      | fail => rw [hg] at h; cases h
      | val x =>
        obtain ⟨gs, nG, g2⟩ := x
        rw [hg] at h
        rw [globals_dated S.est S.ver S.now g h0 hn hg]
        simp only [Rd.val_bind] at h ⊢
        cases hd : writeDEs xs with
        | none => rw [hd] at h; cases h
        | some d =>
          rw [hd] at h
          simp only [Rd.val_bind] at h ⊢
          cases hp : writePDs xs with
          | none => rw [hp] at h; cases h
          | some p =>
            rw [hp] at h
            simp only [Rd.val_bind] at h ⊢
            cases ht : writeTerminate r.2.length nG (2 * xs.length : Nat) nP with
            | none => rw [ht] at h; cases h
            | some tt =>
              rw [ht] at h
              simp only [Rd.val_bind, Rd.val.injEq, Prod.mk.injEq] at h ⊢
              obtain ⟨h1, h2, h3⟩ := h
              exact ⟨h1, h2, by rw [← h3]⟩

theorem opened_dated (S : Sys) (m : Model) (path : Str) (xs : List (DE × DEPtrs × Str)) (nP : Int)
    (h0 : checkDate m.globals.creationDate = .ok false) (hn : checkDate S.now = .ok true) {t : Str} {st : List Str} {g' : Globals}
    (h : writeOpened S (dated S.now m) path xs nP = .val (.done t st g')) :
    writeOpened S m path xs nP = .val (.done t st { g' with creationDate := m.globals.creationDate }) := by
  unfold writeOpened at h ⊢
  cases hf : GetFileName (SetPath (some path)) with
  | ub => rw [hf] at h; cases h
  | exn => rw [hf] at h; cases h
  | ok r =>
    rw [hf] at h
    simp only [Rd.lift, dated] at h ⊢
    split at h
    · rename_i t1 s1 g1 hs
      simp only [Rd.val.injEq, WriteOut.done.injEq] at h
      obtain ⟨rfl, rfl, rfl⟩ := h
      rw [sections_dated S m.start { m.globals with fileName := r.2.getD [] } xs nP h0 hn hs]
    all_goals cases h

/-- What `Write` writes for a model without a date is what it writes for the model of today. -/
theorem write_dated (S : Sys) (m : Model) (path : Option Str) (overwrite : Bool) (disk : Option OnDisk) (creatable : Bool)
    (h0 : checkDate m.globals.creationDate = .ok false) (hn : checkDate S.now = .ok true) {t : Str} {st : List Str} {g' : Globals}
    (h : Write S (dated S.now m) path overwrite disk creatable = .val (.done t st g')) :
    Write S m path overwrite disk creatable = .val (.done t st { g' with creationDate := m.globals.creationDate }) := by
  unfold Write at h ⊢
  cases path with
  | none => cases h
  | some path =>
    simp only [show (dated S.now m).ents = m.ents from rfl, show env S (dated S.now m).globals = env S m.globals from rfl] at h ⊢
    split at h
    · cases h
    rename_i hne
    rw [if_neg hne]
    split at h
    · cases h
    · cases h
    · cases h
    rename_i xs last hx
    split at h
    · rename_i hb
      simp only [hb, if_true]
      split at h
      · rename_i ho
        rw [if_pos ho]
        exact opened_dated S m path xs _ h0 hn h
      · cases h
    · rename_i hb
      simp only [hb]
      split at h
      · rename_i ho
        rw [if_pos ho]
        exact opened_dated S m path xs _ h0 hn h
      · cases h

end NewModel
open NewModel

/-- **C47_new_partial** — The same as `C47_globals_roundtrip_partial` for global data without a valid date of creation, as those of every
model that was not read from a file: the current time is found as the date of creation. -/
theorem C47_new_partial (est : ℚ → ℚ → Nat) (num : RealTok → ℚ) (he : EstOk est) (hn : DoubleConv num) (ver now : Str) (g : Globals)
    (h : LegalGlobals ver now { g with creationDate := now }) (h0 : checkDate g.creationDate = .ok false) :
    ∃ datas r, writeGlobals est ver now g = Rd.val (Spec.lines Spec.globalTail 1 datas, (datas.length : Int), prepGlobals g) ∧
      readGlobals num datas.flatten initGlobals = Rd.val (if g.applicationNote = [] then r else normalise r) ∧
      Kept ver now { g with creationDate := now } r := by
  obtain ⟨datas, r, h1, -, -, -, h2, h3⟩ := C47_globals_roundtrip_partial est num he hn ver now _ h
  refine ⟨datas, r, ?_, h2, h3⟩
  rw [globals_dated est ver now g h0 (C15_valid_accepted_partial now h.today) h1, prep_back g now]

/-- **C55_new_partial** — The same as `C55_whole_file_partial` for a model that was made by a program and not read from a file: it has no
date of creation, and is read back with the current time for it. -/
theorem C55_new_partial (S : Sys) (hS : SysOk S) (m : Model) (path base : Str) (ext : Option Str)
    (hparts : Spec.NameParts (SetPath (some path)).full base ext) (hpne : path ≠ []) (hdot : '.' ∈ path ∨ base = [])
    (hnew : m.globals.creationDate = []) (h : LegalModel S (Spec.fileName base ext) (dated S.now m))
    (overwrite : Bool) (disk : Option OnDisk) (creatable : Bool) (hw : CanWrite overwrite disk creatable) :
    ∃ text start g st r, Write S m (some path) overwrite disk creatable = .val (.done text start g) ∧
      (∀ assoc finish, assoc st.ents = some true →
        Read S assoc finish cleared (some path) (some text) = .val (true, finish st)) ∧
      st.start = (if m.start = [] then [pad72 defaultStart] else m.start) ∧
      Kept S.ver S.now (named { m.globals with creationDate := S.now } (Spec.fileName base ext)) r ∧
      st.globals = (if m.globals.applicationNote = [] then r else normalise r) ∧
      st.ents.length = m.ents.length ∧
      ∀ i e r, m.ents[i]? = some e → st.ents[i]? = some r → EntKept m.globals.minResolution i e r := by
  obtain ⟨text, start, g, st, r, h1, h2, h3, h4, h5, h6, h7⟩ :=
    C55_whole_file_partial S hS _ path base ext hparts hpne hdot h overwrite disk creatable hw
  have hd : checkDate m.globals.creationDate = .ok false := by rw [hnew]; rfl
  exact ⟨text, start, _, st, r, write_dated S m _ _ _ _ hd (C15_valid_accepted_partial _ h.globals.today) h1, h2, h3, h4, h5, h6, h7⟩

/-- The model of the examples as a program has made it. -/
def newFile : Model := dated [] fileModel

example : newFile.globals.creationDate = [] := rfl

theorem NewModel.legal (sqrt : ℚ → ℚ) : LegalModel (exSys sqrt) "a.igs".toList (dated (exSys sqrt).now newFile) :=
  have h := exLegal sqrt
  have g := exGlobals
  ⟨h.start, h.startLen, ⟨g.delims, g.file, g.nl, g.scale, g.res, g.units, g.grad, g.draft, g.today, g.today,
    (by decide : totalLen "0.1".toList "20260101.000000".toList
      (named (dated "20260101.000000".toList newFile).globals "a.igs".toList) ≤ 9999000)⟩, h.ne, h.count,
    h.room, h.ents⟩

example := C55_new_partial (exSys exSqrt.choose) (exSys_ok exSqrt.choose_spec) newFile "dir/a.igs".toList "a".toList (some "igs".toList)
  exParts (by decide) (.inl (by decide)) rfl (NewModel.legal _) true (some ⟨"old".toList, true, true⟩) false (.inl ⟨_, rfl, rfl, .inl rfl⟩)

example := C47_new_partial (exSys exSqrt.choose).est (exSys exSqrt.choose).num (exSys_ok exSqrt.choose_spec).est (exSys_ok exSqrt.choose_spec).num
  "0.1".toList "20260101.000000".toList (named newFile.globals "a.igs".toList) (NewModel.legal exSqrt.choose).globals rfl

end Iges.Props
