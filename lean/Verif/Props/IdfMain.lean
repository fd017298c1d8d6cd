import Verif.Model.IdfMain
import Verif.Spec.IdfMain
import Verif.Props.Path
/-
C107: the files and the exit status of the converter of boards.
-/
namespace Iges.Props.IdfMain
open Iges Iges.IdfMain Iges.Spec

/-! ### Names -/

private theorem split_path (path : Str) : ∃ dir file, PathParts path dir file := by
  by_cases h : '/' ∈ path
  · obtain ⟨a, b, h1, h2⟩ := split_last h
    exact ⟨a ++ ['/'], b, by simp [h1], h2, .inr (by simp)⟩
  · exact ⟨[], path, rfl, h, .inl rfl⟩

private theorem stem_exists (path : Str) : ∃ stem, Stem path stem := by
  obtain ⟨dir, file, h⟩ := split_path path
  by_cases hd : '.' ∈ file
  · obtain ⟨b, e, rfl, he⟩ := split_last hd
    by_cases hb : b = []
    · subst hb
      exact ⟨_, .bare _ (.hidden dir e h he)⟩
    · exact ⟨_, .dotted dir b e h hb he⟩
  · exact ⟨_, .bare _ (.plain dir file h hd)⟩

private theorem full_eq (arg : Str) : (SetPath (some arg)).full = nativePath arg := C49_native_path arg

private theorem full_ne {arg : Str} (h : arg ≠ []) : nativePath arg ≠ [] := by simpa [nativePath] using h

private theorem ext_bare {path base : Str} (h : NameParts path base none) (hne : path ≠ []) :
    GetExtension ⟨path, [], [], []⟩ = .ok (⟨path, [], [], []⟩, none) := by
  by_cases hd : '.' ∈ path ∨ base = []
  · exact (parsed_of h hne hd).he _ rfl rfl
  · have hd' : '.' ∉ path := fun h => hd (.inl h)
    unfold GetExtension
    rw [if_neg hne, if_neg (by simp), findLast_none _ _ hd']

private theorem setPath_eq (arg : Str) : SetPath (some arg) = ⟨nativePath arg, [], [], []⟩ := by
  rw [← full_eq]; rfl

private theorem named_eq {arg stem : Str} (hne : arg ≠ []) (hs : Stem (nativePath arg) stem) (c : Char) (r : Str)
    (hc : c ≠ '.') : named arg (c :: r) = .ok ⟨stem ++ '.' :: c :: r, [], [], c :: r⟩ := by
  unfold named SetExtension
  rw [setPath_eq, if_neg (full_ne hne), if_pos rfl]
  cases hs with
  | dotted dir b e h1 h2 h3 =>
    have P := parsed_dotted h1 h2 h3
    rw [P.he _ rfl rfl]
    have hcut : (nativePath arg).take ((nativePath arg).length - e.length - 1) = dir ++ b := by
      rw [h1.1]
      have : dir ++ (b ++ '.' :: e) = (dir ++ b) ++ '.' :: e := by simp
      rw [this]
      exact List.take_left' (by simp; omega)
    simp only [Res.bind, Option.getD_some, hcut]
    rw [if_pos hc]
  | bare base h1 =>
    rw [ext_bare h1 (full_ne hne)]
    simp only [Res.bind]
    rw [if_pos hc]

/-- C107, names. For every argument that is not empty, the board file, the library file and the file of the
model have the path of the argument without its extension, followed by `.emn`, `.emp` and `.igs`. -/
theorem C107_names (arg : Str) (hne : arg ≠ []) : ∃ stem, Stem (nativePath arg) stem ∧
    ∀ x ∈ ["emn".toList, "emp".toList, "igs".toList], ∃ p, named arg x = .ok p ∧ p.full = stem ++ '.' :: x := by
  obtain ⟨stem, hs⟩ := stem_exists (nativePath arg)
  refine ⟨stem, hs, ?_⟩
  intro x hx
  simp only [List.mem_cons, List.not_mem_nil, or_false] at hx
  rcases hx with rfl | rfl | rfl
  · exact ⟨_, named_eq hne hs 'e' _ (by decide), rfl⟩
  · exact ⟨_, named_eq hne hs 'e' _ (by decide), rfl⟩
  · exact ⟨_, named_eq hne hs 'i' _ (by decide), rfl⟩

example : Stem (nativePath "a.b\\board.emn".toList) "a.b/board".toList :=
  .dotted "a.b/".toList "board".toList "emn".toList ⟨by decide, by decide, .inr (by decide)⟩ (by decide) (by decide)
example : Stem (nativePath "x/board".toList) "x/board".toList :=
  .bare "board".toList (.plain "x/".toList _ ⟨by decide, by decide, .inr (by decide)⟩ (by decide))

/-! ### Runs -/

/-- The files a run has read. -/
def readOf : List Event → List Str := List.filterMap fun
  | .readLib f => some f
  | .readBoard f => some f
  | .wrote _ _ => none

/-- The files a run has written to. -/
def writtenOf : List Event → List Str := List.filterMap fun
  | .wrote f _ => some f
  | _ => none

private theorem read_eq (s : Steps) {arg stem : Str} (hne : arg ≠ []) (hs : Stem (nativePath arg) stem) :
    ReadFile s arg =
      if s.isFile (stem ++ ".emn".toList) = false then .ok (false, [])
      else if s.isFile (stem ++ ".emp".toList) = false then
        .ok (s.boardOk (stem ++ ".emn".toList), [.readBoard (stem ++ ".emn".toList)])
      else if s.libOk (stem ++ ".emp".toList) = false then .ok (false, [.readLib (stem ++ ".emp".toList)])
      else .ok (s.boardOk (stem ++ ".emn".toList),
        [.readLib (stem ++ ".emp".toList), .readBoard (stem ++ ".emn".toList)]) := by
  have h1 := named_eq hne hs 'e' ['m', 'n'] (by decide)
  have h2 := named_eq hne hs 'e' ['m', 'p'] (by decide)
  have e1 : "emn".toList = ['e', 'm', 'n'] := by decide
  have e2 : "emp".toList = ['e', 'm', 'p'] := by decide
  have e3 : ".emn".toList = ['.', 'e', 'm', 'n'] := by decide
  have e4 : ".emp".toList = ['.', 'e', 'm', 'p'] := by decide
  unfold ReadFile
  rw [e1, e2, e3, e4, h1, h2]
  simp only [Res.bind]
  by_cases a : s.isFile (stem ++ ['.', 'e', 'm', 'n']) = false
  · simp [a]
  · by_cases b : s.isFile (stem ++ ['.', 'e', 'm', 'p']) = false
    · simp [a, b]
    · by_cases c : s.libOk (stem ++ ['.', 'e', 'm', 'p']) = false <;> simp [a, b, c]

/-- Whether the library may be used and the board can be read. -/
def InputOk (s : Steps) (stem : Str) : Prop :=
  s.isFile (stem ++ ".emn".toList) = true ∧ s.boardOk (stem ++ ".emn".toList) = true ∧
    (s.isFile (stem ++ ".emp".toList) = true → s.libOk (stem ++ ".emp".toList) = true)

private theorem nameParts_exists (path : Str) : ∃ base ext, NameParts path base ext := by
  obtain ⟨dir, file, h⟩ := split_path path
  by_cases hd : '.' ∈ file
  · obtain ⟨b, e, rfl, he⟩ := split_last hd
    by_cases hb : b = []
    · subst hb
      exact ⟨_, _, .hidden dir e h he⟩
    · exact ⟨_, _, .dotted dir b e h hb he⟩
  · exact ⟨_, _, .plain dir file h hd⟩

private theorem base_ext (f x b : Str) (q : FilePath) (h : GetBaseName ⟨f, [], [], []⟩ = .ok (q, some b)) :
    ∃ q', GetBaseName ⟨f, [], [], x⟩ = .ok (q', some b) ∧ q'.full = f := by
  unfold GetBaseName at h ⊢
  by_cases h1 : f = []
  · rw [if_pos h1] at h; cases h
  · rw [if_neg h1, if_neg (by simp)] at h ⊢
    simp only at h ⊢
    split at h
    · rename_i hlt
      rw [if_pos hlt]
      rw [if_pos trivial] at h
      cases hsub : substrFrom f ((findLast f '.').getD f.length + 1) with
      | ok e =>
        rw [hsub] at h
        cases h
        split
        · exact ⟨_, rfl, rfl⟩
        · exact ⟨_, rfl, rfl⟩
      | _ => rw [hsub] at h; cases h
    · rename_i hlt
      rw [if_neg hlt]
      cases hsub : substrFrom f (afterSep f) with
      | ok e =>
        rw [hsub] at h
        cases h
        exact ⟨_, rfl, rfl⟩
      | _ => rw [hsub] at h; cases h

private theorem base_some (f x : Str) (h : '.' ∈ f) :
    ∃ q b ext, GetBaseName ⟨f, [], [], x⟩ = .ok (q, some b) ∧ q.full = f ∧ NameParts f b ext := by
  obtain ⟨b, ext, hn⟩ := nameParts_exists f
  have hne : f ≠ [] := by rintro rfl; simp at h
  obtain ⟨e', -, hb⟩ := (parsed_of hn hne (.inl h)).hb ⟨f, [], [], []⟩ rfl rfl (.inl rfl)
  obtain ⟨q, hq, hf⟩ := base_ext f x b _ hb
  exact ⟨q, b, ext, hq, hf, hn⟩

private theorem main_eq {arg stem : Str} (hne : arg ≠ []) (hs : Stem (nativePath arg) stem) :
    ∃ base ext, NameParts (stem ++ ".igs".toList) base ext ∧ ∀ s : Steps, ∃ ok ev, ReadFile s arg = .ok (ok, ev) ∧
      main s [arg] = if ok = false ∨ s.colours = false then .ok (-1, none, ev)
        else .ok (0, some base, ev ++ [.wrote (stem ++ ".igs".toList) (s.writeOk (stem ++ ".igs".toList))]) := by
  have e : "igs".toList = ['i', 'g', 's'] := by decide
  have e' : ".igs".toList = ['.', 'i', 'g', 's'] := by decide
  obtain ⟨q, b, ext, hq, hf, hn⟩ := base_some (stem ++ ['.', 'i', 'g', 's']) ['i', 'g', 's'] (by simp)
  refine ⟨b, ext, by rw [e']; exact hn, ?_⟩
  intro s
  have hr : ∃ ok ev, ReadFile s arg = .ok (ok, ev) := by
    rw [read_eq s hne hs]
    split_ifs <;> exact ⟨_, _, rfl⟩
  obtain ⟨ok, ev, hr⟩ := hr
  refine ⟨ok, ev, hr, ?_⟩
  unfold main
  simp only [if_neg hne, hr, Res.bind, e, named_eq hne hs 'i' ['g', 's'] (by decide), hq, hf, e']
  by_cases h1 : ok = false
  · simp [h1]
  · by_cases h2 : s.colours = false <;> simp [h1, h2]

private theorem not_both {b : Bool} (h1 : b = true) (h2 : b = false) : False := by rw [h1] at h2; cases h2

/-- C107, what a run does. For every argument that is not empty and however the steps end, the run ends
without an exception. If the input can be read and the colours can be made, it returns 0, names the model after
the file and calls, as the last thing it does to files, the function that writes the model; otherwise it returns
-1 and writes nothing. The library is read before the board, and only if it is there. -/
theorem C107_run (s : Steps) (arg : Str) (hne : arg ≠ []) : ∃ stem, Stem (nativePath arg) stem ∧
    ((InputOk s stem ∧ s.colours = true ∧ ∃ base ext, NameParts (stem ++ ".igs".toList) base ext ∧
        main s [arg] = .ok (0, some base,
          (if s.isFile (stem ++ ".emp".toList) then [.readLib (stem ++ ".emp".toList)] else []) ++
          [.readBoard (stem ++ ".emn".toList), .wrote (stem ++ ".igs".toList) (s.writeOk (stem ++ ".igs".toList))])) ∨
     (¬ (InputOk s stem ∧ s.colours = true) ∧ ∃ ev, main s [arg] = .ok (-1, none, ev) ∧ writtenOf ev = [])) := by
  obtain ⟨stem, hs⟩ := stem_exists (nativePath arg)
  refine ⟨stem, hs, ?_⟩
  obtain ⟨base, ext, hn, hm⟩ := main_eq hne hs
  obtain ⟨ok, ev, hr, hm⟩ := hm s
  rw [read_eq s hne hs] at hr
  rw [hm]
  unfold InputOk
  have tt : ∀ {b : Bool}, ¬ b = false → b = true := fun {b} h => by cases b <;> simp_all
  split_ifs at hr with h1 h2 h3
  · cases hr
    exact .inr ⟨fun h => not_both h.1.1 h1, [], by rw [if_pos (.inl rfl)], rfl⟩
  · cases hr
    by_cases hb : s.boardOk (stem ++ ".emn".toList) = false
    · exact .inr ⟨fun h => not_both h.1.2.1 hb, _, by rw [if_pos (.inl hb)], rfl⟩
    · by_cases hc : s.colours = false
      · exact .inr ⟨fun h => not_both h.2 hc, _, by rw [if_pos (.inr hc)], rfl⟩
      · refine .inl ⟨⟨tt h1, tt hb, fun h => (not_both h h2).elim⟩, tt hc, base, ext, hn, ?_⟩
        rw [if_neg (fun h => h.elim hb hc), h2]
        rfl
  · cases hr
    exact .inr ⟨fun h => not_both (h.1.2.2 (tt h2)) h3, _, by rw [if_pos (.inl rfl)], rfl⟩
  · cases hr
    by_cases hb : s.boardOk (stem ++ ".emn".toList) = false
    · exact .inr ⟨fun h => not_both h.1.2.1 hb, _, by rw [if_pos (.inl hb)], rfl⟩
    · by_cases hc : s.colours = false
      · exact .inr ⟨fun h => not_both h.2 hc, _, by rw [if_pos (.inr hc)], rfl⟩
      · refine .inl ⟨⟨tt h1, tt hb, fun _ => tt h3⟩, tt hc, base, ext, hn, ?_⟩
        rw [if_neg (fun h => h.elim hb hc), tt h2]
        rfl

/-- C107, inputs are kept. No run, with whatever arguments, writes to a file it has read. -/
theorem C107_inputs_kept (s : Steps) (args : List Str) (st : Int) (base : Option Str) (ev : List Event)
    (h : main s args = .ok (st, base, ev)) : ∀ f ∈ readOf ev, f ∉ writtenOf ev := by
  have aux : ∀ (stem : Str) (a b : Str), a ≠ b → stem ++ a ≠ stem ++ b := fun stem a b hab e => hab (List.append_cancel_left e)
  match args, h with
  | [], h => cases h; simp [readOf]
  | _ :: _ :: _, h => cases h; simp [readOf]
  | [arg], h =>
    by_cases hne : arg = []
    · subst hne; cases h; simp [readOf]
    · obtain ⟨stem, -, ⟨-, -, b, x, -, hm⟩ | ⟨-, ev', hm, hw⟩⟩ := C107_run s arg hne
      · rw [h] at hm
        cases hm
        have k1 := aux stem ".emp".toList ".igs".toList (by decide)
        have k2 := aux stem ".emn".toList ".igs".toList (by decide)
        intro f hf
        by_cases hl : s.isFile (stem ++ ".emp".toList) = true
        · rw [if_pos hl] at hf ⊢
          simp only [readOf, writtenOf, List.cons_append, List.nil_append, List.filterMap_cons, List.filterMap_nil, List.mem_cons, List.not_mem_nil, or_false] at hf ⊢
          rcases hf with rfl | rfl
          · exact k1
          · exact k2
        · rw [if_neg hl] at hf ⊢
          simp only [readOf, writtenOf, List.nil_append, List.filterMap_cons, List.filterMap_nil, List.mem_cons, List.not_mem_nil, or_false] at hf ⊢
          rw [hf]; exact k2
      · rw [h] at hm
        cases hm
        intro f _
        rw [hw]; simp

/-- C107, exit status. A run that does not return 0 has written nothing. Partial: a run that returns 0 may have
written nothing either (`C107_status_blind`). -/
theorem C107_status_partial (s : Steps) (args : List Str) (st : Int) (base : Option Str) (ev : List Event)
    (h : main s args = .ok (st, base, ev)) (hst : st ≠ 0) : st = -1 ∧ writtenOf ev = [] := by
  match args, h with
  | [], h => cases h; exact ⟨rfl, rfl⟩
  | _ :: _ :: _, h => cases h; exact ⟨rfl, rfl⟩
  | [arg], h =>
    by_cases hne : arg = []
    · subst hne; cases h; exact ⟨rfl, rfl⟩
    · obtain ⟨stem, -, ⟨-, -, b, x, -, hm⟩ | ⟨-, ev', hm, hw⟩⟩ := C107_run s arg hne
      · rw [h] at hm; cases hm; exact absurd rfl hst
      · rw [h] at hm; cases hm; exact ⟨rfl, hw⟩

/-- C107, the exit status says nothing about the model. Whenever a run returns 0, it would also return 0 if the
board, the components and the other outlines could not be made and the model could not be written. -/
theorem C107_status_blind (s : Steps) (args : List Str) (base : Option Str) (ev : List Event)
    (h : main s args = .ok (0, base, ev)) :
    ∃ ev', main { s with made := (false, false, false), writeOk := fun _ => false } args = .ok (0, base, ev') ∧
      ∃ f, Event.wrote f false ∈ ev' := by
  match args, h with
  | [], h => cases h
  | _ :: _ :: _, h => cases h
  | [arg], h =>
    by_cases hne : arg = []
    · subst hne; cases h
    · obtain ⟨stem, hs⟩ := stem_exists (nativePath arg)
      obtain ⟨b1, -, -, hm⟩ := main_eq hne hs
      obtain ⟨ok, ev1, hr1, hm1⟩ := hm s
      obtain ⟨ok2, ev2, hr2, hm2⟩ := hm { s with made := (false, false, false), writeOk := fun _ => false }
      have hrr : ReadFile { s with made := (false, false, false), writeOk := fun _ => false } arg = ReadFile s arg := rfl
      rw [hrr, hr1] at hr2
      cases hr2
      rw [h] at hm1
      split_ifs at hm1 with hc
      · cases hm1
      · cases hm1
        rw [if_neg hc] at hm2
        exact ⟨_, hm2, stem ++ ".igs".toList, by simp⟩

private theorem native_id {l : Str} (h : '\\' ∉ l) : nativePath l = l := by
  unfold nativePath
  induction l with
  | nil => rfl
  | cons c l ih =>
    simp only [List.mem_cons, not_or] at h
    rw [List.map_cons, ih h.2, if_neg (fun e => h.1 e.symm)]

/-- C107, the file given. A path with the extension `emn` and without `\\` is the board file that is read.
Partial: `C107_other_file`. -/
theorem C107_given_partial (dir b : Str) (hp : PathParts (dir ++ b ++ ".emn".toList) dir (b ++ ".emn".toList)) (hb : b ≠ [])
    (hs : '\\' ∉ dir ++ b) : ∃ p, named (dir ++ b ++ ".emn".toList) "emn".toList = .ok p ∧
      p.full = dir ++ b ++ ".emn".toList := by
  have e : ".emn".toList = ['.', 'e', 'm', 'n'] := by decide
  have hn : nativePath (dir ++ b ++ ".emn".toList) = dir ++ b ++ ".emn".toList := by
    exact native_id (by
      intro hc
      rcases List.mem_append.mp hc with hc | hc
      · exact hs hc
      · rw [e] at hc; exact absurd hc (by decide))
  have hst : Stem (nativePath (dir ++ b ++ ".emn".toList)) (dir ++ b) := by
    rw [hn]
    exact .dotted dir b "emn".toList hp hb (by decide)
  refine ⟨_, named_eq (by simp [e]) hst 'e' ['m', 'n'] (by decide), rfl⟩

example : PathParts "x/board.emn".toList "x/".toList "board.emn".toList := ⟨by decide, by decide, .inr (by decide)⟩

private theorem not_board (s : Steps) {arg : Str} (hne : arg ≠ []) {stem : Str} (hs : Stem (nativePath arg) stem)
    (hx : arg ≠ stem ++ ".emn".toList) {st : Int} {base : Option Str} {ev : List Event}
    (hm : main s [arg] = .ok (st, base, ev)) : Event.readBoard arg ∉ ev := by
  obtain ⟨b, -, -, hall⟩ := main_eq hne hs
  obtain ⟨ok, ev', hr, hm'⟩ := hall s
  rw [hm] at hm'
  rw [read_eq s hne hs] at hr
  have hin : Event.readBoard arg ∉ ev' := by
    split_ifs at hr <;> cases hr <;> simp only [List.mem_cons, List.not_mem_nil, or_false, not_false_eq_true, Event.readBoard.injEq, reduceCtorEq, false_or] <;> exact hx
  split_ifs at hm' with hc
  · cases hm'; exact hin
  · cases hm'
    simp only [List.mem_append, List.mem_cons, List.not_mem_nil, or_false, reduceCtorEq]
    exact hin

/-- C107, other files. If the path that is given does not end in `.emn`, or holds `\\`, which is a letter like any
other outside Windows, the file that is given is not read as a board; the one with the extension `emn` and with `/`
instead of `\\` is, if there is one. -/
theorem C107_other_file (s : Steps) (arg : Str) (h : ¬ ".emn".toList <:+ arg ∨ '\\' ∈ arg) (st : Int)
    (base : Option Str) (ev : List Event) (hm : main s [arg] = .ok (st, base, ev)) : Event.readBoard arg ∉ ev := by
  by_cases hne : arg = []
  · subst hne; cases hm; simp
  · obtain ⟨stem, hs⟩ := stem_exists (nativePath arg)
    refine not_board s hne hs ?_ hm
    intro e
    rcases h with h | h
    · exact h ⟨stem, e.symm⟩
    · have hnat : '\\' ∉ nativePath arg := by
        unfold nativePath
        simp only [List.mem_map, not_exists, not_and]
        intro c _
        split
        · decide
        · assumption
      have hst : '\\' ∉ stem := by
        cases hs with
        | dotted dir b e h1 h2 h3 =>
          rw [h1.1] at hnat
          simp only [List.mem_append, not_or] at hnat ⊢
          exact ⟨hnat.1, hnat.2.1⟩
        | bare base h1 => exact hnat
      rw [e] at h
      rcases List.mem_append.mp h with h | h
      · exact hst h
      · exact absurd h (by decide)

example : ¬ ".emn".toList <:+ "BOARD.EMN".toList := by decide

/-- A run on a board with a library, whose model cannot be written. -/
private def full : Steps := ⟨fun f => f ∈ ["x/board.emn".toList, "x/board.emp".toList], fun _ => true, fun _ => true,
  true, (true, true, true), fun _ => false⟩

example : main full ["x\\board.txt".toList] = .ok (0, some "board".toList, [.readLib "x/board.emp".toList,
    .readBoard "x/board.emn".toList, .wrote "x/board.igs".toList false]) := by decide +kernel

example : main full ["y/board.emn".toList] = .ok (-1, none, []) := by decide +kernel

end Iges.Props.IdfMain
