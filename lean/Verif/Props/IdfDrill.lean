import Verif.Props.IdfNotes
/-
C75: drilled holes of a board file.
-/
namespace Iges.Props.IdfDrill
open Iges.Idf Iges.Idf.Spec Iges.Props.IdfNotes

/-- places of a diameter -/
def dplaces (u : Iges.Idf.Unit) : ℕ := if u = .mm then 3 else 1

theorem dplaces_pos (u : Iges.Idf.Unit) : 1 ≤ dplaces u := by unfold dplaces; split <;> norm_num

/-- the diameter read back -/
def dagain (u : Iges.Idf.Unit) (x : ℚ) : ℚ := fval (dplaces u) (x / factor u) * factor u

theorem dagain_near {u : Iges.Idf.Unit} (hu : u ≠ .tnm) (x : ℚ) : |dagain u x - x| ≤ diaTol u := by
  have hp := factor_pos u
  have h := fval_err (dplaces u) (x / factor u)
  have e : dagain u x - x = (fval (dplaces u) (x / factor u) - x / factor u) * factor u := by
    unfold dagain; field_simp
  rw [e, abs_mul, abs_of_pos hp]
  have h2 : half (dplaces u) * factor u = diaTol u := by
    unfold half dplaces factor diaTol thouToMM
    cases u
    · simp; norm_num
    · simp; norm_num
    · exact absurd rfl hu
  rw [← h2]
  exact mul_le_mul_of_nonneg_right h (le_of_lt hp)

theorem dagain_idem (u : Iges.Idf.Unit) (x : ℚ) : dagain u (dagain u x) = dagain u x := by
  have hp := factor_pos u
  unfold dagain
  rw [mul_div_assoc, div_self (ne_of_gt hp), mul_one, fval_idem]

/-- the word naming what the hole belongs to -/
def refWord (d : Drill) : Str := match d.ref with
  | .board => "BOARD".toList
  | .panel => "PANEL".toList
  | .refdes n => '"' :: n ++ ['"']
  | .norefdes => "NOREFDES".toList

/-- the word naming the kind -/
def holeWord (d : Drill) : Str := match d.hole with
  | .pin => "PIN".toList
  | .via => "VIA".toList
  | .tool => "TOOL".toList
  | .other n => '"' :: n ++ ['"']
  | .mtg => "MTG".toList

/-- the word for the plating -/
def pltWord (d : Drill) : Str := if d.plated then "PTH".toList else "NPTH".toList

/-- the word for the owner -/
def ownWord (d : Drill) : Str := match d.owner with
  | .mcad => "MCAD".toList
  | .ecad => "ECAD".toList
  | .unowned => "UNOWNED".toList

/-- the four words -/
def tailWords (d : Drill) : Str := ' ' :: (pltWord d ++ (' ' :: (refWord d ++ (' ' :: (holeWord d ++ (' ' :: ownWord d))))))

/-- the line of a hole without the line end -/
def dbody (u : Iges.Idf.Unit) (d : Drill) : Str :=
  fmtF (dplaces u) (d.dia / factor u) ++ (' ' :: (fmtF (places u) (d.x / factor u) ++ (' ' :: (fmtF (places u) (d.y / factor u) ++
    tailWords d))))

theorem writeDrill_body {u : Iges.Idf.Unit} (hu : u ≠ .tnm) (d : Drill) : writeDrill u d = dbody u d ++ ['\n'] := by
  have e : writeDrill u d = (if u = .mm then fmtF 3 d.dia ++ ' ' :: fmtF 5 d.x ++ ' ' :: fmtF 5 d.y
      else fmtF 1 (d.dia / thouToMM) ++ ' ' :: fmtF 1 (d.x / thouToMM) ++ ' ' :: fmtF 1 (d.y / thouToMM)) ++
      ' ' :: pltWord d ++ ' ' :: refWord d ++ ' ' :: holeWord d ++ ' ' :: ownWord d ++ ['\n'] := rfl
  rw [e]
  unfold dbody tailWords places dplaces factor
  cases u
  · simp
  · simp
  · exact absurd rfl hu

theorem bare_word (w : Str) (h0 : w ≠ []) (h1 : w.head? ≠ some '"') (h2 : ∀ c ∈ w, isSpaceC c = false) (rest : Str)
    (hr : ∀ c ∈ rest.head?, isSpaceC c = true) : getWord (' ' :: (w ++ rest)) = .word w false rest := by
  have := getWord_bare (ws := [' ']) (t := w) (rest := rest) (by intro c hc; simp at hc; rw [hc]; rfl) h0 h1 h2 hr
  rwa [List.singleton_append] at this

theorem quoted_word (w : Str) (h : '"' ∉ w) (rest : Str) :
    getWord (' ' :: (('"' :: w ++ ['"']) ++ rest)) = .word w true rest := by
  have := getWord_quoted (ws := [' ']) (t := w) (rest := rest) (by intro c hc; simp at hc; rw [hc]; rfl) h
  rw [List.singleton_append] at this
  simpa using this

theorem compareToken_false {tok : String} {s : Str} (h : s.map Char.toUpper ≠ tok.toList) : compareToken tok s = false := by
  unfold compareToken
  simpa using h

theorem ref_word (d : Drill) (h : DrillNames d) (rest : Str) (hr : ∀ c ∈ rest.head?, isSpaceC c = true) :
    ∃ t q, getWord (' ' :: (refWord d ++ rest)) = .word t q rest ∧ parseRef t = d.ref := by
  unfold refWord
  cases e : d.ref with
  | board => exact ⟨_, _, bare_word _ (by decide) (by decide) (by decide) _ hr, by decide⟩
  | panel => exact ⟨_, _, bare_word _ (by decide) (by decide) (by decide) _ hr, by decide⟩
  | norefdes => exact ⟨_, _, bare_word _ (by decide) (by decide) (by decide) _ hr, by decide⟩
  | refdes n =>
    have hn := h.1 n e
    refine ⟨_, _, quoted_word n hn.1.1 _, ?_⟩
    unfold parseRef
    rw [compareToken_false (hn.2 "BOARD" (by simp)), compareToken_false (hn.2 "NOREFDES" (by simp)),
      compareToken_false (hn.2 "PANEL" (by simp))]
    rfl

theorem hole_word (d : Drill) (h : DrillNames d) (rest : Str) (hr : ∀ c ∈ rest.head?, isSpaceC c = true) :
    ∃ t q, getWord (' ' :: (holeWord d ++ rest)) = .word t q rest ∧ parseHole t = d.hole := by
  unfold holeWord
  cases e : d.hole with
  | pin => exact ⟨_, _, bare_word _ (by decide) (by decide) (by decide) _ hr, by decide⟩
  | via => exact ⟨_, _, bare_word _ (by decide) (by decide) (by decide) _ hr, by decide⟩
  | tool => exact ⟨_, _, bare_word _ (by decide) (by decide) (by decide) _ hr, by decide⟩
  | mtg => exact ⟨_, _, bare_word _ (by decide) (by decide) (by decide) _ hr, by decide⟩
  | other n =>
    have hn := h.2 n e
    refine ⟨_, _, quoted_word n hn.1.1 _, ?_⟩
    unfold parseHole
    rw [compareToken_false (hn.2 "PIN" (by simp)), compareToken_false (hn.2 "VIA" (by simp)),
      compareToken_false (hn.2 "MTG" (by simp)), compareToken_false (hn.2 "TOOL" (by simp))]
    rfl

theorem own_word (d : Drill) : ∃ t q, getWord (' ' :: ownWord d) = .word t q [] ∧ parseOwner t = some d.owner := by
  unfold ownWord
  cases d.owner <;> exact ⟨_, _, rfl, by decide⟩

theorem plt_word (d : Drill) (rest : Str) (hr : ∀ c ∈ rest.head?, isSpaceC c = true) :
    ∃ t q, getWord (' ' :: (pltWord d ++ rest)) = .word t q rest ∧
      (if compareToken "PTH" t then some true else if compareToken "NPTH" t then some false else none) = some d.plated := by
  unfold pltWord
  cases d.plated
  · exact ⟨_, _, bare_word _ (by decide) (by decide) (by decide) _ hr, by decide⟩
  · exact ⟨_, _, bare_word _ (by decide) (by decide) (by decide) _ hr, by decide⟩

theorem readHoleWords_tail (d : Drill) (h : DrillNames d) :
    readHoleWords .v3 (tailWords d) = some (d.plated, d.ref, d.hole, d.owner) := by
  obtain ⟨t1, q1, e1, p1⟩ := plt_word d (' ' :: (refWord d ++ (' ' :: (holeWord d ++ (' ' :: ownWord d))))) (space_head _)
  obtain ⟨t2, q2, e2, p2⟩ := ref_word d h (' ' :: (holeWord d ++ (' ' :: ownWord d))) (space_head _)
  obtain ⟨t3, q3, e3, p3⟩ := hole_word d h (' ' :: ownWord d) (space_head _)
  obtain ⟨t4, q4, e4, p4⟩ := own_word d
  unfold readHoleWords tailWords
  simp only
  rw [e1]
  simp only
  rw [p1]
  simp only
  rw [e2]
  simp only
  rw [e3]
  simp only
  rw [e4]
  simp only
  rw [p4, p2, p3]
  rfl

theorem dbody_noeol (u : Iges.Idf.Unit) (d : Drill) (h : DrillNames d) : '\n' ∉ dbody u d := by
  have hf : ∀ p x, '\n' ∉ fmtF p x := fun p x hh => (fmtF_nospace hh).2.2.2 rfl
  have h1 : '\n' ∉ pltWord d := by unfold pltWord; cases d.plated <;> decide
  have h2 : '\n' ∉ refWord d := by
    unfold refWord
    cases e : d.ref with
    | refdes n => have := (h.1 n e).1.2; simp [this]
    | _ => decide
  have h3 : '\n' ∉ holeWord d := by
    unfold holeWord
    cases e : d.hole with
    | other n => have := (h.2 n e).1.2; simp [this]
    | _ => decide
  have h4 : '\n' ∉ ownWord d := by unfold ownWord; cases d.owner <;> decide
  unfold dbody tailWords
  simp only [List.mem_append, List.mem_cons, not_or]
  exact ⟨hf _ _, by decide, hf _ _, by decide, hf _ _, by decide, h1, by decide, h2, by decide, h3, by decide, h4⟩

theorem dbody_last (u : Iges.Idf.Unit) (d : Drill) : (dbody u d).getLast? = some 'D' := by
  have h4 : ∃ w, ownWord d = w ++ ['D'] := by
    unfold ownWord; cases d.owner
    · exact ⟨"UNOWNE".toList, rfl⟩
    · exact ⟨"ECA".toList, rfl⟩
    · exact ⟨"MCA".toList, rfl⟩
  obtain ⟨w, e⟩ := h4
  have : dbody u d = (fmtF (dplaces u) (d.dia / factor u) ++ (' ' :: (fmtF (places u) (d.x / factor u) ++ (' ' :: (fmtF (places u) (d.y / factor u) ++
    (' ' :: (pltWord d ++ (' ' :: (refWord d ++ (' ' :: (holeWord d ++ (' ' :: w)))))))))))) ++ ['D'] := by
    unfold dbody tailWords; rw [e]; simp
  rw [this, List.getLast?_concat]

/-- what is read back -/
def readBack (u : Iges.Idf.Unit) (d : Drill) : Drill := { d with dia := dagain u d.dia, x := again u d.x, y := again u d.y }

theorem readDrill_body {u : Iges.Idf.Unit} (hu : u ≠ .tnm) (d : Drill) (hn : DrillNames d) (hs : DrillSize d)
    (hd : minDia u ≤ fval (dplaces u) (d.dia / factor u)) (rest : List Str) :
    readDrill u .v3 (dbody u d :: rest) = .item (readBack u d) rest := by
  obtain ⟨c, r, e⟩ := fmtF_head (dplaces u) (d.dia / factor u)
  have hne : dbody u d ≠ [] := by unfold dbody; rw [e]; simp
  have hl : nextLine (dbody u d :: rest) = (⟨dbody u d, false⟩, rest) := by
    apply nextLine_plain hne
    · intro c' hc
      have : c' = c := by unfold dbody at hc; rw [e] at hc; simpa using hc.symm
      subst this
      have := fmtF_nospace (p := dplaces u) (x := d.dia / factor u) (c := c') (by rw [e]; simp)
      exact ⟨this.1, this.2.2.1⟩
    · intro c' hc
      have : c' = 'D' := by
        rw [dbody_last] at hc
        simpa using hc.symm
      subst this; rfl
  have hnot : compareToken ".END_DRILLED_HOLES" (fmtF (dplaces u) (d.dia / factor u)) = false :=
    not_token _ _ _ (by decide) (by decide)
  have htail := readHoleWords_tail d hn
  have hh : ∀ c ∈ (tailWords d).head?, isSpaceC c = true := by unfold tailWords; exact space_head _
  unfold readDrill
  rw [hl]
  simp only [hne, Bool.false_eq_true, or_self, if_false]
  have hw := getWord_fmtF [] (by intro c hc; cases hc) (dplaces u) (d.dia / factor u)
    (' ' :: (fmtF (places u) (d.x / factor u) ++ (' ' :: (fmtF (places u) (d.y / factor u) ++ tailWords d)))) (space_head _)
  rw [List.nil_append] at hw
  rw [show dbody u d = _ from rfl]
  unfold dbody
  rw [hw]
  simp only [Bool.false_eq_true, if_false, hnot]
  rw [readNum_fmtF (dplaces_pos u) _ (fval_size (size_div u hs.1))]
  simp only
  rw [if_neg (not_lt.2 hd)]
  rw [numWord_fmtF (places_pos u) _ (size_div u hs.2.1) _ (space_head _)]
  simp only
  rw [numWord_fmtF (places_pos u) _ (size_div u hs.2.2) _ hh]
  simp only
  rw [htail]
  simp only
  have hf : unitFactor u .v3 = some (factor u) := by
    unfold unitFactor factor
    cases u
    · rfl
    · rfl
    · exact absurd rfl hu
  rw [hf]
  rfl

theorem end_drills (u : Iges.Idf.Unit) (v : Version) (rest : List Str) :
    readDrill u v (".END_DRILLED_HOLES".toList :: rest) = .finish rest := by
  have hl : nextLine (".END_DRILLED_HOLES".toList :: rest) = (⟨".END_DRILLED_HOLES".toList, false⟩, rest) :=
    nextLine_plain (by decide) (by intro c hc; have : c = '.' := by simpa using hc.symm
                                   subst this; decide)
      (by intro c hc; have : c = 'S' := by simpa using hc.symm
          subst this; decide) rest
  have e : getWord ".END_DRILLED_HOLES".toList = .word ".END_DRILLED_HOLES".toList false [] := by decide
  have e2 : compareToken ".END_DRILLED_HOLES" ".END_DRILLED_HOLES".toList = true := by decide
  have e3 : ".END_DRILLED_HOLES".toList ≠ [] := by decide
  generalize ".END_DRILLED_HOLES".toList = t at *
  unfold readDrill
  rw [hl]
  simp only [e3, e, e2, Bool.false_eq_true, or_self, if_false, if_true]

/-- a diameter of 0.3 mm or more is accepted -/
theorem dia_ok {u : Iges.Idf.Unit} (hu : u ≠ .tnm) {x : ℚ} (h : 3 / 10 ≤ x) :
    minDia u ≤ fval (dplaces u) (x / factor u) := by
  have h1 := fval_err (dplaces u) (x / factor u)
  rw [abs_le] at h1
  cases u
  · have : half (dplaces .mm) = 1 / 2000 := by unfold half dplaces; norm_num
    rw [this] at h1
    have : factor .mm = 1 := rfl
    rw [this, div_one] at h1 ⊢
    unfold minDia
    linarith [h1.1]
  · have : half (dplaces .thou) = 1 / 20 := by unfold half dplaces; simp; norm_num
    rw [this] at h1
    have : factor .thou = 254 / 10000 := rfl
    have h2 : x / factor .thou = x * (10000 / 254) := by rw [this]; field_simp
    rw [h2] at h1 ⊢
    unfold minDia
    linarith [h1.1]
  · exact absurd rfl hu

/-- **C75_roundtrip** (the holes of a board survive writing and reading): any list of holes of at least 0.3 mm — the
constructor makes no smaller ones — whose names fit between quote marks and are not keywords comes back, in version 3 and
in millimetres or thousandths of an inch, in the same order, with the same plating, owner, kind and reference, and with
diameters and positions moved by at most half a unit of the last place written.  Reading stops after the end of the section. -/
theorem C75_roundtrip (u : Iges.Idf.Unit) (hu : u ≠ .tnm) (ds : List Drill) (hn : ∀ d ∈ ds, DrillNames d)
    (hs : ∀ d ∈ ds, DrillSize d) (hd : ∀ d ∈ ds, 3 / 10 ≤ d.dia) (after : Str) :
    ∃ ds', readDrills u .v3 (lines (writeDrills u ds ++ after)) = some (ds', lines ('\n' :: after)) ∧
      List.Forall₂ (DrillNear u) ds ds' := by
  have step : ∀ (d : Drill) (ds : List Drill), DrillNames d →
      lines (writeDrills u (d :: ds) ++ after) = dbody u d :: lines (writeDrills u ds ++ after) := by
    intro d ds hb
    rw [← lines_line (dbody_noeol u d hb)]
    unfold writeDrills
    rw [List.flatMap_cons, writeDrill_body hu]
    simp
  have key : ∀ (ds : List Drill), (∀ d ∈ ds, DrillNames d) → (∀ d ∈ ds, DrillSize d) → (∀ d ∈ ds, 3 / 10 ≤ d.dia) →
      ∀ k, ds.length < k →
      readAll (readDrill u .v3) k (lines (writeDrills u ds ++ after)) = some (ds.map (readBack u), lines ('\n' :: after)) := by
    intro ds
    induction ds with
    | nil =>
      intro _ _ _ k hk
      obtain ⟨k, rfl⟩ : ∃ j, k = j + 1 := ⟨k - 1, by simp at hk; omega⟩
      have : lines (writeDrills u [] ++ after) = ".END_DRILLED_HOLES".toList :: lines ('\n' :: after) := by
        rw [← lines_line (by decide)]; rfl
      rw [this, readAll, end_drills]; rfl
    | cons d ds ih =>
      intro hn hs hd k hk
      obtain ⟨k, rfl⟩ : ∃ j, k = j + 1 := ⟨k - 1, by simp at hk; omega⟩
      rw [step d ds (hn d (by simp)), readAll,
        readDrill_body hu d (hn d (by simp)) (hs d (by simp)) (dia_ok hu (hd d (by simp)))]
      simp only
      rw [ih (fun n h => hn n (by simp [h])) (fun n h => hs n (by simp [h])) (fun n h => hd n (by simp [h])) k
        (by simp at hk; omega)]
      rfl
  refine ⟨ds.map (readBack u), ?_, ?_⟩
  · unfold readDrills
    apply key ds hn hs hd
    have : ∀ ds : List Drill, (∀ d ∈ ds, DrillNames d) → ds.length ≤ (lines (writeDrills u ds ++ after)).length := by
      intro ds
      induction ds with
      | nil => simp
      | cons d ds ih =>
        intro hn
        rw [step d ds (hn d (by simp))]
        have := ih (fun n h => hn n (by simp [h]))
        simp; omega
    have := this ds hn
    omega
  · rw [List.forall₂_map_right_iff, List.forall₂_same]
    intro d _
    exact ⟨dagain_near hu _, again_near u _, again_near u _, rfl, rfl, rfl, rfl⟩

/-- **C75_made** (what the constructor makes can be written): the diameter is never below 0.3 mm and otherwise the one asked for;
the stored names are never keywords of the writer's own spelling; asking for the texts gives back what was given, an empty
reference or kind standing for NOREFDES and MTG. -/
theorem C75_made (dia x y : ℚ) (plated : Bool) (refdes hole : Str) (owner : Owner) :
    let d := mkDrill dia x y plated refdes hole owner
    (3 / 10 ≤ d.dia) ∧ (3 / 10 ≤ dia → d.dia = dia) ∧ d.x = x ∧ d.y = y ∧ d.plated = plated ∧ d.owner = owner ∧
    d.refText = (if refdes = [] then "NOREFDES".toList else refdes) ∧
    d.holeText = (if hole = [] then "MTG".toList else hole) := by
  refine ⟨?_, ?_, rfl, rfl, rfl, rfl, ?_, ?_⟩
  · show 3 / 10 ≤ if dia < 3 / 10 then 3 / 10 else dia
    split
    · exact le_refl _
    · exact not_lt.1 (by assumption)
  · intro h
    show (if dia < 3 / 10 then 3 / 10 else dia) = dia
    rw [if_neg (not_lt.2 h)]
  · by_cases h1 : refdes = "BOARD".toList
    · subst h1; rfl
    by_cases h0 : refdes = []
    · subst h0; rfl
    by_cases h2 : refdes = "NOREFDES".toList
    · subst h2; rfl
    by_cases h3 : refdes = "PANEL".toList
    · subst h3; rfl
    unfold Drill.refText mkDrill
    simp only [h1, h0, h2, h3, or_self, if_false]
  · by_cases h1 : hole = "PIN".toList
    · subst h1; rfl
    by_cases h2 : hole = "VIA".toList
    · subst h2; rfl
    by_cases h0 : hole = []
    · subst h0; rfl
    by_cases h3 : hole = "MTG".toList
    · subst h3; rfl
    by_cases h4 : hole = "TOOL".toList
    · subst h4; rfl
    unfold Drill.holeText mkDrill
    simp only [h1, h0, h2, h3, h4, or_self, if_false]

/-- **C75_name_becomes_keyword** (against "the reference survives"): a hole of a component called "Board" becomes a hole of the
board. -/
theorem C75_name_becomes_keyword : ∃ d m : Drill, ∃ rest, d = mkDrill 1 0 0 true "Board".toList "PIN".toList .unowned ∧
    d.ref = .refdes "Board".toList ∧ m.ref = .board ∧ readDrill .mm .v3 (lines (writeDrill .mm d)) = .item m rest := by
  refine ⟨_, { mkDrill 1 0 0 true "Board".toList "PIN".toList .unowned with ref := .board }, [[]], rfl, by decide, rfl, ?_⟩
  decide +kernel

/-- **C75_tiny_unreadable** (against "what was read can be written and read again"): a hole of 0.01 thousandths of an inch is
accepted when read, but is written as 0.0, which is refused. -/
theorem C75_tiny_unreadable : ∃ (s : Str) (d : Drill) (rest : List Str),
    readDrill .thou .v3 (lines s) = .item d rest ∧ readDrill .thou .v3 (lines (writeDrill .thou d)) = .error ∧
    readDrill .mm .v3 (lines (writeDrill .mm d)) = .error := by
  refine ⟨"0.01 0 0 PTH BOARD PIN UNOWNED\n".toList, ⟨1 / 100 * thouToMM, 0, 0, true, .board, .pin, .unowned⟩, [[]], ?_⟩
  decide +kernel

/-- **C75_quote_refused**: a quote mark in the name of the component makes the line unreadable or changes its meaning: here
the rest of the name is taken for the kind of the hole and the file is refused. -/
theorem C75_quote_refused : ∃ d : Drill, d = mkDrill 1 0 0 true "a\"b".toList "PIN".toList .unowned ∧
    readDrill .mm .v3 (lines (writeDrill .mm d)) = .error := by
  refine ⟨_, rfl, ?_⟩
  decide +kernel

/-- **C75_bounds**: a hole that is read has at least the least diameter of its unit; version 2 files give plated holes without
owner; tens of nanometres are accepted in version 2 only. -/
theorem C75_bounds (u : Iges.Idf.Unit) (v : Version) (s rest : List Str) (d : Drill) (h : readDrill u v s = .item d rest) :
    (∃ f, unitFactor u v = some f ∧ minDia u * f ≤ d.dia) ∧ 0 < d.dia ∧ (u = .tnm → v = .v2) ∧
    (v = .v2 → d.plated = true ∧ d.owner = .unowned) := by
  unfold readDrill at h
  split at h
  split at h
  · cases h
  split at h
  · rename_i l rest' _ _ t q r hw
    split at h
    · cases h
    split at h
    · cases h
    split at h
    · cases h
    rename_i dia hdia
    split at h
    · cases h
    rename_i hmin
    split at h
    · cases h
    split at h
    · cases h
    split at h
    · cases h
    rename_i plated ref hole owner hwords
    split at h
    · cases h
    rename_i f hf
    cases h
    have hfp : 0 < f := by
      unfold unitFactor thouToMM tnmToMM at hf
      cases u
      · cases hf; norm_num
      · cases hf; norm_num
      · simp only at hf
        split at hf
        · cases hf; norm_num
        · cases hf
    have hm : 0 < minDia u := by unfold minDia; cases u <;> norm_num
    have h1 : minDia u * f ≤ dia * f := mul_le_mul_of_nonneg_right (not_lt.1 hmin) (le_of_lt hfp)
    refine ⟨⟨f, hf, h1⟩, lt_of_lt_of_le (mul_pos hm hfp) h1, ?_, ?_⟩
    · intro hu
      subst hu
      unfold unitFactor at hf
      simp only at hf
      split at hf
      · assumption
      · cases hf
    · intro hv
      subst hv
      unfold readHoleWords at hwords
      simp only at hwords
      split at hwords
      · split at hwords
        · cases hwords; exact ⟨rfl, rfl⟩
        · cases hwords
      · cases hwords
  · cases h

/-- two holes, one of a component called "R 1" and with a kind of its own -/
example : let ds := [mkDrill (1 / 10) (1 / 3) (-2) false "R 1".toList "Slot".toList .ecad, mkDrill 2 0 5 true [] [] .unowned]
    (∀ d ∈ ds, DrillNames d ∧ DrillSize d ∧ 3 / 10 ≤ d.dia) ∧
    readDrills .mm .v3 (lines (writeDrills .mm ds)) =
      some ([mkDrill (3 / 10) (33333 / 100000) (-2) false "R 1".toList "Slot".toList .ecad, mkDrill 2 0 5 true [] [] .unowned],
        [[], []]) := by
  refine ⟨?_, by decide +kernel⟩
  intro d hd
  simp only [List.mem_cons, List.not_mem_nil, or_false] at hd
  rcases hd with rfl | rfl
  · refine ⟨⟨?_, ?_⟩, ⟨small_size ?_, small_size ?_, small_size ?_⟩, (C75_made _ _ _ _ _ _ _).1⟩
    · intro n h
      have : n = "R 1".toList := by
        have e : (mkDrill (1 / 10) (1 / 3) (-2) false "R 1".toList "Slot".toList .ecad).ref = .refdes "R 1".toList := by decide +kernel
        rw [e] at h; exact (Ref.refdes.inj h).symm
      subst this
      exact ⟨⟨by decide, by decide⟩, by unfold NotWord; decide⟩
    · intro n h
      have : n = "Slot".toList := by
        have e : (mkDrill (1 / 10) (1 / 3) (-2) false "R 1".toList "Slot".toList .ecad).hole = .other "Slot".toList := by decide +kernel
        rw [e] at h; exact (Hole.other.inj h).symm
      subst this
      exact ⟨⟨by decide, by decide⟩, by unfold NotWord; decide⟩
    · norm_num [mkDrill]
    · norm_num [mkDrill, abs_of_pos]
    · norm_num [mkDrill]
  · refine ⟨⟨?_, ?_⟩, ⟨small_size ?_, small_size ?_, small_size ?_⟩, (C75_made _ _ _ _ _ _ _).1⟩
    · intro n h; cases h
    · intro n h; cases h
    · norm_num [mkDrill]
    · norm_num [mkDrill]
    · norm_num [mkDrill]

end Iges.Props.IdfDrill
