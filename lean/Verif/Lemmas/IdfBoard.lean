import Verif.Spec.IdfBoard
import Verif.Props.IdfSections
import Verif.Props.IdfPlace
/-
Lemmas for whole board files.
-/
namespace Iges.Idf
open Iges.Idf.Spec Iges.Props.IdfNotes Iges.Props.IdfDrill Iges.Props.IdfOutline

/-! ### Lines -/

theorem trim_comment {c : Str} (h : CommentOk c) : trim (' ' :: c) = c := by
  have : trim (' ' :: c) = trim c := by unfold trim; rfl
  rw [this]
  exact trim_plain h.2.1 h.2.2

theorem fetch_comment {c : Str} (h : CommentOk c) : fetchLine ('#' :: ' ' :: c) = some ⟨c, true⟩ := by
  show some (⟨trim (' ' :: c), true⟩ : Line) = _
  rw [trim_comment h]

theorem fetch_plain {s : Str} (h0 : s ≠ []) (h1 : ∀ c ∈ s.head?, isSpaceC c = false ∧ c ≠ '#')
    (h2 : ∀ c ∈ s.getLast?, isSpaceC c = false) : fetchLine s = some ⟨s, false⟩ := by
  have ht := trim_plain (fun c hc => (h1 c hc).1) h2
  obtain ⟨c, r, rfl⟩ := List.exists_cons_of_ne_nil h0
  have hc : c ≠ '#' := (h1 c (by simp)).2
  unfold fetchLine
  split
  · rename_i r' e; cases e; exact absurd rfl hc
  · rw [ht, if_neg (by simp)]

variable {ccw : List QSeg → Bool} {noSub : Bool} {st : FState} {b : Board} {tok : Str} {idx : ℕ} {cs : List Str}

theorem section_blank (rest : List Str) : readSection ccw noSub st b tok idx cs ([] :: rest) = readSection ccw noSub st b tok idx cs rest := by
  rw [readSection]
  rfl

theorem lines_nl (s : Str) : lines ('\n' :: s) = [] :: lines s := by
  have := lines_line (a := []) (by simp) s
  simpa using this

theorem section_comments (cs' : List Str) (h : ∀ c ∈ cs', CommentOk c) (after : Str) :
    readSection ccw noSub st b tok idx cs (lines (commentText cs' ++ after)) = readSection ccw noSub st b tok idx (cs ++ cs') (lines after) := by
  induction cs' generalizing cs with
  | nil => simp [commentText]
  | cons c cs' ih =>
    have hc := h c (by simp)
    have e : lines (commentText (c :: cs') ++ after) = ('#' :: ' ' :: c) :: lines (commentText cs' ++ after) := by
      rw [← lines_line (a := '#' :: ' ' :: c)]
      · simp [commentText]
      · simp only [List.mem_cons, not_or]
        exact ⟨by decide, by decide, hc.1⟩
    rw [e, readSection, fetch_comment hc]
    simp only [lines_ne_nil, if_false, if_true]
    rw [ih (fun c h' => h c (by simp [h']))]
    simp

/-- a section with its comments -/
theorem section_key (cs' : List Str) (h : ∀ c ∈ cs', CommentOk c) {line : Str} {body : List Str} {after : Str} {t : Str} {i : ℕ} {key : Key}
    (hl : lines after = line :: body) (hb : body ≠ []) (hf : fetchLine line = some ⟨line, false⟩) (hk : keyWord line [] 0 = some (t, i))
    (hs : sectionKey t = some key) :
    readSection ccw noSub st b [] 0 [] (lines (commentText cs' ++ after)) = readBody ccw noSub key st b cs' line body := by
  rw [section_comments cs' h, hl, readSection, hf]
  simp only [hb, if_false, Bool.false_eq_true, hk, hs, List.nil_append]

theorem sections_step {n : ℕ} (hst : st ≠ .placement) {input : List Str} (hi : input ≠ []) :
    readSections ccw noSub (n + 1) st b input = (readSection ccw noSub st b [] 0 [] input).bind fun r => readSections ccw noSub n r.1 r.2.1 r.2.2 := by
  rw [readSections, if_neg (by simp [hst, hi])]
  cases readSection ccw noSub st b [] 0 [] input <;> rfl

theorem sections_blank {n : ℕ} (hst : st ≠ .placement) {input : List Str} (hi : input ≠ []) :
    readSections ccw noSub (n + 1) st b ([] :: input) = readSections ccw noSub (n + 1) st b input := by
  rw [sections_step hst (by simp), sections_step hst hi, section_blank]

/-! ### Header -/

theorem scanInt_intStr {n : ℤ} (h0 : 0 ≤ n) (h : n ≤ 2147483647) : scanInt (intStr n) = some (n, []) := by
  obtain ⟨m, rfl⟩ := Int.eq_ofNat_of_zero_le h0
  exact scanInt_natStr (by omega)

theorem natStr_word (m : ℕ) : WordOk (natStr m) := by
  have hd : ∀ c, isDigitC c = true → isSpaceC c = false ∧ c ≠ '"' := by
    intro c hc
    exact ⟨(digit_plain hc).1, (digit_plain hc).2.1⟩
  refine ⟨natStr_ne_nil m, ?_, fun c hc => (hd c (natStr_digit hc)).1⟩
  intro h
  exact (hd '"' (natStr_digit (List.mem_of_head? h))).2 rfl

theorem intStr_word {n : ℤ} (h0 : 0 ≤ n) : WordOk (intStr n) := by
  obtain ⟨m, rfl⟩ := Int.eq_ofNat_of_zero_le h0
  exact natStr_word m

theorem head_line {s : Str} (h : fetchLine s = some ⟨s, false⟩) (rest : List Str) (hr : rest ≠ []) : headLine (s :: rest) = some (s, rest) := by
  unfold headLine
  rw [nextLine, h]
  simp [hr]

/-- what the source is called in the file -/
def sourceText (ours : Str) : Str := "Created by ".toList ++ (if ours = [] then "KiCad-IDF Framework".toList else ours)

/-- the name in the file -/
def nameText (name : Str) : Str := if name = [] then "BOARD WITH NO NAME".toList else name

/-- the second line of a header -/
def line2nd (type : Str) (now ours : Str) (n : ℤ) : Str :=
  type ++ (" 3.0".toList ++ (' ' :: (('"' :: sourceText ours ++ ['"']) ++ (' ' :: (now ++ (' ' :: (intStr n ++ [])))))))

/-- the third line of a header -/
def line3rd (name : Str) (u : Iges.Idf.Unit) : Str := '"' :: (nameText name ++ '"' :: (' ' :: ((if u = .mm then "MM".toList else "THOU".toList) ++ [])))

theorem source_plain {ours : Str} (h : Plain ours) : Plain (sourceText ours) := by
  unfold sourceText
  split
  · exact ⟨by decide, by decide⟩
  · refine ⟨?_, ?_⟩ <;> rw [List.mem_append, not_or]
    · exact ⟨by decide, h.1⟩
    · exact ⟨by decide, h.2⟩

theorem name_plain {name : Str} (h : Plain name) : Plain (nameText name) := by
  unfold nameText
  split
  · exact ⟨by decide, by decide⟩
  · exact h

theorem space_word {w : Str} (h : WordOk w) (rest : Str) (hr : ∀ c ∈ rest.head?, isSpaceC c = true) :
    getWord (' ' :: (w ++ rest)) = .word w false rest := bare_word w h.1 h.2.1 h.2.2 rest hr

theorem record2 (type : String) (ht : WordOk type.toList) (ht2 : compareToken type type.toList = true) {now ours : Str} (hn : WordOk now) (ho : Plain ours)
    {n : ℤ} (h0 : 0 ≤ n) (h : n ≤ 2147483647) : parseRecord2 type (line2nd type.toList now ours n) = some (.v3, sourceText ours, now, n) := by
  have e1 : getWord (line2nd type.toList now ours n) = .word type.toList false (" 3.0".toList ++ (' ' :: (('"' :: sourceText ours ++ ['"']) ++ (' ' :: (now ++ (' ' :: (intStr n ++ []))))))) := by
    have := getWord_bare (ws := []) (t := type.toList) (rest := " 3.0".toList ++ (' ' :: (('"' :: sourceText ours ++ ['"']) ++ (' ' :: (now ++ (' ' :: (intStr n ++ [])))))))
      (by intro c hc; cases hc) ht.1 ht.2.1 ht.2.2 (by intro c hc; cases hc; rfl)
    exact this
  have e2 : getWord (" 3.0".toList ++ (' ' :: (('"' :: sourceText ours ++ ['"']) ++ (' ' :: (now ++ (' ' :: (intStr n ++ []))))))) =
      .word "3.0".toList false (' ' :: (('"' :: sourceText ours ++ ['"']) ++ (' ' :: (now ++ (' ' :: (intStr n ++ [])))))) :=
    space_word (w := "3.0".toList) ⟨by decide, by decide, by decide⟩ _ (space_head _)
  have e3 := quoted_word _ (source_plain ho).1 (' ' :: (now ++ (' ' :: (intStr n ++ []))))
  have e4 := space_word hn (' ' :: (intStr n ++ [])) (space_head _)
  have e5 := space_word (intStr_word h0) [] (by intro c hc; cases hc)
  unfold parseRecord2
  rw [e1]
  simp only [ht2, Bool.false_eq_true, Bool.true_eq_false, or_self, if_false]
  rw [e2]
  simp only [Bool.false_eq_true, if_false]
  rw [show parseVersion "3.0".toList = some .v3 from by decide]
  simp only
  rw [e3]
  simp only
  rw [e4]
  simp only
  rw [e5]
  simp only [Bool.false_eq_true, if_false]
  rw [scanInt_intStr h0 h]
  rfl

theorem record3 {name : Str} (hn : Plain name) (u : Iges.Idf.Unit) : parseRecord3 .v3 (line3rd name u) = some (nameText name, if u = .mm then .mm else .thou) := by
  have e1 := getWord_quoted (ws := []) (t := nameText name) (rest := ' ' :: ((if u = .mm then "MM".toList else "THOU".toList) ++ [])) (by intro c hc; cases hc) (name_plain hn).1
  rw [List.nil_append] at e1
  unfold parseRecord3 line3rd
  rw [e1]
  cases u <;> rfl

theorem last_append {a b : Str} (hb : b ≠ []) (h : ∀ c ∈ b, isSpaceC c = false) : ∀ c ∈ (a ++ b).getLast?, isSpaceC c = false := by
  intro c hc
  rw [List.getLast?_append_of_ne_nil _ hb] at hc
  exact h c (List.mem_of_getLast? hc)

theorem line2nd_fetch (type : String) (ht : WordOk type.toList) (ht2 : type.toList.head? ≠ some '#') {now ours : Str} {n : ℤ} (h0 : 0 ≤ n) :
    fetchLine (line2nd type.toList now ours n) = some ⟨line2nd type.toList now ours n, false⟩ := by
  obtain ⟨c, r, e⟩ := List.exists_cons_of_ne_nil ht.1
  apply fetch_plain
  · unfold line2nd; rw [e]; simp
  · intro x hx
    have : x = c := by unfold line2nd at hx; rw [e] at hx; simpa using hx.symm
    subst this
    refine ⟨ht.2.2 _ (by rw [e]; simp), ?_⟩
    rintro rfl
    exact ht2 (by rw [e]; rfl)
  · have hw := intStr_word h0
    have : line2nd type.toList now ours n = (type.toList ++ (" 3.0".toList ++ (' ' :: (('"' :: sourceText ours ++ ['"']) ++ (' ' :: (now ++ [' ' ])))))) ++ intStr n := by
      unfold line2nd; simp
    rw [this]
    exact last_append hw.1 hw.2.2

theorem line3rd_fetch (name : Str) (u : Iges.Idf.Unit) : fetchLine (line3rd name u) = some ⟨line3rd name u, false⟩ := by
  apply fetch_plain
  · unfold line3rd; simp
  · intro x hx
    have : x = '"' := by unfold line3rd at hx; simpa using hx.symm
    subst this; decide
  · have : line3rd name u = ('"' :: (nameText name ++ ['"', ' '])) ++ (if u = .mm then "MM".toList else "THOU".toList) := by
      unfold line3rd; simp
    rw [this]
    cases u <;> exact last_append (by decide) (by decide)

theorem line2nd_noeol (type : String) (ht : '\n' ∉ type.toList) {now ours : Str} (hn : WordOk now) (ho : Plain ours) {n : ℤ} (h0 : 0 ≤ n) :
    '\n' ∉ line2nd type.toList now ours n := by
  have h1 : '\n' ∉ now := fun h => by have := hn.2.2 _ h; revert this; decide
  have h2 : '\n' ∉ intStr n := fun h => by have := (intStr_word h0).2.2 _ h; revert this; decide
  have h3 := (source_plain ho).2
  unfold line2nd
  simp only [List.mem_append, List.mem_cons, not_or, List.not_mem_nil, not_false_eq_true, and_true, List.cons_append]
  exact ⟨ht, by decide, by decide, by decide, ⟨h3, by decide⟩, by decide, h1, by decide, h2⟩

theorem line3rd_noeol {name : Str} (hn : Plain name) (u : Iges.Idf.Unit) : '\n' ∉ line3rd name u := by
  have h3 := (name_plain hn).2
  have h4 : '\n' ∉ (if u = .mm then "MM".toList else "THOU".toList) := by cases u <;> decide
  unfold line3rd
  simp only [List.mem_append, List.mem_cons, not_or, List.not_mem_nil, not_false_eq_true, and_true]
  exact ⟨by decide, h3, by decide, by decide, h4⟩

theorem header_lines (now ours : Str) (hn : WordOk now) (ho : Plain ours) (b : Board) (hname : Plain b.name) (h0 : 0 ≤ b.fileVersion) (after : Str) :
    lines (headerText now ours b ++ after) = ".HEADER".toList :: line2nd "BOARD_FILE".toList now ours (b.fileVersion + 1) :: line3rd b.name b.unit ::
      ".END_HEADER".toList :: [] :: lines after := by
  rw [← lines_nl, ← lines_line (a := ".END_HEADER".toList) (by decide), ← lines_line (line3rd_noeol hname b.unit),
    ← lines_line (line2nd_noeol "BOARD_FILE" (by decide) hn ho (by omega)), ← lines_line (a := ".HEADER".toList) (by decide)]
  congr 1
  unfold headerText line2nd line3rd sourceText nameText
  have e1 : ".HEADER\nBOARD_FILE 3.0 \"Created by ".toList = ".HEADER".toList ++ '\n' :: ("BOARD_FILE".toList ++ (" 3.0".toList ++ ' ' :: '"' :: "Created by ".toList)) := by decide
  have e2 : "\n.END_HEADER\n\n".toList = '\n' :: (".END_HEADER".toList ++ ['\n', '\n']) := by decide
  rw [e1, e2]
  generalize ".HEADER".toList = a1
  generalize "BOARD_FILE".toList = a2
  generalize " 3.0".toList = a3
  generalize "Created by ".toList = a4
  generalize ".END_HEADER".toList = a5
  generalize (if ours = [] then "KiCad-IDF Framework".toList else ours) = a6
  generalize (if b.name = [] then "BOARD WITH NO NAME".toList else b.name) = a7
  generalize (if b.unit = .mm then "MM".toList else "THOU".toList) = a8
  simp only [List.append_assoc, List.cons_append, List.nil_append, List.append_nil]

theorem header_read (now ours : Str) (hn : WordOk now) (ho : Plain ours) (b b0 : Board) (hname : Plain b.name) (h0 : 0 ≤ b.fileVersion)
    (h1 : b.fileVersion < 2147483647) (after : Str) :
    readHeader b0 (lines (headerText now ours b ++ after)) =
      some ({ b0 with version := .v3, source := sourceText ours, date := now, fileVersion := b.fileVersion + 1, name := nameText b.name,
                      unit := if b.unit = .mm then .mm else .thou }, [] :: lines after) := by
  rw [header_lines now ours hn ho b hname h0]
  have e1 : fetchLine ".HEADER".toList = some ⟨".HEADER".toList, false⟩ := by decide
  have e2 := line2nd_fetch "BOARD_FILE" ⟨by decide, by decide, by decide⟩ (by decide) (now := now) (ours := ours) (n := b.fileVersion + 1) (by omega)
  have e3 := line3rd_fetch b.name b.unit
  have e4 : endHeader (".END_HEADER".toList :: [] :: lines after) = some ([] :: lines after) := rfl
  have e5 : compareToken ".HEADER" ".HEADER".toList = true := by decide
  have e6 := record2 "BOARD_FILE" ⟨by decide, by decide, by decide⟩ (by decide) hn ho (n := b.fileVersion + 1) (by omega) (by omega)
  have e7 := record3 hname b.unit
  generalize ".HEADER".toList = t1 at *
  generalize line2nd "BOARD_FILE".toList now ours (b.fileVersion + 1) = t2 at *
  generalize line3rd b.name b.unit = t3 at *
  generalize ".END_HEADER".toList = t4 at *
  unfold readHeader
  rw [head_line e1 _ (by simp)]
  simp only
  rw [e5, if_neg (by decide), head_line e2 _ (by simp)]
  simp only
  rw [e6]
  simp only
  rw [head_line e3 _ (by simp)]
  simp only
  rw [e7]
  simp only
  rw [e4]
  rfl

/-! ### Holes -/

/-- a hole of the board or panel -/
def ofBoard (d : Drill) : Bool := compareToken "BOARD" d.refText || compareToken "PANEL" d.refText

/-- the holes of the component `r` -/
def holesFor (r : Str) (ds : List Drill) : List Drill := ds.filter fun d => !ofBoard d && decide (d.refText = r)

/-- a component after holes have been added -/
def withHoles (r : Str) (hs : List Drill) : Option Comp → Option Comp
  | none => if hs = [] then none else some ⟨r, none, none, [], hs⟩
  | some c => some { c with drills := c.drills ++ hs }

theorem withHoles_append (r : Str) (h1 h2 : List Drill) (x : Option Comp) : withHoles r h2 (withHoles r h1 x) = withHoles r (h1 ++ h2) x := by
  cases x with
  | none =>
    by_cases e : h1 = []
    · subst e; simp [withHoles]
    · simp [withHoles, e]
  | some c => simp [withHoles]

theorem withHoles_nil (r : Str) (x : Option Comp) : withHoles r [] x = x := by
  cases x <;> simp [withHoles]

theorem addHole_eq (b : Board) (d : Drill) : ∃ m, addHole b d = { b with holes := b.holes ++ [d].filter ofBoard, place := { b.place with comps := m } } ∧
    ∀ r, SMap.find r m = withHoles r (holesFor r [d]) (SMap.find r b.place.comps) := by
  unfold addHole
  by_cases h : compareToken "BOARD" d.refText ∨ compareToken "PANEL" d.refText
  · have hb : ofBoard d = true := by unfold ofBoard; simpa using h
    rw [if_pos h]
    refine ⟨b.place.comps, by simp [hb], fun r => ?_⟩
    have : holesFor r [d] = [] := by simp [holesFor, hb]
    rw [this, withHoles_nil]
  · have hb : ofBoard d = false := by unfold ofBoard; simpa using h
    rw [if_neg h]
    have hn : ∀ r, d.refText ≠ r → holesFor r [d] = [] := fun r e => by simp [holesFor, hb, e]
    have hy : holesFor d.refText [d] = [d] := by simp [holesFor, hb]
    cases hf : SMap.find d.refText b.place.comps with
    | none =>
      refine ⟨_, by simp [hb]; rfl, fun r => ?_⟩
      rw [find_add _ _ _ hf]
      by_cases e : r = d.refText
      · subst e; rw [if_pos rfl, hf, hy]; simp [withHoles]
      · rw [if_neg e, hn r (fun h => e h.symm), withHoles_nil]
    | some c =>
      refine ⟨_, by simp [hb]; rfl, fun r => ?_⟩
      rw [find_change _ _ _ _ hf]
      by_cases e : r = d.refText
      · subst e; rw [if_pos rfl, hf, hy]; simp [withHoles]
      · rw [if_neg e, hn r (fun h => e h.symm), withHoles_nil]

theorem addHoles_eq (ds : List Drill) (b : Board) : ∃ m, ds.foldl addHole b = { b with holes := b.holes ++ ds.filter ofBoard, place := { b.place with comps := m } } ∧
    ∀ r, SMap.find r m = withHoles r (holesFor r ds) (SMap.find r b.place.comps) := by
  induction ds generalizing b with
  | nil =>
    refine ⟨b.place.comps, by simp, fun r => ?_⟩
    show _ = withHoles r [] _
    rw [withHoles_nil]
  | cons d ds ih =>
    obtain ⟨m1, h1, h2⟩ := addHole_eq b d
    obtain ⟨m2, g1, g2⟩ := ih (addHole b d)
    refine ⟨m2, ?_, fun r => ?_⟩
    · rw [List.foldl_cons, g1, h1]
      have : (d :: ds).filter ofBoard = [d].filter ofBoard ++ ds.filter ofBoard := by
        rw [← List.filter_append]; rfl
      rw [this]
      simp
    · rw [g2, h1]
      show withHoles r _ (SMap.find r m1) = _
      rw [h2, withHoles_append]
      congr 1
      unfold holesFor
      rw [← List.filter_append]; rfl

theorem near_text {u : Iges.Idf.Unit} {d d' : Drill} (h : DrillNear u d d') : d'.refText = d.refText := by
  unfold Drill.refText; rw [h.ref]

theorem near_filter {u : Iges.Idf.Unit} {ds ds' : List Drill} (h : List.Forall₂ (DrillNear u) ds ds') (p : Drill → Bool)
    (hp : ∀ d d', DrillNear u d d' → p d' = p d) : List.Forall₂ (DrillNear u) (ds.filter p) (ds'.filter p) := by
  induction h with
  | nil => simp
  | cons hd _ ih =>
    rename_i d d' ds ds' _
    rw [List.filter_cons, List.filter_cons, hp d d' hd]
    split
    · exact .cons hd ih
    · exact ih

theorem ofBoard_board {d : Drill} (h : d.ref = .board ∨ d.ref = .panel) : ofBoard d = true := by
  unfold ofBoard Drill.refText
  rcases h with h | h <;> rw [h] <;> decide

theorem ofBoard_comp {r : Str} {d : Drill} (h : HoleOf r d) (hn : DrillNames d) : ofBoard d = false ∧ d.refText = r := by
  rcases h with h | ⟨rfl, h⟩
  · have := (hn.1 r h).2
    refine ⟨?_, by unfold Drill.refText; rw [h]⟩
    unfold ofBoard Drill.refText
    rw [h]
    simp only
    rw [compareToken_false (this "BOARD" (by simp)), compareToken_false (this "PANEL" (by simp))]
    rfl
  · refine ⟨?_, by unfold Drill.refText; rw [h]⟩
    unfold ofBoard Drill.refText
    rw [h]
    decide

/-- the holes written, sorted out again -/
theorem holes_sorted (holes : List Drill) (m : SMap Comp) (hh : ∀ d ∈ holes, d.ref = .board ∨ d.ref = .panel)
    (hm : ∀ e ∈ m, ∀ d ∈ e.2.drills, HoleOf e.1 d ∧ DrillNames d) (hk : (m.map Prod.fst).Nodup) :
    (holes ++ m.flatMap fun e => e.2.drills).filter ofBoard = holes ∧
    ∀ r, holesFor r (holes ++ m.flatMap fun e => e.2.drills) = (SMap.find r m).elim [] (·.drills) := by
  have h1 : holes.filter ofBoard = holes := List.filter_eq_self.2 fun d hd => ofBoard_board (hh d hd)
  have h2 : (m.flatMap fun e => e.2.drills).filter ofBoard = [] := by
    rw [List.filter_eq_nil_iff]
    intro d hd
    obtain ⟨e, he, hd⟩ := List.mem_flatMap.1 hd
    obtain ⟨a, b⟩ := hm e he d hd
    rw [(ofBoard_comp a b).1]
    simp
  refine ⟨by rw [List.filter_append, h1, h2, List.append_nil], fun r => ?_⟩
  have h3 : holesFor r holes = [] := by
    unfold holesFor
    rw [List.filter_eq_nil_iff]
    intro d hd
    rw [ofBoard_board (hh d hd)]
    simp
  unfold holesFor at h3 ⊢
  rw [List.filter_append, h3, List.nil_append]
  clear h1 h2 h3 hh
  induction m with
  | nil => rfl
  | cons e m ih =>
    obtain ⟨k, c⟩ := e
    rw [List.map_cons, List.nodup_cons] at hk
    have ih' := ih (fun e he => hm e (by simp [he])) hk.2
    rw [List.flatMap_cons, List.filter_append, ih', SMap.find]
    have hd := hm (k, c) (by simp)
    by_cases e : k = r
    · subst e
      rw [if_pos rfl]
      have e1 : SMap.find k m = none := by
        have : ∀ m : SMap Comp, k ∉ m.map Prod.fst → SMap.find k m = none := by
          intro m
          induction m with
          | nil => intro _; rfl
          | cons e m ih =>
            obtain ⟨k', c'⟩ := e
            intro h
            rw [List.map_cons, List.mem_cons, not_or] at h
            rw [SMap.find, if_neg (fun h' => h.1 h'.symm), ih h.2]
        exact this m hk.1
      rw [e1]
      simp only [Option.elim, List.append_nil]
      rw [List.filter_eq_self]
      intro d hd'
      obtain ⟨a, b⟩ := hd d hd'
      obtain ⟨a, b⟩ := ofBoard_comp a b
      simp [a, b]
    · rw [if_neg e]
      have : (c.drills.filter fun d => !ofBoard d && decide (d.refText = r)) = [] := by
        rw [List.filter_eq_nil_iff]
        intro d hd'
        obtain ⟨a, b⟩ := hd d hd'
        obtain ⟨a, b⟩ := ofBoard_comp a b
        simp [b, e]
      rw [this, List.nil_append]

/-! ### Placement -/

theorem place_filter (u : Iges.Idf.Unit) (m : SMap Comp) : writePlacement u m = writePlacement u (m.filter fun e => e.2.outs ≠ []) := by
  unfold writePlacement
  congr 1
  induction m with
  | nil => rfl
  | cons e m ih =>
    rw [List.filter_cons]
    by_cases h : e.2.outs = []
    · have h0 : writePlaceComp u e.2 = some [] := by unfold writePlaceComp; rw [h]; rfl
      simp only [h, ne_eq, not_true_eq_false, decide_false, Bool.false_eq_true, if_false]
      rw [List.map_cons, h0, concatTexts, ← ih]
      cases concatTexts (m.map fun p => writePlaceComp u p.2) <;> rfl
    · simp only [h, ne_eq, not_false_eq_true, decide_true, if_true]
      rw [List.map_cons, List.map_cons]
      cases hw : writePlaceComp u e.2 with
      | none => rfl
      | some t => rw [concatTexts, concatTexts, ih]

/-! ### Outline sections -/

theorem filter_nonempty {cs : List Str} (h : ∀ c ∈ cs, CommentOk c ∧ c ≠ []) : cs.filter (fun x => decide (x ≠ [])) = cs :=
  List.filter_eq_self.2 fun c hc => by simpa using (h c hc).2

theorem insert_last {α : Type} (key : α → Str) (x : α) (l : List α) (h : ∀ y ∈ l, strLt (key x) (key y) = false) : insertBy key x l = l ++ [x] := by
  induction l with
  | nil => rfl
  | cons y l ih =>
    rw [insertBy, h y (by simp)]
    simp only [Bool.false_eq_true, if_false, List.cons_append]
    rw [ih fun y hy => h y (by simp [hy])]

/-- a section is added at the end -/
theorem addSect_last (b : Board) {k : OlnKind} (hk : k ≠ .other) {cs : List Str} (hc : ∀ c ∈ cs, CommentOk c ∧ c ≠ []) (s : OlnSect)
    (hr : k = .region → ∀ y ∈ b.sects .region, strLt s.ident y.2.ident = false) :
    addSect b k cs s = some { b with sects := fun j => if j = k then b.sects k ++ [(cs, s)] else b.sects j } := by
  unfold addSect
  rw [filter_nonempty hc]
  cases k with
  | other => exact absurd rfl hk
  | region =>
    simp only
    rw [insert_last (fun y : List Str × OlnSect => y.2.ident) (cs, s) (b.sects .region) (hr rfl)]
  | _ => rfl

theorem write_sect_head {k : OlnKind} {ccw : List QSeg → Bool} {u : Iges.Idf.Unit} {s : OlnSect} (ho : s.outlines ≠ []) {text : Str}
    (h : writeSect k ccw u s = .text text) : ∃ t, text = (('.' :: k.name.toList) ++ ' ' :: ownerText s.owner) ++ '\n' :: t := by
  unfold writeSect at h
  rw [if_neg ho] at h
  split at h
  · cases h
  · split at h
    · cases h
    · cases h
    · rename_i info _ _ t _
      cases h
      exact ⟨info ++ (t ++ (".END_".toList ++ k.name.toList ++ ['\n', '\n'])), by simp only [List.append_assoc, List.cons_append]⟩

theorem sect_line (k : OlnKind) (o : Owner) : fetchLine (('.' :: k.name.toList) ++ ' ' :: ownerText o) = some ⟨('.' :: k.name.toList) ++ ' ' :: ownerText o, false⟩ ∧
    keyWord (('.' :: k.name.toList) ++ ' ' :: ownerText o) [] 0 = some ('.' :: k.name.toList, k.name.toList.length + 1) ∧
    sectionKey ('.' :: k.name.toList) = some (.sect k) := by
  cases k <;> cases o <;> decide

/-- one section written and read -/
theorem sect_step {u : Iges.Idf.Unit} (hu : u ≠ .tnm) {g : ℚ} (hg : 0 ≤ g) {k : OlnKind} {x : List Str × OlnSect}
    (hx : (∀ c ∈ x.1, CommentOk c ∧ c ≠ []) ∧ k ≠ .other ∧ SectOk k x.2 ∧ ∃ l, x.2.outlines = [l] ∧ GoodLoop u g l)
    (c : Board) (hcu : c.unit = u) (hcv : c.version = .v3)
    (hr : k = .region → ∀ y ∈ c.sects .region, strLt x.2.ident y.2.ident = false) (after : Str) :
    ∃ text y, sectText ccw u k x = .text text ∧ 1 < (lines text).length ∧ SectNear u g x y ∧
      ∀ m, readSections ccw noSub (m + 2) .outline c (lines (text ++ after)) =
        readSections ccw noSub (m + 1) .outline { c with sects := fun j => if j = k then c.sects k ++ [y] else c.sects j } (lines after) := by
  obtain ⟨hc, hk, hs, l, ho, hl⟩ := hx
  obtain ⟨text, header, body, s', l', w, hlines, hread, e1, e2, e3, e4, e5, e6⟩ := Iges.Props.IdfSections.C79_roundtrip_partial k hk ccw u hu g hg x.2 hs l ho hl after
  have hne : x.2.outlines ≠ [] := by rw [ho]; simp
  obtain ⟨t, ht⟩ := write_sect_head hne w
  obtain ⟨f1, f2, f3⟩ := sect_line k x.2.owner
  have hn := (sect_header k x.2.owner).2.1
  generalize (('.' :: k.name.toList) ++ ' ' :: ownerText x.2.owner) = hd at *
  have hl2 : lines (text ++ after) = hd :: lines (t ++ after) := by
    rw [ht, ← lines_line hn]; simp
  rw [hl2] at hlines
  obtain ⟨rfl, hbody⟩ := List.cons.inj hlines
  refine ⟨commentText x.1 ++ text, (x.1, s'), ?_, ?_, ⟨rfl, e1, e2, e3, e4, ?_⟩, ?_⟩
  · unfold sectText
    rw [if_neg hne, w]
    rfl
  · have h1 := lines_append_length (commentText x.1) text
    have h2 : 1 < (lines text).length := by
      rw [ht, lines_line hn, List.length_cons]
      have := List.length_pos_of_ne_nil (lines_ne_nil t)
      omega
    have h3 := List.length_pos_of_ne_nil (lines_ne_nil (commentText x.1))
    omega
  · rw [ho, e5]
    exact .cons e6 .nil
  · intro m
    rw [List.append_assoc, sections_step (by simp) (lines_ne_nil _),
      section_key x.1 (fun c h => (hc c h).1) hl2 (lines_ne_nil _) f1 f2 f3, hbody]
    have hb : readBody ccw noSub (.sect k) .outline c x.1 hd body =
        some (.outline, { c with sects := fun j => if j = k then c.sects k ++ [(x.1, s')] else c.sects j }, [] :: lines after) := by
      have hread' : readSect k ccw c.unit c.version hd body = some (s', [] :: lines after) := by rw [hcu, hcv]; exact hread
      unfold readBody
      simp only [ne_eq, not_true_eq_false, if_false]
      rw [hread']
      simp only
      rw [addSect_last c hk hc s' (by intro h y hy; rw [e3]; exact hr h y hy)]
      rfl
    rw [hb]
    simp only [Option.bind_some]
    rw [sections_blank (by simp) (lines_ne_nil _)]

/-- all sections written and read -/
theorem sects_read {u : Iges.Idf.Unit} (hu : u ≠ .tnm) {g : ℚ} (hg : 0 ≤ g) (P : List (OlnKind × (List Str × OlnSect)))
    (hP : ∀ p ∈ P, (∀ c ∈ p.2.1, CommentOk c ∧ c ≠ []) ∧ p.1 ≠ .other ∧ SectOk p.1 p.2.2 ∧ ∃ l, p.2.2.outlines = [l] ∧ GoodLoop u g l)
    (hsort : P.Pairwise fun p q => p.1 = .region → q.1 = .region → strLt q.2.2.ident p.2.2.ident = false)
    (c : Board) (hcu : c.unit = u) (hcv : c.version = .v3)
    (hr : ∀ p ∈ P, p.1 = .region → ∀ y ∈ c.sects .region, strLt p.2.2.ident y.2.ident = false) (after : Str) :
    ∃ text S, writeList (P.map fun p => sectText ccw u p.1 p.2) = .text text ∧ P.length < (lines text).length ∧
      (∀ m, readSections ccw noSub (P.length + (m + 1)) .outline c (lines (text ++ after)) =
        readSections ccw noSub (m + 1) .outline { c with sects := S } (lines after)) ∧
      ∀ k, ∃ l, S k = c.sects k ++ l ∧ List.Forall₂ (SectNear u g) ((P.filter fun p => decide (p.1 = k)).map Prod.snd) l := by
  induction P generalizing c with
  | nil =>
    refine ⟨[], c.sects, rfl, by decide, fun m => ?_, fun k => ⟨[], by simp, by simp⟩⟩
    simp
  | cons p P ih =>
    obtain ⟨k, x⟩ := p
    rw [List.pairwise_cons] at hsort
    have hwrite : ∀ after', ∃ t1 y, sectText ccw u k x = .text t1 ∧ 1 < (lines t1).length ∧ SectNear u g x y ∧
      ∀ m, readSections ccw noSub (m + 2) .outline c (lines (t1 ++ after')) =
        readSections ccw noSub (m + 1) .outline { c with sects := fun j => if j = k then c.sects k ++ [y] else c.sects j } (lines after') :=
      fun after' => sect_step hu hg (hP (k, x) (by simp)) c hcu hcv (fun h y hy => hr (k, x) (by simp) h y hy) after'
    -- the text of the rest does not depend on what has been read
    obtain ⟨t1, -, w1, -⟩ := hwrite []
    have hrest : ∀ y, SectNear u g x y → ∃ text S, writeList (P.map fun p => sectText ccw u p.1 p.2) = .text text ∧ P.length < (lines text).length ∧
        (∀ m, readSections ccw noSub (P.length + (m + 1)) .outline { c with sects := fun j => if j = k then c.sects k ++ [y] else c.sects j } (lines (text ++ after)) =
          readSections ccw noSub (m + 1) .outline { c with sects := S } (lines after)) ∧
        ∀ j, ∃ l, S j = (if j = k then c.sects k ++ [y] else c.sects j) ++ l ∧ List.Forall₂ (SectNear u g) ((P.filter fun p => decide (p.1 = j)).map Prod.snd) l := by
      intro y hy
      refine ih (fun p hp => hP p (by simp [hp])) hsort.2 { c with sects := fun j => if j = k then c.sects k ++ [y] else c.sects j } hcu hcv ?_
      intro p hp hpr z hz
      have hz' : z ∈ (if OlnKind.region = k then c.sects k ++ [y] else c.sects .region) := hz
      split at hz'
      · rename_i hk
        subst hk
        rcases List.mem_append.1 hz' with h | h
        · exact hr p (by simp [hp]) hpr z h
        · rw [List.mem_singleton] at h
          subst h
          have := hsort.1 p hp rfl hpr
          rw [hy.2.2.2.1]
          exact this
      · exact hr p (by simp [hp]) hpr z hz'
    obtain ⟨-, y0, -, -, hy0, -⟩ := hwrite []
    obtain ⟨t2, -, w2, -⟩ := hrest y0 hy0
    obtain ⟨t1', y, w1', hlen1, hy, hstep⟩ := hwrite (t2 ++ after)
    rw [w1] at w1'; cases w1'
    obtain ⟨t2', S, w2', hlen2, hread, hS⟩ := hrest y hy
    rw [w2] at w2'; cases w2'
    refine ⟨t1 ++ t2, S, ?_, ?_, ?_, ?_⟩
    · rw [List.map_cons, writeList, w2]
      show (sectText ccw u k x).seq _ = _
      rw [w1]; rfl
    · have := lines_append_length t1 t2
      rw [List.length_cons]; omega
    · intro m
      rw [List.append_assoc, List.length_cons, show P.length + 1 + (m + 1) = (P.length + m) + 2 by omega, hstep,
        show P.length + m + 1 = P.length + (m + 1) by omega, hread]
    · intro j
      obtain ⟨l, h1, h2⟩ := hS j
      by_cases e : j = k
      · subst e
        rw [if_pos rfl] at h1
        refine ⟨y :: l, by rw [h1]; simp, ?_⟩
        rw [List.filter_cons]
        simp only [decide_true, if_true, List.map_cons]
        exact .cons hy h2
      · rw [if_neg e] at h1
        refine ⟨l, h1, ?_⟩
        rw [List.filter_cons]
        have : ¬ k = j := fun h => e h.symm
        simp only [this, decide_false, Bool.false_eq_true, if_false]
        exact h2

/-! ### The other sections -/

theorem oln_line (o : Owner) : fetchLine (".BOARD_OUTLINE ".toList ++ ownerText o) = some ⟨".BOARD_OUTLINE ".toList ++ ownerText o, false⟩ ∧
    keyWord (".BOARD_OUTLINE ".toList ++ ownerText o) [] 0 = some (".BOARD_OUTLINE".toList, 14) ∧ sectionKey ".BOARD_OUTLINE".toList = some .board ∧
    '\n' ∉ ".BOARD_OUTLINE ".toList ++ ownerText o := by
  cases o <;> decide

theorem write_oln_head {ccw : List QSeg → Bool} {u : Iges.Idf.Unit} {b : BoardOln} {text : Str}
    (h : writeBoardOutline ccw u b = .text text) : ∃ t, text = (".BOARD_OUTLINE ".toList ++ ownerText b.owner) ++ '\n' :: t := by
  unfold writeBoardOutline at h
  split at h
  · cases h
  · cases h
  · rename_i s _
    cases h
    exact ⟨_, rfl⟩

/-- the outline of the board written and read -/
theorem oln_step {g : ℚ} (hg : 0 ≤ g) {b : Board} (hb : BoardOk g b) (c : Board) (hcu : c.unit = b.unit) (hcv : c.version = .v3)
    (hco : c.oln.1 = []) (after : Str) :
    ∃ text o', olnText ccwOf b = .text text ∧ 1 < (lines text).length ∧ OlnNear b.unit g b.oln.2 o' ∧
      ∀ m, readSections ccwOf noSub (m + 2) .header c (lines (text ++ after)) =
        readSections ccwOf noSub (m + 1) .outline { c with oln := (b.oln.1, o') } (lines after) := by
  obtain ⟨text, header, body, o', w, hlines, hread, e1, e2, e3, e4⟩ := C78_roundtrip_partial b.unit hb.unit .v3 g hg b.oln.2 hb.olnCount hb.thickness.1 hb.thickness.2 hb.oln after
  obtain ⟨t, ht⟩ := write_oln_head w
  obtain ⟨f1, f2, f3, hn⟩ := oln_line b.oln.2.owner
  generalize (".BOARD_OUTLINE ".toList ++ ownerText b.oln.2.owner) = hd at *
  have hl2 : lines (text ++ after) = hd :: lines (t ++ after) := by
    rw [ht, ← lines_line hn]; simp
  rw [hl2] at hlines
  obtain ⟨rfl, hbody⟩ := List.cons.inj hlines
  refine ⟨commentText b.oln.1 ++ text, o', ?_, ?_, ⟨e1, e2, e3, e4⟩, ?_⟩
  · unfold olnText
    rw [w]
    rfl
  · have h1 := lines_append_length (commentText b.oln.1) text
    have h2 : 1 < (lines text).length := by
      rw [ht, lines_line hn, List.length_cons]
      have := List.length_pos_of_ne_nil (lines_ne_nil t)
      omega
    have h3 := List.length_pos_of_ne_nil (lines_ne_nil (commentText b.oln.1))
    omega
  · intro m
    rw [List.append_assoc, sections_step (by simp) (lines_ne_nil _),
      section_key b.oln.1 (fun c h => (hb.comments.1 c h).1) hl2 (lines_ne_nil _) f1 f2 f3, hbody]
    have hb' : readBody ccwOf noSub .board .header c b.oln.1 hd body =
        some (.outline, { c with oln := (b.oln.1, o') }, [] :: lines after) := by
      have hread' : readBoardOutline ccwOf c.unit c.version hd body = some (o', [] :: lines after) := by rw [hcu, hcv]; exact hread
      unfold readBody
      simp only [ne_eq, not_true_eq_false, if_false]
      rw [hread', filter_nonempty hb.comments.1, hco]
      rfl
    rw [hb']
    simp only [Option.bind_some]
    rw [sections_blank (by simp) (lines_ne_nil _)]

/-- the holes written and read -/
theorem holes_step {g : ℚ} {b : Board} (hb : BoardOk g b) (c : Board) (hcu : c.unit = b.unit) (hcv : c.version = .v3) (after : Str) :
    ∃ ds', List.Forall₂ (DrillNear b.unit) (b.holes ++ b.place.comps.flatMap fun e => e.2.drills) ds' ∧
      ∀ m, readSections ccw noSub (m + 2) .outline c (lines (holesText b ++ after)) =
        readSections ccw noSub (m + 1) .outline { ds'.foldl addHole c with drillComments := (ds'.foldl addHole c).drillComments ++ b.drillComments } (lines after) := by
  have hall : ∀ d ∈ b.holes ++ b.place.comps.flatMap fun e => e.2.drills, HoleOk d := by
    intro d hd
    rcases List.mem_append.1 hd with h | h
    · exact (hb.holes d h).2
    · obtain ⟨e, he, h⟩ := List.mem_flatMap.1 h
      exact ((hb.comps e he).1 d h).2
  obtain ⟨ds', h1, h2⟩ := C75_roundtrip b.unit hb.unit _ (fun d h => (hall d h).1) (fun d h => (hall d h).2.1) (fun d h => (hall d h).2.2) after
  refine ⟨ds', h2, fun m => ?_⟩
  have hl : lines (".DRILLED_HOLES\n".toList ++ (writeDrills b.unit (b.holes ++ b.place.comps.flatMap fun e => e.2.drills) ++ after)) =
      ".DRILLED_HOLES".toList :: lines (writeDrills b.unit (b.holes ++ b.place.comps.flatMap fun e => e.2.drills) ++ after) := by
    rw [← lines_line (by decide)]; rfl
  unfold holesText
  rw [List.append_assoc, List.append_assoc, sections_step (by simp) (lines_ne_nil _),
    section_key b.drillComments hb.comments.2.2.1 hl (lines_ne_nil _) (t := ".DRILLED_HOLES".toList) (i := 14) (key := .drills) (by decide) (by decide) (by decide)]
  have hread : readDrills c.unit c.version (lines (writeDrills b.unit (b.holes ++ b.place.comps.flatMap fun e => e.2.drills) ++ after)) =
      some (ds', [] :: lines after) := by rw [hcu, hcv, h1, lines_nl]
  unfold readBody
  simp only [ne_eq, not_true_eq_false, if_false]
  rw [hread]
  simp only [Option.map_some, Option.bind_some]
  rw [sections_blank (by simp) (lines_ne_nil _)]

/-- the notes written and read -/
theorem notes_step {g : ℚ} {b : Board} (hb : BoardOk g b) (c : Board) (hcu : c.unit = b.unit) (hcv : c.version = .v3) (after : Str) :
    ∃ ns' ncs, List.Forall₂ (NoteNear b.unit) b.notes ns' ∧ (b.notes ≠ [] → ncs = b.noteComments) ∧
      ∀ m, ∃ m' ≥ m, readSections ccw noSub (m + 2) .outline c (lines (notesText b ++ after)) =
        readSections ccw noSub (m' + 1) .outline { c with notes := c.notes ++ ns', noteComments := c.noteComments ++ ncs } (lines after) := by
  by_cases hn : b.notes = []
  · refine ⟨[], [], by rw [hn]; exact .nil, fun h => absurd hn h, fun m => ⟨m + 1, by omega, ?_⟩⟩
    unfold notesText
    rw [if_pos hn]
    simp
  · obtain ⟨ns', h1, h2⟩ := C74_roundtrip b.unit b.notes (fun n h => (hb.notes n h).1) (fun n h => (hb.notes n h).2) after
    refine ⟨ns', b.noteComments, h2, fun _ => rfl, fun m => ⟨m, le_refl _, ?_⟩⟩
    have hl : lines (".NOTES\n".toList ++ (writeNotes b.unit b.notes ++ after)) = ".NOTES".toList :: lines (writeNotes b.unit b.notes ++ after) := by
      rw [← lines_line (by decide)]; rfl
    unfold notesText
    rw [if_neg hn, List.append_assoc, List.append_assoc, sections_step (by simp) (lines_ne_nil _),
      section_key b.noteComments hb.comments.2.2.2.1 hl (lines_ne_nil _) (t := ".NOTES".toList) (i := 6) (key := .notes) (by decide) (by decide) (by decide)]
    have hread : readNotes c.unit (lines (writeNotes b.unit b.notes ++ after)) = some (ns', [] :: lines after) := by rw [hcu, h1, lines_nl]
    unfold readBody
    have hv : ¬ c.version = .v2 := by rw [hcv]; decide
    simp only [ne_eq, not_true_eq_false, if_false, hv]
    rw [hread]
    simp only [Option.map_some, Option.bind_some]
    rw [sections_blank (by simp) (lines_ne_nil _)]

theorem find_mem (m : SMap Comp) (h : (m.map Prod.fst).Nodup) (r : Str) (c : Comp) : SMap.find r m = some c ↔ (r, c) ∈ m := by
  induction m with
  | nil => simp [SMap.find]
  | cons e m ih =>
    obtain ⟨k, c'⟩ := e
    rw [List.map_cons, List.nodup_cons] at h
    rw [SMap.find, List.mem_cons]
    by_cases e : k = r
    · subst e
      rw [if_pos rfl]
      constructor
      · intro h'; cases h'; exact .inl rfl
      · rintro (h' | h')
        · cases h'; rfl
        · exact absurd (List.mem_map_of_mem h') h.1
    · rw [if_neg e, ih h.2]
      constructor
      · exact .inr
      · rintro (h' | h')
        · cases h'; exact absurd rfl e
        · exact h'

/-- the placement written and read -/
theorem place_step {g : ℚ} {b : Board} (hb : BoardOk g b) (c : Board) (hcu : c.unit = b.unit) (hcv : c.version = .v3)
    (hp : ∃ e ∈ b.place.comps, e.2.outs ≠ [])
    (hun : ∀ r x, SMap.find r c.place.comps = some x → x = ⟨r, none, none, [], x.drills⟩) (hk : ∀ e ∈ b.place.comps, Known c.place e.2) (after : Str) :
    ∃ text pb, placeText b = .text text ∧
      (∀ m, readSections ccw noSub (m + 2) .outline c (lines (text ++ after)) =
        some (.placement, { c with place := pb, placeComments := c.placeComments ++ b.placeComments }, lines after)) ∧
      (∀ r x, (r, x) ∈ b.place.comps → x.outs ≠ [] → ∃ x', pb.comps.find r = some x' ∧ CompNear b.unit x x' ∧ x'.drills = holesOf c.place r) ∧
      ∀ r, (∀ x, (r, x) ∈ b.place.comps → x.outs = []) → pb.comps.find r = c.place.comps.find r := by
  have hsub : (b.place.comps.filter fun e => e.2.outs ≠ []).Sublist b.place.comps := List.filter_sublist
  have hkey : b.place.comps.map (fun e => e.2.refdes) = b.place.comps.map Prod.fst :=
    List.map_congr_left fun e he => (hb.keys.2 e he).symm
  have hin : ∀ e ∈ b.place.comps.filter fun e => e.2.outs ≠ [], e ∈ b.place.comps ∧ e.2.outs ≠ [] := by
    intro e he
    rw [List.mem_filter] at he
    exact ⟨he.1, by simpa using he.2⟩
  have hwr : ∀ e ∈ b.place.comps.filter fun e => e.2.outs ≠ [], ∃ p, Writable e.2 p ∧ (p.side = .bottom → ∀ o ∈ e.2.outs, o.x = 0 ∧ o.a = 0) := by
    intro e he
    obtain ⟨h1, h2⟩ := hin e he
    rcases (hb.comps e h1).2 with h | h
    · exact absurd h h2
    · exact h
  obtain ⟨text, pb, w, hread, hc, ho, hlib⟩ := Iges.Props.IdfPlace.C76_roundtrip_partial b.unit hb.unit noSub
    (b.place.comps.filter fun e => e.2.outs ≠ [])
    ((hsub.map _).nodup (by rw [hkey]; exact hb.keys.1))
    (fun e he => by obtain ⟨p, h, -⟩ := hwr e he; exact ⟨p, h⟩)
    (fun e he p hp hs o ho => by
      obtain ⟨p', h, h'⟩ := hwr e he
      have := h.pos
      rw [hp] at this
      cases this
      exact h' hs o ho)
    c.place (fun e he x hx => by
      have := hun _ _ hx
      rw [this]
      exact ⟨rfl, rfl, rfl, rfl⟩)
    (fun e he => hk e (hin e he).1) after
  have hne : b.place.comps ≠ [] := by obtain ⟨e, he, -⟩ := hp; intro h; rw [h] at he; cases he
  have hany : (b.place.comps.any fun e => e.2.outs ≠ []) = true := by
    rw [List.any_eq_true]
    obtain ⟨e, he, h⟩ := hp
    exact ⟨e, he, by simpa using h⟩
  refine ⟨commentText b.placeComments ++ (".PLACEMENT\n".toList ++ text), pb, ?_, ?_, ?_, ?_⟩
  · unfold placeText
    rw [if_neg hne, hany, place_filter, w]
    rfl
  · intro m
    have hl : lines (".PLACEMENT\n".toList ++ (text ++ after)) = ".PLACEMENT".toList :: lines (text ++ after) := by
      rw [← lines_line (by decide)]; rfl
    rw [List.append_assoc, List.append_assoc, sections_step (by simp) (lines_ne_nil _),
      section_key b.placeComments hb.comments.2.2.2.2 hl (lines_ne_nil _) (t := ".PLACEMENT".toList) (i := 10) (key := .placement) (by decide) (by decide) (by decide)]
    have hread' : readPlacement c.unit c.version noSub ((lines (text ++ after)).length + 1) c.place (lines (text ++ after)) = some (pb, lines after) := by
      rw [hcu, hcv]; exact hread
    unfold readBody
    simp only [ne_eq, not_true_eq_false, if_false]
    rw [hread']
    simp only [Option.map_some, Option.bind_some]
    rw [readSections, if_pos (.inl rfl)]
  · intro r x hx hout
    obtain ⟨x', h1, h2, h3⟩ := hc (r, x) (List.mem_filter.2 ⟨hx, by simpa using hout⟩)
    have hr : r = x.refdes := hb.keys.2 (r, x) hx
    rw [hr]
    exact ⟨x', h1, h2, h3⟩
  · intro r hr
    apply ho
    intro e he h
    obtain ⟨h1, h2⟩ := hin e he
    have : e.1 = r := by rw [hb.keys.2 e h1, h]
    exact h2 (hr e.2 (by rw [← this]; exact h1))

theorem finish_step {b : Board} (hc : ∀ x ∈ b.placeComments, CommentOk x) (hp : ∀ e ∈ b.place.comps, e.2.outs = []) (c : Board) :
    ∃ text, placeText b = .text text ∧ ∀ m, readSections ccw noSub (m + 2) .outline c (lines text) = some (.outline, c, []) := by
  have key : ∀ cs, (∀ x ∈ cs, CommentOk x) → ∀ m, readSections ccw noSub (m + 2) .outline c (lines (commentText cs)) = some (.outline, c, []) := by
    intro cs hcs m
    have := section_comments (ccw := ccw) (noSub := noSub) (st := .outline) (b := c) (tok := []) (idx := 0) (cs := []) cs hcs []
    rw [List.append_nil] at this
    rw [sections_step (by simp) (lines_ne_nil _), this]
    show (readSection ccw noSub .outline c [] 0 _ [[]]).bind _ = _
    rw [section_blank, readSection]
    simp only [Option.bind_some]
    rw [readSections, if_pos (.inr rfl)]
  unfold placeText
  by_cases h : b.place.comps = []
  · rw [if_pos h]
    exact ⟨[], rfl, key [] (by intro x hx; cases hx)⟩
  · have hany : (b.place.comps.any fun e => e.2.outs ≠ []) = false := by
      rw [List.any_eq_false]
      intro e he
      simpa using hp e he
    rw [if_neg h, hany]
    exact ⟨commentText b.placeComments ++ [], rfl, by rw [List.append_nil]; exact key _ hc⟩

theorem writeList_append (a b : List Written) : writeList (a ++ b) = (writeList a).seq (writeList b) := by
  induction a with
  | nil => cases h : writeList b <;> simp [writeList, Written.seq, h]
  | cons w a ih =>
    rw [List.cons_append, writeList, writeList, ih]
    cases w <;> cases writeList a <;> cases writeList b <;> simp [Written.seq]

end Iges.Idf
