import Verif.Spec.IdfLib
import Verif.Props.IdfBoard
/-
Lemmas for library files.
-/
namespace Iges.Idf
open Iges.Idf.Spec Iges.Props.IdfNotes Iges.Props.IdfDrill Iges.Props.IdfOutline

/-! ### Record 2 -/

/-- the word for the unit -/
def unitWord (u : Iges.Idf.Unit) : Str := if u = .thou then "THOU".toList else "MM".toList

/-- the record with names, unit and height -/
def partLine (o : CompOln) : Str :=
  '"' :: (o.geom ++ '"' :: (' ' :: (('"' :: o.part ++ ['"']) ++ (' ' :: (unitWord o.unit ++ (' ' :: (coordText o.unit o.thickness ++ [])))))))

theorem unit_word (u : Iges.Idf.Unit) : WordOk (unitWord u) := by
  cases u <;> exact ⟨by decide, by decide, by decide⟩

theorem record_read {g : ℚ} {o : CompOln} (h : PartOk g o) : compRecord .v3 (partLine o) = some (o.geom, o.part, o.unit, again o.unit o.thickness) := by
  have e1 := getWord_quoted (ws := []) (t := o.geom) (rest := ' ' :: (('"' :: o.part ++ ['"']) ++ (' ' :: (unitWord o.unit ++ (' ' :: (coordText o.unit o.thickness ++ []))))))
    (by intro c hc; cases hc) h.names.1.1
  rw [List.nil_append] at e1
  have e2 := quoted_word o.part h.names.2.1.1 (' ' :: (unitWord o.unit ++ (' ' :: (coordText o.unit o.thickness ++ []))))
  have e3 := space_word (unit_word o.unit) (' ' :: (coordText o.unit o.thickness ++ [])) (space_head _)
  have e4 := getWord_fmtF [' '] (by intro c hc; simp at hc; rw [hc]; rfl) (places o.unit) (o.thickness / factor o.unit) [] (by intro c hc; cases hc)
  rw [← coordText_eq, List.singleton_append] at e4
  have e5 : compUnit .v3 (unitWord o.unit) = some o.unit := by
    have := h.unit
    cases hu : o.unit
    · rfl
    · rfl
    · exact absurd hu this
  have e6 : readNum (coordText o.unit o.thickness) = some (fval (places o.unit) (o.thickness / factor o.unit)) := by
    rw [coordText_eq]
    exact readNum_fmtF (places_pos _) _ (fval_size (size_div _ h.thickness))
  unfold compRecord partLine
  rw [e1]
  simp only
  rw [e2]
  simp only
  rw [if_neg (fun hh => h.names.2.2 ⟨hh.2, hh.1⟩), e3]
  simp only
  rw [e5]
  simp only
  rw [e4]
  simp only
  rw [e6, unitFactor_eq h.unit]
  rfl

theorem coord_word (u : Iges.Idf.Unit) (x : ℚ) : WordOk (coordText u x) := by
  rw [coordText_eq]
  obtain ⟨c, r, e⟩ := fmtF_head (places u) (x / factor u)
  refine ⟨by rw [e]; simp, ?_, fun c hc => (fmtF_nospace hc).1⟩
  rw [e]; simp; exact (fmtF_nospace (p := places u) (x := x / factor u) (by rw [e]; simp)).2.1

theorem word_noeol {w : Str} (h : WordOk w) : '\n' ∉ w := fun hh => by have := h.2.2 _ hh; revert this; decide

theorem partLine_fetch (o : CompOln) : fetchLine (partLine o) = some ⟨partLine o, false⟩ := by
  apply fetch_plain
  · unfold partLine; simp
  · intro x hx
    have : x = '"' := by unfold partLine at hx; simpa using hx.symm
    subst this; decide
  · have : partLine o = ('"' :: (o.geom ++ '"' :: (' ' :: (('"' :: o.part ++ ['"']) ++ (' ' :: (unitWord o.unit ++ [' '])))))) ++ coordText o.unit o.thickness := by
      unfold partLine; simp
    rw [this]
    exact last_append (coord_word _ _).1 (coord_word _ _).2.2

theorem partLine_noeol {g : ℚ} {o : CompOln} (h : PartOk g o) : '\n' ∉ partLine o := by
  have h1 := word_noeol (coord_word o.unit o.thickness)
  have h2 := word_noeol (unit_word o.unit)
  unfold partLine
  simp only [List.mem_append, List.mem_cons, not_or, List.not_mem_nil, not_false_eq_true, and_true, List.cons_append]
  exact ⟨by decide, h.names.1.2, by decide, by decide, by decide, ⟨h.names.2.1.2, by decide⟩, by decide, h2, by decide, h1⟩

/-! ### Properties -/

/-- a line with a property -/
def propLine (e : Str × Str) : Str := "PROP".toList ++ (' ' :: (('"' :: e.1 ++ ['"']) ++ (' ' :: (('"' :: e.2 ++ ['"']) ++ []))))

theorem propsText_cons (e : Str × Str) (ps : SMap Str) (rest : Str) : propsText (e :: ps) ++ rest = propLine e ++ '\n' :: (propsText ps ++ rest) := by
  have : "PROP ".toList = "PROP".toList ++ [' '] := by decide
  unfold propsText propLine
  rw [List.flatMap_cons, this]
  generalize "PROP".toList = a
  simp

theorem propLine_word (e : Str × Str) : getWord (propLine e) = .word "PROP".toList false (' ' :: (('"' :: e.1 ++ ['"']) ++ (' ' :: (('"' :: e.2 ++ ['"']) ++ [])))) := by
  have := getWord_bare (ws := []) (t := "PROP".toList) (rest := ' ' :: (('"' :: e.1 ++ ['"']) ++ (' ' :: (('"' :: e.2 ++ ['"']) ++ []))))
    (by intro c hc; cases hc) (by decide) (by decide) (by decide) (space_head _)
  exact this

theorem propLine_fetch (e : Str × Str) : fetchLine (propLine e) = some ⟨propLine e, false⟩ := by
  apply fetch_plain
  · unfold propLine; simp
  · intro x hx
    have : x = 'P' := by unfold propLine at hx; simpa using hx.symm
    subst this; decide
  · have : propLine e = ("PROP".toList ++ (' ' :: (('"' :: e.1 ++ ['"']) ++ (' ' :: '"' :: e.2)))) ++ ['"'] := by
      unfold propLine; simp
    rw [this]
    exact last_append (by simp) (by decide)

theorem propLine_noeol {e : Str × Str} (h : Plain e.1 ∧ Plain e.2) : '\n' ∉ propLine e := by
  unfold propLine
  simp only [List.mem_append, List.mem_cons, not_or, List.not_mem_nil, not_false_eq_true, and_true, List.cons_append]
  exact ⟨by decide, by decide, by decide, ⟨h.1.2, by decide⟩, by decide, by decide, h.2.2, by decide⟩

theorem props_read (ps : SMap Str) (hp : ∀ e ∈ ps, Plain e.1 ∧ Plain e.2) (hd : (ps.map Prod.fst).Nodup) (m : SMap Str)
    (hm : ∀ e ∈ ps, SMap.find e.1 m = none) (rest : Str) :
    ∃ m', readProps m (lines (propsText ps ++ rest)) = readProps m' (lines rest) ∧
      ∀ n, SMap.find n m' = if (SMap.find n ps).isSome then SMap.find n ps else SMap.find n m := by
  induction ps generalizing m with
  | nil => exact ⟨m, rfl, fun n => rfl⟩
  | cons e ps ih =>
    have he := hp e (by simp)
    have hn := hm e (by simp)
    rw [List.map_cons, List.nodup_cons] at hd
    have hne : ∀ x ∈ ps, x.1 ≠ e.1 := fun x hx h => hd.1 (List.mem_map.2 ⟨x, hx, h⟩)
    obtain ⟨m', h1, h2⟩ := ih (fun x hx => hp x (by simp [hx])) hd.2 (SMap.add e.1 e.2 m) (by
      intro x hx
      rw [find_add _ _ _ hn, if_neg (hne x hx)]
      exact hm x (by simp [hx]))
    have w1 := quoted_word e.1 he.1.1 (' ' :: (('"' :: e.2 ++ ['"']) ++ []))
    have w2 := quoted_word e.2 he.2.1 []
    refine ⟨m', ?_, fun n => ?_⟩
    · rw [propsText_cons, lines_line (propLine_noeol he), readProps, propLine_fetch]
      simp only [Bool.false_eq_true, if_false, propLine_word]
      rw [if_neg (by decide), if_neg (by decide), w1]
      simp only
      rw [w2]
      simp only
      rw [hn]
      simp only [Option.isSome_none, Bool.false_eq_true, if_false]
      exact h1
    · rw [h2, find_add _ _ _ hn]
      have hx : SMap.find e.1 ps = none := by
        clear ih h1 h2 hp hm
        induction ps with
        | nil => rfl
        | cons x ps ih =>
          rw [SMap.find, if_neg (hne x (by simp))]
          exact ih (by simp only [List.map_cons, List.nodup_cons, List.mem_cons, not_or] at hd; exact ⟨hd.1.2, hd.2.2⟩) (fun y hy => hne y (by simp [hy]))
      obtain ⟨k, v⟩ := e
      rw [SMap.find]
      by_cases hk : k = n
      · subst hk; rw [hx]; simp
      · have : ¬ n = k := fun h => hk h.symm
        rw [if_neg hk, if_neg this]

/-! ### One part -/

theorem comp_key (c : CompClass) : getWord ('.' :: c.name.toList) = .word ('.' :: c.name.toList) false [] ∧ '\n' ∉ '.' :: c.name.toList ∧
    compKey ('.' :: c.name.toList) = some c ∧ fetchLine ('.' :: c.name.toList) = some ⟨'.' :: c.name.toList, false⟩ := by
  cases c <;> decide

theorem comp_end (c : CompClass) : getWord (".END_".toList ++ c.name.toList) = .word (".END_".toList ++ c.name.toList) false [] ∧
    (5 ≤ (".END_".toList ++ c.name.toList).length ∧ compareToken ".END_" ((".END_".toList ++ c.name.toList).take 5) = true) ∧
    fetchLine (".END_".toList ++ c.name.toList) = some ⟨".END_".toList ++ c.name.toList, false⟩ ∧
    compareToken (".END_" ++ c.name) (".END_".toList ++ c.name.toList) = true ∧
    '\n' ∉ ".END_".toList ++ c.name.toList ∧ ".END_".toList ++ c.name.toList ≠ [] := by
  cases c <;> decide

/-- the outlines end before the properties or the end of the section -/
theorem outlines_end (c : CompClass) {ccw : List QSeg → Bool} {u : Iges.Idf.Unit} {v : Version} {st : OutState} (h : st.idx = -1 ∨ st.closed = true)
    (hl : st.left = []) {ps : SMap Str} (hp : ∀ e ∈ ps, Plain e.1 ∧ Plain e.2) (after : Str) :
    readOutlines true true ccw u v st (lines (propsText ps ++ (".END_".toList ++ c.name.toList ++ '\n' :: after))) =
      some (st.loops, lines (propsText ps ++ (".END_".toList ++ c.name.toList ++ '\n' :: after))) := by
  cases ps with
  | nil =>
    obtain ⟨e1, e2, e3, -, e5, e6⟩ := comp_end c
    generalize ".END_".toList ++ c.name.toList = e at *
    show readOutlines true true ccw u v st (lines (e ++ '\n' :: after)) = some (_, lines (e ++ '\n' :: after))
    rw [lines_line e5, readOutlines, e3]
    simp only [finish_of e1 e2]
    rw [if_neg]
    rintro ⟨h1, -, h2⟩
    rcases h with h | h
    · exact h1 h
    · rw [h] at h2; cases h2
  | cons e ps =>
    rw [propsText_cons, lines_line (propLine_noeol (hp e (by simp))), readOutlines, propLine_fetch]
    have : outlineLine true true ccw u v st (propLine e) = .props := by
      unfold outlineLine
      rw [propLine_word]
      simp only [Bool.false_eq_true, if_false]
      rw [if_neg (by decide), hl, show scanInt ([] ++ "PROP".toList) = none by decide]
      simp only
      rw [if_pos (by decide)]
    simp only [this]

theorem props_end (c : CompClass) (m : SMap Str) (after : Str) :
    readProps m (lines (".END_".toList ++ c.name.toList ++ '\n' :: after)) = some (m, lines (".END_".toList ++ c.name.toList ++ '\n' :: after)) := by
  obtain ⟨e1, e2, e3, -, e5, e6⟩ := comp_end c
  generalize ".END_".toList ++ c.name.toList = e at *
  rw [lines_line e5, readProps, e3]
  simp only [Bool.false_eq_true, if_false, e1]
  rw [if_pos e2]

/-- the text after the comments -/
def partBody (o : CompOln) (c : CompClass) (t after : Str) : Str :=
  partLine o ++ '\n' :: (t ++ (propsText (if c = .elec then o.props else []) ++ (".END_".toList ++ c.name.toList ++ '\n' :: ('\n' :: after))))

theorem comp_read {ccw : List QSeg → Bool} {g : ℚ} (hg : 0 ≤ g) {o : CompOln} (h : PartOk g o) (hr : o.refs ≠ 0) {c : CompClass} (hc : o.cls = some c) (after : Str) :
    ∃ t o', compText ccw o = .text (commentText o.comments ++ (('.' :: c.name.toList) ++ '\n' :: partBody o c t [])) ∧
      readComp ccw .v3 c (lines (partBody o c t after)) = some (o', [] :: lines after) ∧ PartBack g o { o' with comments := o.comments } ∧ o'.refs = 0 := by
  -- the outlines
  obtain ⟨t, w, hread⟩ : ∃ t, writeLoops true ccw o.unit 0 o.outlines = .text t ∧ ∀ rest, ∃ st : OutState,
      readOutlines true true ccw o.unit .v3 .start (lines (t ++ rest)) = readOutlines true true ccw o.unit .v3 st (lines rest) ∧
      (st.idx = -1 ∨ st.closed = true) ∧ st.left = [] ∧ List.Forall₂ (List.Forall₂ (SegNear (lengthTol o.unit + g))) o.outlines st.loops := by
    rcases h.outlines with ho | ⟨l, ho, hl⟩
    · exact ⟨[], by rw [ho]; rfl, fun rest => ⟨.start, rfl, .inl rfl, rfl, by rw [ho]; exact .nil⟩⟩
    · obtain ⟨i, hi, w⟩ := write_single (ccw := ccw) 0 hl
      refine ⟨loopText o.unit i l, by rw [ho]; simp only [writeLoops, w, List.append_nil], fun rest => ?_⟩
      have hnext : NextLoop true ccw .start i [] := by
        refine ⟨⟨0, 0⟩, [], 0, ?_, rfl⟩
        unfold newLoop OutState.start
        have : ((i : ℤ) = 0 ∨ (true = true ∧ (i : ℤ) = 1)) := by interval_cases i <;> simp
        rw [if_neg (by simp), if_neg (by simp), if_neg (by omega), if_pos rfl, if_pos this]
      obtain ⟨st, r1, r2, r3, r4, r5, r6, r7, -⟩ := read_loop (single := true) (comp := true) (ccw := ccw) h.unit .v3 (show i ≤ 2147483647 by omega) hl hg
        (st := .start) rfl hnext rest
      refine ⟨st, r1, .inr r5, r2, ?_⟩
      have hloops : st.loops = [st.cur] := by
        unfold OutState.loops
        rw [if_neg (by rw [r3]; omega), r6]; rfl
      rw [ho, hloops]
      exact .cons r7 .nil
  -- the properties
  have hps : ∀ e ∈ (if c = .elec then o.props else []), Plain e.1 ∧ Plain e.2 := by
    intro e he
    split at he
    · exact h.props.2 e he
    · cases he
  have hpd : ((if c = .elec then o.props else []).map Prod.fst).Nodup := by
    split
    · exact h.props.1
    · exact List.nodup_nil
  obtain ⟨st, r1, r2, r3, r4⟩ := hread (propsText (if c = .elec then o.props else []) ++ (".END_".toList ++ c.name.toList ++ '\n' :: ('\n' :: after)))
  rw [outlines_end c r2 r3 hps] at r1
  obtain ⟨m, m1, m2⟩ := props_read _ hps hpd [] (fun _ _ => rfl) (".END_".toList ++ c.name.toList ++ '\n' :: ('\n' :: after))
  rw [props_end] at m1
  obtain ⟨e1, e2, e3, e4, e5, e6⟩ := comp_end c
  have hlines : lines (partBody o c t after) = partLine o ::
      lines (t ++ (propsText (if c = .elec then o.props else []) ++ (".END_".toList ++ c.name.toList ++ '\n' :: ('\n' :: after)))) := by
    unfold partBody
    rw [lines_line (partLine_noeol h)]
  have hprops : (if c = .elec then
      readProps [] (lines (propsText (if c = .elec then o.props else []) ++ (".END_".toList ++ c.name.toList ++ '\n' :: ('\n' :: after))))
      else some ([], lines (propsText (if c = .elec then o.props else []) ++ (".END_".toList ++ c.name.toList ++ '\n' :: ('\n' :: after))))) =
      some (if c = .elec then m else [], lines (".END_".toList ++ c.name.toList ++ '\n' :: ('\n' :: after))) := by
    cases c
    · simpa using m1
    · rfl
  refine ⟨t, ⟨some c, o.geom, o.part, o.unit, again o.unit o.thickness, st.loops, if c = .elec then m else [], [], 0⟩, ?_, ?_, ?_⟩
  · unfold compText
    rw [if_neg hr, hc]
    simp only [w]
    congr 2
    unfold partBody partLine unitWord
    have a1 : "THOU ".toList = "THOU".toList ++ [' '] := by decide
    have a2 : "MM ".toList = "MM".toList ++ [' '] := by decide
    rw [a1, a2]
    have a3 : (if c = .elec then propsText o.props else []) = propsText (if c = .elec then o.props else []) := by cases c <;> rfl
    rw [a3]
    generalize "THOU".toList = b1
    generalize "MM".toList = b2
    generalize ".END_".toList = b3
    split <;> simp
  · unfold readComp
    rw [hlines, head_line (partLine_fetch o) _ (lines_ne_nil _)]
    simp only
    rw [record_read h]
    simp only
    rw [r1]
    simp only [and_true]
    rw [hprops]
    simp only
    rw [lines_line e5, lines_nl, nextLine, e3]
    simp only [e6, e4, Bool.false_eq_true, Bool.true_eq_false, if_false, or_self, reduceCtorEq]
  · refine ⟨⟨hc.symm, rfl, rfl, rfl, again_near _ _, r4, rfl, fun n => ?_⟩, rfl⟩
    rw [hc]
    cases c
    · simp only [if_true, m2]
      show (if (SMap.find n o.props).isSome then SMap.find n o.props else none) = _
      cases SMap.find n o.props <;> rfl
    · rfl

/-! ### Sections -/

variable {ccw : List QSeg → Bool} {lib : SMap CompOln} {cs : List Str}

theorem lib_blank (rest : List Str) : readLibSection ccw v lib cs ([] :: rest) = readLibSection ccw v lib cs rest := by
  rw [readLibSection]
  rfl

theorem lib_comments (cs' : List Str) (h : ∀ c ∈ cs', CommentOk c ∧ c ≠ []) (after : Str) :
    readLibSection ccw v lib cs (lines (commentText cs' ++ after)) = readLibSection ccw v lib (cs ++ cs') (lines after) := by
  induction cs' generalizing cs with
  | nil => simp [commentText]
  | cons c cs' ih =>
    have hc := h c (by simp)
    have e : lines (commentText (c :: cs') ++ after) = ('#' :: ' ' :: c) :: lines (commentText cs' ++ after) := by
      rw [← lines_line (a := '#' :: ' ' :: c)]
      · simp [commentText]
      · simp only [List.mem_cons, not_or]
        exact ⟨by decide, by decide, hc.1.1⟩
    rw [e, readLibSection, fetch_comment hc.1]
    simp only [hc.2, if_false, if_true]
    rw [ih (fun c h' => h c (by simp [h']))]
    simp

theorem uid_back {g : ℚ} {o o' : CompOln} (h : PartBack g o o') : o'.uid = o.uid := by
  unfold CompOln.uid
  rw [h.geom, h.part]

/-- a part in use is written and read -/
theorem part_step {g : ℚ} (hg : 0 ≤ g) {o : CompOln} (h : PartOk g o) (hr : o.refs ≠ 0) (lib : SMap CompOln) (hl : SMap.find o.uid lib = none) (after : Str) :
    ∃ t o', compText ccw o = .text t ∧ 1 < (lines t).length ∧ PartBack g o o' ∧ o'.refs = 0 ∧
      readLibSection ccw .v3 lib [] (lines (t ++ after)) = some (SMap.add o.uid o' lib, [] :: lines after) := by
  obtain ⟨c, hc⟩ := Option.ne_none_iff_exists'.1 h.cls
  obtain ⟨t, o', w, r, b, b0⟩ := comp_read (ccw := ccw) hg h hr hc after
  obtain ⟨k1, k2, k3, k4⟩ := comp_key c
  refine ⟨_, _, w, ?_, b, b0, ?_⟩
  · generalize ('.' :: c.name.toList) = hd at *
    have h1 := lines_append_length (commentText o.comments) (hd ++ '\n' :: partBody o c t [])
    have h2 : 1 < (lines (hd ++ '\n' :: partBody o c t [])).length := by
      rw [lines_line k2, List.length_cons]
      have := List.length_pos_of_ne_nil (lines_ne_nil (partBody o c t []))
      omega
    have h3 := List.length_pos_of_ne_nil (lines_ne_nil (commentText o.comments))
    omega
  · have e : commentText o.comments ++ (('.' :: c.name.toList) ++ '\n' :: partBody o c t []) ++ after =
        commentText o.comments ++ (('.' :: c.name.toList) ++ '\n' :: partBody o c t after) := by
      unfold partBody
      simp
    have hn : '.' :: c.name.toList ≠ [] := by simp
    rw [e, lib_comments _ h.comments]
    generalize ('.' :: c.name.toList) = hd at *
    rw [lines_line k2, readLibSection, k4]
    simp only [hn, Bool.false_eq_true, if_false, k1, k3, r, List.nil_append]
    rw [filter_nonempty h.comments]
    have hu := uid_back b
    unfold addComp
    rw [hu, hl]
    rfl

theorem lib_step {n : ℕ} {input : List Str} (hi : input ≠ []) :
    readLibSections ccw v (n + 1) lib input = (readLibSection ccw v lib [] input).bind fun r => readLibSections ccw v n r.1 r.2 := by
  rw [readLibSections, if_neg hi]
  cases readLibSection ccw v lib [] input <;> rfl

theorem libs_blank {n : ℕ} {input : List Str} (hi : input ≠ []) :
    readLibSections ccw v (n + 1) lib ([] :: input) = readLibSections ccw v (n + 1) lib input := by
  rw [lib_step (by simp), lib_step hi, lib_blank]

/-- all parts written and read -/
theorem parts_read {g : ℚ} (hg : 0 ≤ g) (P : SMap CompOln) (hk : (P.map Prod.fst).Nodup) (hu : ∀ e ∈ P, e.1 = e.2.uid)
    (hP : ∀ e ∈ P, e.2.refs ≠ 0 → PartOk g e.2) (lib : SMap CompOln) (hl : ∀ e ∈ P, e.2.refs ≠ 0 → SMap.find e.1 lib = none) :
    ∃ text lib', writeList (P.map fun e => compText ccw e.2) = .text text ∧
      (∀ m, (lines text).length ≤ m → readLibSections ccw .v3 (m + 2) lib (lines text) = some lib') ∧
      (∀ k o, SMap.find k P = some o → o.refs ≠ 0 → ∃ o', SMap.find k lib' = some o' ∧ PartBack g o o' ∧ o'.refs = 0) ∧
      ∀ k, (∀ o, SMap.find k P = some o → o.refs = 0) → SMap.find k lib' = SMap.find k lib := by
  induction P generalizing lib with
  | nil =>
    refine ⟨[], lib, rfl, fun m _ => ?_, fun k o h => (by cases h), fun k _ => rfl⟩
    show readLibSections ccw .v3 (m + 2) lib [[]] = _
    rw [lib_step (by simp)]
    rfl
  | cons e P ih =>
    obtain ⟨k, o⟩ := e
    rw [List.map_cons, List.nodup_cons] at hk
    have hko : k = o.uid := hu (k, o) (by simp)
    have hne : ∀ x ∈ P, x.1 ≠ k := fun x hx h => hk.1 (List.mem_map.2 ⟨x, hx, h⟩)
    have hkP : SMap.find k P = none := by
      clear ih hu hP hl hk
      induction P with
      | nil => rfl
      | cons x P ih => rw [SMap.find, if_neg (hne x (by simp))]; exact ih (fun y hy => hne y (by simp [hy]))
    by_cases hr : o.refs = 0
    · obtain ⟨text, lib', w, h1, h2, h3⟩ := ih hk.2 (fun e he => hu e (by simp [he])) (fun e he => hP e (by simp [he])) lib (fun e he => hl e (by simp [he]))
      refine ⟨text, lib', ?_, h1, ?_, ?_⟩
      · rw [List.map_cons, writeList, w]
        unfold compText
        rw [if_pos hr]
        rfl
      · intro j p hj hp
        rw [SMap.find] at hj
        split at hj
        · cases hj; exact absurd hr hp
        · exact h2 j p hj hp
      · intro j hj
        apply h3
        intro p hp
        by_cases e : k = j
        · subst e; rw [hkP] at hp; cases hp
        · exact hj p (by rw [SMap.find, if_neg e]; exact hp)
    · have ho := hP (k, o) (by simp) hr
      have hlo : SMap.find o.uid lib = none := by rw [← hko]; exact hl (k, o) (by simp) hr
      obtain ⟨t1, o0, w1, len1, b0, -, -⟩ := part_step (ccw := ccw) hg ho hr lib hlo []
      have hrest : ∀ o', PartBack g o o' → ∃ text lib', writeList (P.map fun e => compText ccw e.2) = .text text ∧
          (∀ m, (lines text).length ≤ m → readLibSections ccw .v3 (m + 2) (SMap.add o.uid o' lib) (lines text) = some lib') ∧
          (∀ k o, SMap.find k P = some o → o.refs ≠ 0 → ∃ o', SMap.find k lib' = some o' ∧ PartBack g o o' ∧ o'.refs = 0) ∧
          ∀ k, (∀ o, SMap.find k P = some o → o.refs = 0) → SMap.find k lib' = SMap.find k (SMap.add o.uid o' lib) := by
        intro o' _
        refine ih hk.2 (fun e he => hu e (by simp [he])) (fun e he => hP e (by simp [he])) _ (fun e he h => ?_)
        rw [find_add _ _ _ hlo, if_neg (by rw [← hko]; exact hne e he)]
        exact hl e (by simp [he]) h
      obtain ⟨t2, -, w2, -⟩ := hrest o0 b0
      obtain ⟨t1', o', w1', -, b, br, r⟩ := part_step (ccw := ccw) hg ho hr lib hlo t2
      rw [w1] at w1'; cases w1'
      obtain ⟨t2', lib', w2', h1, h2, h3⟩ := hrest o' b
      rw [w2] at w2'; cases w2'
      refine ⟨t1 ++ t2, lib', ?_, ?_, ?_, ?_⟩
      · rw [List.map_cons, writeList, w2, w1]; rfl
      · intro m hm
        have := lines_append_length t1 t2
        obtain ⟨q, rfl⟩ : ∃ q, m = q + 1 := ⟨m - 1, by omega⟩
        rw [lib_step (lines_ne_nil _), r]
        simp only [Option.bind_some]
        rw [libs_blank (lines_ne_nil _)]
        exact h1 q (by omega)
      · intro j p hj hp
        rw [SMap.find] at hj
        split at hj
        · rename_i e
          cases hj
          subst e
          refine ⟨o', ?_, b, br⟩
          rw [h3 k (by intro p hp; rw [hkP] at hp; cases hp), find_add _ _ _ hlo, if_pos hko]
        · exact h2 j p hj hp
      · intro j hj
        have e : k ≠ j := by
          intro e; subst e
          exact hr (hj o (by rw [SMap.find, if_pos rfl]))
        rw [h3 j (by intro p hp; exact hj p (by rw [SMap.find, if_neg e]; exact hp)), find_add _ _ _ hlo, if_neg (by rw [← hko]; exact fun h => e h.symm)]

/-! ### Header -/

theorem libHeader_lines (now ours : Str) (hn : WordOk now) (ho : Plain ours) (L : Library) (h0 : 0 ≤ L.fileVersion) (after : Str) :
    lines (libHeaderText now ours L ++ after) = ".HEADER".toList :: line2nd "LIBRARY_FILE".toList now ours (L.fileVersion + 1) ::
      ".END_HEADER".toList :: [] :: lines after := by
  rw [← lines_nl, ← lines_line (a := ".END_HEADER".toList) (by decide),
    ← lines_line (line2nd_noeol "LIBRARY_FILE" (by decide) hn ho (by omega)), ← lines_line (a := ".HEADER".toList) (by decide)]
  congr 1
  unfold libHeaderText line2nd sourceText
  have e1 : ".HEADER\nLIBRARY_FILE 3.0 \"Created by ".toList = ".HEADER".toList ++ '\n' :: ("LIBRARY_FILE".toList ++ (" 3.0".toList ++ ' ' :: '"' :: "Created by ".toList)) := by decide
  have e2 : "\n.END_HEADER\n\n".toList = '\n' :: (".END_HEADER".toList ++ ['\n', '\n']) := by decide
  rw [e1, e2]
  generalize ".HEADER".toList = a1
  generalize "LIBRARY_FILE".toList = a2
  generalize " 3.0".toList = a3
  generalize "Created by ".toList = a4
  generalize ".END_HEADER".toList = a5
  generalize (if ours = [] then "KiCad-IDF Framework".toList else ours) = a6
  simp only [List.append_assoc, List.cons_append, List.nil_append, List.append_nil]

theorem libHeader_read (now ours : Str) (hn : WordOk now) (ho : Plain ours) (L L0 : Library) (h0 : 0 ≤ L.fileVersion)
    (h1 : L.fileVersion < 2147483647) (after : Str) :
    readLibHeader L0 (lines (libHeaderText now ours L ++ after)) =
      some (.v3, { L0 with source := sourceText ours, date := now, fileVersion := L.fileVersion + 1 }, [] :: lines after) := by
  rw [libHeader_lines now ours hn ho L h0]
  have e1 : fetchLine ".HEADER".toList = some ⟨".HEADER".toList, false⟩ := by decide
  have e2 := line2nd_fetch "LIBRARY_FILE" ⟨by decide, by decide, by decide⟩ (by decide) (now := now) (ours := ours) (n := L.fileVersion + 1) (by omega)
  have e4 : endHeader (".END_HEADER".toList :: [] :: lines after) = some ([] :: lines after) := rfl
  have e5 : compareToken ".HEADER" ".HEADER".toList = true := by decide
  have e6 := record2 "LIBRARY_FILE" ⟨by decide, by decide, by decide⟩ (by decide) hn ho (n := L.fileVersion + 1) (by omega) (by omega)
  generalize ".HEADER".toList = t1 at *
  generalize line2nd "LIBRARY_FILE".toList now ours (L.fileVersion + 1) = t2 at *
  generalize ".END_HEADER".toList = t4 at *
  unfold readLibHeader
  rw [head_line e1 _ (by simp)]
  simp only
  rw [e5, if_neg (by decide), head_line e2 _ (by simp)]
  simp only
  rw [e6]
  simp only
  rw [e4]
  rfl

end Iges.Idf
