import Verif.Spec.IdfOutlineWords
import Verif.Props.IdfOutline
/-
C78, reading: the records of outlines are read as their words say, in both versions of the format.
-/
namespace Iges.Props.IdfOutline
open Iges.Idf Iges.Idf.Spec Iges.Props.IdfNotes Iges.Props.IdfDrill

namespace Rec

private theorem unit_of {u : Iges.Idf.Unit} {v : Version} {f : ℚ} (h : InMM u v f) : unitFactor u v = some f := by
  cases h <;> rfl

private theorem tok_of {s a r : Str} {x : ℚ} (f : FirstWord s a false r) (h : scanNum a = some (x, [])) : numTok [] s = some (x, [], r) := by
  unfold numTok
  rw [getWord_first f]
  simp [h]

private theorem near_iff (p q : Pt) : p.near q = true ↔ PtClose p q := by
  unfold Pt.near PtClose
  rw [decide_eq_true_eq, sq, sq, sq]

private theorem turn_iff (a : ℚ) : turn a = true ↔ |(|a| - 360)| < 1 / 100 := by
  unfold turn
  rw [decide_eq_true_eq, abs_lt]
  exact And.comm

private theorem seg_bend {a : ℚ} (h : NotTurn a) (p q : Pt) : recSeg p q a = ⟨p, q, bend a⟩ ∧ QSeg.isCircle ⟨p, q, bend a⟩ = false := by
  have ht : turn a = false := by
    rw [Bool.eq_false_iff, Ne, turn_iff]
    exact not_lt.2 h
  have h0 : turn 0 = false := by decide +kernel
  unfold recSeg bend QSeg.isCircle
  rw [ht]
  by_cases hb : |a| ≤ 1 / 100
  · rw [if_pos hb]
    refine ⟨?_, h0⟩
    have := abs_le.1 hb
    have hn : ¬ (a > 1 / 100 ∨ a < -(1 / 100)) := by rintro (h | h) <;> linarith
    rw [if_neg hn]
    cases flat a <;> rfl
  · rw [if_neg hb]
    refine ⟨?_, ht⟩
    have hf : flat a = false := by
      unfold flat
      rw [decide_eq_false_iff_not]
      rintro ⟨g1, g2⟩
      exact hb (abs_lt.2 ⟨g2, g1⟩).le
    have hn : a > 1 / 100 ∨ a < -(1 / 100) := by
      rcases lt_abs.1 (not_le.1 hb) with h | h
      · exact .inl h
      · exact .inr (by linarith)
    rw [hf, if_pos hn]
    rfl

private theorem read_line {single comp : Bool} {u : Iges.Idf.Unit} {v : Version} {f : ℚ} (hf : InMM u v f) {i : ℕ} (hi : i ≤ 2147483647)
    {raw : Str} {p : Pt} {a : ℚ} (hp : PointLine f i raw p a) {st st1 st2 : OutState} (hl : st.left = [])
    (h1 : newLoop single ccwOf st i = some st1) (h2 : addPoint { st1 with left := [] } p a = some st2) (rest : List Str) :
    readOutlines single comp ccwOf u v st (raw :: rest) = readOutlines single comp ccwOf u v st2 rest := by
  obtain ⟨text, wx, wy, wa, more, x, y, e, hw, ex, ey, ea, rfl⟩ := hp
  cases hw with
  | cons _ _ _ s1 _ f1 hw =>
  cases hw with
  | cons _ _ _ s2 _ f2 hw =>
  cases hw with
  | cons _ _ _ s3 _ f3 hw =>
  cases hw with
  | cons _ _ _ s4 _ f4 hw =>
  rw [readOutlines, e]
  unfold outlineLine
  simp only [getWord_first f1, Bool.false_eq_true, if_false, natStr_notEnd, and_false, hl, List.nil_append, scanInt_natStr hi, h1,
    tok_of f2 ex, tok_of f3 ey, tok_of f4 ea, unit_of hf, h2]

private theorem add_step {st : OutState} {first : Pt} (h0 : st.npts ≠ 0) (hc : st.closed = false)
    (hcur : st.cur.head?.map (·.start) = some first) (q : Pt) {a : ℚ} (ha : NotTurn a) :
    addPoint { st with left := [] } q a = some { st with
      left := [], npts := st.npts + 1, pre := q, cur := st.cur ++ [⟨st.pre, q, bend a⟩], closed := q.near first } := by
  obtain ⟨e1, e2⟩ := seg_bend ha st.pre q
  unfold addPoint
  simp only [h0, hc, Bool.false_eq_true, if_false, e1, e2]
  cases hh : st.cur.head? with
  | none => rw [hh] at hcur; cases hcur
  | some g =>
    rw [hh] at hcur
    simp only [Option.map_some, Option.some.injEq] at hcur
    simp only [Option.elim, hcur]

private theorem read_path {single comp : Bool} {u : Iges.Idf.Unit} {v : Version} {f : ℚ} (hf : InMM u v f) {i : ℕ} (hi : i ≤ 2147483647)
    {first pre : Pt} {raws : List Str} {o : List QSeg} (h : RecPath f i first pre raws o) (rest : List Str) :
    ∀ (st : OutState), st.pre = pre → st.left = [] → st.idx = i → st.npts ≠ 0 → st.closed = false →
      st.cur.head?.map (·.start) = some first →
    ∃ st2, readOutlines single comp ccwOf u v st (raws ++ rest) = readOutlines single comp ccwOf u v st2 rest ∧ st2.left = [] ∧
      st2.idx = i ∧ st2.npts ≠ 0 ∧ st2.closed = true ∧ st2.done = st.done ∧ st2.cur = st.cur ++ o := by
  induction h with
  | last pre raw q a hp ha hq =>
    intro st e hl hx h0 hc hcur
    subst e
    exact ⟨_, read_line hf hi hp hl (newLoop_same hx) (add_step h0 hc hcur q ha) rest, rfl, hx, by simp, (near_iff _ _).2 hq, rfl, rfl⟩
  | step pre raw q a raws o hp ha hq hpath ih =>
    intro st e hl hx h0 hc hcur
    subst e
    have hn : q.near first = false := by rw [Bool.eq_false_iff, Ne, near_iff]; exact hq
    obtain ⟨st2, g1, g2, g3, g4, g5, g6, g7⟩ := ih { st with
      left := [], npts := st.npts + 1, pre := q, cur := st.cur ++ [⟨st.pre, q, bend a⟩], closed := q.near first }
      rfl rfl hx (by simp) hn (by
        cases hh : st.cur with
        | nil => rw [hh] at hcur; cases hcur
        | cons a b => rw [hh] at hcur; simpa using hcur)
    refine ⟨st2, ?_, g2, g3, g4, g5, g6, by rw [g7]; simp⟩
    rw [← g1, List.cons_append]
    exact read_line hf hi hp hl (newLoop_same hx) (add_step h0 hc hcur q ha) _

theorem read_text {single comp : Bool} {u : Iges.Idf.Unit} {v : Version} {f : ℚ} (hf : InMM u v f) {i : ℕ} (hi : i ≤ 2147483647)
    {raws : List Str} {o : List QSeg} (h : OutlineText f i raws o) (rest : List Str) {st st1 : OutState} (hl : st.left = [])
    (h1 : newLoop single ccwOf st i = some st1) (hx : st1.idx = i) (h0 : st1.npts = 0) (hc : st1.closed = false) (hcur : st1.cur = []) :
    ∃ st2, readOutlines single comp ccwOf u v st (raws ++ rest) = readOutlines single comp ccwOf u v st2 rest ∧ st2.left = [] ∧
      st2.idx = i ∧ st2.npts ≠ 0 ∧ st2.closed = true ∧ st2.done = st1.done ∧ st2.cur = o := by
  have hfirst : ∀ (p : Pt) (a0 : ℚ), |a0| ≤ 1 / 100 → addPoint { st1 with left := [] } p a0 = some { st1 with left := [], npts := 1, pre := p } := by
    intro p a0 ha
    have := abs_le.1 ha
    unfold addPoint
    simp only [h0, if_true]
    rw [if_neg (by rintro (h | h) <;> linarith)]
  cases h with
  | circle r0 r1 p q a0 a hp0 ha0 hp1 ha =>
    have hs : recSeg p q a = ⟨p, q, 360⟩ := by
      have hf : flat a = false := by
        unfold flat
        rw [decide_eq_false_iff_not]
        rintro ⟨g1, g2⟩
        have g3 : |a| < 1 / 100 := abs_lt.2 ⟨g2, g1⟩
        have := (abs_lt.1 ha).1
        linarith
      unfold recSeg
      rw [hf, (turn_iff a).2 ha]
      simp
    have h360 : QSeg.isCircle ⟨p, q, 360⟩ = true := by
      have : turn 360 = true := by decide +kernel
      exact this
    have e2 : addPoint { ({ st1 with left := [], npts := 1, pre := p } : OutState) with left := [] } q a =
        some { st1 with left := [], npts := 2, pre := q, closed := true, cur := [⟨p, q, 360⟩] } := by
      unfold addPoint
      simp only [hc, hs, h360, hcur]
      simp
    refine ⟨{ st1 with left := [], npts := 2, pre := q, closed := true, cur := [⟨p, q, 360⟩] }, ?_, rfl, hx, by simp, rfl, rfl, rfl⟩
    simp only [List.cons_append, List.nil_append]
    rw [read_line hf hi hp0 hl h1 (hfirst p a0 ha0)]
    exact read_line hf hi hp1 (st := { st1 with left := [], npts := 1, pre := p }) rfl (newLoop_same hx) e2 _
  | chain r0 r1 p q a0 a raws o hp0 ha0 hp1 ha hpath =>
    have hs := seg_bend ha p q
    have e2 : addPoint { ({ st1 with left := [], npts := 1, pre := p } : OutState) with left := [] } q a =
        some { st1 with left := [], npts := 2, pre := q, closed := false, cur := [⟨p, q, bend a⟩] } := by
      unfold addPoint
      simp only [hc, hs.1, hs.2, hcur]
      simp
    obtain ⟨st2, g1, g2, g3, g4, g5, g6, g7⟩ := read_path (single := single) (comp := comp) hf hi hpath rest
      { st1 with left := [], npts := 2, pre := q, closed := false, cur := [⟨p, q, bend a⟩] } rfl rfl hx (by simp) rfl rfl
    refine ⟨st2, ?_, g2, g3, g4, g5, g6, by rw [g7]; rfl⟩
    simp only [List.cons_append]
    rw [read_line hf hi hp0 hl h1 (hfirst p a0 ha0), read_line hf hi hp1 (st := { st1 with left := [], npts := 1, pre := p }) rfl (newLoop_same hx) e2, g1]

private theorem path_ne {f : ℚ} {i : ℕ} {first pre : Pt} {raws : List Str} {o : List QSeg} (h : RecPath f i first pre raws o) : o ≠ [] := by
  cases h <;> simp

private theorem only_circle {f : ℚ} {i : ℕ} {raws : List Str} {o : List QSeg} (h : OutlineText f i raws o) (s : QSeg) (e : o = [s]) :
    s.angle = 360 := by
  cases h with
  | circle => cases e; rfl
  | chain _ _ _ _ _ _ _ o _ _ _ _ hp => cases e; exact absurd rfl (path_ne hp)

private theorem next_of {f : ℚ} {raws : List Str} {st : OutState} {k : ℕ} (h1 : st.idx = k) (h3 : st.closed = true) (hw : Winds k st.cur)
    (ho : OutlineText f k raws st.cur) : ∃ st1, newLoop false ccwOf st ((k + 1 : ℕ) : ℤ) = some st1 ∧
      st1.idx = ((k + 1 : ℕ) : ℤ) ∧ st1.npts = 0 ∧ st1.closed = false ∧ st1.cur = [] ∧ st1.done = st.done ++ [st.cur] := by
  obtain ⟨pre, left, npts, e, h0⟩ := next_after h1 h3 hw fun s e _ => only_circle ho s e
  exact ⟨_, e, rfl, h0, rfl, rfl, rfl⟩

private theorem read_texts {comp : Bool} {u : Iges.Idf.Unit} {v : Version} {f : ℚ} (hf : InMM u v f)
    {k : ℕ} {raws : List Str} {os : List (List QSeg)} (h : OutlineTexts f k raws os) (rest : List Str) :
    ∀ (st st1 : OutState), k + os.length ≤ 2147483648 → st.left = [] →
      newLoop false ccwOf st k = some st1 → st1.idx = k → st1.npts = 0 → st1.closed = false → st1.cur = [] →
    ∃ st2, readOutlines false comp ccwOf u v st (raws ++ rest) = readOutlines false comp ccwOf u v st2 rest ∧
      0 ≤ st2.idx ∧ st2.closed = true ∧ st2.loops = st1.done ++ os := by
  induction h with
  | last k raws o ho =>
    intro st st1 hk hl h1 hx h0 hc hcur
    obtain ⟨st2, g1, g2, g3, g4, g5, g6, g7⟩ := read_text (comp := comp) hf (by simp at hk; omega) ho rest hl h1 hx h0 hc hcur
    refine ⟨st2, g1, by omega, g5, ?_⟩
    unfold OutState.loops
    rw [if_neg (by omega), g6, g7]
  | more k raws rest' o os ho hw hos ih =>
    intro st st1 hk hl h1 hx h0 hc hcur
    obtain ⟨st2, g1, g2, g3, g4, g5, g6, g7⟩ := read_text (comp := comp) hf (by simp at hk; omega) ho (rest' ++ rest) hl h1 hx h0 hc hcur
    obtain ⟨st', n1, n2, n3, n4, n5, n6⟩ := next_of g3 g5 (by rw [g7]; exact hw) (by rw [g7]; exact ho)
    obtain ⟨st3, e1, e2, e3, e4⟩ := ih st2 st' (by simp at hk; omega) g2 n1 n2 n3 n4 n5
    refine ⟨st3, ?_, e2, e3, ?_⟩
    · rw [List.append_assoc, g1, e1]
    · rw [e4, n6, g6, g7]; simp

end Rec
open Rec

namespace Rec

/-- a text that is a keyword up to large and small letters is its own first word -/
theorem keyword_first {t : Str} {k : Str} (hk : ∀ d ∈ k, isSpaceC d = false ∧ d ≠ '"') (hk0 : k ≠ []) (ht : t.map Char.toUpper = k) :
    FirstWord t t false [] := by
  have hup : ∀ c ∈ t, isSpaceC c = false ∧ c ≠ '"' := by
    intro c hc
    have h1 : c.toUpper ∈ k := by rw [← ht]; exact List.mem_map_of_mem hc
    have h3 := hk _ h1
    by_cases hlow : isSpaceC c = true ∨ c = '"'
    · exfalso
      have hcu : c.toUpper = c := by
        rcases hlow with hs | rfl
        · unfold isSpaceC at hs
          simp only [Bool.or_eq_true, beq_iff_eq] at hs
          rcases hs with ((((rfl | rfl) | rfl) | rfl) | rfl) | rfl <;> decide
        · decide
      rw [hcu] at h3
      rcases hlow with hs | hs
      · rw [h3.1] at hs; cases hs
      · exact h3.2 hs
    · push Not at hlow
      exact ⟨by simpa using hlow.1, hlow.2⟩
  have htne : t ≠ [] := by rintro rfl; exact hk0 ht.symm
  refine ⟨[], (by intro c hc; cases hc), ?_⟩
  refine ⟨by simp, htne, ?_, fun c hc => (hup c hc).1, by simp⟩
  intro hq
  exact (hup _ (List.mem_of_head? hq)).2 rfl

/-- the end of a section -/
theorem read_end {single comp : Bool} {u : Iges.Idf.Unit} {v : Version} {e t w r : Str} {c : Bool} (he : fetchLine e = some ⟨t, c⟩)
    (hw : FirstWord t w false r) (h5 : (w.take 5).map Char.toUpper = ".END_".toList) (rest : List Str) {st : OutState} (hc : st.closed = true) :
    readOutlines single comp ccwOf u v st (e :: rest) = some (st.loops, e :: rest) := by
  rw [readOutlines, he]
  have hlen : 5 ≤ w.length := by
    have := congrArg List.length h5
    simp at this
    omega
  have hc5 : compareToken ".END_" (w.take 5) = true := by unfold compareToken; rw [h5]; simp
  unfold outlineLine
  simp only [getWord_first hw, Bool.false_eq_true, if_false, if_pos (And.intro hlen hc5)]
  rw [if_neg (by rintro ⟨-, -, h⟩; rw [hc] at h; cases h)]

end Rec

/-- **C78_words**: lines that are the records of one or more outlines, followed by a line whose first word begins with `.END_`,
are read as these outlines, in millimetres.  This holds in both versions and for all units they have.  Every outline but the last must run as
the format says. -/
theorem C78_words (comp : Bool) (u : Iges.Idf.Unit) (v : Version) (f : ℚ) (hf : InMM u v f) (raws : List Str)
    (os : List (List QSeg)) (h : OutlineTexts f 0 raws os) (hn : os.length ≤ 2147483648) (e t w r : Str) (c : Bool)
    (he : fetchLine e = some ⟨t, c⟩) (hw : FirstWord t w false r) (h5 : (w.take 5).map Char.toUpper = ".END_".toList)
    (rest : List Str) :
    readOutlines false comp ccwOf u v .start (raws ++ e :: rest) = some (os, e :: rest) := by
  obtain ⟨st2, g1, g2, g3, g4⟩ := read_texts (comp := comp) hf h (e :: rest) .start { OutState.start with idx := 0 } (by omega) rfl
    (by unfold newLoop OutState.start; simp) rfl rfl rfl rfl
  rw [g1, read_end he hw h5 rest g3, g4]
  rfl

/-- **C78_section**: a section with the outline of a board - the keyword and the owner, the thickness, the records, the line at the end -
is read as the board it describes, in both versions and for all units they have.  The sign of the thickness does not count; a last line of the
file that is not ended by a line end is not accepted (`rest` is not empty, see `C80_last_line`). -/
theorem C78_section (u : Iges.Idf.Unit) (v : Version) (f : ℚ) (hf : InMM u v f) (header k own : Str) (q : Bool)
    (more : List (Str × Bool)) (owner : Owner) (input : List Str) (l w r : Str) (qw : Bool) (th : ℚ) (raws : List Str)
    (os : List (List QSeg)) (e t : Str) (rest : List Str)
    (hh : Words header ((k, false) :: (own, q) :: more)) (hk : k.map Char.toUpper = ".BOARD_OUTLINE".toList) (ho : OwnerWord own owner)
    (hl : nextLine input = (⟨l, false⟩, raws ++ e :: rest)) (hw : FirstWord l w qw r) (hth : readNum w = some th) (h0 : th ≠ 0)
    (h : OutlineTexts f 0 raws os) (hn : os.length ≤ 2147483648)
    (he : fetchLine e = some ⟨t, false⟩) (ht : t.map Char.toUpper = ".END_BOARD_OUTLINE".toList) (hr : rest ≠ []) :
    readBoardOutline ccwOf u v header input = some (⟨owner, |th * f|, os⟩, rest) := by
  cases hh with
  | cons _ _ _ s1 _ f1 hh =>
  cases hh with
  | cons _ _ _ s2 _ f2 hh =>
  have htne : t ≠ [] := by rintro rfl; cases ht
  have hft : FirstWord t t false [] := keyword_first (by decide) (by decide) ht
  have h5 : (t.take 5).map Char.toUpper = ".END_".toList := by
    rw [List.map_take, ht]; decide
  have hread := C78_words false u v f hf raws os h hn e t t [] false he hft h5 rest
  have hlne : l ≠ [] := by
    rintro rfl
    have := getWord_first hw
    cases this
  have hnl : nextLine (e :: rest) = (⟨t, false⟩, rest) := by rw [nextLine, he]
  have hc1 : compareToken ".BOARD_OUTLINE" k = true := by unfold compareToken; rw [hk]; simp
  have hc2 : compareToken ".END_BOARD_OUTLINE" t = true := by unfold compareToken; rw [ht]; simp
  have how : headerOwner s1 = owner := by
    unfold headerOwner
    rw [getWord_first f2]
    unfold parseOwner compareToken
    cases ho with
    | mcad h => simp only [h]; decide
    | ecad h => simp only [h]; decide
    | unowned h => simp only [h]; decide
  have hf0 : 0 < f := by cases hf <;> norm_num
  have hne : th * f ≠ 0 := mul_ne_zero h0 hf0.ne'
  have habs : (if th * f = 0 then 16 / 10 else if th * f < 0 then -(th * f) else th * f) = |th * f| := by
    rw [if_neg hne]
    split
    · rename_i h; rw [abs_of_neg h]
    · rename_i h; rw [abs_of_nonneg (not_lt.1 h)]
  have huf : unitFactor u v = some f := by cases hf <;> rfl
  unfold readBoardOutline
  simp only [getWord_first f1, hc1, hl, hlne, getWord_first hw, hth, huf, hread, hnl, htne, hr, hc2, how, habs, Bool.false_eq_true,
    Bool.true_eq_false, or_self, if_false]

namespace Rec

theorem word_first {w rest : Str} (h1 : w ≠ []) (h2 : ∀ c ∈ w, isSpaceC c = false ∧ c ≠ '"') (h3 : ∀ c ∈ rest.head?, isSpaceC c = true)
    (ws : Str) (hb : Blank ws) : FirstWord (ws ++ (w ++ rest)) w false rest := by
  refine ⟨ws, hb, ?_⟩
  refine ⟨rfl, h1, ?_, fun c hc => (h2 c hc).1, h3⟩
  intro hq
  exact (h2 _ (List.mem_of_head? hq)).2 rfl

/-- a record of plain words -/
theorem line_of {f : ℚ} {i : ℕ} {wx wy wa : Str} {x y a : ℚ} (n1 : wx ≠ []) (n2 : wy ≠ []) (n3 : wa ≠ [])
    (h : ∀ w ∈ [natStr i, wx, wy, wa], ∀ c ∈ w, isSpaceC c = false ∧ c ≠ '"')
    (he : fetchLine (natStr i ++ ' ' :: (wx ++ ' ' :: (wy ++ ' ' :: wa))) = some ⟨natStr i ++ ' ' :: (wx ++ ' ' :: (wy ++ ' ' :: wa)), false⟩)
    (ex : scanNum wx = some (x, [])) (ey : scanNum wy = some (y, [])) (ea : scanNum wa = some (a, [])) :
    PointLine f i (natStr i ++ ' ' :: (wx ++ ' ' :: (wy ++ ' ' :: wa))) ⟨x * f, y * f⟩ a := by
  have hb : Blank [' '] := by intro c hc; simp at hc; subst hc; decide
  refine ⟨_, wx, wy, wa, [], x, y, he, ?_, ex, ey, ea, rfl⟩
  refine .cons _ _ _ _ _ (word_first (natStr_ne_nil i) (h _ (by simp)) (by simp; decide) [] (by intro c hc; cases hc)) ?_
  refine .cons _ _ _ _ _ (word_first n1 (h _ (by simp)) (by simp; decide) [' '] hb) ?_
  refine .cons _ _ _ _ _ (word_first n2 (h _ (by simp)) (by simp; decide) [' '] hb) ?_
  refine .cons _ _ _ _ _ ?_ (.nil [] (by intro c hc; cases hc))
  have := word_first n3 (h wa (by simp)) (rest := []) (by simp) [' '] hb
  simpa using this

end Rec

/-- A triangle in tens of nanometres, as in a file of version 2: it meets the conditions of `C78_words`. -/
theorem Rec.triangle : OutlineTexts (1 / 100000) 0
    ["0 0 0 0".toList, "0 1000000 0 0".toList, "0 1000000 500000 -90".toList, "0 0 0 0".toList]
    [[⟨⟨0, 0⟩, ⟨10, 0⟩, 0⟩, ⟨⟨10, 0⟩, ⟨10, 5⟩, -90⟩, ⟨⟨10, 5⟩, ⟨0, 0⟩, 0⟩]] := by
  have p0 : PointLine (1 / 100000) 0 "0 0 0 0".toList ⟨0, 0⟩ 0 := by
    have := Rec.line_of (f := 1 / 100000) (i := 0) (wx := "0".toList) (wy := "0".toList) (wa := "0".toList) (x := 0) (y := 0) (a := 0)
      (by decide) (by decide) (by decide) (by decide) (by decide +kernel) (by decide +kernel) (by decide +kernel) (by decide +kernel)
    norm_num at this
    exact this
  have p1 : PointLine (1 / 100000) 0 "0 1000000 0 0".toList ⟨10, 0⟩ 0 := by
    have := Rec.line_of (f := 1 / 100000) (i := 0) (wx := "1000000".toList) (wy := "0".toList) (wa := "0".toList) (x := 1000000) (y := 0) (a := 0)
      (by decide) (by decide) (by decide) (by decide) (by decide +kernel) (by decide +kernel) (by decide +kernel) (by decide +kernel)
    norm_num at this
    exact this
  have p2 : PointLine (1 / 100000) 0 "0 1000000 500000 -90".toList ⟨10, 5⟩ (-90) := by
    have := Rec.line_of (f := 1 / 100000) (i := 0) (wx := "1000000".toList) (wy := "500000".toList) (wa := "-90".toList) (x := 1000000) (y := 500000)
      (a := -90) (by decide) (by decide) (by decide) (by decide) (by decide +kernel) (by decide +kernel) (by decide +kernel) (by decide +kernel)
    norm_num at this
    exact this
  have b0 : bend 0 = 0 := by unfold bend; norm_num
  have b90 : bend (-90) = -90 := by unfold bend; norm_num [abs_of_pos]
  refine .last 0 _ _ ?_
  have h := OutlineText.chain "0 0 0 0".toList "0 1000000 0 0".toList ⟨0, 0⟩ ⟨10, 0⟩ 0 0 _ _ p0 (by norm_num) p1 (by unfold NotTurn; norm_num)
    (.step _ _ _ _ _ _ p2 (by unfold NotTurn; norm_num [abs_of_pos, abs_of_neg]) (by unfold PtClose; norm_num)
      (.last _ _ _ _ p0 (by unfold NotTurn; norm_num) (by unfold PtClose; norm_num)))
  rw [b0, b90] at h
  exact h

/-- The same triangle as a whole section of a file of version 2, 1.6 mm thick and owned by the mechanical side. -/
example : readBoardOutline ccwOf .tnm .v2 ".Board_Outline MCAD".toList
    ["160000".toList, "0 0 0 0".toList, "0 1000000 0 0".toList, "0 1000000 500000 -90".toList, "0 0 0 0".toList,
      ".END_BOARD_OUTLINE".toList, []] =
    some (⟨.mcad, 16 / 10, [[⟨⟨0, 0⟩, ⟨10, 0⟩, 0⟩, ⟨⟨10, 0⟩, ⟨10, 5⟩, -90⟩, ⟨⟨10, 5⟩, ⟨0, 0⟩, 0⟩]]⟩, [[]]) := by
  have hb : Blank [' '] := by intro c hc; simp at hc; subst hc; decide
  have h := C78_section .tnm .v2 (1 / 100000) .tnm ".Board_Outline MCAD".toList ".Board_Outline".toList "MCAD".toList false [] .mcad
    ["160000".toList, "0 0 0 0".toList, "0 1000000 0 0".toList, "0 1000000 500000 -90".toList, "0 0 0 0".toList,
      ".END_BOARD_OUTLINE".toList, []] "160000".toList "160000".toList [] false 160000 _ _ ".END_BOARD_OUTLINE".toList
    ".END_BOARD_OUTLINE".toList [[]]
    (.cons _ _ _ " MCAD".toList _ (Rec.word_first (w := ".Board_Outline".toList) (rest := " MCAD".toList) (by decide) (by decide) (by decide) [] (by intro c hc; cases hc))
      (.cons _ _ _ [] _ (Rec.word_first (w := "MCAD".toList) (rest := []) (by decide) (by decide) (by decide) [' '] hb) (.nil _ (by intro c hc; cases hc))))
    (by decide) (.mcad (by decide)) (by decide +kernel)
    (Rec.word_first (w := "160000".toList) (rest := []) (by decide) (by decide) (by decide) [] (by intro c hc; cases hc)) (by decide +kernel) (by norm_num)
    Rec.triangle (by simp) (by decide +kernel) (by decide) (by simp)
  rw [h]
  norm_num

end Iges.Props.IdfOutline
