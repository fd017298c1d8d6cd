import Verif.Spec.IdfPlace
import Verif.Props.IdfDrill
/-
Lemmas on the placement section.
-/
namespace Iges.Idf
open Iges.Idf.Spec Iges.Props.IdfNotes Iges.Props.IdfDrill

theorem find_add {α : Type} (m : SMap α) (k : Str) (c : α) (h : SMap.find k m = none) (n : Str) :
    SMap.find n (SMap.add k c m) = if n = k then some c else SMap.find n m := by
  induction m with
  | nil => simp only [SMap.add, SMap.find, eq_comm]
  | cons e r ih =>
    obtain ⟨k', c'⟩ := e
    have hk : k' ≠ k := by
      intro hh; rw [SMap.find, if_pos hh] at h; cases h
    have hr : SMap.find k r = none := by rw [SMap.find, if_neg hk] at h; exact h
    unfold SMap.add
    split
    · rw [SMap.find]
      by_cases e : n = k
      · rw [if_pos e.symm, if_pos e]
      · rw [if_neg (fun h => e h.symm), if_neg e]
    · rw [SMap.find, SMap.find, ih hr]
      by_cases e : k' = n
      · subst e; rw [if_pos rfl, if_pos rfl, if_neg hk]
      · rw [if_neg e, if_neg e]

theorem find_change {α : Type} (m : SMap α) (k : Str) (c c0 : α) (h : SMap.find k m = some c0) (n : Str) :
    SMap.find n (SMap.change k c m) = if n = k then some c else SMap.find n m := by
  induction m with
  | nil => cases h
  | cons e r ih =>
    obtain ⟨k', c'⟩ := e
    unfold SMap.change
    by_cases hk : k' = k
    · rw [if_pos hk, SMap.find, SMap.find]
      by_cases e : n = k
      · rw [if_pos (hk.trans e.symm), if_pos e]
      · rw [if_neg (fun h => e (h.symm.trans hk)), if_neg e, if_neg (fun h => e (h.symm.trans hk))]
    · rw [SMap.find, if_neg hk] at h
      rw [if_neg hk, SMap.find, SMap.find, ih h]
      by_cases e : k' = n
      · subst e; rw [if_pos rfl, if_pos rfl, if_neg hk]
      · rw [if_neg e, if_neg e]

/-- where the writer puts an outline -/
def wx (p : CompPos) (o : OutData) : ℚ := if p.side = .top then p.x + o.x else p.x - o.x
def wa (p : CompPos) (o : OutData) : ℚ := if p.side = .top then p.a + o.a else p.a - o.a

/-- first line of a record -/
def line1 (g q r : Str) : Str := '"' :: g ++ '"' :: ' ' :: '"' :: q ++ '"' :: ' ' :: r

/-- the end of the second line -/
def statusWords (p : CompPos) (pl : Option Placement) : Str := ' ' :: (sideText p.side ++ ' ' :: placementText pl)

/-- second line of a record -/
def line2 (u : Iges.Idf.Unit) (p : CompPos) (o : OutData) (pl : Option Placement) : Str :=
  fmtF (places u) (wx p o / factor u) ++ (' ' :: (fmtF (places u) ((p.y + o.y) / factor u) ++
    (' ' :: (fmtF (dplaces u) (o.z / factor u) ++ (' ' :: (fmtF 3 (wa p o) ++ statusWords p pl))))))

theorem writePlaceRec_lines {u : Iges.Idf.Unit} (hu : u ≠ .tnm) (c : Comp) (p : CompPos) (hp : c.pos = some p) (hr : RefName c.refdes)
    (o : OutData) (g q : Str) (ho : o.outline = some (g, q)) (hg : ¬ (g = [] ∧ q = [])) :
    writePlaceRec u c o = some (line1 g q c.refdes ++ '\n' :: (line2 u p o c.placement ++ ['\n'])) := by
  have e : refText c.refdes = c.refdes := by
    unfold refText
    rw [if_neg]
    rintro (h | h | ⟨_, h⟩)
    · exact hr.nonempty h
    · exact hr.notilde h
    · rw [compareToken_false hr.noref] at h; cases h
  unfold writePlaceRec
  rw [ho]
  simp only
  rw [if_neg hg, hp]
  simp only
  rw [e]
  unfold line1 line2 statusWords wx wa places dplaces factor
  cases u
  · simp
  · simp
  · exact absurd rfl hu

theorem line1_noeol {g q r : Str} (hg : Plain g) (hq : Plain q) (hr : RefName r) : '\n' ∉ line1 g q r := by
  have h : '\n' ∉ r := fun h => by have := hr.nospace _ h; revert this; decide
  unfold line1
  simp only [List.cons_append, List.mem_append, List.mem_cons, not_or]
  exact ⟨by decide, ⟨hg.2, by decide, by decide, by decide, hq.2⟩, by decide, by decide, h⟩

theorem status_chars (p : CompPos) (pl : Option Placement) : '\n' ∉ statusWords p pl := by
  unfold statusWords
  have h1 : '\n' ∉ sideText p.side := by cases p.side <;> decide
  have h2 : '\n' ∉ placementText pl := by rcases pl with _ | (_ | _ | _ | _) <;> decide
  simp only [List.mem_append, List.mem_cons, not_or]
  exact ⟨by decide, h1, by decide, h2⟩

theorem line2_noeol (u : Iges.Idf.Unit) (p : CompPos) (o : OutData) (pl : Option Placement) : '\n' ∉ line2 u p o pl := by
  have hf : ∀ p x, '\n' ∉ fmtF p x := fun p x hh => (fmtF_nospace hh).2.2.2 rfl
  unfold line2
  simp only [List.mem_append, List.mem_cons, not_or]
  exact ⟨hf _ _, by decide, hf _ _, by decide, hf _ _, by decide, hf _ _, status_chars p pl⟩

/-- the record as it is read -/
def asRead (u : Iges.Idf.Unit) (c : Comp) (p : CompPos) (o : OutData) : PlaceRec :=
  let n := o.outline.getD ([], [])
  ⟨n.1, n.2, some c.refdes, again u (wx p o), again u (p.y + o.y), dagain u o.z, fval 3 (wa p o), p.side, c.placement.getD .placed⟩

theorem numWordQ_fmtF {k : ℕ} (hp : 1 ≤ k) (x : ℚ) (hx : |x| ≤ 10 ^ 305) (rest : Str) (hr : ∀ c ∈ rest.head?, isSpaceC c = true) :
    numWordQ (' ' :: (fmtF k x ++ rest)) = some (fval k x, rest) := by
  have h := getWord_fmtF [' '] (by intro c hc; simp at hc; rw [hc]; rfl) k x rest hr
  rw [List.singleton_append] at h
  unfold numWordQ
  rw [h]
  simp only
  rw [readNum_fmtF hp _ (fval_size hx)]
  rfl

theorem parseStatus_words (cad : Cad) (p : CompPos) (pl : Option Placement) :
    parseStatus cad .v3 (statusWords p pl) = some (p.side, pl.getD .placed) := by
  unfold statusWords
  cases p.side <;> rcases pl with _ | (_ | _ | _ | _) <;> rfl

theorem big_sum {x y : ℚ} (hx : |x| ≤ 10 ^ 299) (hy : |y| ≤ 10 ^ 299) : |x + y| ≤ 10 ^ 300 ∧ |x - y| ≤ 10 ^ 300 := by
  have e : (10 : ℚ) ^ 300 = 10 ^ 299 * 10 := by rw [← pow_succ]
  have hB : (0 : ℚ) ≤ 10 ^ 299 := pow_nonneg (by norm_num) _
  rw [e]
  clear e
  generalize (10 : ℚ) ^ 299 = B at *
  rw [abs_le] at hx hy
  constructor <;> rw [abs_le] <;> constructor <;> linarith [hx.1, hx.2, hy.1, hy.2]

theorem big_le {x : ℚ} (hx : |x| ≤ 10 ^ 299) : |x| ≤ 10 ^ 300 := le_trans hx (pow_le_pow_right₀ (by norm_num) (by norm_num))

theorem big_305 {x : ℚ} (hx : |x| ≤ 10 ^ 300) : |x| ≤ 10 ^ 305 := le_trans hx (pow_le_pow_right₀ (by norm_num) (by norm_num))

/-- the sizes of a record -/
structure RecSize (p : CompPos) (o : OutData) : Prop where
  x : |wx p o| ≤ 10 ^ 300
  y : |p.y + o.y| ≤ 10 ^ 300
  z : |o.z| ≤ 10 ^ 300
  a : |wa p o| ≤ 10 ^ 300

theorem recSize {c : Comp} {p : CompPos} (h : Writable c p) {o : OutData} (ho : o ∈ c.outs) : RecSize p o := by
  obtain ⟨h1, h2, h3, h4⟩ := h.size
  obtain ⟨g1, g2, g3, g4⟩ := h4 o ho
  refine ⟨?_, (big_sum h2 g2).1, big_le g3, ?_⟩
  · unfold wx; split
    · exact (big_sum h1 g1).1
    · exact (big_sum h1 g1).2
  · unfold wa; split
    · exact (big_sum h3 g4).1
    · exact (big_sum h3 g4).2

theorem parsePos_line2 {u : Iges.Idf.Unit} (cad : Cad) (p : CompPos) (o : OutData) (pl : Option Placement) (hs : RecSize p o) :
    parsePos cad u .v3 (line2 u p o pl) =
      some (again u (wx p o), again u (p.y + o.y), dagain u o.z, fval 3 (wa p o), p.side, pl.getD .placed) := by
  have hh : ∀ c ∈ (statusWords p pl).head?, isSpaceC c = true := by unfold statusWords; exact space_head _
  have hst := parseStatus_words cad p pl
  have hrest : parseRest .v3 (' ' :: (fmtF (places u) ((p.y + o.y) / factor u) ++
      (' ' :: (fmtF (dplaces u) (o.z / factor u) ++ (' ' :: (fmtF 3 (wa p o) ++ statusWords p pl)))))) =
      some (fval (places u) ((p.y + o.y) / factor u), fval (dplaces u) (o.z / factor u), fval 3 (wa p o), statusWords p pl) := by
    unfold parseRest
    rw [numWordQ_fmtF (places_pos u) _ (size_div u hs.y) _ (space_head _)]
    simp only
    rw [numWordQ_fmtF (dplaces_pos u) _ (size_div u hs.z) _ (space_head _)]
    simp only
    rw [numWordQ_fmtF (by norm_num) _ (big_305 hs.a) _ hh]
    rfl
  have hx : numWord (line2 u p o pl) = some (fval (places u) (wx p o / factor u), ' ' :: (fmtF (places u) ((p.y + o.y) / factor u) ++
      (' ' :: (fmtF (dplaces u) (o.z / factor u) ++ (' ' :: (fmtF 3 (wa p o) ++ statusWords p pl)))))) := by
    unfold numWord line2
    have hw := getWord_fmtF [] (by intro c hc; cases hc) (places u) (wx p o / factor u) (' ' :: (fmtF (places u) ((p.y + o.y) / factor u) ++
      (' ' :: (fmtF (dplaces u) (o.z / factor u) ++ (' ' :: (fmtF 3 (wa p o) ++ statusWords p pl)))))) (space_head _)
    rw [List.nil_append] at hw
    rw [hw]
    simp only [Bool.false_eq_true, if_false]
    rw [readNum_fmtF (places_pos u) _ (fval_size (size_div u hs.x))]
    rfl
  unfold parsePos
  rw [hx]
  simp only
  rw [hrest]
  simp only
  rw [hst]
  simp only
  unfold again dagain factor
  split
  · rfl
  · simp only [mul_one]

theorem parseNames_line {q r : Str} (g : Str) (hq : '"' ∉ q) (hr : RefName r) :
    parseNames g (' ' :: (('"' :: q ++ ['"']) ++ ' ' :: r)) = some (g, q, some r) := by
  have h2 := bare_word r hr.nonempty hr.noquote hr.nospace [] (by intro c hc; cases hc)
  rw [List.append_nil] at h2
  unfold parseNames
  rw [quoted_word q hq]
  simp only
  rw [h2]
  simp only
  have hn : compareToken "NOREFDES" r = false := by
    apply compareToken_false
    intro h
    apply hr.noref
    have hl : r.length = 8 := by
      have := congrArg List.length h
      rw [List.length_map] at this
      exact this
    rw [List.take_of_length_le (by omega)]
    exact h
  rw [hn, compareToken_false (hr.notword "BOARD" (by simp)), compareToken_false (hr.notword "PANEL" (by simp))]
  simp only [Bool.false_eq_true, if_false]
  rw [if_neg hr.nonempty]

theorem status_last (p : CompPos) (pl : Option Placement) : ∃ w, statusWords p pl = w ++ ['D'] := by
  have h4 : ∃ w, placementText pl = w ++ ['D'] := by
    rcases pl with _ | (_ | _ | _ | _)
    · exact ⟨"PLACE".toList, rfl⟩
    · exact ⟨"UNPLACE".toList, rfl⟩
    · exact ⟨"PLACE".toList, rfl⟩
    · exact ⟨"MCA".toList, rfl⟩
    · exact ⟨"ECA".toList, rfl⟩
  obtain ⟨w, e⟩ := h4
  refine ⟨' ' :: (sideText p.side ++ ' ' :: w), ?_⟩
  unfold statusWords
  rw [e]
  simp

theorem readPlaceRec_lines {u : Iges.Idf.Unit} (cad : Cad) {c : Comp} {p : CompPos} (hw : Writable c p) {o : OutData} (ho : o ∈ c.outs)
    {g q : Str} (hgq : o.outline = some (g, q)) (hg : Plain g) (hq : Plain q) (rest : List Str) (hrest : rest ≠ []) :
    readPlaceRec cad u .v3 (line1 g q c.refdes :: line2 u p o c.placement :: rest) = .item (asRead u c p o) rest := by
  have hl1 : ∀ rest, nextLine (line1 g q c.refdes :: rest) = (⟨line1 g q c.refdes, false⟩, rest) := by
    apply nextLine_plain
    · unfold line1; simp
    · intro c' hc
      have : c' = '"' := by unfold line1 at hc; simpa using hc.symm
      subst this; decide
    · intro c' hc
      have : line1 g q c.refdes = ('"' :: g ++ '"' :: ' ' :: '"' :: q ++ ['"', ' ']) ++ c.refdes := by unfold line1; simp
      rw [this, List.getLast?_append_of_ne_nil _ hw.name.nonempty] at hc
      exact hw.name.nospace _ (List.mem_of_getLast? hc)
  have hl2 : nextLine (line2 u p o c.placement :: rest) = (⟨line2 u p o c.placement, false⟩, rest) := by
    obtain ⟨c1, r1, e⟩ := fmtF_head (places u) (wx p o / factor u)
    apply nextLine_plain
    · unfold line2; rw [e]; simp
    · intro c' hc
      have : c' = c1 := by unfold line2 at hc; rw [e] at hc; simpa using hc.symm
      subst this
      have := fmtF_nospace (p := places u) (x := wx p o / factor u) (c := c') (by rw [e]; simp)
      exact ⟨this.1, this.2.2.1⟩
    · intro c' hc
      obtain ⟨w, e⟩ := status_last p c.placement
      have : line2 u p o c.placement = (fmtF (places u) (wx p o / factor u) ++ (' ' :: (fmtF (places u) ((p.y + o.y) / factor u) ++
    (' ' :: (fmtF (dplaces u) (o.z / factor u) ++ (' ' :: (fmtF 3 (wa p o) ++ w))))))) ++ ['D'] := by unfold line2; rw [e]; simp
      rw [this, List.getLast?_concat] at hc
      have : c' = 'D' := by simpa using hc.symm
      subst this; rfl
  have hn2 : line2 u p o c.placement ≠ [] := by
    obtain ⟨c1, r1, e⟩ := fmtF_head (places u) (wx p o / factor u)
    unfold line2; rw [e]; simp
  have hpos := parsePos_line2 (u := u) cad p o c.placement (recSize hw ho)
  have hw1 : getWord (line1 g q c.refdes) = .word g true (' ' :: (('"' :: q ++ ['"']) ++ ' ' :: c.refdes)) := by
    have := getWord_quoted (ws := []) (t := g) (rest := ' ' :: (('"' :: q ++ ['"']) ++ ' ' :: c.refdes)) (by intro c hc; cases hc) hg.1
    unfold line1
    simpa using this
  have hn1 : line1 g q c.refdes ≠ [] := by unfold line1; simp
  have hnm := parseNames_line g hq.1 hw.name
  unfold readPlaceRec
  rw [hl1]
  simp only [hn1, Bool.false_eq_true, or_self, if_false]
  rw [hw1]
  simp only [Bool.true_eq_false, false_and, if_false]
  rw [hnm]
  simp only
  rw [hl2]
  simp only [hn2, hrest, Bool.false_eq_true, or_self, if_false]
  rw [hpos]
  simp only
  unfold asRead
  rw [hgq]
  rfl

/-- records stored one after the other -/
def storeAll (noSub : Bool) : PBoard → List PlaceRec → Option PBoard
  | b, [] => some b
  | b, r :: rs =>
    match storePlace noSub b r with
    | none => none
    | some b' => storeAll noSub b' rs

theorem storeAll_append (noSub : Bool) (b : PBoard) (rs rs' : List PlaceRec) :
    storeAll noSub b (rs ++ rs') = (storeAll noSub b rs).bind fun b' => storeAll noSub b' rs' := by
  induction rs generalizing b with
  | nil => rfl
  | cons r rs ih =>
    rw [List.cons_append, storeAll, storeAll]
    cases storePlace noSub b r with
    | none => rfl
    | some b' => exact ih b'

theorem end_placement (cad : Cad) (u : Iges.Idf.Unit) (v : Version) (rest : List Str) :
    readPlaceRec cad u v (".END_PLACEMENT".toList :: rest) = .finish rest := by
  have hl : nextLine (".END_PLACEMENT".toList :: rest) = (⟨".END_PLACEMENT".toList, false⟩, rest) :=
    nextLine_plain (by decide) (by intro c hc; have : c = '.' := by simpa using hc.symm
                                   subst this; decide)
      (by intro c hc; have : c = 'T' := by simpa using hc.symm
          subst this; decide) rest
  have e : getWord ".END_PLACEMENT".toList = .word ".END_PLACEMENT".toList false [] := by decide
  have e2 : compareToken ".END_PLACEMENT" ".END_PLACEMENT".toList = true := by decide
  have e3 : ".END_PLACEMENT".toList ≠ [] := by decide
  generalize ".END_PLACEMENT".toList = t at *
  unfold readPlaceRec
  rw [hl]
  simp only [e3, e, e2, Bool.false_eq_true, or_self, if_false, and_self, if_true]

/-- the records of a component are read and stored one by one -/
theorem read_comp {u : Iges.Idf.Unit} (hu : u ≠ .tnm) (noSub : Bool) {c : Comp} {p : CompPos} (hw : Writable c p) (os : List OutData)
    (hos : ∀ o ∈ os, o ∈ c.outs) (text : Str) (ht : concatTexts (os.map (writePlaceRec u c)) = some text) (after : Str)
    (b : PBoard) (n : ℕ) :
    readPlacement u .v3 noSub (os.length + n) b (lines (text ++ after)) =
      (storeAll noSub b (os.map (asRead u c p))).bind fun b' => readPlacement u .v3 noSub n b' (lines after) := by
  induction os generalizing b text with
  | nil =>
    cases ht
    rw [List.length_nil, Nat.zero_add]
    rfl
  | cons o os ih =>
    obtain ⟨g, q, hgq, hg, hq, hne⟩ := hw.outline o (hos o (by simp))
    rw [List.map_cons, writePlaceRec_lines hu c p hw.pos hw.name o g q hgq hne, concatTexts] at ht
    obtain ⟨t, h1, h2⟩ := Option.map_eq_some_iff.1 ht
    have hl : lines (text ++ after) = line1 g q c.refdes :: line2 u p o c.placement :: lines (t ++ after) := by
      rw [← h2, ← lines_line (line2_noeol u p o c.placement), ← lines_line (line1_noeol hg hq hw.name)]
      simp
    rw [hl, List.length_cons, show os.length + 1 + n = (os.length + n) + 1 by omega, readPlacement,
      readPlaceRec_lines b.cad hw (hos o (by simp)) hgq hg hq _ (lines_ne_nil _)]
    simp only
    rw [List.map_cons, storeAll]
    cases storePlace noSub b (asRead u c p o) with
    | none => rfl
    | some b' => exact ih (fun o h => hos o (by simp [h])) t h1 b'

theorem concat_some {u : Iges.Idf.Unit} (hu : u ≠ .tnm) {c : Comp} {p : CompPos} (hw : Writable c p) (os : List OutData)
    (hos : ∀ o ∈ os, o ∈ c.outs) : ∃ text, concatTexts (os.map (writePlaceRec u c)) = some text ∧ os.length < (lines text).length := by
  induction os with
  | nil => exact ⟨[], rfl, by decide⟩
  | cons o os ih =>
    obtain ⟨g, q, hgq, hg, hq, hne⟩ := hw.outline o (hos o (by simp))
    obtain ⟨t, h1, h2⟩ := ih (fun o h => hos o (by simp [h]))
    rw [List.map_cons, writePlaceRec_lines hu c p hw.pos hw.name o g q hgq hne, concatTexts, h1]
    refine ⟨_, rfl, ?_⟩
    have hl : lines (line1 g q c.refdes ++ '\n' :: (line2 u p o c.placement ++ ['\n']) ++ t) =
        line1 g q c.refdes :: line2 u p o c.placement :: lines t := by
      rw [← lines_line (line2_noeol u p o c.placement), ← lines_line (line1_noeol hg hq hw.name)]
      simp
    rw [hl]
    simp
    omega

theorem lines_append_length (a b : Str) : (lines (a ++ b)).length + 1 = (lines a).length + (lines b).length := by
  induction a with
  | nil => simp [lines]; omega
  | cons c a ih =>
    rw [List.cons_append]
    by_cases h : c = '\n'
    · subst h
      have h1 : ∀ s, lines ('\n' :: s) = [] :: lines s := fun s => by
        have := lines_line (a := []) (by simp) s
        simpa using this
      rw [h1, h1, List.length_cons, List.length_cons]; omega
    · have h1 : ∀ s, (lines (c :: s)).length = (lines s).length := by
        intro s
        obtain ⟨x, y, e⟩ := List.exists_cons_of_ne_nil (lines_ne_nil s)
        simp [lines, h, e]
      rw [h1, h1]; exact ih

/-- an outline as it is stored relative to a position -/
def relative (u : Iges.Idf.Unit) (p p0 : CompPos) (o : OutData) : OutData :=
  ⟨o.outline, again u (wx p o) - p0.x, again u (p.y + o.y) - p0.y, dagain u o.z, fval 3 (wa p o) - p0.a⟩

theorem store_more {u : Iges.Idf.Unit} (noSub : Bool) {c : Comp} {p : CompPos} (os : List OutData)
    (hout : ∀ o ∈ os, ∃ g q, o.outline = some (g, q)) (b : PBoard)
    (hk : ∀ o ∈ os, ∀ g q, o.outline = some (g, q) → b.lib.find (uidOf g q) = some (g, q))
    (c0 : Comp) (p0 : CompPos) (hc0 : b.comps.find c.refdes = some c0) (hp0 : c0.pos = some p0) (hside : p0.side = p.side)
    (hpl : c0.placement = some (c.placement.getD .placed)) :
    ∃ m, storeAll noSub b (os.map (asRead u c p)) = some ⟨b.cad, b.lib, m, b.next⟩ ∧
      SMap.find c.refdes m = some { c0 with outs := c0.outs ++ os.map (relative u p p0) } ∧
      ∀ n, n ≠ c.refdes → SMap.find n m = b.comps.find n := by
  induction os generalizing b c0 with
  | nil => exact ⟨b.comps, rfl, by rw [hc0]; simp, fun _ _ => rfl⟩
  | cons o os ih =>
    obtain ⟨g, q, hgq⟩ := hout o (by simp)
    have hlib := hk o (by simp) g q hgq
    have hs : storePlace noSub b (asRead u c p o) =
        some ⟨b.cad, b.lib, b.comps.change c.refdes { c0 with outs := c0.outs ++ [relative u p p0 o] }, b.next⟩ := by
      unfold storePlace asRead findOutline
      simp only [hgq, Option.getD_some, hlib, hc0, hp0, hside, ne_eq, not_true_eq_false, if_false, hpl, relative]
    rw [List.map_cons, storeAll, hs]
    simp only
    have hf := find_change b.comps c.refdes { c0 with outs := c0.outs ++ [relative u p p0 o] } c0 hc0
    obtain ⟨m, h1, h2, h3⟩ := ih (fun o h => hout o (by simp [h]))
      ⟨b.cad, b.lib, b.comps.change c.refdes { c0 with outs := c0.outs ++ [relative u p p0 o] }, b.next⟩
      (fun o h => hk o (by simp [h])) { c0 with outs := c0.outs ++ [relative u p p0 o] }
      (by rw [hf, if_pos rfl]) hp0 hpl
    refine ⟨m, h1, ?_, ?_⟩
    · rw [h2]; simp
    · intro n hn
      rw [h3 n hn, hf, if_neg hn]

theorem store_comp {u : Iges.Idf.Unit} (noSub : Bool) {c : Comp} {p : CompPos} (hw : Writable c p) (b : PBoard) (hb : Unplaced b c.refdes)
    (hk : Known b c) : ∃ m c', storeAll noSub b (c.outs.map (asRead u c p)) = some ⟨b.cad, b.lib, m, b.next⟩ ∧
      SMap.find c.refdes m = some c' ∧ (∀ n, n ≠ c.refdes → SMap.find n m = b.comps.find n) ∧
      ∃ o os, c.outs = o :: os ∧ c' = ⟨c.refdes, some ⟨again u (wx p o), again u (p.y + o.y), fval 3 (wa p o), p.side⟩,
        some (c.placement.getD .placed), c.outs.map (relative u p ⟨again u (wx p o), again u (p.y + o.y), fval 3 (wa p o), p.side⟩),
        holesOf b c.refdes⟩ := by
  obtain ⟨o, os, e⟩ := List.exists_cons_of_ne_nil hw.outs
  obtain ⟨g, q, hgq, -⟩ := hw.outline o (by rw [e]; simp)
  have hlib := hk o (by rw [e]; simp) g q hgq
  set p0 : CompPos := ⟨again u (wx p o), again u (p.y + o.y), fval 3 (wa p o), p.side⟩ with hp0
  set c0 : Comp := ⟨c.refdes, some p0, some (c.placement.getD .placed), [relative u p p0 o], holesOf b c.refdes⟩ with hc0
  have hrel : relative u p p0 o = ⟨some (g, q), 0, 0, dagain u o.z, 0⟩ := by
    unfold relative; rw [hgq, hp0]; simp
  have hs : ∃ m0, storePlace noSub b (asRead u c p o) = some ⟨b.cad, b.lib, m0, b.next⟩ ∧ SMap.find c.refdes m0 = some c0 ∧
      ∀ n, n ≠ c.refdes → SMap.find n m0 = b.comps.find n := by
    cases hf : SMap.find c.refdes b.comps with
    | none =>
      have hh : holesOf b c.refdes = [] := by unfold holesOf; rw [hf]; rfl
      have ha := find_add b.comps c.refdes c0 hf
      refine ⟨b.comps.add c.refdes c0, ?_, by rw [ha, if_pos rfl], fun n hn => by rw [ha, if_neg hn]⟩
      unfold storePlace asRead findOutline
      simp only [hgq, Option.getD_some, hlib, hf]
      rw [hc0, hrel, hh]
    | some c1 =>
      obtain ⟨e1, e2, e3, e4⟩ := hb c1 hf
      have hh : holesOf b c.refdes = c1.drills := by unfold holesOf; rw [hf]; rfl
      have ha := find_change b.comps c.refdes c0 c1 hf
      refine ⟨b.comps.change c.refdes c0, ?_, by rw [ha, if_pos rfl], fun n hn => by rw [ha, if_neg hn]⟩
      unfold storePlace asRead findOutline
      simp only [hgq, Option.getD_some, hlib, hf, e2, e3, e4, reduceCtorEq, false_and, or_self, if_false, List.nil_append]
      rw [hc0, hrel, hh, e1]
  obtain ⟨m0, h1, h2, h3⟩ := hs
  obtain ⟨m, k1, k2, k3⟩ := store_more (u := u) noSub (c := c) (p := p) os
    (fun o' h => by obtain ⟨g, q, h, -⟩ := hw.outline o' (by rw [e]; simp [h]); exact ⟨g, q, h⟩)
    ⟨b.cad, b.lib, m0, b.next⟩ (fun o' h => hk o' (by rw [e]; simp [h])) c0 p0 h2 rfl rfl rfl
  refine ⟨m, _, ?_, k2, fun n hn => by rw [k3 n hn, h3 n hn], o, os, e, ?_⟩
  · rw [e, List.map_cons, storeAll, h1]
    exact k1
  · rw [e, List.map_cons, hc0]
    rfl

end Iges.Idf
