import Verif.Spec.IdfSectionWords
import Verif.Props.IdfOutlineWords
import Verif.Props.IdfSections
/-
C79, reading: the outline sections are read as their words say, in both versions of the format.
-/
namespace Iges.Props.IdfSections
open Iges.Idf Iges.Idf.Spec Iges.Props.IdfNotes Iges.Props.IdfDrill Iges.Props.IdfOutline

namespace Rec

private theorem layer_of {t : Str} {l : Layer} (h : LayerWord t l) : parseLayer t = some l := by
  unfold parseLayer compareToken
  cases h with
  | top h => rw [h]; decide
  | bottom h => rw [h]; decide
  | both h => rw [h]; decide
  | inner h => rw [h]; decide
  | all h => rw [h]; decide

private theorem side_of {t : Str} {l : Layer} (h : LayerWord t l) (hl : l ≠ .inner ∧ l ≠ .all) : placeSide t = some l := by
  unfold placeSide
  rw [layer_of h]
  cases l <;> simp_all

private theorem missing_of {s : Str} (h : Blank s) : getWord s = .missing := getWord_blank h

private theorem info_line {raw t : Str} (h : fetchLine raw = some ⟨t, false⟩) (ht : t ≠ []) {tail : List Str} (hr : tail ≠ []) :
    infoLine (raw :: tail) = some (t, tail) := by
  unfold infoLine
  rw [nextLine, h]
  simp [ht, hr]

private theorem ne_of {s t rest : Str} {q : Bool} (h : FirstWord s t q rest) : s ≠ [] := by
  rintro rfl
  have := getWord_first h
  cases this

private theorem info_of {u : Iges.Idf.Unit} {v : Version} {f : ℚ} (hf : InMM u v f) {k : OlnKind} {raws : List Str} {side : Option Layer}
    {th : ℚ} {ident : Str} (h : InfoText f k v raws side th ident) {tail : List Str} (hr : tail ≠ []) :
    readInfo k u v (raws ++ tail) = some ((side, th, ident), tail) := by
  have huf : unitFactor u v = some f := by cases hf <;> rfl
  have hf0 : 0 < f := by cases hf <;> norm_num
  cases h with
  | via => rfl
  | route2 => rfl
  | place2 => rfl
  | other2 raw _ w q q' more x hl hx =>
    obtain ⟨t, e, hw⟩ := hl
    cases hw with
    | cons _ _ _ s1 _ f1 hw =>
    cases hw with
    | cons _ _ _ s2 _ f2 hw =>
    unfold readInfo
    simp only [List.cons_append, List.nil_append, info_line e (ne_of f1) hr]
    unfold otherInfo
    simp only [getWord_first f1, getWord_first f2, hx, huf, if_true, Option.map_some]
  | other3 raw _ w s q q' q'' more x l hl hx hs hside =>
    obtain ⟨t, e, hw⟩ := hl
    cases hw with
    | cons _ _ _ s1 _ f1 hw =>
    cases hw with
    | cons _ _ _ s2 _ f2 hw =>
    cases hw with
    | cons _ _ _ s3 _ f3 hw =>
    unfold readInfo
    simp only [List.cons_append, List.nil_append, info_line e (ne_of f1) hr]
    unfold otherInfo
    simp only [getWord_first f1, getWord_first f2, getWord_first f3, hx, huf, layer_of hs]
    rcases hside with rfl | rfl <;> simp
  | route3 raw s more l hl hs =>
    obtain ⟨t, e, hw⟩ := hl
    cases hw with
    | cons _ _ _ s1 _ f1 hw =>
    unfold readInfo
    simp only [List.cons_append, List.nil_append, info_line e (ne_of f1) hr]
    unfold routeInfo
    simp [getWord_first f1, layer_of hs]
  | routeKo _ raw s more l hl hs hv =>
    obtain ⟨t, e, hw⟩ := hl
    cases hw with
    | cons _ _ _ s1 _ f1 hw =>
    unfold readInfo
    simp only [List.cons_append, List.nil_append, info_line e (ne_of f1) hr]
    unfold routeInfo
    simp only [getWord_first f1, layer_of hs, Bool.false_eq_true, if_false]
    rw [if_neg]
    · rfl
    · rintro ⟨h2, h3⟩
      rcases h3 with h3 | h3
      · exact (hv h2).1 h3
      · exact (hv h2).2 h3
  | place3 raw s w q q' more l x hl hs hside hx h0 =>
    obtain ⟨t, e, hw⟩ := hl
    cases hw with
    | cons _ _ _ s1 _ f1 hw =>
    cases hw with
    | cons _ _ _ s2 _ f2 hw =>
    have hp : ¬ x * f < 0 := not_lt.2 (mul_nonneg h0 hf0.le)
    unfold readInfo
    simp only [List.cons_append, List.nil_append, info_line e (ne_of f1) hr]
    unfold placeInfo
    simp [getWord_first f1, getWord_first f2, side_of hs hside, hx, huf, not_lt.2 h0, hp]
  | placeBare raw s q l hl hs hside =>
    obtain ⟨t, e, hw⟩ := hl
    cases hw with
    | cons _ _ _ s1 _ f1 hw =>
    cases hw with
    | nil _ hb =>
    unfold readInfo
    simp only [List.cons_append, List.nil_append, info_line e (ne_of f1) hr]
    unfold placeInfo
    simp [getWord_first f1, missing_of hb, side_of hs hside]
  | placeKo _ raw s w q q' more l x hl hs hside hx h0 =>
    obtain ⟨t, e, hw⟩ := hl
    cases hw with
    | cons _ _ _ s1 _ f1 hw =>
    cases hw with
    | cons _ _ _ s2 _ f2 hw =>
    have hp : ¬ x * f < 0 := not_lt.2 (mul_nonneg h0 hf0.le)
    unfold readInfo
    simp only [List.cons_append, List.nil_append, info_line e (ne_of f1) hr]
    unfold placeInfo
    simp [getWord_first f1, getWord_first f2, side_of hs hside, hx, huf, not_lt.2 h0, hp]
  | region _ raw s _ q q' more l hl hs hside =>
    obtain ⟨t, e, hw⟩ := hl
    cases hw with
    | cons _ _ _ s1 _ f1 hw =>
    cases hw with
    | cons _ _ _ s2 _ f2 hw =>
    unfold readInfo
    simp only [List.cons_append, List.nil_append, info_line e (ne_of f1) hr]
    unfold regionInfo
    simp [getWord_first f1, getWord_first f2, side_of hs hside]

private theorem loops_of {u : Iges.Idf.Unit} {v : Version} {f : ℚ} (hf : InMM u v f) {k : OlnKind} {raws : List Str} {os : List (List QSeg)}
    (h : SectionLoops f k raws os) (hn : os.length ≤ 2147483648) {e t w r : Str} {c : Bool}
    (he : fetchLine e = some ⟨t, c⟩) (hw : FirstWord t w false r) (h5 : (w.take 5).map Char.toUpper = ".END_".toList) (rest : List Str) :
    readOutlines k.single false ccwOf u v .start (raws ++ e :: rest) = some (os, e :: rest) := by
  unfold SectionLoops at h
  by_cases hk : k = .other
  · rw [if_pos hk] at h
    rw [hk]
    exact C78_words false u v f hf raws os h hn e t w r c he hw h5 rest
  · rw [if_neg hk] at h
    obtain ⟨i, o, hi, ho, rfl⟩ := h
    have hs : k.single = true := by cases k <;> first | rfl | exact absurd rfl hk
    rw [hs]
    obtain ⟨st2, g1, g2, g3, g4, g5, g6, g7⟩ := IdfOutline.Rec.read_text (single := true) (comp := false) hf (by omega) ho (e :: rest) (st := .start)
      (st1 := { OutState.start with idx := i }) rfl (by
        unfold newLoop OutState.start
        have h1 : (i : ℤ) ≠ -1 := by omega
        have h2 : ¬ (i : ℤ) < 0 := by omega
        have h3 : (i : ℤ) = 0 ∨ (i : ℤ) = 1 := by omega
        simp only [h1, h2, if_false, lt_irrefl, false_and, if_true, true_and]
        rw [if_pos h3]) rfl rfl rfl rfl
    rw [g1, IdfOutline.Rec.read_end he hw h5 rest g5]
    unfold OutState.loops
    rw [if_neg (by omega), g6, g7]
    rfl

end Rec
open Rec

/-- **C79_words**: a section - the keyword and the owner, the second record if there is one, the records of the outlines, the line at the end -
is read as what it describes, for all seven kinds of sections, in both versions and for all units they have.  There must be something after the line
at the end. -/
theorem C79_words (k : OlnKind) (u : Iges.Idf.Unit) (v : Version) (f : ℚ) (hf : InMM u v f) (header w own : Str) (q : Bool)
    (more : List (Str × Bool)) (owner : Owner) (info raws : List Str) (side : Option Layer) (th : ℚ) (ident : Str)
    (os : List (List QSeg)) (e t : Str) (rest : List Str)
    (hh : Words header ((w, false) :: (own, q) :: more)) (hk : w.map Char.toUpper = ("." ++ k.name).toList) (ho : OwnerWord own owner)
    (hi : InfoText f k v info side th ident) (h : SectionLoops f k raws os) (hn : os.length ≤ 2147483648)
    (he : fetchLine e = some ⟨t, false⟩) (ht : t.map Char.toUpper = (".END_" ++ k.name).toList) (hr : rest ≠ []) :
    readSect k ccwOf u v header (info ++ (raws ++ e :: rest)) = some (⟨owner, side, th, ident, os⟩, rest) := by
  cases hh with
  | cons _ _ _ s1 _ f1 hh =>
  cases hh with
  | cons _ _ _ s2 _ f2 hh =>
  have hft : FirstWord t t false [] := IdfOutline.Rec.keyword_first (by cases k <;> decide) (by cases k <;> decide) ht
  have h5 : (t.take 5).map Char.toUpper = ".END_".toList := by
    rw [List.map_take, ht]; cases k <;> decide
  have hc1 : compareToken ("." ++ k.name) w = true := by unfold compareToken; rw [hk]; simp
  have hc2 : compareToken (".END_" ++ k.name) t = true := by unfold compareToken; rw [ht]; simp
  have hend : isEnd k t = true := by
    unfold isEnd
    rw [getWord_first hft]
    cases k <;> exact hc2
  have how : headerOwner s1 = owner := by
    unfold headerOwner
    rw [getWord_first f2]
    unfold parseOwner compareToken
    cases ho with
    | mcad h => simp only [h]; decide
    | ecad h => simp only [h]; decide
    | unowned h => simp only [h]; decide
  unfold readSect
  simp only [getWord_first f1, hc1, info_of hf hi (tail := raws ++ e :: rest) (by simp), loops_of hf h hn he hft h5 rest,
    info_line he (ne_of hft) hr, hend, how, Bool.false_eq_true, Bool.true_eq_false, or_self, if_false, if_true]

/-- A placement keepout of a version 2 file, 5 mm high, on both sides, owned by the electrical side: it meets the conditions. -/
example : readSect .placeKo ccwOf .tnm .v2 ".place_keepout ECAD".toList
    ["both 500000".toList, "0 0 0 0".toList, "0 1000000 0 0".toList, "0 1000000 500000 -90".toList, "0 0 0 0".toList,
      ".END_PLACE_KEEPOUT".toList, []] =
    some (⟨.ecad, some .both, 5, [], [[⟨⟨0, 0⟩, ⟨10, 0⟩, 0⟩, ⟨⟨10, 0⟩, ⟨10, 5⟩, -90⟩, ⟨⟨10, 5⟩, ⟨0, 0⟩, 0⟩]]⟩, [[]]) := by
  have hb : Blank [' '] := by intro c hc; simp at hc; subst hc; decide
  have hnil : Blank [] := by intro c hc; cases hc
  have htri := IdfOutline.Rec.triangle
  have ho : ∀ {raws o}, OutlineTexts (1 / 100000) 0 raws [o] → OutlineText (1 / 100000) 0 raws o := by
    intro raws o h
    cases h with
    | last _ _ _ h => exact h
    | more _ _ _ _ _ _ _ h => cases h
  have hi : InfoText (1 / 100000) .placeKo .v2 ["both 500000".toList] (some .both) (500000 * (1 / 100000)) [] :=
    .placeKo .v2 "both 500000".toList "both".toList "500000".toList false false [] .both 500000
      ⟨"both 500000".toList, by decide +kernel, .cons _ _ _ " 500000".toList _
        (IdfOutline.Rec.word_first (w := "both".toList) (rest := " 500000".toList) (by decide) (by decide) (by decide) [] hnil)
        (.cons _ _ _ [] _ (IdfOutline.Rec.word_first (w := "500000".toList) (rest := []) (by decide) (by decide) (by decide) [' '] hb) (.nil _ hnil))⟩
      (.both (by decide)) (by decide) (by decide +kernel) (by norm_num)
  have h := C79_words .placeKo .tnm .v2 (1 / 100000) .tnm ".place_keepout ECAD".toList ".place_keepout".toList "ECAD".toList false [] .ecad
    _ _ _ _ _ _ ".END_PLACE_KEEPOUT".toList ".END_PLACE_KEEPOUT".toList [[]]
    (.cons _ _ _ " ECAD".toList _ (IdfOutline.Rec.word_first (w := ".place_keepout".toList) (rest := " ECAD".toList) (by decide) (by decide) (by decide) [] hnil)
      (.cons _ _ _ [] _ (IdfOutline.Rec.word_first (w := "ECAD".toList) (rest := []) (by decide) (by decide) (by decide) [' '] hb) (.nil _ hnil)))
    (by decide) (.ecad (by decide)) hi (by unfold SectionLoops; rw [if_neg (by decide)]; exact ⟨0, _, by omega, ho htri, rfl⟩)
    (by simp) (by decide +kernel) (by decide) (by simp)
  norm_num at h
  exact h

end Iges.Props.IdfSections
