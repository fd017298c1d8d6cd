import Verif.Lemmas.IdfSections
/-
C79: the outline sections of board files other than the outline of the board.
-/
namespace Iges.Props.IdfSections
open Iges.Idf Iges.Idf.Spec Iges.Props.IdfNotes Iges.Props.IdfDrill Iges.Props.IdfOutline

/-- **C79_roundtrip_partial** (keepouts, routing and placement outlines and placement regions survive writing and reading).  A
section of any kind but "other outline" is written, and read back with whatever follows it in the file.  Then the owner, the
side or layers and the name are the same, the height is the same up to the places written, and the outline has the same segments in the same
order and direction up to the places written and the gaps `g` of the outline.  Missing: other outlines, which cannot be read
(`C79_other_unreadable`), placement without a height (`C79_place_unreadable`, `C79_keepout_unreadable`), and outlines that
touch their first point on the way or have angles within a hundredth of a degree of zero or a full turn. -/
theorem C79_roundtrip_partial (k : OlnKind) (hk : k ≠ .other) (ccw : List QSeg → Bool) (u : Iges.Idf.Unit) (hu : u ≠ .tnm) (g : ℚ) (hg : 0 ≤ g)
    (s : OlnSect) (hs : SectOk k s) (l : List QSeg) (ho : s.outlines = [l]) (hl : GoodLoop u g l) (after : Str) :
    ∃ text header body s' l', writeSect k ccw u s = .text text ∧ lines (text ++ after) = header :: body ∧
      readSect k ccw u .v3 header body = some (s', [] :: lines after) ∧
      s'.owner = s.owner ∧ s'.side = s.side ∧ s'.ident = s.ident ∧ |s'.thickness - s.thickness| ≤ lengthTol u ∧
      s'.outlines = [l'] ∧ List.Forall₂ (SegNear (lengthTol u + g)) l l' := by
  obtain ⟨i, hi, w⟩ := write_single (ccw := ccw) 0 hl
  have hsing : k.single = true := by cases k <;> first | rfl | exact absurd rfl hk
  have hnext : NextLoop true ccw .start i [] := by
    refine ⟨⟨0, 0⟩, [], 0, ?_, rfl⟩
    unfold newLoop OutState.start
    have : ((i : ℤ) = 0 ∨ (true = true ∧ (i : ℤ) = 1)) := by interval_cases i <;> simp
    rw [if_neg (by simp), if_neg (by simp), if_neg (by omega), if_pos rfl, if_pos this]
  obtain ⟨st, r1, -, r3, r4, r5, r6, r7, -⟩ := read_loop (single := true) (comp := false) (ccw := ccw) hu .v3 (show i ≤ 2147483647 by omega) hl hg
    (st := .start) rfl hnext (".END_".toList ++ k.name.toList ++ ['\n', '\n'] ++ after)
  obtain ⟨e1, e2⟩ := read_sect_end k (ccw := ccw) (u := u) (v := .v3) (st := st) (.inr r5) after
  obtain ⟨info, th, i1, i2, i3⟩ := read_info hk hu hs (loopText u i l ++ (".END_".toList ++ k.name.toList ++ ['\n', '\n'] ++ after))
  obtain ⟨h1, h2, h3⟩ := sect_header k s.owner
  have hloops : st.loops = [st.cur] := by
    unfold OutState.loops
    rw [if_neg (by rw [r3]; omega), r6]; rfl
  have hw : writeSect k ccw u s = .text (('.' :: k.name.toList) ++ ' ' :: ownerText s.owner ++ '\n' ::
      (info ++ (loopText u i l ++ (".END_".toList ++ k.name.toList ++ ['\n', '\n'])))) := by
    unfold writeSect
    rw [ho, if_neg (by simp), i1, hsing]
    simp only [writeLoops, w, List.append_nil]
  refine ⟨_, ('.' :: k.name.toList) ++ ' ' :: ownerText s.owner,
    lines (info ++ (loopText u i l ++ (".END_".toList ++ k.name.toList ++ ['\n', '\n'] ++ after))),
    ⟨s.owner, s.side, th, s.ident, [st.cur]⟩, st.cur, hw, ?_, ?_, rfl, rfl, rfl, i3, rfl, r7⟩
  · rw [← lines_line h2]
    simp only [List.append_assoc, List.cons_append]
  · unfold readSect
    rw [h1]
    simp only [h3, i2, hsing, r1]
    rw [hsing] at e1
    simp only [e1, e2, (sect_end k).2.2.2.1, owner_read, hloops, Bool.false_eq_true, Bool.true_eq_false, or_self, if_false, if_true]

/-- the hypotheses can be met: a routing keepout on the inner layers -/
example : ∃ text header body s' l', writeSect .routeKo ccwOf .thou ⟨.ecad, some .inner, 0, [], [square]⟩ = .text text ∧ lines (text ++ []) = header :: body ∧
      readSect .routeKo ccwOf .thou .v3 header body = some (s', [] :: lines []) ∧
      s'.owner = .ecad ∧ s'.side = some .inner ∧ s'.ident = [] ∧ |s'.thickness - 0| ≤ lengthTol .thou ∧
      s'.outlines = [l'] ∧ List.Forall₂ (SegNear (lengthTol .thou + 0)) square l' := by
  refine C79_roundtrip_partial .routeKo (by decide) ccwOf .thou (by decide) 0 le_rfl ⟨.ecad, some .inner, 0, [], [square]⟩
    ⟨⟨_, rfl⟩, rfl, rfl⟩ square rfl ?_ []
  refine ⟨?_, .inr ⟨ln 0 0 10 0, [ln 10 0 10 10, ln 10 10 0 10, ln 0 10 0 0], rfl, by simp, by simp [ln, Chained, PtNear], ?_, ?_⟩⟩
  · intro s hs
    simp only [square, List.mem_cons, List.not_mem_nil, or_false] at hs
    rcases hs with rfl | rfl | rfl | rfl <;> exact ⟨⟨big1 (by norm_num [ln]), big1 (by norm_num [ln])⟩, ⟨big1 (by norm_num [ln]), big1 (by norm_num [ln])⟩⟩
  · intro s hs
    simp only [square, List.mem_cons, List.not_mem_nil, or_false] at hs
    rcases hs with rfl | rfl | rfl | rfl <;> exact .inl rfl
  · intro s hs
    simp only [List.dropLast, List.mem_cons, List.not_mem_nil, or_false] at hs
    rcases hs with rfl | rfl <;> simp [Apart, ln, lengthTol] <;> norm_num

/-! What cannot be read back -/

/-- the first record of a written outline -/
theorem loop_head {single : Bool} {ccw : List QSeg → Bool} {u : Iges.Idf.Unit} {i : ℕ} {l : List QSeg} {t : Str} (h : writeOutline single ccw u i l = .text t) :
    ∃ j p r, t = recText u j p ['0'] ++ r := by
  unfold writeOutline at h
  split at h
  · cases h
  · split at h
    · simp only [Written.text.injEq] at h
      subst h
      exact ⟨_, _, _, rfl⟩
    · cases h
  · simp only at h
    split_ifs at h
    all_goals
      simp only [Written.text.injEq] at h
      subst h
      exact ⟨_, _, _, rfl⟩

/-- **C79_other_unreadable** (an other outline cannot be read back).  Whenever an other outline is written, with any name, thickness, side and
outlines, the section is refused when the file is read: there is no line end after the side of the board, so the first point of the outline
is taken for a part of it. -/
theorem C79_other_unreadable (ccw : List QSeg → Bool) (u : Iges.Idf.Unit) (s : OlnSect) (hs : SectOk .other s) (ho : s.outlines ≠ []) (text : Str)
    (hw : writeSect .other ccw u s = .text text) (after : Str) :
    ∃ header body, lines (text ++ after) = header :: body ∧ readSect .other ccw u .v3 header body = none := by
  obtain ⟨hside, hsz, hp⟩ := hs
  unfold writeSect at hw
  rw [if_neg ho] at hw
  split at hw
  · cases hw
  · rename_i info hi
    split at hw
    · cases hw
    · cases hw
    · rename_i t ht
      simp only [Written.text.injEq] at hw
      obtain ⟨l, ls, e⟩ := List.exists_cons_of_ne_nil ho
      rw [e, writeLoops] at ht
      obtain ⟨t1, t2, hl, rfl⟩ : ∃ t1 t2, writeOutline (OlnKind.single .other) ccw u 0 l = .text t1 ∧ t = t1 ++ t2 := by
        split at ht
        · cases ht
        · cases ht
        · rename_i t1 h1
          split at ht
          · cases ht
          · cases ht
          · simp only [Written.text.injEq] at ht
            exact ⟨t1, _, h1, ht.symm⟩
      obtain ⟨j, p, r, rfl⟩ := loop_head hl
      obtain ⟨la, hla, hi⟩ : ∃ la, (la = .top ∨ la = .bottom) ∧
          info = '"' :: s.ident ++ '"' :: ' ' :: coordText u s.thickness ++ ' ' :: layerText la := by
        unfold infoText at hi
        rcases hside with h | h <;> rw [h] at hi <;> simp only [Option.map_some, Option.some.injEq] at hi
        · exact ⟨.top, .inl rfl, hi.symm⟩
        · exact ⟨.bottom, .inr rfl, hi.symm⟩
      obtain ⟨h1, h2, h3⟩ := sect_header .other s.owner
      -- the words of the line
      have hbody := fetch_body (u := u) (i := j) (p := p) isAngle_zero
      have hch : ∀ c ∈ coordText u s.thickness, isSpaceC c = false ∧ c ≠ '"' ∧ c ≠ '#' ∧ c ≠ '\n' := by
        rw [coordText_eq]; exact fun c hc => fmtF_nospace hc
      have hll : '\n' ∉ layerText la := (layer_word la [] (by simp)).2.2
      let line := '"' :: (s.ident ++ '"' :: ' ' :: (coordText u s.thickness ++ ' ' :: (layerText la ++ recBody u j p ['0'])))
      have hnl : '\n' ∉ line := by
        simp only [line, List.mem_append, List.mem_cons, not_or]
        exact ⟨by decide, hp.2, by decide, by decide, fun hh => (hch _ hh).2.2.2 rfl, by decide, hll, hbody.1⟩
      have hlines : ∃ rest, lines (text ++ after) = (('.' :: (OlnKind.name .other).toList) ++ ' ' :: ownerText s.owner) :: line :: lines rest := by
        refine ⟨r ++ (t2 ++ ((".END_".toList ++ (OlnKind.name .other).toList ++ ['\n', '\n']) ++ after)), ?_⟩
        rw [← lines_line hnl, ← lines_line h2, ← hw, hi]
        have := recText_body u j p ['0'] (r ++ (t2 ++ ((".END_".toList ++ (OlnKind.name .other).toList ++ ['\n', '\n']) ++ after)))
        simp only [List.append_assoc, List.cons_append, line] at this ⊢
        rw [this]
      obtain ⟨rest, hlines⟩ := hlines
      refine ⟨_, _, hlines, ?_⟩
      -- what is read
      have hnext : nextLine (line :: lines rest) = (⟨line, false⟩, lines rest) := by
        refine nextLine_plain (by simp [line]) (by intro d hd; simp [line] at hd; subst hd; decide) ?_ _
        intro d hd
        have e2 : line = '"' :: (s.ident ++ '"' :: ' ' :: (coordText u s.thickness ++ ' ' :: (layerText la ++
          (natStr j ++ ' ' :: (coordText u p.x ++ ' ' :: (coordText u p.y ++ [' '])))))) ++ ['0'] := by
          simp [line, recBody]
        rw [e2, List.getLast?_concat] at hd
        simp at hd
        subst hd
        decide
      have w1 : getWord line = .word s.ident true (' ' :: (coordText u s.thickness ++ ' ' :: (layerText la ++ recBody u j p ['0']))) :=
        getWord_quoted (ws := []) (by intro c hc; cases hc) hp.1
      have w2 : getWord (' ' :: (coordText u s.thickness ++ ' ' :: (layerText la ++ recBody u j p ['0']))) =
          .word (coordText u s.thickness) false (' ' :: (layerText la ++ recBody u j p ['0'])) := by
        rw [coordText_eq]
        exact getWord_fmtF [' '] (by intro c hc; simp at hc; rw [hc]; rfl) _ _ _ (space_head _)
      have w3 : ∃ t, getWord (' ' :: (layerText la ++ recBody u j p ['0'])) = .word (layerText la ++ natStr j) false t := by
        refine ⟨' ' :: (coordText u p.x ++ ' ' :: (coordText u p.y ++ ' ' :: ['0'])), ?_⟩
        have := getWord_bare (ws := [' ']) (t := layerText la ++ natStr j) (rest := ' ' :: (coordText u p.x ++ ' ' :: (coordText u p.y ++ ' ' :: ['0'])))
          (by intro c hc; simp at hc; rw [hc]; rfl) (by simp [natStr_ne_nil])
          (by rcases hla with rfl | rfl <;> simp [layerText]) (by
            intro c hc
            rcases List.mem_append.1 hc with hc | hc
            · exact (show ∀ c ∈ layerText la, isSpaceC c = false by rcases hla with rfl | rfl <;> decide) c hc
            · exact (digit_plain (natStr_digit hc)).1) (space_head _)
        rw [← this]
        simp [recBody]
      obtain ⟨t, w3⟩ := w3
      have hpl : parseLayer (layerText la ++ natStr j) = none := by
        obtain ⟨c, d, e⟩ := List.exists_cons_of_ne_nil (natStr_ne_nil j)
        have hc : isDigitC c = true := natStr_digit (n := j) (by rw [e]; simp)
        have hmem : c ∈ (layerText la ++ natStr j).map Char.toUpper :=
          List.mem_map.2 ⟨c, by rw [e]; simp, digit_upper hc⟩
        have hno : ∀ tok : String, (∀ d ∈ tok.toList, isDigitC d = false) → compareToken tok (layerText la ++ natStr j) = false := by
          intro tok htok
          apply compareToken_false
          intro e3
          rw [e3] at hmem
          rw [htok c hmem] at hc
          cases hc
        unfold parseLayer
        simp only [hno "TOP" (by decide), hno "BOTTOM" (by decide), hno "BOTH" (by decide), hno "INNER" (by decide), hno "ALL" (by decide),
          Bool.false_eq_true, if_false]
      have hinfo : otherInfo u .v3 line = none := by
        unfold otherInfo
        simp only [w1, w2, w3, hpl, reduceCtorEq, if_false]
        split
        · rfl
        · split <;> rfl
      have hread : readInfo .other u .v3 (line :: lines rest) = none := by
        unfold readInfo infoLine
        simp only [hnext]
        split
        · rfl
        · rename_i h
          split at h
          · cases h
          · simp only [Option.some.injEq, Prod.mk.injEq] at h
            rw [← h.1, hinfo]; rfl
      unfold readSect
      rw [h1]
      simp only [hread, ite_self]

/-- the words of the second record of a placement section -/
theorem place_word (u : Iges.Idf.Unit) (x : ℚ) (hx : |x| ≤ 10 ^ 300) :
    getWord (' ' :: coordText u x) = .word (coordText u x) false [] ∧ readNum (coordText u x) = some (fval (places u) (x / factor u)) ∧
    '\n' ∉ coordText u x ∧ (∀ c ∈ (coordText u x).getLast?, isSpaceC c = false) ∧ coordText u x ≠ [] := by
  obtain ⟨-, h1, h2, h3, h4⟩ := thick_line u hx []
  have hch : ∀ c ∈ coordText u x, isSpaceC c = false ∧ c ≠ '"' ∧ c ≠ '#' ∧ c ≠ '\n' := by
    rw [coordText_eq]; exact fun c hc => fmtF_nospace hc
  refine ⟨?_, h4, h2, fun c hc => (hch c (List.mem_of_getLast? hc)).1, h1⟩
  rw [coordText_eq]
  have := getWord_fmtF [' '] (by intro c hc; simp at hc; rw [hc]; rfl) (places u) (x / factor u) [] (by simp)
  simpa using this

/-- the shape of a written placement section, and the fate of its second record -/
theorem place_refused {k : OlnKind} (ccw : List QSeg → Bool) {u : Iges.Idf.Unit} {s : OlnSect} {line text : Str} (ho : s.outlines ≠ [])
    (hi : infoText k u s = some (line ++ ['\n'])) (h0 : line ≠ []) (h1 : ∀ c ∈ line.head?, isSpaceC c = false ∧ c ≠ '#')
    (h2 : ∀ c ∈ line.getLast?, isSpaceC c = false) (h3 : '\n' ∉ line)
    (hk : ∀ input rest, infoLine input = some (line, rest) → readInfo k u .v3 input = none)
    (hw : writeSect k ccw u s = .text text) (after : Str) :
    ∃ header body, lines (text ++ after) = header :: body ∧ readSect k ccw u .v3 header body = none := by
  unfold writeSect at hw
  rw [if_neg ho, hi] at hw
  simp only at hw
  split at hw
  · cases hw
  · cases hw
  · rename_i t ht
    simp only [Written.text.injEq] at hw
    obtain ⟨g1, g2, g3⟩ := sect_header k s.owner
    refine ⟨('.' :: k.name.toList) ++ ' ' :: ownerText s.owner, lines (line ++ '\n' :: (t ++ (".END_".toList ++ k.name.toList ++ ['\n', '\n'] ++ after))), ?_, ?_⟩
    · rw [← lines_line g2, ← hw]
      simp only [List.append_assoc, List.cons_append, List.nil_append]
    · unfold readSect
      rw [g1]
      simp only [hk _ _ (infoLine_plain h0 h1 h2 h3 _), ite_self]

/-- **C79_place_unreadable** (a placement outline without a height cannot be read back).  Whenever a placement outline is written
whose height is not given, which is a height of -1 or any other clearly negative number, the section is refused when the file is
read: the number is written, and then found to be negative. -/
theorem C79_place_unreadable (ccw : List QSeg → Bool) (u : Iges.Idf.Unit) (s : OlnSect) (l : Layer) (hl : s.side = some l) (hl2 : Sided l)
    (ht : s.thickness < - lengthTol u) (hs : |s.thickness| ≤ 10 ^ 300) (ho : s.outlines ≠ []) (text : Str)
    (hw : writeSect .place ccw u s = .text text) (after : Str) :
    ∃ header body, lines (text ++ after) = header :: body ∧ readSect .place ccw u .v3 header body = none := by
  obtain ⟨p1, p2, p3, p4, p5⟩ := place_word u s.thickness hs
  obtain ⟨c, r, e, e1, e2⟩ := layer_head l
  obtain ⟨g1, g2, g3⟩ := layer_word l (' ' :: coordText u s.thickness) (space_head _)
  have hneg : fval (places u) (s.thickness / factor u) < 0 := by
    have h1 := (abs_le.1 (again_near u s.thickness)).2
    have h2 : again u s.thickness < 0 := by linarith
    unfold again at h2
    rcases mul_neg_iff.1 h2 with ⟨-, h⟩ | ⟨h, -⟩
    · exact absurd h (not_lt.2 (factor_pos u).le)
    · exact h
  refine place_refused ccw (line := layerText l ++ ' ' :: coordText u s.thickness) ho ?_ (by simp)
    (by rw [e]; intro d hd; simp at hd; subst hd; exact ⟨e1, e2⟩) ?_ ?_ ?_ hw after
  · unfold infoText
    rw [hl]
    rcases hl2 with rfl | rfl | rfl <;> simp
  · intro d hd
    obtain ⟨w, z, hz⟩ := (List.eq_nil_or_concat (coordText u s.thickness)).resolve_left p5
    rw [List.concat_eq_append] at hz
    rw [hz, ← List.cons_append, ← List.append_assoc, List.getLast?_concat] at hd
    apply p4
    rw [hz, List.getLast?_concat]
    exact hd
  · simp only [List.mem_append, List.mem_cons, not_or]
    exact ⟨g3, by decide, p3⟩
  · intro input rest h
    unfold readInfo
    simp only [reduceCtorEq, if_false, h]
    unfold placeInfo
    rw [g1]
    simp only [placeSide_text hl2, p1, p2, if_pos hneg, Option.map_none]

/-- such an outline is what the reader makes of a placement outline without a height -/
example : (readSect .place (fun _ => true) .mm .v3 ".PLACE_OUTLINE ECAD".toList
      (ls "TOP\n0 0 0 0\n0 1 0 360\n.END_PLACE_OUTLINE\n")).map (fun x => (x.1.side, x.1.thickness, x.1.outlines)) =
      some (some .top, -1, [[⟨⟨0, 0⟩, ⟨1, 0⟩, 360⟩]]) ∧
    writeSect .place (fun _ => true) .mm ⟨.ecad, some .top, -1, [], [[⟨⟨0, 0⟩, ⟨1, 0⟩, 360⟩]]⟩ =
      .text ".PLACE_OUTLINE ECAD\nTOP -1.00000\n0 0.00000 0.00000 0\n0 1.00000 0.00000 360\n.END_PLACE_OUTLINE\n\n".toList := by
  constructor <;> decide +kernel

/-- **C79_keepout_unreadable** (a placement keepout without a height cannot be read back).  Whenever a placement keepout with a negative
height is written, the section is refused when the file is read: the height is left out, although it must be given. -/
theorem C79_keepout_unreadable (ccw : List QSeg → Bool) (u : Iges.Idf.Unit) (s : OlnSect) (l : Layer) (hl : s.side = some l) (hl2 : Sided l)
    (ht : s.thickness < 0) (ho : s.outlines ≠ []) (text : Str) (hw : writeSect .placeKo ccw u s = .text text) (after : Str) :
    ∃ header body, lines (text ++ after) = header :: body ∧ readSect .placeKo ccw u .v3 header body = none := by
  obtain ⟨c, r, e, e1, e2⟩ := layer_head l
  obtain ⟨g1, g2, g3⟩ := layer_word l [] (by simp)
  rw [List.append_nil] at g1
  refine place_refused ccw (line := layerText l) ho ?_ (by rw [e]; simp)
    (by rw [e]; intro d hd; simp at hd; subst hd; exact ⟨e1, e2⟩) (by cases l <;> decide) g3 ?_ hw after
  · unfold infoText
    rw [hl]
    rcases hl2 with rfl | rfl | rfl <;> simp [ht]
  · intro input rest h
    unfold readInfo
    simp only [h]
    unfold placeInfo
    rw [g1]
    have : getWord [] = .missing := by decide
    simp only [placeSide_text hl2, this, if_true, Option.map_none]

/-- what is written for such a keepout, and for an other outline -/
example : writeSect .placeKo (fun _ => true) .mm ⟨.ecad, some .both, -1, [], [[⟨⟨0, 0⟩, ⟨1, 0⟩, 360⟩]]⟩ =
      .text ".PLACE_KEEPOUT ECAD\nBOTH\n0 0.00000 0.00000 0\n0 1.00000 0.00000 360\n.END_PLACE_KEEPOUT\n\n".toList ∧
    writeSect .other (fun _ => true) .mm ⟨.ecad, some .top, 1, "LID".toList, [[⟨⟨0, 0⟩, ⟨1, 0⟩, 360⟩]]⟩ =
      .text ".OTHER_OUTLINE ECAD\n\"LID\" 1.00000 TOP0 0.00000 0.00000 0\n0 1.00000 0.00000 360\n.END_OTHER_OUTLINE\n\n".toList := by
  constructor <;> decide +kernel

/-! What is accepted -/

theorem single_new {ccw : List QSeg → Bool} {st st' : OutState} {i : ℤ} (h : newLoop true ccw st i = some st') (hd : st.done = []) : st'.done = [] := by
  unfold newLoop at h
  split_ifs at h <;> simp_all <;> (subst h; simp_all)

theorem single_add {st st' : OutState} {p : Pt} {a : ℚ} (h : addPoint st p a = some st') (hd : st.done = []) : st'.done = [] := by
  unfold addPoint at h
  simp only at h
  split_ifs at h <;> (simp only [Option.some.injEq] at h; subst h; exact hd)

theorem single_line {ccw : List QSeg → Bool} {u : Iges.Idf.Unit} {v : Version} {st st' : OutState} {s : Str}
    (h : outlineLine true false ccw u v st s = .next st') (hd : st.done = []) : st'.done = [] := by
  unfold outlineLine at h
  split at h
  · split at h
    · cases h
    split at h
    · cases h
    split at h
    · split at h <;> cases h
    · split at h
      · cases h
      · rename_i st1 h1
        have g := single_new h1 hd
        repeat' (split at h)
        all_goals first
          | cases h; done
          | (rename_i h2; cases h; exact single_add h2 g)
  · cases h

theorem single_read (ccw : List QSeg → Bool) (u : Iges.Idf.Unit) (v : Version) (ls : List (List QSeg)) (rest : List Str) :
    ∀ (input : List Str) (st : OutState), st.done = [] → readOutlines true false ccw u v st input = some (ls, rest) → ls.length ≤ 1
  | [], _, _, h => by cases h
  | raw :: input, st, hd, h => by
    have hl : st.loops.length ≤ 1 := by unfold OutState.loops; split <;> simp [hd]
    rw [readOutlines] at h
    split at h
    · exact single_read ccw u v ls rest input st hd h
    · split at h
      · cases h
      · split_ifs at h
        simp only [Option.some.injEq, Prod.mk.injEq] at h
        rw [← h.1]; exact hl
      · simp only [Option.some.injEq, Prod.mk.injEq] at h
        rw [← h.1]; exact hl
      · rename_i st' h1
        exact single_read ccw u v ls rest input st' (single_line h1 hd) h

theorem placeSide_sided {s : Str} {l : Layer} (h : placeSide s = some l) : Sided l := by
  unfold placeSide at h
  unfold Sided
  split at h <;> simp_all

/-- **C79_accepts** (what an accepted section holds).  Whatever the text of a section is, if it is accepted then every outline is a
circle or a closed chain of at least two segments; all kinds but other outlines have at most one outline; other outlines are
on the top or the bottom, placement outlines, keepouts and regions on the top, the bottom or both; the height of a placement
keepout is not negative, and that of a placement outline is not negative or is -1, for none; and files of version 2 name no inner
layers for keepouts. -/
theorem C79_accepts (k : OlnKind) (ccw : List QSeg → Bool) (u : Iges.Idf.Unit) (v : Version) (header : Str) (input rest : List Str) (s : OlnSect)
    (h : readSect k ccw u v header input = some (s, rest)) :
    (∀ l ∈ s.outlines, ClosedLoop l) ∧ (k ≠ .other → s.outlines.length ≤ 1) ∧
    (k = .other → s.side = some .top ∨ s.side = some .bottom) ∧
    (k = .place ∨ k = .placeKo ∨ k = .region → ∃ l, s.side = some l ∧ Sided l) ∧
    (k = .route ∨ k = .routeKo → ∃ l, s.side = some l) ∧
    (k = .routeKo → v = .v2 → s.side ≠ some .inner ∧ s.side ≠ some .all) ∧
    (k = .placeKo → 0 ≤ s.thickness) ∧ (k = .place → 0 ≤ s.thickness ∨ s.thickness = -1) := by
  unfold readSect at h
  split at h
  swap
  · cases h
  split at h
  · cases h
  split at h
  · cases h
  rename_i side th ident r1 hinfo
  split at h
  · cases h
  rename_i ls r2 hls
  split at h
  · cases h
  split at h
  swap
  · cases h
  simp only [Option.some.injEq, Prod.mk.injEq] at h
  obtain ⟨rfl, -⟩ := h
  have hclosed := C78_closed k.single ccw u v r1 r2 ls hls
  refine ⟨?_, ?_, ?_⟩
  · intro l hl
    obtain ⟨i, hi⟩ := List.mem_iff_getElem?.1 hl
    exact (hclosed i l hi).1
  · intro hk
    have : k.single = true := by cases k <;> first | rfl | exact absurd rfl hk
    rw [this] at hls
    exact single_read ccw u v ls r2 r1 .start rfl hls
  -- the second record
  have place : ∀ (ko : Bool) (a : Str) x, placeInfo ko u v a = some x →
      (∃ l, x.1 = some l ∧ Sided l) ∧ (0 ≤ x.2.1 ∨ (ko = false ∧ x.2.1 = -1)) := by
    intro ko a x hx
    unfold placeInfo at hx
    split at hx
    swap
    · cases hx
    split at hx
    · cases hx
    rename_i l hl
    split at hx
    · split at hx
      · cases hx
      split at hx
      · cases hx
      split at hx
      · cases hx
      simp only [Option.some.injEq] at hx
      subst hx
      refine ⟨⟨l, rfl, placeSide_sided hl⟩, .inl ?_⟩
      show (0 : ℚ) ≤ if _ then _ else _
      split
      · exact le_rfl
      · rename_i h; exact not_lt.1 h
    · split at hx
      · cases hx
      · rename_i hko
        simp only [Option.some.injEq] at hx
        subst hx
        exact ⟨⟨l, rfl, placeSide_sided hl⟩, .inr ⟨by simpa using hko, rfl⟩⟩
  have route : ∀ (a : Str) x, routeInfo v a = some x → ∃ l, x.1 = some l ∧ (v = .v2 → l ≠ .inner ∧ l ≠ .all) := by
    intro a x hx
    unfold routeInfo at hx
    split at hx
    swap
    · cases hx
    split at hx
    · cases hx
    split at hx
    · cases hx
    rename_i l hl
    split at hx
    · cases hx
    rename_i hv
    simp only [Option.some.injEq] at hx
    subst hx
    refine ⟨l, rfl, fun h2 => ⟨?_, ?_⟩⟩
    · intro h; exact hv ⟨h2, .inl h⟩
    · intro h; exact hv ⟨h2, .inr h⟩
  unfold readInfo at hinfo
  cases k
  · -- other
    refine ⟨fun _ => ?_, by simp, by simp, by simp, by simp, by simp⟩
    simp only at hinfo
    split at hinfo
    · cases hinfo
    · rename_i a r3 ha
      obtain ⟨x, hx, hy⟩ := Option.map_eq_some_iff.1 hinfo
      simp only [Prod.mk.injEq] at hy
      obtain ⟨hy, -⟩ := hy
      have : side = x.1 := by rw [hy]
      show side = some .top ∨ side = some .bottom
      rw [this]
      unfold otherInfo at hx
      repeat' (split at hx)
      all_goals first
        | cases hx; done
        | (simp only [Option.some.injEq] at hx; subst hx; simp)
  · -- via
    refine ⟨by simp, by simp, by simp, by simp, by simp, by simp⟩
  · -- route
    refine ⟨by simp, by simp, fun _ => ?_, by simp, by simp, by simp⟩
    show ∃ l, side = some l
    simp only at hinfo
    split at hinfo
    · simp only [Option.some.injEq, Prod.mk.injEq] at hinfo
      exact ⟨_, hinfo.1.1.symm⟩
    · split at hinfo
      · cases hinfo
      · obtain ⟨x, hx, hy⟩ := Option.map_eq_some_iff.1 hinfo
        simp only [Prod.mk.injEq] at hy
        obtain ⟨l, hl, -⟩ := route _ x hx
        exact ⟨l, by rw [← hl, hy.1]⟩
  · -- routeKo
    simp only at hinfo
    split at hinfo
    · cases hinfo
    · obtain ⟨x, hx, hy⟩ := Option.map_eq_some_iff.1 hinfo
      simp only [Prod.mk.injEq] at hy
      obtain ⟨l, hl, hl2⟩ := route _ x hx
      have hside : side = some l := by rw [← hl, hy.1]
      refine ⟨by simp, by simp, fun _ => ⟨l, hside⟩, fun _ hv => ?_, by simp, by simp⟩
      show side ≠ _ ∧ side ≠ _
      rw [hside]
      obtain ⟨a, b⟩ := hl2 hv
      exact ⟨fun h => a (Option.some.inj h), fun h => b (Option.some.inj h)⟩
  · -- place
    simp only at hinfo
    split at hinfo
    · simp only [Option.some.injEq, Prod.mk.injEq] at hinfo
      obtain ⟨⟨e1, e2, -⟩, -⟩ := hinfo
      exact ⟨by simp, fun _ => ⟨.top, e1.symm, .inl rfl⟩, by simp, by simp, by simp, fun _ => .inl (by rw [← e2])⟩
    · split at hinfo
      · cases hinfo
      · obtain ⟨x, hx, hy⟩ := Option.map_eq_some_iff.1 hinfo
        simp only [Prod.mk.injEq] at hy
        obtain ⟨⟨l, hl, hl2⟩, ht⟩ := place _ _ x hx
        rw [hy.1] at hl ht
        exact ⟨by simp, fun _ => ⟨l, hl, hl2⟩, by simp, by simp, by simp, fun _ => ht.imp id (fun h => h.2)⟩
  · -- placeKo
    simp only at hinfo
    split at hinfo
    · cases hinfo
    · obtain ⟨x, hx, hy⟩ := Option.map_eq_some_iff.1 hinfo
      simp only [Prod.mk.injEq] at hy
      obtain ⟨⟨l, hl, hl2⟩, ht⟩ := place _ _ x hx
      rw [hy.1] at hl ht
      refine ⟨by simp, fun _ => ⟨l, hl, hl2⟩, by simp, by simp, fun _ => ?_, by simp⟩
      rcases ht with h | ⟨h, -⟩
      · exact h
      · cases h
  · -- region
    simp only at hinfo
    split at hinfo
    · cases hinfo
    · obtain ⟨x, hx, hy⟩ := Option.map_eq_some_iff.1 hinfo
      simp only [Prod.mk.injEq] at hy
      refine ⟨by simp, fun _ => ?_, by simp, by simp, by simp, by simp⟩
      show ∃ l, side = some l ∧ Sided l
      have : side = x.1 := by rw [hy.1]
      rw [this]
      unfold regionInfo at hx
      split at hx
      swap
      · cases hx
      split at hx
      · cases hx
      rename_i l hl
      split at hx
      · simp only [Option.some.injEq] at hx
        subst hx
        exact ⟨l, rfl, placeSide_sided hl⟩
      · cases hx

/-- **C79_empty_lost** (a section without outlines is not written): nothing of it, its owner, its side or its name, is in the file. -/
theorem C79_empty_lost (k : OlnKind) (ccw : List QSeg → Bool) (u : Iges.Idf.Unit) (s : OlnSect) (h : s.outlines = []) :
    writeSect k ccw u s = .text [] := by unfold writeSect; rw [if_pos h]

/-- **C79_no_side_refused** (a section whose side was never set cannot be written): saving a board with such a section fails, for all kinds but
keepouts for vias. -/
theorem C79_no_side_refused (k : OlnKind) (hk : k ≠ .via) (ccw : List QSeg → Bool) (u : Iges.Idf.Unit) (s : OlnSect) (h : s.outlines ≠ [])
    (hs : s.side = none) : writeSect k ccw u s = .throws := by
  unfold writeSect
  rw [if_neg h]
  have : infoText k u s = none := by
    unfold infoText
    rw [hs]
    cases k <;> first | rfl | exact absurd rfl hk
  rw [this]

/-- the end of a section must fill its line, for keepouts for vias and routing, but not for placement -/
theorem C79_end_line (c : Bool) :
    readSect .via (fun _ => c) .mm .v3 ".VIA_KEEPOUT ECAD".toList (ls "0 0 0 0\n0 1 0 360\n.END_VIA_KEEPOUT x\n") = none ∧
    (readSect .place (fun _ => c) .mm .v3 ".PLACE_OUTLINE ECAD".toList (ls "TOP 1\n0 0 0 0\n0 1 0 360\n.END_PLACE_OUTLINE x\n")).isSome = true := by
  cases c <;> decide +kernel

end Iges.Props.IdfSections
