import Verif.Spec.IdfSections
import Verif.Props.IdfOutline
/-
Lemmas for the outline sections of board files.
-/
namespace Iges.Idf
open Iges.Idf.Spec Iges.Props.IdfNotes Iges.Props.IdfDrill Iges.Props.IdfOutline

theorem sect_header (k : OlnKind) (o : Owner) :
    getWord (('.' :: k.name.toList) ++ ' ' :: ownerText o) = .word ('.' :: k.name.toList) false (' ' :: ownerText o) ∧
    '\n' ∉ ('.' :: k.name.toList) ++ ' ' :: ownerText o ∧ compareToken ("." ++ k.name) ('.' :: k.name.toList) = true := by
  cases k <;> cases o <;> decide

theorem finish_of {e : Str} (h : getWord e = .word e false []) (h2 : 5 ≤ e.length ∧ compareToken ".END_" (e.take 5) = true)
    (single comp : Bool) (ccw : List QSeg → Bool) (u : Iges.Idf.Unit) (v : Version) (st : OutState) :
    outlineLine single comp ccw u v st e = .finish := by
  unfold outlineLine
  rw [h]
  simp only [Bool.false_eq_true, if_false, if_pos h2]

theorem sect_end (k : OlnKind) : getWord (".END_".toList ++ k.name.toList) = .word (".END_".toList ++ k.name.toList) false [] ∧
    (5 ≤ (".END_".toList ++ k.name.toList).length ∧ compareToken ".END_" ((".END_".toList ++ k.name.toList).take 5) = true) ∧
    fetchLine (".END_".toList ++ k.name.toList) = some ⟨".END_".toList ++ k.name.toList, false⟩ ∧ isEnd k (".END_".toList ++ k.name.toList) = true ∧
    '\n' ∉ ".END_".toList ++ k.name.toList ∧ ".END_".toList ++ k.name.toList ≠ [] := by
  cases k <;> decide

/-- the end of the outlines -/
theorem read_sect_end (k : OlnKind) {ccw : List QSeg → Bool} {u : Iges.Idf.Unit} {v : Version} {st : OutState} (h : st.idx = -1 ∨ st.closed = true) (after : Str) :
    readOutlines k.single false ccw u v st (lines (".END_".toList ++ k.name.toList ++ ['\n', '\n'] ++ after)) =
      some (st.loops, (".END_".toList ++ k.name.toList) :: [] :: lines after) ∧
    infoLine ((".END_".toList ++ k.name.toList) :: [] :: lines after) = some (".END_".toList ++ k.name.toList, [] :: lines after) := by
  obtain ⟨e1, e2, e3, -, e5, e6⟩ := sect_end k
  generalize ".END_".toList ++ k.name.toList = e at *
  have e7 : e ++ ['\n', '\n'] ++ after = e ++ '\n' :: ([] ++ '\n' :: after) := by simp
  constructor
  · rw [e7, lines_line e5, lines_line (by simp), readOutlines, e3]
    simp only [finish_of e1 e2]
    rw [if_neg]
    rintro ⟨h1, -, h2⟩
    rcases h with h | h
    · exact h1 h
    · rw [h] at h2; cases h2
  · unfold infoLine
    rw [nextLine, e3]
    simp [e6]

/-- what `writeOutline` writes for a section with one outline -/
theorem write_single {ccw : List QSeg → Bool} {u : Iges.Idf.Unit} {g : ℚ} (j : ℕ) {l : List QSeg} (h : GoodLoop u g l) :
    ∃ i ≤ 1, writeOutline true ccw u j l = .text (loopText u i l) := by
  match l with
  | [] => rcases h.2 with ⟨s, h, -⟩ | ⟨f, r, h, -⟩ <;> cases h
  | [s] =>
    have hc : s.isCircle = true := by
      rcases h.2 with ⟨s, h, hc⟩ | ⟨f, r, h, hr, -⟩
      · cases h; exact hc
      · cases h; exact absurd rfl hr
    refine ⟨0, by omega, ?_⟩
    unfold writeOutline
    simp only [hc, if_true, loopText]
  | f :: s :: r =>
    unfold writeOutline
    cases hc : ccw (f :: s :: r)
    · exact ⟨1, le_refl _, by simp [loopText, hc]⟩
    · exact ⟨0, by omega, by simp [loopText, hc]⟩

theorem layer_word (l : Layer) (rest : Str) (hr : ∀ c ∈ rest.head?, isSpaceC c = true) :
    getWord (layerText l ++ rest) = .word (layerText l) false rest ∧ parseLayer (layerText l) = some l ∧ '\n' ∉ layerText l := by
  refine ⟨?_, by cases l <;> decide, by cases l <;> decide⟩
  have := getWord_bare (ws := []) (t := layerText l) (rest := rest) (by intro c hc; cases hc) (by cases l <;> decide)
    (by cases l <;> decide) (by cases l <;> decide) hr
  exact this

theorem layer_head (l : Layer) : ∃ c r, layerText l = c :: r ∧ isSpaceC c = false ∧ c ≠ '#' := by
  cases l <;> exact ⟨_, _, rfl, by decide, by decide⟩

theorem infoLine_plain {s : Str} (h0 : s ≠ []) (h1 : ∀ c ∈ s.head?, isSpaceC c = false ∧ c ≠ '#')
    (h2 : ∀ c ∈ s.getLast?, isSpaceC c = false) (h3 : '\n' ∉ s) (rest : Str) : infoLine (lines (s ++ '\n' :: rest)) = some (s, lines rest) := by
  rw [lines_line h3]
  unfold infoLine
  rw [nextLine_plain h0 h1 h2]
  simp [h0, lines_ne_nil]

theorem placeSide_text {l : Layer} (h : Sided l) : placeSide (layerText l) = some l := by
  rcases h with rfl | rfl | rfl <;> decide

theorem fval_nonneg (p : ℕ) {x : ℚ} (h : 0 ≤ x) : 0 ≤ fval p x := by
  unfold fval
  rw [if_neg (not_lt.2 h)]
  positivity

/-- record 2 is written and read -/
theorem read_info {k : OlnKind} (hk : k ≠ .other) {u : Iges.Idf.Unit} (hu : u ≠ .tnm) {s : OlnSect} (h : SectOk k s) (rest : Str) :
    ∃ info th, infoText k u s = some info ∧ readInfo k u .v3 (lines (info ++ rest)) = some ((s.side, th, s.ident), lines rest) ∧
      |th - s.thickness| ≤ lengthTol u := by
  have hz : |(0:ℚ) - 0| ≤ lengthTol u := by
    have := again_near u 0
    exact le_trans (by simp) (le_trans (abs_nonneg _) this)
  have route : ∀ l, readInfo .routeKo u .v3 (lines (layerText l ++ ['\n'] ++ rest)) = some ((some l, 0, []), lines rest) := by
    intro l
    obtain ⟨g1, g2, g3⟩ := layer_word l [] (by simp)
    obtain ⟨c, r, e, e1, e2⟩ := layer_head l
    rw [List.append_nil] at g1
    have e : infoLine (lines (layerText l ++ ['\n'] ++ rest)) = some (layerText l, lines rest) := by
      rw [List.append_assoc]
      exact infoLine_plain (by rw [e]; simp) (by rw [e]; intro d hd; simp at hd; subst hd; exact ⟨e1, e2⟩)
        (by cases l <;> decide) g3 rest
    unfold readInfo
    simp only [e]
    unfold routeInfo
    rw [g1]
    simp only [g2, Bool.false_eq_true, if_false, reduceCtorEq, false_and, Option.map_some]
  have place : ∀ l ko, Sided l → 0 ≤ s.thickness → |s.thickness| ≤ 10 ^ 300 →
      ∃ a, infoLine (lines (layerText l ++ (' ' :: coordText u s.thickness ++ ['\n']) ++ rest)) = some (a, lines rest) ∧
        placeInfo ko u .v3 a = some (some l, again u s.thickness, []) := by
    intro l ko hl h0 hs
    have hch : ∀ c ∈ coordText u s.thickness, isSpaceC c = false ∧ c ≠ '"' ∧ c ≠ '#' ∧ c ≠ '\n' := by
      rw [coordText_eq]; exact fun c hc => fmtF_nospace hc
    obtain ⟨g1, g2, g3⟩ := layer_word l (' ' :: coordText u s.thickness) (space_head _)
    obtain ⟨c, r, e, e1, e2⟩ := layer_head l
    have hne : coordText u s.thickness ≠ [] := by
      rw [coordText_eq]; obtain ⟨c, r, e⟩ := fmtF_head (places u) (s.thickness / factor u); rw [e]; simp
    refine ⟨layerText l ++ ' ' :: coordText u s.thickness, ?_, ?_⟩
    · have := infoLine_plain (s := layerText l ++ ' ' :: coordText u s.thickness) (by simp)
        (by rw [e]; intro d hd; simp at hd; subst hd; exact ⟨e1, e2⟩) (by
          intro d hd
          obtain ⟨w, z, hz⟩ := (List.eq_nil_or_concat (coordText u s.thickness)).resolve_left hne
          rw [List.concat_eq_append] at hz
          rw [hz, ← List.cons_append, ← List.append_assoc, List.getLast?_concat] at hd
          simp at hd
          subst hd
          exact (hch _ (by rw [hz]; simp)).1) (by
          simp only [List.mem_append, List.mem_cons, not_or]
          exact ⟨g3, by decide, fun hh => (hch _ hh).2.2.2 rfl⟩) rest
      rw [← this]
      simp
    · have hw := bare_word (coordText u s.thickness) hne (by
        intro e
        obtain ⟨c, r, e'⟩ := List.exists_cons_of_ne_nil hne
        rw [e'] at e
        simp at e
        exact (hch c (by rw [e']; simp)).2.1 e) (fun c hc => (hch c hc).1) [] (by simp)
      rw [List.append_nil] at hw
      have hr : readNum (coordText u s.thickness) = some (fval (places u) (s.thickness / factor u)) := (thick_line u hs []).2.2.2.2
      have hp : 0 ≤ fval (places u) (s.thickness / factor u) := fval_nonneg _ (div_nonneg h0 (factor_pos u).le)
      unfold placeInfo
      rw [g1]
      simp only [placeSide_text hl, hw, hr, unitFactor_eq hu, if_neg (not_lt.2 hp)]
      rw [if_neg (not_lt.2 (mul_nonneg hp (factor_pos u).le))]
      rfl
  cases k with
  | other => exact absurd rfl hk
  | via =>
    obtain ⟨h1, h2, h3⟩ := h
    rw [h1, h2, h3]
    exact ⟨[], 0, rfl, rfl, hz⟩
  | route =>
    obtain ⟨⟨l, h1⟩, h2, h3⟩ := h
    rw [h1, h2, h3]
    refine ⟨_, 0, by unfold infoText; rw [h1]; rfl, ?_, hz⟩
    rw [← route l]; rfl
  | routeKo =>
    obtain ⟨⟨l, h1⟩, h2, h3⟩ := h
    rw [h1, h2, h3]
    exact ⟨_, 0, by unfold infoText; rw [h1]; rfl, route l, hz⟩
  | place =>
    obtain ⟨⟨l, h1, hl⟩, h2, h4, h3⟩ := h
    obtain ⟨a, p1, p2⟩ := place l false hl h2 h4
    rw [h1, h3]
    refine ⟨layerText l ++ (' ' :: coordText u s.thickness ++ ['\n']), again u s.thickness, ?_, ?_, again_near u _⟩
    · unfold infoText
      rw [h1]
      rcases hl with rfl | rfl | rfl <;> simp
    · unfold readInfo
      simp only [reduceCtorEq, if_false, p1, p2, Option.map_some]
  | placeKo =>
    obtain ⟨⟨l, h1, hl⟩, h2, h4, h3⟩ := h
    obtain ⟨a, p1, p2⟩ := place l true hl h2 h4
    rw [h1, h3]
    refine ⟨layerText l ++ (' ' :: coordText u s.thickness ++ ['\n']), again u s.thickness, ?_, ?_, again_near u _⟩
    · unfold infoText
      rw [h1]
      rcases hl with rfl | rfl | rfl <;> simp [not_lt.2 h2]
    · unfold readInfo
      simp only [p1, p2, Option.map_some]
  | region =>
    obtain ⟨⟨l, h1, hl⟩, h2, h3⟩ := h
    rw [h1, h2]
    refine ⟨layerText l ++ ' ' :: '"' :: s.ident ++ ['"', '\n'], 0, ?_, ?_, hz⟩
    · unfold infoText
      rw [h1]
      rcases hl with rfl | rfl | rfl <;> simp
    · obtain ⟨g1, g2, g3⟩ := layer_word l (' ' :: '"' :: (s.ident ++ ['"'])) (space_head _)
      obtain ⟨c, r, e, e1, e2⟩ := layer_head l
      have e0 : infoLine (lines (layerText l ++ ' ' :: '"' :: s.ident ++ ['"', '\n'] ++ rest)) =
          some (layerText l ++ ' ' :: '"' :: (s.ident ++ ['"']), lines rest) := by
        have := infoLine_plain (s := layerText l ++ ' ' :: '"' :: (s.ident ++ ['"'])) (by simp)
          (by rw [e]; intro d hd; simp at hd; subst hd; exact ⟨e1, e2⟩) (by
            intro d hd
            rw [← List.cons_append, ← List.cons_append, ← List.append_assoc, List.getLast?_concat] at hd
            simp at hd
            subst hd
            decide) (by
            simp only [List.mem_append, List.mem_cons, not_or]
            exact ⟨g3, by decide, by decide, h3.2, by decide⟩) rest
        rw [← this]
        simp
      have hw := quoted_word s.ident h3.1 []
      unfold readInfo
      simp only [e0]
      unfold regionInfo
      rw [g1]
      simp only [placeSide_text hl]
      rw [show getWord (' ' :: '"' :: (s.ident ++ ['"'])) = .word s.ident true [] by rw [← hw]; simp]
      simp

end Iges.Idf
