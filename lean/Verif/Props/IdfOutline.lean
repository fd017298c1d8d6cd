import Verif.Lemmas.IdfOutline
import Verif.Props.IdfLoop
/-
C78: outlines of boards written to IDF files and read back.
-/
namespace Iges.Props.IdfOutline
open Iges.Idf Iges.Idf.Spec Iges.Props.IdfNotes Iges.Props.IdfDrill

theorem owner_read (o : Owner) : headerOwner (' ' :: ownerText o) = o := by cases o <;> decide

theorem header_word (o : Owner) : getWord (".BOARD_OUTLINE ".toList ++ ownerText o) = .word ".BOARD_OUTLINE".toList false (' ' :: ownerText o) := by
  cases o <;> decide

theorem header_noeol (o : Owner) : '\n' ∉ ".BOARD_OUTLINE ".toList ++ ownerText o := by
  cases o <;> decide

theorem end_finish (single comp : Bool) (ccw : List QSeg → Bool) (u : Iges.Idf.Unit) (v : Version) (st : OutState) :
    outlineLine single comp ccw u v st ".END_BOARD_OUTLINE".toList = .finish := by
  have h : getWord ".END_BOARD_OUTLINE".toList = .word ".END_BOARD_OUTLINE".toList false [] := by decide
  unfold outlineLine
  rw [h]
  have h2 : 5 ≤ (".END_BOARD_OUTLINE".toList).length ∧ compareToken ".END_" ((".END_BOARD_OUTLINE".toList).take 5) = true := by decide
  simp only [Bool.false_eq_true, if_false, if_pos h2]

/-- the line with the thickness -/
theorem thick_line (u : Iges.Idf.Unit) {x : ℚ} (hx : |x| ≤ 10 ^ 300) (rest : List Str) :
    nextLine (coordText u x :: rest) = (⟨coordText u x, false⟩, rest) ∧ coordText u x ≠ [] ∧ '\n' ∉ coordText u x ∧
      getWord (coordText u x) = .word (coordText u x) false [] ∧ readNum (coordText u x) = some (fval (places u) (x / factor u)) := by
  rw [coordText_eq]
  obtain ⟨c, r, e⟩ := fmtF_head (places u) (x / factor u)
  have hch : ∀ c ∈ fmtF (places u) (x / factor u), isSpaceC c = false ∧ c ≠ '"' ∧ c ≠ '#' ∧ c ≠ '\n' := fun c hc => fmtF_nospace hc
  have h0 : fmtF (places u) (x / factor u) ≠ [] := by rw [e]; simp
  refine ⟨nextLine_plain h0 ?_ ?_ _, h0, fun h => (hch _ h).2.2.2 rfl, ?_, ?_⟩
  · intro d hd
    have := hch d (List.mem_of_head? hd)
    exact ⟨this.1, this.2.2.1⟩
  · intro d hd
    exact (hch d (List.mem_of_getLast? hd)).1
  · have := getWord_fmtF [] (by intro c hc; cases hc) (places u) (x / factor u) [] (by simp)
    simpa using this
  · have h2 := scanNum_fmtF (places_pos u) (x / factor u) (fval_size (size_div u hx)) [] (by simp)
    rw [List.append_nil] at h2
    unfold readNum
    rw [h2]; rfl

/-- **C78_roundtrip_partial** (the outline of a board survives writing and reading).  A board with any number of outlines is
written, and the section is read back with whatever follows it in the file.  Then the owner is the same, the thickness is the same
up to the places written, there are as many outlines, and each has the same segments in the same order up to the places written
(five of a millimetre or one of a thousandth of an inch; three of a degree) and the gaps `g` of the outline; the first
outline is delivered counterclockwise and the others clockwise, whichever way they ran before.  Missing: thicknesses that are
printed as zero (`C78_thin_board`), outlines that touch their first point on the way (`C78_touching_refused`), angles within a
hundredth of a degree of zero or a full turn, and outlines so thin that rounding can change their direction. -/
theorem C78_roundtrip_partial (u : Iges.Idf.Unit) (hu : u ≠ .tnm) (v : Version) (g : ℚ) (hg : 0 ≤ g) (b : BoardOln)
    (hlen : b.outlines.length ≤ 2147483647) (ht : |b.thickness| ≤ 10 ^ 300) (ht0 : lengthTol u < b.thickness)
    (hgood : ∀ k l, b.outlines[k]? = some l →
      GoodLoop u g (oriented k l) ∧ (k + 1 < b.outlines.length → Robust u g k (oriented k l)))
    (after : Str) :
    ∃ text header body b', writeBoardOutline ccwOf u b = .text text ∧ lines (text ++ after) = header :: body ∧
      readBoardOutline ccwOf u v header body = some (b', [] :: lines after) ∧
      b'.owner = b.owner ∧ |b'.thickness - b.thickness| ≤ lengthTol u ∧ b'.outlines.length = b.outlines.length ∧
      ∀ k l, b.outlines[k]? = some l → ∃ l', b'.outlines[k]? = some l' ∧
        List.Forall₂ (SegNear (lengthTol u + g)) (oriented k l) l' := by
  obtain ⟨t, st2, w1, r1, -, r3, ls', r4, r5, r6⟩ := read_loops (comp := false) hu v hg (".END_BOARD_OUTLINE\n\n".toList ++ after) b.outlines 0 (by omega)
    (by intro k l hk; rw [Nat.zero_add]; exact hgood k l hk) OutState.start rfl (by
      intro _
      exact ⟨⟨0, 0⟩, [], 0, by unfold newLoop OutState.start OutState.loops; simp, rfl⟩) (.inl rfl)
  obtain ⟨t1, t2, t3, t4, t5⟩ := thick_line u ht (lines (t ++ (".END_BOARD_OUTLINE\n\n".toList ++ after)))
  have e1 : lines (".BOARD_OUTLINE ".toList ++ ownerText b.owner ++ '\n' :: (coordText u b.thickness ++ '\n' ::
      (t ++ ".END_BOARD_OUTLINE\n\n".toList)) ++ after) = (".BOARD_OUTLINE ".toList ++ ownerText b.owner) :: (coordText u b.thickness ::
      lines (t ++ (".END_BOARD_OUTLINE\n\n".toList ++ after))) := by
    have e : ".BOARD_OUTLINE ".toList ++ ownerText b.owner ++ '\n' :: (coordText u b.thickness ++ '\n' ::
      (t ++ ".END_BOARD_OUTLINE\n\n".toList)) ++ after = (".BOARD_OUTLINE ".toList ++ ownerText b.owner) ++ '\n' :: (coordText u b.thickness ++ '\n' ::
      (t ++ (".END_BOARD_OUTLINE\n\n".toList ++ after))) := by
      simp only [List.append_assoc, List.cons_append]
    rw [e, lines_line (header_noeol _), lines_line t3]
  have e2 : lines (".END_BOARD_OUTLINE\n\n".toList ++ after) = ".END_BOARD_OUTLINE".toList :: [] :: lines after := by
    have : ".END_BOARD_OUTLINE\n\n".toList ++ after = ".END_BOARD_OUTLINE".toList ++ '\n' :: ([] ++ '\n' :: after) := rfl
    rw [this, lines_line (by decide), lines_line (by simp)]
  have e3 : fetchLine ".END_BOARD_OUTLINE".toList = some ⟨".END_BOARD_OUTLINE".toList, false⟩ := by decide
  have e4 : readOutlines false false ccwOf u v st2 (".END_BOARD_OUTLINE".toList :: [] :: lines after) =
      some (st2.loops, ".END_BOARD_OUTLINE".toList :: [] :: lines after) := by
    rw [readOutlines, e3]
    simp only [end_finish]
    rw [if_neg]
    rintro ⟨h1, -, h2⟩
    rcases r3 with h | h
    · exact h1 h
    · rw [h] at h2; cases h2
  have e5 : nextLine (".END_BOARD_OUTLINE".toList :: [] :: lines after) = (⟨".END_BOARD_OUTLINE".toList, false⟩, [] :: lines after) := by
    rw [nextLine, e3]
  have hag := again_near u b.thickness
  have hpos : 0 < again u b.thickness := by have := (abs_le.1 hag).1; linarith
  have hloops : st2.loops = ls' := by rw [r4]; rfl
  rw [e2, e4] at r1
  refine ⟨_, _, _, ⟨b.owner, again u b.thickness, ls'⟩, by unfold writeBoardOutline; rw [w1], e1, ?_, rfl, hag, r5, ?_⟩
  · unfold readBoardOutline
    rw [header_word]
    have c1 : compareToken ".BOARD_OUTLINE" ".BOARD_OUTLINE".toList = true := by decide
    have c2 : compareToken ".END_BOARD_OUTLINE" ".END_BOARD_OUTLINE".toList = true := by decide
    have c3 : ".END_BOARD_OUTLINE".toList ≠ [] := by decide
    simp only [c1, t1, t2, t4, t5, r1, unitFactor_eq hu v, owner_read, Bool.false_eq_true, Bool.true_eq_false, or_self, if_false]
    rw [e5]
    have e6 : fval (places u) (b.thickness / factor u) * factor u = again u b.thickness := rfl
    simp only [e6, c2, c3, hloops, Bool.true_eq_false, or_self, if_false, Bool.false_eq_true, reduceCtorEq, if_neg hpos.ne', if_neg (not_lt.2 hpos.le)]
  · intro k l hk
    have := r6 k l hk
    rwa [Nat.zero_add] at this

/-! What is accepted -/

/-- what holds between the lines -/
structure Inv (single : Bool) (ccw : List QSeg → Bool) (st : OutState) : Prop where
  before : st.idx = -1 → st.npts = 0 ∧ st.done = []
  count : st.idx ≠ -1 → (single = true ∧ st.done = []) ∨ st.idx = st.done.length
  low : -1 ≤ st.idx
  done : ∀ k l, st.done[k]? = some l → ClosedLoop l ∧
    (if k = 0 then ccw l = true else ccw l = false ∨ ∃ f, l.head? = some f ∧ f.isCircle = true)
  cur : (st.cur = [] ∧ st.closed = false) ∨ (st.closed = true ∧ ClosedLoop st.cur) ∨
    (st.closed = false ∧ ∃ f r, st.cur = f :: r ∧ Linked f.stop r st.pre)
  first : st.npts = 0 → st.cur = [] ∧ st.closed = false

theorem linked_append {p q x : Pt} {a : ℚ} {l : List QSeg} (h : Linked p l q) : Linked p (l ++ [⟨q, x, a⟩]) x := by
  induction l generalizing p with
  | nil => exact ⟨h, rfl⟩
  | cons s l ih => exact ⟨h.1, ih h.2⟩

theorem inv_new {single : Bool} {ccw : List QSeg → Bool} {st st' : OutState} {i : ℤ} (h : Inv single ccw st)
    (hp : st.idx ≠ -1 → 0 < st.npts) (hn : newLoop single ccw st i = some st') : Inv single ccw st' ∧ st'.idx ≠ -1 := by
  unfold newLoop at hn
  split_ifs at hn with h1 h2 h3 h4 h5 h6 h7 h8 h9
  · cases hn; exact ⟨h, h2⟩
  · cases hn
    obtain ⟨-, hd⟩ := h.before h5
    have h0 : i ≠ -1 := by omega
    refine ⟨⟨fun e => absurd e h0, ?_, by simp; omega, ?_, .inl ⟨rfl, rfl⟩, fun _ => ⟨rfl, rfl⟩⟩, h0⟩
    · intro _
      rcases h6 with h6 | ⟨h6, -⟩
      · right; simp [hd, h6]
      · left; exact ⟨h6, hd⟩
    · simp [hd]
  · cases hn
    have h0 : i ≠ -1 := by omega
    have hc : st.closed = true := by
      have := hp h5
      cases hh : st.closed
      · exact absurd ⟨this, hh⟩ h3
      · rfl
    have hcur : ClosedLoop st.cur := by
      rcases h.cur with ⟨-, g⟩ | ⟨-, g⟩ | ⟨g, -⟩
      · rw [hc] at g; cases g
      · exact g
      · rw [hc] at g; cases g
    have hcount : st.idx = st.done.length := by
      rcases h.count h5 with ⟨g, -⟩ | g
      · exact absurd g h7
      · exact g
    refine ⟨⟨fun e => absurd e h0, ?_, by simp; omega, ?_, .inl ⟨rfl, rfl⟩, fun _ => ⟨rfl, rfl⟩⟩, h0⟩
    · intro _
      right
      simp only [List.length_append, List.length_singleton]
      push_cast
      omega
    · intro k l hk
      rcases Nat.lt_trichotomy k st.done.length with hlt | heq | hgt
      · rw [List.getElem?_append_left hlt] at hk
        exact h.done k l hk
      · subst heq
        rw [List.getElem?_concat_length] at hk
        cases hk
        refine ⟨hcur, ?_⟩
        split
        · rename_i hz
          by_contra hh
          exact h9 (.inl ⟨by omega, by simpa using hh⟩)
        · rename_i hz
          by_contra hh
          push Not at hh
          refine h9 (.inr ⟨by omega, by simpa using hh.1, ?_⟩)
          cases hd : st.cur.head? with
          | none => rfl
          | some f => simpa using hh.2 f hd
      · rw [List.getElem?_eq_none (by simp; omega)] at hk
        cases hk

theorem inv_add {single : Bool} {ccw : List QSeg → Bool} {st st' : OutState} {p : Pt} {a : ℚ} (h : Inv single ccw st) (h0 : st.idx ≠ -1)
    (hn : addPoint st p a = some st') : Inv single ccw st' ∧ st'.idx ≠ -1 ∧ 0 < st'.npts := by
  have rs : ∀ a, ∃ b, recSeg st.pre p a = ⟨st.pre, p, b⟩ := by
    intro a; unfold recSeg; split_ifs <;> exact ⟨_, rfl⟩
  obtain ⟨b, hb⟩ := rs a
  unfold addPoint at hn
  simp only [hb] at hn
  split_ifs at hn with h1 h2 h3 h4 h5
  · cases hn
    obtain ⟨c1, c2⟩ := h.first h1
    exact ⟨⟨fun e => absurd e h0, h.count, h.low, h.done, .inl ⟨c1, c2⟩, fun e => absurd e (by simp)⟩, h0, by simp⟩
  · cases hn
    exact ⟨⟨fun e => absurd e h0, h.count, h.low, h.done, .inr (.inl ⟨rfl, .inl ⟨_, rfl, h4⟩⟩), fun e => absurd e (by simp)⟩, h0, by simp⟩
  · cases hn
    refine ⟨⟨fun e => absurd e h0, h.count, h.low, h.done, ?_, fun e => absurd e (by simp)⟩, h0, by simp⟩
    rcases h.cur with ⟨g, -⟩ | ⟨g, -⟩ | ⟨-, f, r, g, hl⟩
    · right; right
      simp only [g, List.head?_nil, Option.elim]
      exact ⟨trivial, ⟨st.pre, p, b⟩, [], rfl, rfl⟩
    · exact absurd g h3
    · simp only [g, List.head?_cons, Option.elim]
      cases hnr : p.near f.start
      · right; right
        exact ⟨rfl, f, _, rfl, linked_append hl⟩
      · right; left
        refine ⟨rfl, .inr ⟨f, _, p, rfl, by simp, linked_append hl, ?_⟩⟩
        unfold Pt.near at hnr
        rw [decide_eq_true_eq] at hnr
        rw [pow_two, pow_two, pow_two]
        exact hnr

theorem inv_line {single comp : Bool} {ccw : List QSeg → Bool} {u : Iges.Idf.Unit} {v : Version} {st st' : OutState} {s : Str} (h : Inv single ccw st)
    (hp : st.idx ≠ -1 → 0 < st.npts) (hn : outlineLine single comp ccw u v st s = .next st') : Inv single ccw st' ∧ st'.idx ≠ -1 ∧ 0 < st'.npts := by
  unfold outlineLine at hn
  split at hn
  · split at hn
    · cases hn
    split at hn
    · cases hn
    split at hn
    · split at hn <;> cases hn
    · split at hn
      · cases hn
      · rename_i st1 h1
        obtain ⟨g1, g2⟩ := inv_new h hp h1
        split at hn
        · cases hn
        · split at hn
          · cases hn
          · split at hn
            · cases hn
            · split at hn
              · cases hn
              · split at hn
                · cases hn
                · rename_i st2 h2
                  cases hn
                  refine inv_add ?_ ?_ h2
                  · exact ⟨g1.before, g1.count, g1.low, g1.done, g1.cur, g1.first⟩
                  · exact g2
  · cases hn

/-- **C78_closed** (what is accepted is an outline).  Whatever the text, if a section of outlines of a board is accepted, then
each outline is a circle or a closed chain of at least two segments; and of all outlines but the last one, the first is
counterclockwise and the others are circles or clockwise, as the test used by the reader (`ccw`) sees it. -/
theorem C78_closed (single : Bool) (ccw : List QSeg → Bool) (u : Iges.Idf.Unit) (v : Version) (input rest : List Str) (ls : List (List QSeg))
    (h : readOutlines single false ccw u v .start input = some (ls, rest)) :
    ∀ k l, ls[k]? = some l → ClosedLoop l ∧
      (k + 1 < ls.length → if k = 0 then ccw l = true else ccw l = false ∨ ∃ f, l.head? = some f ∧ f.isCircle = true) := by
  have key : ∀ (input : List Str) (st : OutState), Inv single ccw st → (st.idx ≠ -1 → 0 < st.npts) →
      readOutlines single false ccw u v st input = some (ls, rest) → ∀ k l, ls[k]? = some l → ClosedLoop l ∧
      (k + 1 < ls.length → if k = 0 then ccw l = true else ccw l = false ∨ ∃ f, l.head? = some f ∧ f.isCircle = true) := by
    intro input
    induction input with
    | nil => intro st _ _ h; cases h
    | cons raw input ih =>
      intro st hi hp h
      rw [readOutlines] at h
      split at h
      · exact ih st hi hp h
      · split at h
        · cases h
        · split_ifs at h with hc
          simp only [Option.some.injEq, Prod.mk.injEq] at h
          obtain ⟨h, -⟩ := h
          intro k l hk
          unfold OutState.loops at h
          split_ifs at h with h0
          · subst h; simp at hk
          · have hcl : st.closed = true := by
              cases hh : st.closed
              · exact absurd ⟨h0, hp h0, hh⟩ hc
              · rfl
            subst h
            rcases Nat.lt_trichotomy k st.done.length with hlt | heq | hgt
            · rw [List.getElem?_append_left hlt] at hk
              exact ⟨(hi.done k l hk).1, fun _ => (hi.done k l hk).2⟩
            · subst heq
              rw [List.getElem?_concat_length] at hk
              cases hk
              refine ⟨?_, fun hh => absurd hh (by simp)⟩
              rcases hi.cur with ⟨-, g⟩ | ⟨-, g⟩ | ⟨g, -⟩
              · rw [hcl] at g; cases g
              · exact g
              · rw [hcl] at g; cases g
            · rw [List.getElem?_eq_none (by simp; omega)] at hk
              cases hk
        · rename_i hpr
          exfalso
          unfold outlineLine at hpr
          split at hpr
          · split at hpr
            · cases hpr
            split at hpr
            · cases hpr
            split at hpr
            · split at hpr
              · rename_i hh
                simp at hh
              · cases hpr
            · repeat' (split at hpr)
              all_goals cases hpr
          · cases hpr
        · rename_i st' hl
          obtain ⟨g1, -, g2⟩ := inv_line hi hp hl
          exact ih st' g1 (fun _ => g2) h
  refine key input .start ?_ (fun hh => absurd rfl hh) h
  exact ⟨fun _ => ⟨rfl, rfl⟩, fun hh => absurd rfl hh, le_refl _, by intro k l hk; simp [OutState.start] at hk, .inl ⟨rfl, rfl⟩, fun _ => ⟨rfl, rfl⟩⟩

/-! The direction of polygons -/

theorem term_err {M δ a b c d a' b' c' d' : ℚ} (ha : |a| ≤ M) (hb : |b| ≤ M) (hc : |c| ≤ M) (hd : |d| ≤ M)
    (ha' : |a' - a| ≤ δ) (hb' : |b' - b| ≤ δ) (hc' : |c' - c| ≤ δ) (hd' : |d' - d| ≤ δ) :
    |(a' * d' - c' * b') - (a * d - c * b)| ≤ 4 * M * δ + 2 * δ ^ 2 := by
  have hM : 0 ≤ M := le_trans (abs_nonneg _) ha
  have hδ : 0 ≤ δ := le_trans (abs_nonneg _) ha'
  have key : ∀ p q p' q' : ℚ, |p| ≤ M → |q| ≤ M → |p' - p| ≤ δ → |q' - q| ≤ δ → |p' * q' - p * q| ≤ 2 * M * δ + δ ^ 2 := by
    intro p q p' q' h1 h2 h3 h4
    have e : p' * q' - p * q = p * (q' - q) + (p' - p) * q + (p' - p) * (q' - q) := by ring
    rw [e]
    refine (abs_add_le _ _).trans ?_
    refine (add_le_add_left (abs_add_le _ _) _).trans ?_
    rw [abs_mul, abs_mul, abs_mul]
    have g1 := mul_le_mul h1 h4 (abs_nonneg _) hM
    have g2 := mul_le_mul h3 h2 (abs_nonneg _) hδ
    have g3 := mul_le_mul h3 h4 (abs_nonneg _) hδ
    nlinarith
  have e : (a' * d' - c' * b') - (a * d - c * b) = (a' * d' - a * d) - (c' * b' - c * b) := by ring
  rw [e]
  refine (abs_sub _ _).trans ?_
  have g1 := key a d a' d' ha hd ha' hd'
  have g2 := key c b c' b' hc hb hc' hb'
  linarith

theorem shoelace_err {M δ : ℚ} {l l' : List QSeg} (h : List.Forall₂ (SegNear δ) l l')
    (hs : ∀ s ∈ l, |s.start.x| ≤ M ∧ |s.start.y| ≤ M ∧ |s.stop.x| ≤ M ∧ |s.stop.y| ≤ M) :
    |shoelace l' - shoelace l| ≤ l.length * (4 * M * δ + 2 * δ ^ 2) := by
  induction h with
  | nil => simp [shoelace]
  | cons hd _ ih =>
    rename_i s t l l' _
    obtain ⟨h1, h2, h3, h4⟩ := hs s (by simp)
    have := term_err h1 h2 h3 h4 hd.start.1 hd.start.2 hd.stop.1 hd.stop.2
    have ih' := ih (fun s hs' => hs s (by simp [hs']))
    unfold shoelace at ih' ⊢
    simp only [List.map_cons, List.sum_cons, List.length_cons]
    push_cast
    have e : (t.start.x * t.stop.y - t.stop.x * t.start.y + (l'.map fun s => s.start.x * s.stop.y - s.stop.x * s.start.y).sum) -
        (s.start.x * s.stop.y - s.stop.x * s.start.y + (l.map fun s => s.start.x * s.stop.y - s.stop.x * s.start.y).sum) =
        ((t.start.x * t.stop.y - t.stop.x * t.start.y) - (s.start.x * s.stop.y - s.stop.x * s.start.y)) +
        ((l'.map fun s => s.start.x * s.stop.y - s.stop.x * s.start.y).sum - (l.map fun s => s.start.x * s.stop.y - s.stop.x * s.start.y).sum) := by ring
    rw [e]
    refine (abs_add_le _ _).trans ?_
    linarith

theorem ptNear_zero {p q : Pt} (h : PtNear 0 p q) : p = q := by
  obtain ⟨h1, h2⟩ := h
  have e1 := abs_eq_zero.1 (le_antisymm h1 (abs_nonneg _))
  have e2 := abs_eq_zero.1 (le_antisymm h2 (abs_nonneg _))
  cases p; cases q
  simp only [Pt.mk.injEq] at *
  constructor <;> linarith

theorem chained_links : ∀ (l : List QSeg) (p q : Pt), Chained 0 p l q →
    (∀ s, l.head? = some s → p = s.start) ∧ (∀ i : ℕ, (h : i + 1 < l.length) → l[i].stop = l[i + 1].start) ∧
      (∀ z, l.getLast? = some z → z.stop = q)
  | [], _, _, _ => ⟨by simp, by simp, by simp⟩
  | s :: l, p, q, h => by
    obtain ⟨h1, h2⟩ := h
    obtain ⟨g1, g2, g3⟩ := chained_links l s.stop q h2
    refine ⟨fun t ht => by cases ht; exact ptNear_zero h1, ?_, ?_⟩
    · intro i hi
      cases i with
      | zero =>
        cases l with
        | nil => simp at hi
        | cons t l => exact g1 t rfl
      | succ i => exact g2 i (by simpa using hi)
    · intro z hz
      cases l with
      | nil =>
        cases hz
        exact ptNear_zero h2
      | cons t l => exact g3 z (by simpa using hz)

/-- `IsCCW` of a polygon with rational corners is the sign of the shoelace sum -/
theorem ccw_polygon (l : List QSeg) (h3 : 3 ≤ l.length) (hj : Joined l) (hs : ∀ s ∈ l, |s.angle| < 1 / 100) :
    ccwOf l = true ↔ 0 ≤ shoelace l := by
  have hreal : ∀ s ∈ l, s.real = lineSeg s.start.real s.stop.real := by
    intro s hm
    have := hs s hm
    have hR : |(s.angle : ℝ)| < 1 / 100 := by
      rw [← Rat.cast_abs]
      have : ((|s.angle| : ℚ) : ℝ) < ((1 / 100 : ℚ) : ℝ) := Rat.cast_lt.2 this
      norm_num at this ⊢
      exact this
    unfold QSeg.real
    split_ifs with h0
    · rfl
    · unfold arcSeg
      have n1 : ¬ fullTurn (s.angle : ℝ) := by
        unfold fullTurn minAng
        rintro ⟨-, h⟩
        norm_num at h hR
        linarith
      have n2 : ¬ ((s.angle : ℝ) > minAng ∨ (s.angle : ℝ) < -minAng) := by
        unfold minAng
        have := abs_lt.1 hR
        norm_num at this ⊢
        constructor <;> linarith
      simp only [n1, n2, or_true, if_true, if_false]
  obtain ⟨f, r, rfl, hch⟩ := hj
  obtain ⟨g1, g2, g3⟩ := chained_links (f :: r) f.start f.start ⟨ptNear_refl le_rfl _, hch⟩
  have e : loopOf (f :: r) = Iges.Props.IdfLoop.drawn ((f :: r).map QSeg.real) := by
    unfold loopOf Iges.Props.IdfLoop.drawn
    rw [List.foldl_map]
  have hst : ∀ s ∈ f :: r, s.real.start = s.start.real ∧ s.real.stop = s.stop.real ∧ s.real.angle = 0 := by
    intro s hm; rw [hreal s hm]; exact ⟨rfl, rfl, rfl⟩
  have := (Iges.Props.IdfLoop.C71_direction ((f :: r).map QSeg.real) (by simpa using h3) (by
      intro s hm
      obtain ⟨t, ht, rfl⟩ := List.mem_map.1 hm
      rw [(hst t ht).2.2]; norm_num) (by
      intro i hi
      rw [List.length_map] at hi
      rw [List.getElem_map, List.getElem_map, (hst _ (List.getElem_mem _)).2.1, (hst _ (List.getElem_mem _)).1, g2 i hi]) (by
      intro a z ha hz
      rw [List.getLast?_map] at hz
      cases hl : (f :: r).getLast? with
      | none => rw [hl] at hz; cases hz
      | some w =>
        rw [hl] at hz
        cases hz
        cases ha
        rw [(hst f (by simp)).1, (hst w (List.mem_of_getLast? hl)).2.1, g3 w hl])).2
  unfold ccwOf
  rw [e, this]
  have hsum : area2 (((f :: r).map QSeg.real).map fun s => (s.start, s.stop)) = ((shoelace (f :: r) : ℚ) : ℝ) := by
    unfold area2 shoelace
    rw [Rat.cast_list_sum, List.map_map, List.map_map, List.map_map]
    apply congrArg
    apply List.map_congr_left
    intro s hm
    obtain ⟨h1, h2, -⟩ := hst s hm
    simp only [Function.comp, h1, h2, Pt.real]
    push_cast
    rfl
  rw [hsum]
  exact_mod_cast Iff.rfl

/-- **C78_polygon_robust** (polygons with some area meet the hypothesis on the direction): an outline of three or more straight
lines whose corners lie within `M` of the axes and which encloses more than the stated bound, on the left if it is the first and on
the right if not, has a direction that does not depend on rounding. -/
theorem C78_polygon_robust (u : Iges.Idf.Unit) (g M : ℚ) (i : ℕ) (l : List QSeg) (h3 : 3 ≤ l.length)
    (hs : ∀ s ∈ l, s.angle = 0 ∧ |s.start.x| ≤ M ∧ |s.start.y| ≤ M ∧ |s.stop.x| ≤ M ∧ |s.stop.y| ≤ M)
    (ha : l.length * (4 * M * (lengthTol u + g) + 2 * (lengthTol u + g) ^ 2) < if i = 0 then shoelace l else -shoelace l) :
    Robust u g i l := by
  right
  intro l' hn hj
  right
  have herr := shoelace_err hn fun s hm => (hs s hm).2
  have hang : ∀ s' ∈ l', |s'.angle| < 1 / 100 := by
    have : ∀ {l l' : List QSeg}, List.Forall₂ (SegNear (lengthTol u + g)) l l' → (∀ s ∈ l, s.angle = 0) → ∀ s' ∈ l', |s'.angle| < 1 / 100 := by
      intro l l' h
      induction h with
      | nil => intro _ s h; cases h
      | cons hd _ ih =>
        rename_i s t l l' _
        intro h0 s' hs'
        rcases List.mem_cons.1 hs' with rfl | hs'
        · have e := h0 s (by simp)
          rcases hd.angle with h | ⟨h, -⟩
          · rw [e, sub_zero] at h; linarith
          · unfold QSeg.isCircle at h
            rw [e] at h
            exact absurd h (by decide +kernel)
        · exact ih (fun s hs => h0 s (by simp [hs])) s' hs'
    exact this hn fun s hm => (hs s hm).1
  have hc := ccw_polygon l' (by rw [← hn.length_eq]; exact h3) hj hang
  have := abs_le.1 herr
  by_cases hi : i = 0
  · simp only [hi, if_true] at ha
    simp only [hi, decide_true]
    rw [hc]
    linarith
  · simp only [hi, if_false] at ha
    simp only [hi, decide_false]
    rw [← Bool.not_eq_true, hc, not_le]
    linarith


/-! Files with one outline, where the direction is not asked for -/

theorem new_any {ccw : List QSeg → Bool} {st st' : OutState} {i : ℤ} (h0 : st.idx ≤ 0)
    (h : newLoop false (fun _ => false) st i = some st') : newLoop false ccw st i = some st' ∧ st'.idx ≤ 0 := by
  unfold newLoop at h ⊢
  split_ifs at h with h1 h2 h3 h4 h5 h6 h7 h8 h9
  · cases h; rw [if_pos h1, if_neg h2]; exact ⟨rfl, h0⟩
  · cases h
    have h6' : i = 0 := by
      rcases h6 with h6 | ⟨h6, -⟩
      · exact h6
      · cases h6
    rw [if_neg h1, if_neg h3, if_neg h4, if_pos h5, if_pos (.inl h6')]
    exact ⟨rfl, le_of_eq h6'⟩
  · simp at h9
    omega

theorem line_any {comp : Bool} {ccw : List QSeg → Bool} {u : Iges.Idf.Unit} {v : Version} {st : OutState} {s : Str} (h0 : st.idx ≤ 0)
    (h : outlineLine false comp (fun _ => false) u v st s ≠ .error) :
    outlineLine false comp ccw u v st s = outlineLine false comp (fun _ => false) u v st s ∧
      ∀ st', outlineLine false comp (fun _ => false) u v st s = .next st' → st'.idx ≤ 0 := by
  unfold outlineLine at h ⊢
  generalize getWord s = w at h ⊢
  cases w with
  | missing => exact absurd rfl h
  | unterminated => exact absurd rfl h
  | word t q r =>
    simp only at h ⊢
    split
    · rename_i hq; simp [hq] at h
    · rename_i hq
      split
      · exact ⟨rfl, by intro st' hh; cases hh⟩
      · rename_i he
        simp only [hq, he, if_false] at h
        generalize scanInt (st.left ++ t) = sc at h ⊢
        cases sc with
        | none =>
          refine ⟨rfl, ?_⟩
          intro st' hh
          simp only at hh
          split at hh <;> cases hh
        | some p =>
          obtain ⟨i, left⟩ := p
          simp only at h ⊢
          cases hn : newLoop false (fun _ => false) st i with
          | none => rw [hn] at h; exact absurd rfl h
          | some st1 =>
            obtain ⟨g1, g2⟩ := new_any (ccw := ccw) h0 hn
            rw [g1]
            refine ⟨rfl, ?_⟩
            intro st' hh
            simp only at hh
            repeat' (split at hh)
            all_goals try cases hh
            rename_i hadd
            have : ∀ {a b : OutState} {p : Pt} {x : ℚ}, addPoint a p x = some b → b.idx = a.idx := by
              intro a b p x hab
              unfold addPoint at hab
              split_ifs at hab
              all_goals first | (cases hab; rfl) | skip
              all_goals (simp only at hab; split_ifs at hab <;> cases hab <;> rfl)
            rw [this hadd]
            exact g2

/-- a text that is accepted when no second outline is -/
theorem read_any {comp : Bool} {ccw : List QSeg → Bool} {u : Iges.Idf.Unit} {v : Version} {x : List (List QSeg) × List Str} (input : List Str)
    (st : OutState) (h0 : st.idx ≤ 0) (h : readOutlines false comp (fun _ => false) u v st input = some x) :
    readOutlines false comp ccw u v st input = some x := by
  induction input generalizing st with
  | nil => cases h
  | cons raw rest ih =>
    rw [readOutlines] at h ⊢
    cases hf : fetchLine raw with
    | none => rw [hf] at h; exact ih st h0 h
    | some l =>
      rw [hf] at h
      simp only at h ⊢
      have hne : outlineLine false comp (fun _ => false) u v st l.text ≠ .error := by
        intro e; rw [e] at h; cases h
      obtain ⟨g1, g2⟩ := line_any (ccw := ccw) h0 hne
      rw [g1]
      cases ho : outlineLine false comp (fun _ => false) u v st l.text with
      | error => exact absurd ho hne
      | finish => rw [ho] at h; exact h
      | props => rw [ho] at h; exact h
      | next st' => rw [ho] at h; exact ih st' (g2 st' ho) h

/-! Cases -/

/-- a straight segment -/
def ln (a b c d : ℚ) : QSeg := ⟨⟨a, b⟩, ⟨c, d⟩, 0⟩

/-- a square of 10 mm -/
def square : List QSeg := [ln 0 0 10 0, ln 10 0 10 10, ln 10 10 0 10, ln 0 10 0 0]

/-- a hole -/
def hole : List QSeg := [⟨⟨5, 5⟩, ⟨6, 5⟩, 360⟩]

/-- a triangle cut out, clockwise -/
def cut : List QSeg := [ln 1 1 1 2, ln 1 2 2 1, ln 2 1 1 1]

theorem square_joined : Joined square := ⟨_, _, rfl, by simp [ln, Chained, PtNear]⟩
theorem cut_joined : Joined cut := ⟨_, _, rfl, by simp [ln, Chained, PtNear]⟩

theorem square_oriented : oriented 0 square = square := by
  have : ccwOf square = true := by
    rw [ccw_polygon _ (by decide) square_joined (by intro s hs; simp [square, ln] at hs; rcases hs with rfl | rfl | rfl | rfl <;> norm_num)]
    decide +kernel
  unfold oriented
  simp [this]

theorem cut_oriented (i : ℕ) (hi : i ≠ 0) : oriented i cut = cut := by
  have : ccwOf cut = false := by
    rw [← Bool.not_eq_true, ccw_polygon _ (by decide) cut_joined (by intro s hs; simp [cut, ln] at hs; rcases hs with rfl | rfl | rfl <;> norm_num)]
    decide +kernel
  unfold oriented
  simp [this, hi]

theorem big1 {x : ℚ} (h : |x| ≤ 10) : |x| ≤ 10 ^ 300 := le_trans h (le_self_pow₀ (by norm_num) (by norm_num))

/-- the hypotheses of `C78_roundtrip_partial` hold of a square board with a hole and a triangle cut out, in millimetres -/
example : ∃ text header body b', writeBoardOutline ccwOf .mm ⟨.mcad, 16 / 10, [square, cut, hole]⟩ = .text text ∧ lines (text ++ []) = header :: body ∧
    readBoardOutline ccwOf .mm .v3 header body = some (b', [] :: lines []) ∧ b'.owner = .mcad ∧ b'.outlines.length = 3 := by
  have hsq : GoodLoop .mm 0 square := by
    refine ⟨?_, .inr ⟨_, _, rfl, by simp, by simp [ln, Chained, PtNear], by intro s hs; left; simp [square, ln] at hs; rcases hs with rfl | rfl | rfl | rfl <;> rfl, ?_⟩⟩
    · intro s hs
      simp only [square, ln, List.mem_cons, List.not_mem_nil, or_false] at hs
      rcases hs with rfl | rfl | rfl | rfl <;> (refine ⟨⟨big1 ?_, big1 ?_⟩, big1 ?_, big1 ?_⟩ <;> norm_num)
    · intro s hs
      simp only [List.dropLast, List.mem_cons, List.not_mem_nil, or_false] at hs
      rcases hs with rfl | rfl <;> (unfold Apart lengthTol ln; norm_num)
  have hcut : GoodLoop .mm 0 cut := by
    refine ⟨?_, .inr ⟨_, _, rfl, by simp, by simp [ln, Chained, PtNear], by intro s hs; left; simp [cut, ln] at hs; rcases hs with rfl | rfl | rfl <;> rfl, ?_⟩⟩
    · intro s hs
      simp only [cut, ln, List.mem_cons, List.not_mem_nil, or_false] at hs
      rcases hs with rfl | rfl | rfl <;> (refine ⟨⟨big1 ?_, big1 ?_⟩, big1 ?_, big1 ?_⟩ <;> norm_num)
    · intro s hs
      simp [ln] at hs
      rcases hs with rfl
      unfold Apart lengthTol ln
      norm_num
  have hhole : GoodLoop .mm 0 hole := by
    refine ⟨?_, .inl ⟨_, rfl, by decide +kernel⟩⟩
    intro s hs
    simp only [hole, List.mem_cons, List.not_mem_nil, or_false] at hs
    subst hs
    refine ⟨⟨big1 ?_, big1 ?_⟩, big1 ?_, big1 ?_⟩ <;> norm_num
  have r1 : Robust .mm 0 0 square := C78_polygon_robust .mm 0 10 0 square (by decide)
    (by intro s hs; simp only [square, ln, List.mem_cons, List.not_mem_nil, or_false] at hs; rcases hs with rfl | rfl | rfl | rfl <;> norm_num)
    (by unfold lengthTol square shoelace ln; norm_num)
  have r2 : Robust .mm 0 1 cut := C78_polygon_robust .mm 0 2 1 cut (by decide)
    (by intro s hs; simp only [cut, ln, List.mem_cons, List.not_mem_nil, or_false] at hs; rcases hs with rfl | rfl | rfl <;> norm_num)
    (by unfold lengthTol cut shoelace ln; norm_num)
  have ho : oriented 2 hole = hole := by unfold oriented; simp [hole]
  obtain ⟨text, header, body, b', h1, h2, h3, h4, -, h5, -⟩ := C78_roundtrip_partial .mm (by decide) .v3 0 le_rfl ⟨.mcad, 16 / 10, [square, cut, hole]⟩ (by simp)
    (big1 (by norm_num)) (by unfold lengthTol; norm_num) (by
      intro k l hk
      match k with
      | 0 => cases hk; rw [square_oriented]; exact ⟨hsq, fun _ => r1⟩
      | 1 => cases hk; rw [cut_oriented 1 (by simp)]; exact ⟨hcut, fun _ => r2⟩
      | 2 => cases hk; rw [ho]; exact ⟨hhole, fun h => absurd h (by simp)⟩
      | k + 3 => cases hk) []
  exact ⟨text, header, body, b', h1, h2, h3, h4, h5⟩

/-- the lines of a text -/
def ls (s : String) : List Str := lines s.toList

/-- **C78_thin_board** (against "the thickness is kept"): a board 0.001 mm thick, written in thousandths of an inch, is read as
1.6 mm thick. -/
theorem C78_thin_board (c : Bool) (v : Version) : ∃ text, writeBoardOutline (fun _ => c) .thou ⟨.unowned, 1 / 1000, []⟩ = .text text ∧
    (match lines text with
      | header :: body => (readBoardOutline (fun _ => c) .thou v header body).map fun r => r.1.thickness
      | [] => none) = some (16 / 10) := by
  refine ⟨".BOARD_OUTLINE UNOWNED\n0.0\n.END_BOARD_OUTLINE\n\n".toList, ?_, ?_⟩
  · have : coordText .thou (1 / 1000) = "0.0".toList := by decide +kernel
    unfold writeBoardOutline writeLoops
    simp only [this]
    rfl
  · cases c <;> cases v <;> decide +kernel

/-- **C78_comment_is_point** (against "comments are not data"): inside an outline the text of a comment line is read as a point of
the outline. -/
theorem C78_comment_is_point (ccw : List QSeg → Bool) :
    readOutlines false false ccw .mm .v3 .start (ls "0 0 0 0\n0 1 0 0\n# 0 5 5 0\n0 0 0 0\n.END_BOARD_OUTLINE\n") =
      some ([[ln 0 0 1 0, ln 1 0 5 5, ln 5 5 0 0]], ls ".END_BOARD_OUTLINE\n") :=
  read_any _ _ (by decide) (by decide +kernel)

/-- **C78_index_fraction** (against "a record is four numbers"): the part of the first word behind the whole number is put in
front of the next word. -/
theorem C78_index_fraction (ccw : List QSeg → Bool) :
    readOutlines false false ccw .mm .v3 .start (ls "0.5 3 0 0\n0 1 0 0\n0 2 2 0\n0 0.53 0 0\n.END_BOARD_OUTLINE\n") =
      some ([[ln (53 / 100) 0 1 0, ln 1 0 2 2, ln 2 2 (53 / 100) 0]], ls ".END_BOARD_OUTLINE\n") :=
  read_any _ _ (by decide) (by decide +kernel)

/-- **C78_open_component** (against "what is accepted is closed", for component outlines): an outline of a component that is not
closed is accepted if a property follows it. -/
theorem C78_open_component (ccw : List QSeg → Bool) :
    readOutlines false true ccw .mm .v3 .start (ls "0 0 0 0\n0 1 0 0\nPROP A B\n.END_ELECTRICAL\n") =
      some ([[ln 0 0 1 0]], ls "PROP A B\n.END_ELECTRICAL\n") :=
  read_any _ _ (by decide) (by decide +kernel)

/-- **C78_last_direction** (against "the board outline is counterclockwise"): a board with one outline that runs clockwise is
accepted as it is. -/
theorem C78_last_direction :
    readOutlines false false ccwOf .mm .v3 .start (ls "0 1 1 0\n0 1 2 0\n0 2 1 0\n0 1 1 0\n.END_BOARD_OUTLINE\n") =
      some ([cut], ls ".END_BOARD_OUTLINE\n") ∧ ccwOf cut = false := by
  refine ⟨read_any _ _ (by decide) (by decide +kernel), ?_⟩
  rw [← Bool.not_eq_true, ccw_polygon _ (by decide) cut_joined (by intro s hs; simp [cut, ln] at hs; rcases hs with rfl | rfl | rfl <;> norm_num)]
  decide +kernel

/-- **C78_write_defined** (when an outline can be written): an outline without segments is undefined, one with a single segment
that is not a circle is refused with an exception, and all others are written. -/
theorem C78_write_defined (single : Bool) (ccw : List QSeg → Bool) (u : Iges.Idf.Unit) (i : ℕ) (l : List QSeg) :
    (writeOutline single ccw u i l = .undefined ↔ l = []) ∧
      (writeOutline single ccw u i l = .throws ↔ ∃ s, l = [s] ∧ s.isCircle = false) := by
  match l with
  | [] => simp [writeOutline]
  | [s] => cases h : s.isCircle <;> simp [writeOutline, h]
  | f :: s :: r =>
    simp only [writeOutline]
    generalize (if single then (if ccw (f :: s :: r) then 0 else 1) else i) = j
    by_cases h : (ccw (f :: s :: r) = true ∧ 0 < j) ∨ (ccw (f :: s :: r) = false ∧ j = 0)
    · simp [h]
    · simp [h]

/-- two triangles that share a corner -/
def bow : List QSeg := [ln 0 0 1 0, ln 1 0 1 1, ln 1 1 0 0, ln 0 0 (-1) 0, ln (-1) 0 (-1) (-1), ln (-1) (-1) 0 0]

theorem bow_joined : Joined bow := ⟨_, _, rfl, by simp [ln, Chained, PtNear]⟩

/-- **C78_touching_refused** (against "what is written can be read"): an outline that runs counterclockwise and comes back to its
first point on the way is written, and the file is refused. -/
theorem C78_touching_refused (v : Version) : ccwOf bow = true ∧ ∃ text, writeOutline false (fun _ => true) .mm 0 bow = .text text ∧
    readOutlines false false (fun _ => true) .mm v .start (lines (text ++ ".END_BOARD_OUTLINE\n".toList)) = none := by
  constructor
  · rw [ccw_polygon _ (by decide) bow_joined (by intro s hs; simp [bow, ln] at hs; rcases hs with rfl | rfl | rfl | rfl | rfl | rfl <;> norm_num)]
    decide +kernel
  have h : ∀ v, (match writeOutline false (fun _ => true) .mm 0 bow with
      | .text t => readOutlines false false (fun _ => true) .mm v .start (lines (t ++ ".END_BOARD_OUTLINE\n".toList))
      | _ => some ([], [])) = none := by
    intro v; cases v <;> decide +kernel
  specialize h v
  cases e : writeOutline false (fun _ => true) .mm 0 bow with
  | text t => rw [e] at h; exact ⟨t, rfl, h⟩
  | throws => rw [e] at h; cases h
  | undefined => rw [e] at h; cases h

/-- the hypothesis of `C78_closed` holds of a triangle with a hole -/
example : readOutlines false false ccwOf .mm .v3 .start (ls "0 1 1 0\n0 1 2 0\n0 2 1 0\n0 1 1 0\n.END_BOARD_OUTLINE\n") =
    some ([cut], ls ".END_BOARD_OUTLINE\n") := C78_last_direction.1

end Iges.Props.IdfOutline
