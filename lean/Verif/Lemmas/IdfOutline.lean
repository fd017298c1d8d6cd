import Verif.Spec.IdfOutline
import Verif.Props.IdfDrill
/-
Lemmas for outlines in IDF files.
-/
namespace Iges.Idf
open Iges.Idf.Spec Iges.Props.IdfNotes Iges.Props.IdfDrill

theorem digit_upper {c : Char} (hm : isDigitC c = true) : c.toUpper = c := by
  unfold Char.toUpper
  have : ¬ (c.val ≥ 'a'.val ∧ c.val ≤ 'z'.val) := by
    rintro ⟨h5, -⟩
    unfold isDigitC at hm
    simp only [Bool.and_eq_true, decide_eq_true_eq] at hm
    have h6 : c.val ≤ '9'.val := hm.2
    have h5' := UInt32.le_iff_toNat_le.1 h5
    have h6' := UInt32.le_iff_toNat_le.1 h6
    have e5 : 'a'.val.toNat = 97 := rfl
    have e6 : '9'.val.toNat = 57 := rfl
    omega
  split
  · rename_i hh; exact absurd hh (by simpa using this)
  · rfl

theorem digit_plain {c : Char} (h : isDigitC c = true) : isSpaceC c = false ∧ c ≠ '"' ∧ c ≠ '#' ∧ c ≠ '\n' := by
  refine ⟨?_, ?_, ?_, ?_⟩
  · have h' := h
    unfold isDigitC at h'
    unfold isSpaceC
    simp only [Bool.and_eq_true, decide_eq_true_eq] at h'
    by_contra hh
    simp only [Bool.not_eq_false, Bool.or_eq_true, beq_iff_eq] at hh
    rcases hh with ((((hh | hh) | hh) | hh) | hh) | hh <;> (subst hh; exact absurd h (by decide))
  all_goals (rintro rfl; exact absurd h (by decide))

theorem scanInt_natStr {i : ℕ} (hi : i ≤ 2147483647) : scanInt (natStr i) = some ((i : ℤ), []) := by
  obtain ⟨c, r, e⟩ := List.exists_cons_of_ne_nil (natStr_ne_nil i)
  have hc : isDigitC c = true := natStr_digit (n := i) (by rw [e]; simp)
  have hall : ∀ x ∈ natStr i, isDigitC x = true := fun x hx => natStr_digit hx
  have h1 : (natStr i).dropWhile isSpaceC = natStr i := dropWhile_of_head _ _ (by
    intro x hx
    rw [e] at hx
    simp at hx
    subst hx
    exact (digit_plain hc).1)
  have h2 : takeSign (natStr i) = (false, 0, natStr i) := by rw [e]; exact takeSign_digit hc
  have h3 : (natStr i).takeWhile isDigitC = natStr i := by
    have := takeWhile_append_of_all isDigitC (natStr i) [] hall
    simpa using this
  have h4 : (natStr i).dropWhile isDigitC = [] := by
    have := dropWhile_append_of_all isDigitC (natStr i) [] hall
    simpa using this
  unfold scanInt
  rw [h1, h2]
  simp only [h3, h4, natStr_ne_nil, if_false, digitsVal_natStr, Bool.false_eq_true]
  rw [if_neg (by omega)]

theorem natStr_notEnd (i : ℕ) : compareToken ".END_" ((natStr i).take 5) = false := by
  obtain ⟨c, r, e⟩ := List.exists_cons_of_ne_nil (natStr_ne_nil i)
  have hc : isDigitC c = true := natStr_digit (n := i) (by rw [e]; simp)
  apply compareToken_false
  rw [e]
  intro h
  have : c.toUpper = '.' := by
    have := congrArg List.head? h
    simpa using this
  rw [digit_upper hc] at this
  subst this
  exact absurd hc (by decide)

theorem coordText_eq (u : Iges.Idf.Unit) (x : ℚ) : coordText u x = fmtF (places u) (x / factor u) := by
  unfold coordText places factor
  split <;> simp

/-- the record without the line end -/
def recBody (u : Iges.Idf.Unit) (i : ℕ) (p : Pt) (ang : Str) : Str :=
  natStr i ++ ' ' :: (coordText u p.x ++ ' ' :: (coordText u p.y ++ ' ' :: ang))

theorem recText_body (u : Iges.Idf.Unit) (i : ℕ) (p : Pt) (ang rest : Str) : recText u i p ang ++ rest = recBody u i p ang ++ '\n' :: rest := by
  unfold recText recBody
  simp

/-- the text of an angle and its value -/
structure IsAngle (t : Str) (a : ℚ) : Prop where
  nonempty : t ≠ []
  chars : ∀ c ∈ t, isSpaceC c = false ∧ c ≠ '"' ∧ c ≠ '#' ∧ c ≠ '\n'
  val : scanNum t = some (a, [])

theorem isAngle_fmtF {a : ℚ} (h : |a| ≤ 10 ^ 305) : IsAngle (fmtF 3 a) (fval 3 a) where
  nonempty := by obtain ⟨c, r, e⟩ := fmtF_head 3 a; rw [e]; simp
  chars := fun c hc => fmtF_nospace hc
  val := by
    have := scanNum_fmtF (p := 3) (by norm_num) a (fval_size h) [] (by simp)
    rwa [List.append_nil] at this

theorem isAngle_zero : IsAngle ['0'] 0 where
  nonempty := by simp
  chars := by intro c hc; simp at hc; subst hc; decide
  val := by decide +kernel

theorem isAngle_360 : IsAngle "360".toList 360 where
  nonempty := by decide
  chars := by decide
  val := by decide +kernel

theorem numTok_coord {u : Iges.Idf.Unit} {x : ℚ} (hx : |x| ≤ 10 ^ 300) (rest : Str) :
    numTok [] (' ' :: (coordText u x ++ ' ' :: rest)) = some (fval (places u) (x / factor u), [], ' ' :: rest) := by
  have h := getWord_fmtF [' '] (by intro c hc; simp at hc; rw [hc]; rfl) (places u) (x / factor u) (' ' :: rest) (space_head _)
  rw [List.singleton_append] at h
  rw [coordText_eq]
  unfold numTok
  rw [h]
  simp only [Bool.false_eq_true, if_false, List.nil_append]
  have h2 := scanNum_fmtF (places_pos u) (x / factor u) (fval_size (size_div u hx)) [] (by simp)
  rw [List.append_nil] at h2
  rw [h2]; rfl

theorem numTok_angle {t : Str} {a : ℚ} (h : IsAngle t a) : numTok [] (' ' :: t) = some (a, [], []) := by
  have hw := bare_word t h.nonempty (by
    intro e
    obtain ⟨c, r, rfl⟩ := List.exists_cons_of_ne_nil h.nonempty
    simp at e
    exact (h.chars c (by simp)).2.1 e) (fun c hc => (h.chars c hc).1) [] (by simp)
  rw [List.append_nil] at hw
  unfold numTok
  rw [hw]
  simp only [Bool.false_eq_true, if_false, List.nil_append, h.val, Option.map_some]

theorem fetch_body {u : Iges.Idf.Unit} {i : ℕ} {p : Pt} {t : Str} {a : ℚ} (h : IsAngle t a) :
    '\n' ∉ recBody u i p t ∧ fetchLine (recBody u i p t) = some ⟨recBody u i p t, false⟩ := by
  constructor
  · have hf : ∀ x, '\n' ∉ coordText u x := fun x hh => by rw [coordText_eq] at hh; exact (fmtF_nospace hh).2.2.2 rfl
    unfold recBody
    simp only [List.mem_append, List.mem_cons, not_or]
    exact ⟨fun hh => (digit_plain (natStr_digit hh)).2.2.2 rfl, by decide, hf _, by decide, hf _, by decide,
      fun hh => (h.chars _ hh).2.2.2 rfl⟩
  · obtain ⟨c, r, e⟩ := List.exists_cons_of_ne_nil (natStr_ne_nil i)
    have hc := digit_plain (natStr_digit (n := i) (c := c) (by rw [e]; simp))
    have hne : recBody u i p t ≠ [] := by unfold recBody; rw [e]; simp
    have hhd : ∀ x ∈ (recBody u i p t).head?, x = c := by
      intro x hx; unfold recBody at hx; rw [e] at hx; simpa using hx.symm
    have hl : ∀ x ∈ (recBody u i p t).getLast?, isSpaceC x = false := by
      intro x hx
      have : (recBody u i p t).getLast? = t.getLast? := by
        unfold recBody
        obtain ⟨w, z, hz⟩ := List.eq_nil_or_concat t |>.resolve_left h.nonempty
        subst hz
        have : natStr i ++ ' ' :: (coordText u p.x ++ ' ' :: (coordText u p.y ++ ' ' :: (w ++ [z]))) =
          (natStr i ++ ' ' :: (coordText u p.x ++ ' ' :: (coordText u p.y ++ ' ' :: w))) ++ [z] := by simp
        rw [List.concat_eq_append, this, List.getLast?_concat, List.getLast?_concat]
      rw [this] at hx
      exact (h.chars x (List.mem_of_getLast? hx)).1
    have ht : trim (recBody u i p t) = recBody u i p t := trim_plain (fun x hx => by rw [hhd x hx]; exact hc.1) hl
    generalize recBody u i p t = s at *
    obtain ⟨d, s', rfl⟩ := List.exists_cons_of_ne_nil hne
    have hd : d ≠ '#' := by rw [hhd d (by simp)]; exact hc.2.2.1
    unfold fetchLine
    split
    · rename_i e; simp at e; exact absurd e.1 hd
    · rw [ht, if_neg hne]

theorem unitFactor_eq {u : Iges.Idf.Unit} (hu : u ≠ .tnm) (v : Version) : unitFactor u v = some (factor u) := by
  unfold unitFactor factor
  cases u with
  | mm => simp
  | thou => simp
  | tnm => exact absurd rfl hu

/-- the point read back -/
def rp (u : Iges.Idf.Unit) (p : Pt) : Pt := ⟨again u p.x, again u p.y⟩

theorem outlineLine_rec {single comp : Bool} {ccw : List QSeg → Bool} {u : Iges.Idf.Unit} (hu : u ≠ .tnm) (v : Version) {st st1 st2 : OutState}
    (hl : st.left = []) {i : ℕ} (hi : i ≤ 2147483647) {p : Pt} (hp : PtSize p) {t : Str} {a : ℚ} (ha : IsAngle t a)
    (h1 : newLoop single ccw st i = some st1) (h2 : addPoint { st1 with left := [] } (rp u p) a = some st2) :
    outlineLine single comp ccw u v st (recBody u i p t) = .next st2 := by
  have hw : getWord (recBody u i p t) = .word (natStr i) false (' ' :: (coordText u p.x ++ ' ' :: (coordText u p.y ++ ' ' :: t))) := by
    have := getWord_bare (ws := []) (t := natStr i) (rest := ' ' :: (coordText u p.x ++ ' ' :: (coordText u p.y ++ ' ' :: t)))
      (by intro c hc; cases hc) (natStr_ne_nil i) (by
        obtain ⟨c, r, e⟩ := List.exists_cons_of_ne_nil (natStr_ne_nil i)
        have hc := digit_plain (natStr_digit (n := i) (c := c) (by rw [e]; simp))
        rw [e]
        intro h
        simp at h
        exact hc.2.1 h) (fun c hc => (digit_plain (natStr_digit hc)).1) (space_head _)
    exact this
  unfold outlineLine
  rw [hw]
  simp only [Bool.false_eq_true, if_false, natStr_notEnd, and_false, hl, List.nil_append, scanInt_natStr hi, h1, numTok_coord hp.1, numTok_coord hp.2,
    numTok_angle ha, unitFactor_eq hu v]
  have e : (⟨fval (places u) (p.x / factor u) * factor u, fval (places u) (p.y / factor u) * factor u⟩ : Pt) = rp u p := rfl
  rw [e, h2]

/-- a record is read -/
theorem read_rec {single comp : Bool} {ccw : List QSeg → Bool} {u : Iges.Idf.Unit} (hu : u ≠ .tnm) (v : Version) {st st1 st2 : OutState}
    (hl : st.left = []) {i : ℕ} (hi : i ≤ 2147483647) {p : Pt} (hp : PtSize p) {t : Str} {a : ℚ} (ha : IsAngle t a)
    (h1 : newLoop single ccw st i = some st1) (h2 : addPoint { st1 with left := [] } (rp u p) a = some st2) (rest : Str) :
    readOutlines single comp ccw u v st (lines (recText u i p t ++ rest)) = readOutlines single comp ccw u v st2 (lines rest) := by
  obtain ⟨g1, g2⟩ := fetch_body (u := u) (i := i) (p := p) ha
  rw [recText_body, lines_line g1, readOutlines, g2]
  simp only [outlineLine_rec hu v hl hi hp ha h1 h2]

/-- the segments through points -/
def segsOf (p : Pt) : List (Pt × ℚ) → List QSeg
  | [] => []
  | (q, a) :: ps => ⟨p, q, a⟩ :: segsOf q ps

/-- the angle read back -/
def ra (a : ℚ) : ℚ := if flat a then 0 else fval 3 a

theorem isAngle_angText {a : ℚ} (h : |a| ≤ 360) : IsAngle (angText a) (ra a) := by
  unfold angText ra
  split
  · exact isAngle_zero
  · apply isAngle_fmtF
    refine le_trans h ?_
    refine le_trans (by norm_num : (360 : ℚ) ≤ 10 ^ 3) (pow_le_pow_right₀ (by norm_num) (by norm_num))

theorem angleOk_size {a : ℚ} (h : AngleOk a) : |a| ≤ 360 := by
  rcases h with rfl | ⟨-, h⟩
  · simp
  · linarith

theorem ra_near {a : ℚ} (h : AngleOk a) : |ra a - a| ≤ 1 / 2000 := by
  unfold ra
  split
  · rename_i hf
    rcases h with rfl | ⟨h, -⟩
    · simp
    · unfold flat at hf
      rw [decide_eq_true_eq] at hf
      have : |a| < 1 / 100 := abs_lt.2 ⟨hf.2, hf.1⟩
      linarith
  · have := fval_err 3 a
    unfold half at this
    norm_num at this ⊢
    exact this

/-- the segment made from a record with an angle that is read back -/
theorem recSeg_ra {a : ℚ} (h : AngleOk a) (p q : Pt) : recSeg p q (ra a) = ⟨p, q, ra a⟩ ∧ turn (ra a) = false := by
  rcases h with rfl | ⟨h1, h2⟩
  · have : ra 0 = 0 := by unfold ra; decide +kernel
    rw [this]
    have e : flat 0 = true := by decide +kernel
    unfold recSeg
    rw [e]
    exact ⟨rfl, by decide +kernel⟩
  · have hn := ra_near (.inr ⟨h1, h2⟩)
    have h3 := abs_sub_abs_le_abs_sub a (ra a)
    have h4 := abs_sub_abs_le_abs_sub (ra a) a
    rw [abs_sub_comm] at h3
    have h5 : 1 / 100 < |ra a| := by linarith
    have h6 : |ra a| < 360 - 1 / 100 := by linarith
    have hf : flat (ra a) = false := by
      unfold flat
      rw [decide_eq_false_iff_not]
      rintro ⟨g1, g2⟩
      have := abs_lt.2 ⟨g2, g1⟩
      linarith
    have ht : turn (ra a) = false := by
      unfold turn
      rw [decide_eq_false_iff_not]
      rintro ⟨g1, g2⟩
      linarith
    refine ⟨?_, ht⟩
    unfold recSeg
    rw [hf, ht]
    simp only [Bool.false_eq_true, if_false]
    rw [if_pos]
    rcases lt_abs.1 h5 with h | h
    · exact .inl h
    · exact .inr (by linarith)

theorem newLoop_same {single : Bool} {ccw : List QSeg → Bool} {st : OutState} {i : ℕ} (h : st.idx = i) : newLoop single ccw st i = some st := by
  unfold newLoop
  rw [if_pos h.symm, if_neg (by rw [h]; omega)]

/-- the records after the first two -/
theorem read_tail {single comp : Bool} {ccw : List QSeg → Bool} {u : Iges.Idf.Unit} (hu : u ≠ .tnm) (v : Version) {i : ℕ} (hi : i ≤ 2147483647)
    (rest : Str) (f : Pt) (ps : List (Pt × ℚ)) (q : Pt × ℚ) (hs : ∀ q' ∈ ps ++ [q], PtSize q'.1 ∧ AngleOk q'.2)
    (hn : ∀ q' ∈ ps, (rp u q'.1).near f = false) (hq : (rp u q.1).near f = true)
    (st : OutState) (hl : st.left = []) (hx : st.idx = i) (h0 : st.npts ≠ 0) (hc : st.closed = false) (hcur : st.cur.head?.map (·.start) = some f) :
    ∃ st2, readOutlines single comp ccw u v st (lines ((ps ++ [q]).flatMap (fun q => recText u i q.1 (angText q.2)) ++ rest)) =
      readOutlines single comp ccw u v st2 (lines rest) ∧ st2.left = [] ∧ st2.idx = i ∧ st2.npts ≠ 0 ∧ st2.closed = true ∧
      st2.done = st.done ∧ st2.cur = st.cur ++ segsOf st.pre ((ps ++ [q]).map fun q => (rp u q.1, ra q.2)) := by
  have step : ∀ (st : OutState) (q : Pt × ℚ), st.left = [] → st.npts ≠ 0 → st.closed = false → st.cur.head?.map (·.start) = some f → AngleOk q.2 →
      addPoint { st with left := [] } (rp u q.1) (ra q.2) = some { st with
        left := [], npts := st.npts + 1, pre := rp u q.1, cur := st.cur ++ [⟨st.pre, rp u q.1, ra q.2⟩], closed := (rp u q.1).near f } := by
    intro st q hl h0 hc hcur ha
    obtain ⟨e1, e2⟩ := recSeg_ra ha st.pre (rp u q.1)
    unfold addPoint
    simp only [h0, hc, Bool.false_eq_true, if_false, e1]
    rw [show QSeg.isCircle ⟨st.pre, rp u q.1, ra q.2⟩ = false from e2]
    simp only [Bool.false_eq_true, if_false]
    cases hh : st.cur.head? with
    | none => rw [hh] at hcur; cases hcur
    | some g =>
      rw [hh] at hcur
      simp only [Option.map_some, Option.some.injEq] at hcur
      simp only [Option.elim, hcur]
  induction ps generalizing st with
  | nil =>
    obtain ⟨h1, h2⟩ := hs q (by simp)
    have e := step st q hl h0 hc hcur h2
    refine ⟨{ st with
        left := [], npts := st.npts + 1, pre := rp u q.1, cur := st.cur ++ [⟨st.pre, rp u q.1, ra q.2⟩], closed := (rp u q.1).near f }, ?_, ?_⟩
    · simp only [List.nil_append, List.flatMap_cons, List.flatMap_nil, List.append_nil]
      exact read_rec hu v hl hi h1 (isAngle_angText (angleOk_size h2)) (newLoop_same hx) e rest
    · exact ⟨rfl, hx, by simp, hq, rfl, by simp [segsOf]⟩
  | cons p ps ih =>
    obtain ⟨h1, h2⟩ := hs p (by simp)
    have e := step st p hl h0 hc hcur h2
    rw [hn p (by simp)] at e
    obtain ⟨st2, g1, g2, g3, g4, g5, g6, g7⟩ := ih (fun q' h => hs q' (by simp at h ⊢; tauto)) (fun q' h => hn q' (by simp [h]))
      { st with left := [], npts := st.npts + 1, pre := rp u p.1, cur := st.cur ++ [⟨st.pre, rp u p.1, ra p.2⟩], closed := false }
      rfl hx (by simp) rfl (by
        cases hh : st.cur with
        | nil => rw [hh] at hcur; cases hcur
        | cons a b => rw [hh] at hcur; simpa using hcur)
    refine ⟨st2, ?_, g2, g3, g4, g5, g6, ?_⟩
    · rw [← g1]
      simp only [List.cons_append, List.flatMap_cons, List.append_assoc]
      exact read_rec hu v hl hi h1 (isAngle_angText (angleOk_size h2)) (newLoop_same hx) e _
    · rw [g7]
      simp [segsOf]

/-- the text of an outline written as it runs -/
def loopText (u : Iges.Idf.Unit) (i : ℕ) : List QSeg → Str
  | [] => []
  | [s] => recText u i s.start ['0'] ++ recText u i s.stop "360".toList
  | f :: r => recTexts u i f.start (forwardPts f r)

theorem tailPts_append (first : Pt) (l : List QSeg) (s : QSeg) :
    tailPts first (l ++ [s]) = (l.map fun t => (t.stop, t.angle)) ++ [(first, s.angle)] := by
  induction l with
  | nil => rfl
  | cons a l ih =>
    cases l with
    | nil => rfl
    | cons b l => 
      have e : tailPts first (a :: b :: l ++ [s]) = (a.stop, a.angle) :: tailPts first (b :: l ++ [s]) := by
        show tailPts first (a :: b :: (l ++ [s])) = _
        rw [tailPts]
        · rfl
        · simp
      rw [e, ih]; rfl

theorem backward_forward (f s : QSeg) (l : List QSeg) : backwardPts f (s :: l) = forwardPts (back f) ((s :: l).reverse.map back) := by
  unfold backwardPts forwardPts
  rw [List.reverse_cons, List.map_append, List.map_cons, List.map_nil, tailPts_append]
  simp only [List.map_map]
  rfl

/-- what `writeOutline` writes -/
theorem write_loop {u : Iges.Idf.Unit} {g : ℚ} {i : ℕ} {l : List QSeg} (h : GoodLoop u g (oriented i l)) :
    writeOutline false ccwOf u i l = .text (loopText u i (oriented i l)) := by
  match l with
  | [] =>
    have : oriented i [] = [] := by unfold oriented reversed; simp
    rw [this] at h
    rcases h.2 with ⟨s, h, -⟩ | ⟨f, r, h, -⟩ <;> cases h
  | [s] =>
    have : oriented i [s] = [s] := by unfold oriented; simp
    rw [this] at h ⊢
    have hc : s.isCircle = true := by
      rcases h.2 with ⟨s, h, hc⟩ | ⟨f, r, h, hr, -⟩
      · cases h; exact hc
      · cases h; exact absurd rfl hr
    unfold writeOutline
    simp only [hc, if_true, Bool.false_eq_true, if_false, loopText]
  | f :: s :: r =>
    unfold writeOutline oriented
    simp only [Bool.false_eq_true, if_false, List.length_cons, Nat.add_eq_right, Nat.add_eq_zero_iff, one_ne_zero, and_false]
    by_cases hi : i = 0
    · subst hi
      cases hc : ccwOf (f :: s :: r)
      · simp only [decide_true, lt_irrefl, or_true, and_self, if_true, Bool.false_eq_true, if_false, reversed]
        rw [backward_forward]
        cases hh : (s :: r).reverse.map back with
        | nil => simp at hh
        | cons a b => rfl
      · simp [loopText]
    · cases hc : ccwOf (f :: s :: r)
      · simp [loopText, hi]
      · simp only [hi, decide_false, Nat.pos_of_ne_zero hi, and_true, true_or, and_self, if_true, Bool.true_eq_false, if_false, reversed, or_false]
        rw [backward_forward]
        cases hh : (s :: r).reverse.map back with
        | nil => simp at hh
        | cons a b => rfl

theorem ptNear_nonneg {g : ℚ} {p q : Pt} (h : PtNear g p q) : 0 ≤ g := le_trans (abs_nonneg _) h.1

theorem rp_near (u : Iges.Idf.Unit) {g : ℚ} {p q : Pt} (h : PtNear g p q) : PtNear (lengthTol u + g) q (rp u p) := by
  have h1 := again_near u p.x
  have h2 := again_near u p.y
  constructor
  · have := abs_add_le (again u p.x - p.x) (p.x - q.x)
    rw [sub_add_sub_cancel, abs_sub_comm p.x] at this
    exact this.trans (add_le_add h1 h.1)
  · have := abs_add_le (again u p.y - p.y) (p.y - q.y)
    rw [sub_add_sub_cancel, abs_sub_comm p.y] at this
    exact this.trans (add_le_add h2 h.2)

theorem ptNear_refl {g : ℚ} (hg : 0 ≤ g) (p : Pt) : PtNear g p p := by
  unfold PtNear; simp only [sub_self, abs_zero]; exact ⟨hg, hg⟩

theorem ptNear_symm {g : ℚ} {p q : Pt} (h : PtNear g p q) : PtNear g q p := by
  unfold PtNear at *; rw [abs_sub_comm, abs_sub_comm p.y]; exact h

/-- the segments read back of the segments after the first -/
theorem tail_near {u : Iges.Idf.Unit} {g : ℚ} (first : Pt) : ∀ (l : List QSeg) (p : Pt), l ≠ [] → Chained g p l first → (∀ s ∈ l, AngleOk s.angle) →
    List.Forall₂ (SegNear (lengthTol u + g)) l (segsOf (rp u p) ((tailPts first l).map fun q => (rp u q.1, ra q.2))) ∧
      Chained 0 (rp u p) (segsOf (rp u p) ((tailPts first l).map fun q => (rp u q.1, ra q.2))) (rp u first)
  | [], _, h, _, _ => absurd rfl h
  | [s], p, _, ⟨h1, h2⟩, ha => by
    refine ⟨.cons ⟨rp_near u h1, rp_near u (ptNear_symm h2), .inl (ra_near (ha s (by simp)))⟩ .nil, ?_⟩
    exact ⟨ptNear_refl le_rfl _, ptNear_refl le_rfl _⟩
  | s :: t :: l, p, _, ⟨h1, h2⟩, ha => by
    obtain ⟨g1, g2⟩ := tail_near first (t :: l) s.stop (by simp) h2 (fun x hx => ha x (by simp [hx]))
    refine ⟨.cons ⟨rp_near u h1, rp_near u (ptNear_refl (ptNear_nonneg h1) _), .inl (ra_near (ha s (by simp)))⟩ g1, ?_⟩
    exact ⟨ptNear_refl le_rfl _, g2⟩

theorem apart_near {u : Iges.Idf.Unit} {p q : Pt} (h : Apart u p q) : (rp u p).near (rp u q) = false := by
  have key : ∀ a b : ℚ, 1 / 100000 + 2 * lengthTol u < |a - b| → 1 / 100000 < |again u a - again u b| := by
    intro a b h
    have h1 := again_near u a
    have h2 := again_near u b
    have h3 : |a - b| ≤ |again u a - a| + |again u a - again u b| + |again u b - b| := by
      have e : a - b = -(again u a - a) + (again u a - again u b) + (again u b - b) := by ring
      rw [e]
      refine (abs_add_le _ _).trans (add_le_add_left ?_ _)
      refine (abs_add_le _ _).trans ?_
      rw [abs_neg]
    linarith
  have sq : ∀ a b : ℚ, 1 / 100000 < |a| → 1 / 100000 * (1 / 100000) < a * a + b * b := by
    intro a b h
    have := mul_self_nonneg b
    rw [← abs_mul_abs_self a]
    nlinarith
  unfold Pt.near
  rw [decide_eq_false_iff_not, not_le]
  rcases h with h | h
  · exact sq _ _ (key _ _ h)
  · rw [add_comm]; exact sq _ _ (key _ _ h)

theorem near_refl (p : Pt) : p.near p = true := by unfold Pt.near; simp

/-- the state in which the records of outline `i` are expected -/
def NextLoop (single : Bool) (ccw : List QSeg → Bool) (st : OutState) (i : ℕ) (d : List (List QSeg)) : Prop :=
  ∃ pre left npts, newLoop single ccw st i = some ⟨left, i, npts, false, pre, d, []⟩ ∧ npts = 0

/-- an outline is read -/
theorem read_loop {single comp : Bool} {ccw : List QSeg → Bool} {u : Iges.Idf.Unit} (hu : u ≠ .tnm) (v : Version) {g : ℚ} {i : ℕ} (hi : i ≤ 2147483647) {l : List QSeg}
    (h : GoodLoop u g l) (hg : 0 ≤ g) {st : OutState} (hl : st.left = []) {d : List (List QSeg)} (hn : NextLoop single ccw st i d) (rest : Str) :
    ∃ st2 : OutState, readOutlines single comp ccw u v st (lines (loopText u i l ++ rest)) = readOutlines single comp ccw u v st2 (lines rest) ∧
      st2.left = [] ∧ st2.idx = i ∧ st2.npts ≠ 0 ∧ st2.closed = true ∧ st2.done = d ∧ List.Forall₂ (SegNear (lengthTol u + g)) l st2.cur ∧
      ((∃ s, st2.cur = [s] ∧ s.angle = 360 ∧ l.length = 1) ∨ (Joined st2.cur ∧ l.length ≠ 1)) := by
  obtain ⟨pre, left, npts, hn, rfl⟩ := hn
  obtain ⟨hsz, h⟩ := h
  have a1 : ∀ p : Pt, addPoint ⟨[], i, 0, false, pre, d, []⟩ (rp u p) 0 = some ⟨[], i, 1, false, rp u p, d, []⟩ := by
    intro p
    unfold addPoint
    norm_num
  rcases h with ⟨s, rfl, hc⟩ | ⟨f, r, rfl, hr, hch, ha, hap⟩
  · obtain ⟨p1, p2⟩ := hsz s (by simp)
    have a2 : addPoint ⟨[], i, 1, false, rp u s.start, d, []⟩ (rp u s.stop) 360 =
        some ⟨[], i, 2, true, rp u s.stop, d, [⟨rp u s.start, rp u s.stop, 360⟩]⟩ := by
      have e : recSeg (rp u s.start) (rp u s.stop) 360 = ⟨rp u s.start, rp u s.stop, 360⟩ := by
        unfold recSeg
        rw [show flat 360 = false by decide +kernel, show turn 360 = true by decide +kernel]
        simp
      unfold addPoint
      simp only [one_ne_zero, if_false, Bool.false_eq_true, e]
      rw [show QSeg.isCircle ⟨rp u s.start, rp u s.stop, 360⟩ = true from (by decide +kernel : turn 360 = true)]
      simp
    refine ⟨⟨[], i, 2, true, rp u s.stop, d, [⟨rp u s.start, rp u s.stop, 360⟩]⟩, ?_, rfl, rfl, by simp, rfl, rfl, ?_, .inl ⟨_, rfl, rfl, rfl⟩⟩
    · rw [loopText, List.append_assoc, read_rec hu v hl hi p1 isAngle_zero hn (a1 _) _]
      exact read_rec (st := ⟨[], i, 1, false, rp u s.start, d, []⟩) hu v rfl hi p2 isAngle_360 (newLoop_same rfl) a2 _
    · refine .cons ⟨rp_near u (ptNear_refl hg _), rp_near u (ptNear_refl hg _), .inr ⟨hc, (by decide +kernel : turn 360 = true)⟩⟩ .nil
  · obtain ⟨p1, p2⟩ := hsz f (by simp)
    have af := ha f (by simp)
    have a2 : addPoint ⟨[], i, 1, false, rp u f.start, d, []⟩ (rp u f.stop) (ra f.angle) =
        some ⟨[], i, 2, false, rp u f.stop, d, [⟨rp u f.start, rp u f.stop, ra f.angle⟩]⟩ := by
      obtain ⟨e1, e2⟩ := recSeg_ra af (rp u f.start) (rp u f.stop)
      unfold addPoint
      simp only [one_ne_zero, if_false, Bool.false_eq_true, e1]
      rw [show QSeg.isCircle ⟨rp u f.start, rp u f.stop, ra f.angle⟩ = false from e2]
      simp
    obtain ⟨w, z, rfl⟩ : ∃ w z, r = w ++ [z] := by
      obtain ⟨w, z, e⟩ := (List.eq_nil_or_concat r).resolve_left hr
      exact ⟨w, z, by rw [e, List.concat_eq_append]⟩
    rw [List.dropLast_concat] at hap
    have ht := tailPts_append f.start w z
    obtain ⟨st2, g1, g2, g3, g4, g5, g6, g7⟩ := read_tail (single := single) (comp := comp) (ccw := ccw) hu v hi rest (rp u f.start)
      (w.map fun t => (t.stop, t.angle)) (f.start, z.angle) (by
        intro q hq
        simp only [List.mem_append, List.mem_map, List.mem_singleton] at hq
        rcases hq with ⟨t, ht, rfl⟩ | rfl
        · exact ⟨(hsz t (by simp [ht])).2, ha t (by simp [ht])⟩
        · exact ⟨p1, ha z (by simp)⟩) (by
        intro q hq
        obtain ⟨t, ht, rfl⟩ := List.mem_map.1 hq
        exact apart_near (hap t ht)) (near_refl _)
      ⟨[], i, 2, false, rp u f.stop, d, [⟨rp u f.start, rp u f.stop, ra f.angle⟩]⟩ rfl rfl (by simp) rfl rfl
    rw [← ht] at g1 g7
    obtain ⟨n1, n2⟩ := tail_near (u := u) f.start (w ++ [z]) f.stop (by simp) hch (fun s hs => ha s (List.mem_cons_of_mem _ hs))
    refine ⟨st2, ?_, g2, g3, g4, g5, g6, ?_, .inr ⟨⟨_, _, g7, n2⟩, by simp⟩⟩
    · have e : loopText u i (f :: (w ++ [z])) = recTexts u i f.start (forwardPts f (w ++ [z])) := by
        cases w <;> rfl
      rw [e, recTexts, List.append_assoc, read_rec hu v hl hi p1 isAngle_zero hn (a1 _) _, forwardPts, List.flatMap_cons, List.append_assoc,
        read_rec (st := ⟨[], i, 1, false, rp u f.start, d, []⟩) hu v rfl hi p2 (isAngle_angText (angleOk_size af)) (newLoop_same rfl) a2 _]
      exact g1
    · rw [g7]
      exact .cons ⟨rp_near u (ptNear_refl hg _), rp_near u (ptNear_refl hg _), .inl (ra_near af)⟩ n1

theorem ccw_circle {s : QSeg} (h : s.angle = 360) : ccwOf [s] = true ∧ s.isCircle = true := by
  constructor
  · have e : s.real.angle = 360 := by
      have h1 : fullTurn ((360 : ℚ) : ℝ) := by unfold fullTurn minAng; norm_num
      unfold QSeg.real arcSeg
      rw [h, if_neg (by norm_num), if_pos (.inl h1), if_pos h1]
    have h2 : s.real.isCircle = true := by
      unfold Seg.isCircle fullTurn minAng
      rw [e]
      norm_num
    exact h2
  · unfold QSeg.isCircle turn; rw [h]; norm_num

/-- after an outline, the next one is expected -/
theorem next_after {st : OutState} {i : ℕ} (h1 : st.idx = i) (h3 : st.closed = true) (hw : Winds i st.cur)
    (hc : ∀ s, st.cur = [s] → s.isCircle = true → s.angle = 360) : NextLoop false ccwOf st (i + 1) (st.done ++ [st.cur]) := by
  refine ⟨st.pre, st.left, 0, ?_, rfl⟩
  unfold newLoop
  have hf : ¬ ((st.idx = 0 ∧ ccwOf st.cur = false) ∨
      (st.idx > 0 ∧ ccwOf st.cur = true ∧ (st.cur.head?.elim false QSeg.isCircle) = false)) := by
    rw [h1]
    rcases hw with ⟨s, e, hs⟩ | hw
    · rw [(by rw [e]; exact (ccw_circle (hc s e hs)).1 : ccwOf st.cur = true), e]
      simp [hs]
    · rw [hw]
      rintro (⟨a, b⟩ | ⟨a, b, -⟩)
      · simp at b; omega
      · simp at b; omega
  rw [if_neg (by rw [h1]; push_cast; omega), if_neg (by rw [h3]; simp), if_neg (by omega), if_neg (by rw [h1]; omega)]
  simp only [Bool.false_eq_true, if_false]
  rw [if_neg (by rw [h1]; push_cast; omega), if_neg hf]

/-- the outlines of a board are read -/
theorem read_loops {comp : Bool} {u : Iges.Idf.Unit} (hu : u ≠ .tnm) (v : Version) {g : ℚ} (hg : 0 ≤ g) (rest : Str) :
    ∀ (ls : List (List QSeg)) (i : ℕ), i + ls.length ≤ 2147483647 →
      (∀ k l, ls[k]? = some l → GoodLoop u g (oriented (i + k) l) ∧ (k + 1 < ls.length → Robust u g (i + k) (oriented (i + k) l))) →
      ∀ (st : OutState), st.left = [] → (ls ≠ [] → NextLoop false ccwOf st i st.loops) → (st.idx = -1 ∨ st.closed = true) →
    ∃ t st2, writeLoops false ccwOf u i ls = .text t ∧
      readOutlines false comp ccwOf u v st (lines (t ++ rest)) = readOutlines false comp ccwOf u v st2 (lines rest) ∧
      st2.left = [] ∧ (st2.idx = -1 ∨ st2.closed = true) ∧
      ∃ ls', st2.loops = st.loops ++ ls' ∧ ls'.length = ls.length ∧
        ∀ k l, ls[k]? = some l → ∃ l', ls'[k]? = some l' ∧ List.Forall₂ (SegNear (lengthTol u + g)) (oriented (i + k) l) l'
  | [], i, _, _, st, hl, _, hc => ⟨[], st, rfl, rfl, hl, hc, [], by simp, rfl, by simp⟩
  | l :: ls, i, hlen, hgood, st, hl, hn, hc => by
    rw [List.length_cons] at hlen
    obtain ⟨q1, q2⟩ := hgood 0 l rfl
    rw [Nat.add_zero] at q1 q2
    obtain ⟨st1, g1, g2, g3, g4, g5, g6, g7, g8⟩ := read_loop (comp := comp) hu v (by omega) q1 hg hl (hn (by simp))
      ((match writeLoops false ccwOf u (i + 1) ls with | .text t => t | _ => []) ++ rest)
    have hloops : st1.loops = st.loops ++ [st1.cur] := by
      unfold OutState.loops
      rw [if_neg (by rw [g3]; omega), g6]
      rfl
    obtain ⟨t, st2, k1, k2, k3, k4, ls', k5, k6, k7⟩ := read_loops (comp := comp) hu v hg rest ls (i + 1) (by omega) (by
        intro k l' hk
        have := hgood (k + 1) l' (by simpa using hk)
        rw [show i + (k + 1) = i + 1 + k by omega] at this
        exact ⟨this.1, fun hh => this.2 (by simpa using hh)⟩) st1 g2 (by
        intro hne
        have hlen' : 0 + 1 < (l :: ls).length := by
          cases ls with
          | nil => exact absurd rfl hne
          | cons a b => simp
        have hw : Winds i st1.cur := by
          rcases g8 with ⟨s, e, e1, -⟩ | ⟨hj, hj1⟩
          · exact .inl ⟨s, e, (ccw_circle e1).2⟩
          · rcases q2 hlen' with h1 | h1
            · exact absurd h1 hj1
            · exact h1 _ g7 hj
        have := next_after g3 g5 hw (by
          intro s e hs
          rcases g8 with ⟨s', e', e1, -⟩ | ⟨hj, hj1⟩
          · rw [e] at e'
            cases e'
            exact e1
          · have := g7.length_eq
            rw [e] at this
            exact absurd this hj1)
        rw [hloops]
        have e2 : st.loops = st1.done := g6.symm
        rw [e2]
        exact this) (.inr g5)
    refine ⟨loopText u i (oriented i l) ++ t, st2, ?_, ?_, k3, k4, st1.cur :: ls', ?_, by simp [k6], ?_⟩
    · rw [writeLoops, write_loop q1]
      simp only [k1]
    · rw [k1] at g1
      rw [List.append_assoc, g1, k2]
    · rw [k5, hloops]; simp
    · intro k l0 hk
      cases k with
      | zero =>
        simp only [List.getElem?_cons_zero, Option.some.injEq] at hk
        subst hk
        exact ⟨st1.cur, rfl, g7⟩
      | succ k =>
        have := k7 k l0 (by simpa using hk)
        rw [show i + (k + 1) = i + 1 + k by omega]
        simpa using this

end Iges.Idf
