import Verif.Model.MergeLine
import Verif.Spec.MergeLine
import Verif.Props.MergeTool
import Verif.Lemmas.RealText
import Verif.Lemmas.Parse
/-
C105: the numbers of the lines read by the merge program.
-/
namespace Iges.Props.MergeTool
open Iges Iges.MergeTool Iges.MergeTool.Spec

private theorem digit_iff (c : Char) : isDigitC c = true ↔ '0' ≤ c ∧ c ≤ '9' := by
  simp [isDigitC]

private theorem digits_c {s : Str} (h : Digits s) : ∀ c ∈ s, isDigitC c = true := fun c hc => (digit_iff c).mpr (h c hc)

private theorem whole_eq (s : Str) : whole s = digitsVal s := rfl

private def rawOf (n : Numeral) : Raw := ⟨n.neg, n.ip, !n.fp.isEmpty, n.fp, none⟩

private theorem raw_wf {n : Numeral} (h : n.Proper) : (rawOf n).WF where
  ip_ne := h.some
  ip_d := digits_c h.ip
  fp_d := digits_c h.fp
  dot_fp := by simp [rawOf]
  ex_ok := by simp [rawOf]

private theorem raw_text (n : Numeral) : (rawOf n).text 'E' = n.text := by
  unfold Raw.text Raw.man Raw.exText rawOf Numeral.text signText
  cases n.fp <;> cases n.neg <;> simp

private theorem raw_range {n : Numeral} (h : n.Proper) : decErange (digitsVal (n.ip ++ n.fp)) (0 - n.fp.length) = false := by
  have hd : ∀ c ∈ n.ip ++ n.fp, isDigitC c = true := by
    intro c hc
    rcases List.mem_append.mp hc with hc | hc
    · exact digits_c h.ip c hc
    · exact digits_c h.fp c hc
  have hlt := digitsVal_lt _ hd
  have hlen : (n.ip ++ n.fp).length ≤ 300 := by simpa using h.len
  have hlt' : digitsVal (n.ip ++ n.fp) < 10 ^ 300 := lt_of_lt_of_le hlt (Nat.pow_le_pow_right (by norm_num) hlen)
  have ho : (10 : ℕ) ^ 300 < dblOverflow := by decide +kernel
  have ht : (10 : ℕ) ^ 300 ≤ dblTinyInv := by decide +kernel
  have hfp : 10 ^ n.fp.length ≤ (10 : ℕ) ^ 300 := Nat.pow_le_pow_right (by norm_num) (by have := h.len; omega)
  unfold decErange
  generalize (10 : ℕ) ^ 300 = B at hlt' ho ht hfp
  generalize dblOverflow = O at *
  generalize dblTinyInv = T at *
  split
  · rfl
  · rename_i h0
    have hpos : 1 ≤ digitsVal (n.ip ++ n.fp) := Nat.one_le_iff_ne_zero.mpr h0
    split
    · rename_i he
      have : n.fp.length = 0 := by omega
      simp [this]
      exact lt_trans hlt' ho
    · have e : (-(0 - (n.fp.length : Int))).toNat = n.fp.length := by omega
      rw [e]
      have h1 : 1 ≤ 10 ^ n.fp.length := Nat.one_le_pow _ _ (by norm_num)
      have a : digitsVal (n.ip ++ n.fp) < O * 10 ^ n.fp.length := by nlinarith
      have b : 10 ^ n.fp.length ≤ digitsVal (n.ip ++ n.fp) * T := by nlinarith
      simp only [Bool.or_eq_false_iff, decide_eq_false_iff_not]
      exact ⟨by simpa using a, by simpa using b⟩

private theorem digitsVal_app (a b : Str) : digitsVal (a ++ b) = digitsVal a * 10 ^ b.length + digitsVal b := by
  induction b using List.reverseRecOn with
  | nil => simp [digitsVal]
  | append_singleton l c ih =>
    have e : ∀ s : Str, digitsVal (s ++ [c]) = 10 * digitsVal s + (c.toNat - 48) := fun s => by simp [digitsVal]
    rw [← List.append_assoc, e, e, ih]
    simp [pow_succ]; ring

private theorem raw_value (n : Numeral) : (((rawOf n).dec.toRat : ℚ) : ℝ) = n.number := by
  unfold Raw.dec Dec.toRat Raw.exVal rawOf Numeral.number
  simp only [zero_sub, zpow_neg, zpow_natCast]
  rw [digitsVal_app]
  have h10 : (10 : ℝ) ^ n.fp.length ≠ 0 := by positivity
  cases n.neg <;> simp [whole_eq] <;> field_simp

private theorem no_delim {t : Str} {x : ℝ} (h : Field t x) : ',' ∉ t ∧ ';' ∉ t ∧ t ≠ [] ∧ 'D' ∉ t := by
  obtain ⟨k, n, hn, rfl, -⟩ := h
  have key : ∀ c : Char, c ≠ ' ' → c ≠ '-' → c ≠ '.' → isDigitC c = false → c ∉ List.replicate k ' ' ++ n.text := by
    intro c h1 h2 h3 h4 hc
    unfold Numeral.text at hc
    simp only [List.mem_append] at hc
    rcases hc with hc | (hc | hc) | hc
    · exact h1 (List.eq_of_mem_replicate hc)
    · split at hc
      · exact h2 (by simpa using hc)
      · simp at hc
    · rw [digits_c hn.ip c hc] at h4; cases h4
    · split at hc
      · simp at hc
      · rcases List.mem_cons.mp hc with hc | hc
        · exact h3 hc
        · rw [digits_c hn.fp c hc] at h4; cases h4
  refine ⟨key ',' (by decide) (by decide) (by decide) (by decide), key ';' (by decide) (by decide) (by decide) (by decide), ?_,
    key 'D' (by decide) (by decide) (by decide) (by decide)⟩
  obtain ⟨c, l, e⟩ := List.exists_cons_of_ne_nil hn.some
  unfold Numeral.text
  simp [e]

private theorem real_at {sp : ℝ} {pre t rest : Str} {d : Char} {x : ℝ} (h : Field t x) (hd : d = ',' ∨ d = ';') :
    readReal sp (pre ++ t ++ d :: rest) pre.length = some (x, (pre ++ t ++ [d]).length) := by
  obtain ⟨h1, h2, h3, h4⟩ := no_delim h
  obtain ⟨k, n, hn, rfl, rfl⟩ := h
  obtain ⟨t, ht⟩ : ∃ t, t = List.replicate k ' ' ++ n.text := ⟨_, rfl⟩
  have htok : Iges.Spec.TokenAt (pre ++ t ++ d :: rest) pre.length ',' ';' t d :=
    ⟨rest, by rw [List.append_assoc, List.drop_left], hd, by rw [ht]; exact h1, by rw [ht]; exact h2⟩
  have hD : dToE t = t := by
    have := dToE_noD t [] (by rw [ht]; exact h4)
    simpa [dToE] using this
  have hs := strtod_blanks (List.replicate k ' ') n.text (fun c hc => by rw [List.eq_of_mem_replicate hc]; decide)
  have hr := strtod_raw (raw_wf hn)
  rw [raw_text] at hr
  have hz : (rawOf n).exVal - ((rawOf n).fp.length : Int) = 0 - n.fp.length := rfl
  have hz' : (rawOf n).ip ++ (rawOf n).fp = n.ip ++ n.fp := rfl
  rw [hz, hz', raw_range hn] at hr
  rw [← ht, hr] at hs
  have hne : n.text ≠ [] := by
    obtain ⟨c, l, e⟩ := List.exists_cons_of_ne_nil hn.some
    unfold Numeral.text
    simp [e]
  obtain ⟨s1, s2, s3⟩ := hs
  have s3 := s3 (by simpa using hne)
  rw [← ht]
  have hte : t.isEmpty = false := by
    rw [ht]; simpa using h3
  unfold readReal ParseReal
  rw [ParseLString_token htok]
  simp only [Res.bind, not_true_eq_false, if_false, hte, hD, s1, s2, s3, Bool.false_eq_true, or_self, if_true, Option.map_some, tokVal, raw_value]
  simp
  omega

private theorem int_at {pre t rest : Str} {b : Bool} (h : FlagField t b) :
    ∃ v : Int, readInt (pre ++ t ++ ',' :: rest) pre.length = some (v, (pre ++ t ++ [',']).length) ∧ b = decide (v ≠ 0) := by
  obtain ⟨k, ds, rfl, hd, hne, hlen, rfl⟩ := h
  obtain ⟨t, ht⟩ : ∃ t, t = List.replicate k ' ' ++ ds := ⟨_, rfl⟩
  have key : ∀ c : Char, c ≠ ' ' → isDigitC c = false → c ∉ t := by
    intro c h1 h2 hc
    rw [ht] at hc
    rcases List.mem_append.mp hc with hc | hc
    · exact h1 (List.eq_of_mem_replicate hc)
    · rw [digits_c hd c hc] at h2; cases h2
  have htok : Iges.Spec.TokenAt (pre ++ t ++ ',' :: rest) pre.length ',' ';' t ',' :=
    ⟨rest, by rw [List.append_assoc, List.drop_left], .inl rfl, key _ (by decide) (by decide), key _ (by decide) (by decide)⟩
  have hlt : digitsVal ds < 10 ^ 9 := lt_of_lt_of_le (digitsVal_lt _ (digits_c hd)) (Nat.pow_le_pow_right (by norm_num) hlen)
  have hs := strtol_run (List.replicate k ' ') [] ds [] (fun c hc => by rw [List.eq_of_mem_replicate hc]; decide) (.inl rfl) (digits_c hd) hne
    (by simp) (by simp only [longMin]; split <;> omega) (by simp only [longMax]; split <;> omega)
  have e : List.replicate k ' ' ++ [] ++ ds ++ [] = t := by rw [ht]; simp
  rw [e] at hs
  refine ⟨digitsVal ds, ?_, by by_cases h : digitsVal ds = 0 <;> simp [whole_eq, h]⟩
  have hte : t.isEmpty = false := by rw [ht]; simp [hne]
  have hl : 0 < ds.length := List.length_pos_iff.mpr hne
  rw [← ht]
  unfold readInt ParseInt
  rw [ParseLString_token htok]
  have h32 : toI32 (digitsVal ds : Int) = digitsVal ds := toI32_id (by omega) (by omega)
  have hu : ¬ (List.replicate k ' ').length + ([] : Str).length + ds.length = 0 := by omega
  simp only [Res.bind, not_true_eq_false, if_false, hte, hs, Bool.false_eq_true, hu, or_self, if_true, Option.map_some]
  simp [h32]
  omega

private theorem start_eq {a rest : Str} (h : ':' ∉ a) : startOf (a ++ ':' :: rest) = (a ++ [':']).length := by
  unfold startOf
  rw [if_pos (by simp), List.idxOf_append_of_notMem h]
  simp

private theorem reals_at {sp : ℝ} {post : Str} (l : List (Str × ℝ)) (hl : ∀ x ∈ l, Field x.1 x.2) (pre : Str) :
    readReals sp (pre ++ listed (l.map (·.1)) ++ post) l.length pre.length = some (l.map (·.2)) := by
  induction l generalizing pre with
  | nil => rfl
  | cons x l ih =>
    have hx := hl x (by simp)
    cases l with
    | nil =>
      have e : pre ++ listed (List.map (fun x => x.1) [x]) ++ post = pre ++ x.1 ++ ';' :: post := by simp [listed]
      rw [e]
      simp only [List.length_cons, List.length_nil, readReals, real_at hx (.inr rfl)]
      rfl
    | cons y l =>
      have e : pre ++ listed (List.map (fun x => x.1) (x :: y :: l)) ++ post =
          pre ++ x.1 ++ ',' :: (listed (List.map (fun x => x.1) (y :: l)) ++ post) := by simp [listed]
      have e' : pre ++ x.1 ++ ',' :: (listed (List.map (fun x => x.1) (y :: l)) ++ post) =
          (pre ++ x.1 ++ [',']) ++ listed (List.map (fun x => x.1) (y :: l)) ++ post := by simp
      have := ih (fun z hz => hl z (by simp [hz])) (pre ++ x.1 ++ [','])
      rw [e]
      rw [show (x :: y :: l).length = (y :: l).length + 1 from rfl, readReals, real_at hx (.inl rfl)]
      simp only
      rw [e', this]
      rfl

/-- C105. The numbers of a `pos` line are those that are written in it: the angle, the flag for the bottom side, and the offset. -/
theorem C105_pos_numbers (sp : ℝ) {a post t0 t1 t2 t3 t4 : Str} {r x y z : ℝ} {b : Bool} (ha : ':' ∉ a) (h0 : Field t0 r) (h1 : FlagField t1 b)
    (h2 : Field t2 x) (h3 : Field t3 y) (h4 : Field t4 z) :
    (numbers sp).pos (a ++ ':' :: listed [t0, t1, t2, t3, t4] ++ post) = some ⟨r, b, x, y, z⟩ := by
  show posNumbers sp _ = _
  have e0 : a ++ ':' :: listed [t0, t1, t2, t3, t4] ++ post = a ++ ':' :: (listed [t0, t1, t2, t3, t4] ++ post) := by simp
  have e1 : a ++ ':' :: (listed [t0, t1, t2, t3, t4] ++ post) = (a ++ [':']) ++ t0 ++ ',' :: (listed [t1, t2, t3, t4] ++ post) := by simp [listed]
  have e2 : (a ++ [':']) ++ t0 ++ ',' :: (listed [t1, t2, t3, t4] ++ post) =
      (a ++ [':'] ++ t0 ++ [',']) ++ t1 ++ ',' :: (listed [t2, t3, t4] ++ post) := by simp [listed]
  have e3 : (a ++ [':'] ++ t0 ++ [',']) ++ t1 ++ ',' :: (listed [t2, t3, t4] ++ post) =
      (a ++ [':'] ++ t0 ++ [','] ++ t1 ++ [',']) ++ listed (([(t2, x), (t3, y), (t4, z)] : List (Str × ℝ)).map (·.1)) ++ post := by simp
  obtain ⟨v, i1, i2⟩ := int_at (pre := a ++ [':'] ++ t0 ++ [',']) (rest := listed [t2, t3, t4] ++ post) h1
  have r3 := reals_at (sp := sp) (post := post) [(t2, x), (t3, y), (t4, z)] (by simp [h2, h3, h4]) (a ++ [':'] ++ t0 ++ [','] ++ t1 ++ [','])
  unfold posNumbers
  rw [e0, start_eq ha, e1, real_at h0 (.inl rfl)]
  simp only
  rw [e2, i1]
  simp only
  rw [e3]
  simp only [List.length_cons, List.length_nil] at r3
  rw [r3]
  simp only [List.map_cons, List.map_nil, i2]
  by_cases hv : v = 0 <;> simp [hv]

/-- C105. The numbers of an `orient` line are those that are written in it: the angle, the direction and the offset. -/
theorem C105_orient_numbers (sp : ℝ) {a post t0 t1 t2 t3 t4 t5 t6 : Str} {r x y z dx dy dz : ℝ} (ha : ':' ∉ a) (h0 : Field t0 r) (h1 : Field t1 x)
    (h2 : Field t2 y) (h3 : Field t3 z) (h4 : Field t4 dx) (h5 : Field t5 dy) (h6 : Field t6 dz) :
    (numbers sp).turn (a ++ ':' :: listed [t0, t1, t2, t3, t4, t5, t6] ++ post) = some ⟨r, ⟨x, y, z⟩, ⟨dx, dy, dz⟩⟩ := by
  show turnNumbers sp _ = _
  have e0 : a ++ ':' :: listed [t0, t1, t2, t3, t4, t5, t6] ++ post = a ++ ':' :: (listed [t0, t1, t2, t3, t4, t5, t6] ++ post) := by simp
  have e1 : a ++ ':' :: (listed [t0, t1, t2, t3, t4, t5, t6] ++ post) = (a ++ [':']) ++
      listed (([(t0, r), (t1, x), (t2, y), (t3, z), (t4, dx), (t5, dy), (t6, dz)] : List (Str × ℝ)).map (·.1)) ++ post := by simp
  have r7 := reals_at (sp := sp) (post := post) [(t0, r), (t1, x), (t2, y), (t3, z), (t4, dx), (t5, dy), (t6, dz)]
    (by simp [h0, h1, h2, h3, h4, h5, h6]) (a ++ [':'])
  unfold turnNumbers
  rw [e0, start_eq ha, e1]
  simp only [List.length_cons, List.length_nil] at r7
  rw [r7]
  rfl

/-- the sample line of the program's own help -/
example : (numbers 0).pos "pos: 90,1,10,10,0.8;".toList = some ⟨90, true, 10, 10, 0.8⟩ := by
  have f90 : Field " 90".toList 90 := ⟨1, ⟨false, "90".toList, []⟩, ⟨by decide, by unfold Digits; decide, by unfold Digits; decide, by simp⟩, by decide, by
    simp [Numeral.number, whole]⟩
  have f10 : Field "10".toList 10 := ⟨0, ⟨false, "10".toList, []⟩, ⟨by decide, by unfold Digits; decide, by unfold Digits; decide, by simp⟩, by decide, by
    simp [Numeral.number, whole]⟩
  have f08 : Field "0.8".toList 0.8 := ⟨0, ⟨false, "0".toList, "8".toList⟩, ⟨by decide, by unfold Digits; decide, by unfold Digits; decide, by simp⟩, by decide, by
    simp [Numeral.number, whole]; norm_num⟩
  have e : "pos: 90,1,10,10,0.8;".toList = "pos".toList ++ ':' :: listed [" 90".toList, "1".toList, "10".toList, "10".toList, "0.8".toList] ++ [] := by
    decide
  rw [e]
  exact C105_pos_numbers 0 (by decide) f90 ⟨0, "1".toList, by decide, by unfold Digits; decide, by decide, by decide, by decide⟩ f10 f10 f08

private theorem split_colon {w t a b : Str} {c : Char} (ht : c ∉ t) (hw : c ∉ w) {k : Str}
    (h : a ++ (k ++ [c]) ++ b = w ++ c :: t) : ∃ v, v ++ k = w := by
  have h' : (a ++ k) ++ c :: b = w ++ c :: t := by simpa using h
  rcases List.append_eq_append_iff.mp h' with ⟨x, e1, e2⟩ | ⟨x, e1, e2⟩
  · cases x with
    | nil => exact ⟨a, by simpa using e1.symm⟩
    | cons d x =>
      simp only [List.cons_append, List.cons.injEq] at e2
      exact absurd (by rw [e1, ← e2.1]; simp) hw
  · cases x with
    | nil => exact ⟨a, by simpa using e1⟩
    | cons d x =>
      simp only [List.cons_append, List.cons.injEq] at e2
      exact absurd (by rw [e2.2]; simp) ht

private theorem lacks_of {w : Str} {t : Str} (ht : ':' ∉ t) (hw : ':' ∉ w) {ks : List Str} (hk : ∀ k ∈ ks, ¬ k <:+ w) :
    ∀ k ∈ ks, ¬ (k ++ [':']) <:+: w ++ ':' :: t := by
  rintro k hk' ⟨a, b, e⟩
  exact hk k hk' (split_colon ht hw (a := a) (b := b) e)

private theorem no_colon {t : Str} {x : ℝ} (h : Field t x) : ':' ∉ t := by
  obtain ⟨k, n, hn, rfl, -⟩ := h
  intro hc
  unfold Numeral.text at hc
  simp only [List.mem_append] at hc
  rcases hc with hc | (hc | hc) | hc
  · exact absurd (List.eq_of_mem_replicate hc) (by decide)
  · split at hc
    · exact absurd hc (by decide)
    · simp at hc
  · exact absurd (digits_c hn.ip _ hc) (by decide)
  · split at hc
    · simp at hc
    · rcases List.mem_cons.mp hc with hc | hc
      · exact absurd hc (by decide)
      · exact absurd (digits_c hn.fp _ hc) (by decide)

private theorem no_colon_flag {t : Str} {b : Bool} (h : FlagField t b) : ':' ∉ t := by
  obtain ⟨k, ds, rfl, hd, -⟩ := h
  intro hc
  rcases List.mem_append.mp hc with hc | hc
  · exact absurd (List.eq_of_mem_replicate hc) (by decide)
  · exact absurd (digits_c hd _ hc) (by decide)

/-- C105. A line with the word `pos:` and five numbers means that position, in the sense of C105_merged_partial. -/
theorem C105_pos_line (sp : ℝ) {post t0 t1 t2 t3 t4 : Str} {r x y z : ℝ} {b : Bool} (hp : ':' ∉ post) (h0 : Field t0 r) (h1 : FlagField t1 b)
    (h2 : Field t2 x) (h3 : Field t3 y) (h4 : Field t4 z) :
    Means (numbers sp) ("pos:".toList ++ listed [t0, t1, t2, t3, t4] ++ post) (.pos ⟨r, b, x, y, z⟩) := by
  have e : "pos:".toList ++ listed [t0, t1, t2, t3, t4] ++ post = "pos".toList ++ ':' :: listed [t0, t1, t2, t3, t4] ++ post := by
    have : "pos:".toList = "pos".toList ++ [':'] := by decide
    rw [this]; simp
  have ht : ':' ∉ listed [t0, t1, t2, t3, t4] ++ post := by
    simp [listed, no_colon h0, no_colon_flag h1, no_colon h2, no_colon h3, no_colon h4, hp]
  refine .pos ⟨[], listed [t0, t1, t2, t3, t4] ++ post, by simp⟩ ?_ (by rw [e]; exact C105_pos_numbers sp (by decide) h0 h1 h2 h3 h4)
  have l := lacks_of (w := "pos".toList) ht (by decide) (ks := ["file".toList, "unit".toList, "orient".toList]) (by decide)
  rw [e, List.append_assoc, List.cons_append]
  intro k hk
  simp only [List.mem_cons, List.not_mem_nil, or_false] at hk
  rcases hk with rfl | rfl | rfl
  · exact l "file".toList (by simp)
  · exact l "unit".toList (by simp)
  · exact l "orient".toList (by simp)

/-- C105. A line with the word `orient:` and seven numbers means that orientation. -/
theorem C105_orient_line (sp : ℝ) {post t0 t1 t2 t3 t4 t5 t6 : Str} {r x y z dx dy dz : ℝ} (hp : ':' ∉ post) (h0 : Field t0 r) (h1 : Field t1 x)
    (h2 : Field t2 y) (h3 : Field t3 z) (h4 : Field t4 dx) (h5 : Field t5 dy) (h6 : Field t6 dz) :
    Means (numbers sp) ("orient:".toList ++ listed [t0, t1, t2, t3, t4, t5, t6] ++ post) (.orient ⟨r, ⟨x, y, z⟩, ⟨dx, dy, dz⟩⟩) := by
  have e : "orient:".toList ++ listed [t0, t1, t2, t3, t4, t5, t6] ++ post =
      "orient".toList ++ ':' :: listed [t0, t1, t2, t3, t4, t5, t6] ++ post := by
    have : "orient:".toList = "orient".toList ++ [':'] := by decide
    rw [this]; simp
  have ht : ':' ∉ listed [t0, t1, t2, t3, t4, t5, t6] ++ post := by
    simp [listed, no_colon h0, no_colon h1, no_colon h2, no_colon h3, no_colon h4, no_colon h5, no_colon h6, hp]
  refine .orient ⟨[], listed [t0, t1, t2, t3, t4, t5, t6] ++ post, by simp⟩ ?_ (by rw [e]; exact C105_orient_numbers sp (by decide) h0 h1 h2 h3 h4 h5 h6)
  have l := lacks_of (w := "orient".toList) ht (by decide) (ks := ["file".toList, "pos".toList, "unit".toList]) (by decide)
  rw [e, List.append_assoc, List.cons_append]
  intro k hk
  simp only [List.mem_cons, List.not_mem_nil, or_false] at hk
  rcases hk with rfl | rfl | rfl
  · exact l "file".toList (by simp)
  · exact l "pos".toList (by simp)
  · exact l "unit".toList (by simp)

/-- C105. Whatever the direction of an orientation is, the squares of distances change by a twenty millionth part at most. -/
theorem C105_orient_shape (t : Turn) (p q : Point ℝ) :
    |Idf.Spec.distance2 ((orientTransform (orientOf t)).act p) ((orientTransform (orientOf t)).act q) - Idf.Spec.distance2 p q| ≤
      5 / 10 ^ 8 * Idf.Spec.distance2 p q := by
  obtain ⟨n, hn⟩ : ∃ n, CheckNormal t.axis = n := ⟨_, rfl⟩
  have hnn : |dot n n - 1| ≤ 1 / 10 ^ 8 := by
    by_cases hs : dot t.axis t.axis < 1 / 10 ^ 12
    · have : n = ⟨0, 0, 1⟩ := by
        rw [← hn]; unfold CheckNormal; unfold dot at hs; simp only [if_pos hs]
      rw [this]; unfold dot; norm_num
    · by_cases hc : dot t.axis t.axis - 1 < -(1 / 10 ^ 8) ∨ dot t.axis t.axis - 1 > 1 / 10 ^ 8
      · have hpos : 0 < dot t.axis t.axis := lt_of_lt_of_le (by norm_num) (not_lt.mp hs)
        have e : n = ⟨t.axis.x / Real.sqrt (dot t.axis t.axis), t.axis.y / Real.sqrt (dot t.axis t.axis), t.axis.z / Real.sqrt (dot t.axis t.axis)⟩ := by
          rw [← hn]; unfold CheckNormal; unfold dot at hs hc; simp only [if_neg hs, if_pos hc]; rfl
        have hq := Real.mul_self_sqrt hpos.le
        have hl := (Real.sqrt_pos.mpr hpos).ne'
        have : dot n n = 1 := by
          rw [e]
          generalize Real.sqrt (dot t.axis t.axis) = l at hq hl
          unfold dot at *
          simp only
          field_simp
          linarith
        rw [this]; norm_num
      · have e : n = t.axis := by
          rw [← hn]; unfold CheckNormal; unfold dot at hs hc; simp only [if_neg hs, if_neg hc]
        rw [e, abs_le]
        push Not at hc
        exact ⟨hc.1, hc.2⟩
  obtain ⟨h, hh⟩ : ∃ h, Real.pi * t.angle / 360 = h := ⟨_, rfl⟩
  obtain ⟨s, hs⟩ : ∃ s, Real.sin h = s := ⟨_, rfl⟩
  obtain ⟨c, hc⟩ : ∃ c, Real.cos h = c := ⟨_, rfl⟩
  have hcs : s ^ 2 + c ^ 2 = 1 := by rw [← hs, ← hc]; exact Real.sin_sq_add_cos_sq h
  obtain ⟨d, hd⟩ : ∃ d : Point ℝ, d = ⟨p.x - q.x, p.y - q.y, p.z - q.z⟩ := ⟨_, rfl⟩
  have key : Idf.Spec.distance2 ((orientTransform (orientOf t)).act p) ((orientTransform (orientOf t)).act q) - Idf.Spec.distance2 p q =
      4 * s ^ 4 * (dot n n - 1) * (dot n n * dot d d - dot n d ^ 2) := by
    rw [hd]
    simp only [Idf.Spec.distance2, orientTransform, orientOf, hn, hh, hs, hc, Transform.act, Mat.act, Point.add, dot]
    linear_combination (4 * s ^ 2 * ((n.x ^ 2 + n.y ^ 2 + n.z ^ 2) * ((p.x - q.x) ^ 2 + (p.y - q.y) ^ 2 + (p.z - q.z) ^ 2) -
      (n.x * (p.x - q.x) + n.y * (p.y - q.y) + n.z * (p.z - q.z)) ^ 2)) * hcs
  have hdd : Idf.Spec.distance2 p q = dot d d := by rw [hd]; unfold Idf.Spec.distance2 dot; ring
  have lag : 0 ≤ dot n n * dot d d - dot n d ^ 2 := by
    have : dot n n * dot d d - dot n d ^ 2 = (n.x * d.y - n.y * d.x) ^ 2 + (n.y * d.z - n.z * d.y) ^ 2 + (n.x * d.z - n.z * d.x) ^ 2 := by
      unfold dot; ring
    rw [this]; positivity
  have hD : 0 ≤ dot d d := by unfold dot; nlinarith [sq_nonneg d.x, sq_nonneg d.y, sq_nonneg d.z]
  have hs1 : s ^ 4 ≤ 1 := by nlinarith [sq_nonneg s, sq_nonneg c, sq_nonneg (s * c)]
  have hs0 : 0 ≤ s ^ 4 := by positivity
  rw [key, hdd, abs_mul, abs_mul, abs_mul, abs_of_nonneg lag, abs_of_nonneg hs0, abs_of_nonneg (show (0 : ℝ) ≤ 4 by norm_num)]
  have hup := (abs_le.mp hnn).2
  have up : dot n n * dot d d - dot n d ^ 2 ≤ (1 + 1 / 10 ^ 8) * dot d d := by nlinarith [sq_nonneg (dot n d)]
  calc 4 * s ^ 4 * |dot n n - 1| * (dot n n * dot d d - dot n d ^ 2)
      ≤ 4 * 1 * (1 / 10 ^ 8) * ((1 + 1 / 10 ^ 8) * dot d d) := by gcongr
    _ ≤ 5 / 10 ^ 8 * dot d d := by nlinarith

end Iges.Props.MergeTool
