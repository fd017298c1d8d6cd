import Verif.Lemmas.Columns
namespace Iges

theorem DEItemToInt_eq (input : Str) (field : Nat) (var : Int) (d : Option Int)
    (hf : field ≤ 9) (hl : 8 * field + 8 ≤ input.length) :
    DEItemToInt input field var d =
      if Spec.BlankColumn (substr input (8 * field) 8) then
        (match d with | none => (false, var) | some d => (true, d))
      else scanCol ((substr input (8 * field) 8).dropWhile (· == ' ')) var := by
  unfold DEItemToInt scanCol
  have h1 : ¬ ((field : Int) < 0 ∨ (field : Int) > 9) := by omega
  have h2 : ¬ input.length < 8 * field + 8 := by omega
  simp only [h1, if_false, Int.toNat_natCast, h2]
  have := dropWhile_blank_empty (substr input (8 * field) 8)
  by_cases hb : Spec.BlankColumn (substr input (8 * field) 8)
  · simp only [this.mpr hb, hb, if_true]
    cases d <;> rfl
  · have hne : ¬ ((substr input (8 * field) 8).dropWhile (· == ' ')).isEmpty = true :=
      fun h => hb (this.mp h)
    simp only [hne, hb, if_false]
    rfl

theorem FormatDEInt_some (n : Int) (h1 : -9999999 ≤ n) (h2 : n ≤ 99999999) :
    FormatDEInt n = some (List.replicate (8 - (intStr n).length) ' ' ++ intStr n) := by
  unfold FormatDEInt
  have : ¬ (n > 99999999 ∨ n < -9999999) := by omega
  simp [this]

theorem FormatDEInt_length {n : Int} {s : Str} (h : FormatDEInt n = some s) : s.length = 8 := by
  unfold FormatDEInt at h
  split at h
  · simp at h
  · rename_i hc
    have := intStr_length_le n (by omega) (by omega)
    simp at h; subst h; simp; omega

theorem FormatDEInt_range {n : Int} {s : Str} (h : FormatDEInt n = some s) :
    -9999999 ≤ n ∧ n ≤ 99999999 := by
  unfold FormatDEInt at h
  split at h
  · simp at h
  · omega

theorem intColumn_pad (k : Nat) (n : Int) : Spec.IntColumn (List.replicate k ' ' ++ intStr n) n := by
  cases n with
  | ofNat m =>
    refine ⟨List.replicate k ' ', [], natStr m, [], by simp [intStr], ?_, Or.inl rfl,
      natStr_ne_nil m, ?_, Or.inl rfl, ?_⟩
    · intro c hc; rw [List.eq_of_mem_replicate hc]; simp [Spec.Blank]
    · intro c hc; rw [← isDigitC_eq]; exact natStr_digit hc
    · simp [Spec.signed, ← digitsVal_eq, digitsVal_natStr]
  | negSucc m =>
    refine ⟨List.replicate k ' ', ['-'], natStr (m + 1), [], by simp [intStr], ?_,
      Or.inr (Or.inl rfl), natStr_ne_nil _, ?_, Or.inl rfl, ?_⟩
    · intro c hc; rw [List.eq_of_mem_replicate hc]; simp [Spec.Blank]
    · intro c hc; rw [← isDigitC_eq]; exact natStr_digit hc
    · simp [Spec.signed, ← digitsVal_eq, digitsVal_natStr]; omega

theorem intColumn_not_blank {col : Str} {v : Int} (h : Spec.IntColumn col v) :
    ¬ Spec.BlankColumn col := by
  obtain ⟨ws, sgn, ds, rest, rfl, _, _, hne, hds, _⟩ := h
  obtain ⟨d, ds', rfl⟩ := List.exists_cons_of_ne_nil hne
  intro hb
  have := hb d (by simp)
  have hd := hds d (by simp)
  subst this
  revert hd; decide

theorem substr_mid (a b c : Str) (n : Nat) (hb : b.length = n) : substr (a ++ b ++ c) a.length n = b := by
  unfold substr
  rw [List.append_assoc, List.drop_left, ← hb, List.take_left]

theorem DEItemToInt_of_column (input : Str) (field : Nat) (var v : Int) (d : Option Int)
    (hf : field ≤ 9) (hl : 8 * field + 8 ≤ input.length)
    (hc : Spec.IntColumn (substr input (8 * field) 8) v) :
    DEItemToInt input field var d = (true, v) := by
  rw [DEItemToInt_eq _ _ _ _ hf hl, if_neg (intColumn_not_blank hc)]
  rw [scanCol_iff]
  · exact (intColumn_dropBlank _ _).mpr hc
  · refine Nat.le_trans ((List.dropWhile_sublist _).length_le) ?_
    simp [substr]; omega

theorem isSection_iff (c : Char) :
    isSection c = true ↔ c ∈ ['F', 'S', 'G', 'D', 'P', 'T'] := by
  simp [isSection, or_assoc]

theorem stripEolRev_spec (s : Str) :
    ∃ e, s = e ++ stripEolRev s ∧ (∀ c ∈ e, Spec.Eol c) ∧
      ((stripEolRev s).length ≤ 1 ∨ ∀ c, (stripEolRev s).head? = some c → ¬ Spec.Eol c) := by
  fun_induction stripEolRev s with
  | case1 c d r h ih =>
    obtain ⟨e, h1, h2, h3⟩ := ih
    refine ⟨c :: e, ?_, ?_, h3⟩
    · simp only [List.cons_append]; rw [← h1]
    · intro x hx
      rcases List.mem_cons.mp hx with rfl | hx
      · exact h
      · exact h2 x hx
  | case2 c d r h =>
    refine ⟨[], by simp, by simp, Or.inr ?_⟩
    intro x hx
    simp at hx; subst hx; exact h
  | case3 s h =>
    refine ⟨[], by simp, by simp, Or.inl ?_⟩
    match s, h with
    | [], _ => simp
    | [_], _ => simp
    | a :: b :: r, h => exact absurd rfl (h a b r)

theorem stripEolRev_unique (e b : Str) (he : ∀ c ∈ e, Spec.Eol c) (hb : b ≠ [])
    (hh : ∀ c, b.head? = some c → ¬ Spec.Eol c) : stripEolRev (e ++ b) = b := by
  induction e with
  | nil =>
    match b, hb with
    | [a], _ => rfl
    | a :: c :: r, _ =>
      have := hh a rfl
      unfold stripEolRev Spec.Eol at *
      simp only [List.nil_append]
      rw [if_neg this]
  | cons x e ih =>
    have hx : Spec.Eol x := he x (by simp)
    have hne : e ++ b ≠ [] := by simp [hb]
    obtain ⟨y, t, hy⟩ := List.exists_cons_of_ne_nil hne
    have ih' := ih (fun c hc => he c (by simp [hc]))
    rw [List.cons_append, hy]
    rw [hy] at ih'
    unfold stripEolRev
    unfold Spec.Eol at hx
    rw [if_pos hx]
    exact ih'

/-- The stripped line is the body of the line, provided the body has at least two columns. -/
theorem stripEol_iff (line body : Str) (hb : 2 ≤ body.length) :
    stripEol line = body ↔ Spec.LineBody line body := by
  constructor
  · intro h
    obtain ⟨e, h1, h2, h3⟩ := stripEolRev_spec line.reverse
    unfold stripEol at h
    have h' : stripEolRev line.reverse = body.reverse := by rw [← h]; simp
    rw [h'] at h1 h3
    refine ⟨e.reverse, ?_, ?_, ?_⟩
    · have := congrArg List.reverse h1
      simpa using this
    · intro c hc; exact h2 c (by simpa using hc)
    · intro c hc
      rcases h3 with h3 | h3
      · simp at h3; omega
      · apply h3; rw [List.head?_reverse]; exact hc
  · rintro ⟨e, rfl, he, hl⟩
    unfold stripEol
    rw [List.reverse_append, stripEolRev_unique]
    · simp
    · intro c hc; exact he c (by simpa using hc)
    · intro h; have := congrArg List.length h; simp at this; simp [this] at hb
    · intro c hc; apply hl; rw [List.head?_reverse] at hc; exact hc

end Iges
