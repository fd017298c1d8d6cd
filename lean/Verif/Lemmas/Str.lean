import Verif.Model.Str
namespace Iges

theorem isDigitC_eq (c : Char) : isDigitC c = c.isDigit := by
  simp only [isDigitC, Char.isDigit, Char.le_def, UInt32.le_iff_toNat_le, ge_iff_le]

theorem natStr_digit {n : Nat} {c : Char} (h : c ∈ natStr n) : isDigitC c = true := by
  rw [isDigitC_eq]; exact Nat.isDigit_of_mem_toDigits (by decide) (by decide) h

theorem digitsVal_natStr (n : Nat) : digitsVal (natStr n) = n := by
  have := Nat.ofDigitChars_ten_toDigits (n := n)
  simpa [Nat.ofDigitChars_eq_foldl, digitsVal, natStr] using this

theorem natStr_ne_nil (n : Nat) : natStr n ≠ [] := Nat.toDigits_ne_nil

theorem natStr_length_pos (n : Nat) : 0 < (natStr n).length :=
  List.length_pos_iff.mpr (natStr_ne_nil n)

theorem natStr_length_le {n k : Nat} (hk : 0 < k) (h : n < 10 ^ k) : (natStr n).length ≤ k :=
  (Nat.length_toDigits_le_iff (by decide) hk).mpr h

theorem takeWhile_append_of_all {α} (p : α → Bool) (a b : List α) (h : ∀ x ∈ a, p x = true) :
    (a ++ b).takeWhile p = a ++ b.takeWhile p := by
  induction a with
  | nil => rfl
  | cons x a ih =>
    simp only [List.cons_append, List.takeWhile_cons, h x (by simp), if_true]
    rw [ih (fun y hy => h y (by simp [hy]))]

theorem dropWhile_append_of_all {α} (p : α → Bool) (a b : List α) (h : ∀ x ∈ a, p x = true) :
    (a ++ b).dropWhile p = b.dropWhile p := by
  induction a with
  | nil => rfl
  | cons x a ih =>
    simp only [List.cons_append, List.dropWhile_cons, h x (by simp), if_true]
    exact ih (fun y hy => h y (by simp [hy]))

theorem takeWhile_of_head {α} (p : α → Bool) (b : List α) (h : ∀ x ∈ b.head?, p x = false) :
    b.takeWhile p = [] := by
  cases b with
  | nil => rfl
  | cons x b => simp [h x (by simp)]

theorem dropWhile_of_head {α} (p : α → Bool) (b : List α) (h : ∀ x ∈ b.head?, p x = false) :
    b.dropWhile p = b := by
  cases b with
  | nil => rfl
  | cons x b => simp [h x (by simp)]

theorem isDigitC_not_space {c : Char} (h : isDigitC c = true) : isSpaceC c = false := by
  simp only [isDigitC, Bool.and_eq_true, decide_eq_true_eq, Char.le_def, UInt32.le_iff_toNat_le] at h
  have h0 : '0'.val.toNat = 48 := rfl
  have h9 : '9'.val.toNat = 57 := rfl
  rw [h0, h9] at h
  simp only [isSpaceC, Bool.or_eq_false_iff, beq_eq_false_iff_ne, ne_eq]
  refine ⟨⟨⟨⟨⟨?_, ?_⟩, ?_⟩, ?_⟩, ?_⟩, ?_⟩ <;> (rintro rfl; revert h; decide)

theorem isDigitC_ne {c d : Char} (h : isDigitC c = true) (hd : isDigitC d = false) : c ≠ d := by
  rintro rfl; rw [h] at hd; exact Bool.noConfusion hd

theorem takeSign_digit {c : Char} {s : Str} (h : isDigitC c = true) :
    takeSign (c :: s) = (false, 0, c :: s) := by
  have h1 : c ≠ '-' := isDigitC_ne h (by decide)
  have h2 : c ≠ '+' := isDigitC_ne h (by decide)
  unfold takeSign
  split <;> simp_all

/-- A signed digit string: what `strtol` converts. -/
theorem strtol_run (ws : Str) (sgn : Str) (ds rest : Str)
    (hws : ∀ c ∈ ws, isSpaceC c = true)
    (hs : sgn = [] ∨ sgn = ['-'] ∨ sgn = ['+'])
    (hds : ∀ c ∈ ds, isDigitC c = true) (hne : ds ≠ [])
    (hr : ∀ c ∈ rest.head?, isDigitC c = false)
    (hlo : longMin ≤ (if sgn = ['-'] then - (digitsVal ds : Int) else digitsVal ds))
    (hhi : (if sgn = ['-'] then - (digitsVal ds : Int) else digitsVal ds) ≤ longMax) :
    strtol (ws ++ sgn ++ ds ++ rest) =
      ⟨if sgn = ['-'] then - (digitsVal ds : Int) else digitsVal ds,
        ws.length + sgn.length + ds.length, false⟩ := by
  obtain ⟨d, ds', rfl⟩ := List.exists_cons_of_ne_nil hne
  have hd : isDigitC d = true := hds d (by simp)
  have htw : ((d :: ds') ++ rest).takeWhile isDigitC = d :: ds' := by
    rw [takeWhile_append_of_all _ _ _ hds, takeWhile_of_head _ _ hr, List.append_nil]
  have hsp : isSpaceC d = false := isDigitC_not_space hd
  have hhead : ∀ x ∈ (sgn ++ (d :: ds' ++ rest)).head?, isSpaceC x = false := by
    rcases hs with rfl | rfl | rfl
    · simp [hsp]
    · simp; decide
    · simp; decide
  have hA : (ws ++ sgn ++ (d :: ds') ++ rest).takeWhile isSpaceC = ws := by
    rw [List.append_assoc, List.append_assoc, takeWhile_append_of_all _ _ _ hws,
      takeWhile_of_head _ _ hhead, List.append_nil]
  have hB : (ws ++ sgn ++ (d :: ds') ++ rest).dropWhile isSpaceC = sgn ++ (d :: ds' ++ rest) := by
    rw [List.append_assoc, List.append_assoc, dropWhile_append_of_all _ _ _ hws,
      dropWhile_of_head _ _ hhead]
  unfold strtol
  simp only [hA, hB]
  rcases hs with rfl | rfl | rfl
  · simp only [List.nil_append, List.cons_append, takeSign_digit hd]
    rw [List.cons_append] at htw
    simp only [htw]
    have : ¬ ((digitsVal (d :: ds') : Int) > longMax) := by simpa using hhi
    have h2 : ¬ ((digitsVal (d :: ds') : Int) < longMin) := by simpa using hlo
    simp [this, h2]
  · simp only [List.cons_append, List.nil_append, takeSign]
    rw [List.cons_append] at htw
    simp only [htw]
    simp only [if_true] at hlo hhi
    have : ¬ (- (digitsVal (d :: ds') : Int) > longMax) := by omega
    have h2 : ¬ (- (digitsVal (d :: ds') : Int) < longMin) := by omega
    simp [this, h2]
  · simp only [List.cons_append, List.nil_append, takeSign]
    rw [List.cons_append] at htw
    simp only [htw]
    have : ¬ ((digitsVal (d :: ds') : Int) > longMax) := by simpa using hhi
    have h2 : ¬ ((digitsVal (d :: ds') : Int) < longMin) := by simpa using hlo
    simp [this, h2]

theorem intStr_ne_nil (n : Int) : intStr n ≠ [] := by
  cases n with
  | ofNat m => exact natStr_ne_nil m
  | negSucc m => simp [intStr]

/-- `strtol` inverts the integer printer, whatever follows, provided it is not a digit. -/
theorem strtol_intStr (ws : Str) (n : Int) (rest : Str)
    (hws : ∀ c ∈ ws, isSpaceC c = true)
    (hr : ∀ c ∈ rest.head?, isDigitC c = false)
    (hlo : longMin ≤ n) (hhi : n ≤ longMax) :
    strtol (ws ++ intStr n ++ rest) = ⟨n, ws.length + (intStr n).length, false⟩ := by
  cases n with
  | ofNat m =>
    have := strtol_run ws [] (natStr m) rest hws (Or.inl rfl) (fun c h => natStr_digit h)
      (natStr_ne_nil m) hr
    simp only [digitsVal_natStr, List.append_nil, reduceCtorEq, if_false, List.length_nil,
      Nat.add_zero] at this
    simpa [intStr] using this hlo hhi
  | negSucc m =>
    have := strtol_run ws ['-'] (natStr (m + 1)) rest hws (Or.inr (Or.inl rfl))
      (fun c h => natStr_digit h) (natStr_ne_nil _) hr
    simp only [digitsVal_natStr, if_true] at this
    have e : (Int.negSucc m) = -((m + 1 : Nat) : Int) := rfl
    rw [← e] at this
    have := this hlo hhi
    simp only [intStr]
    simp only [List.append_assoc, List.cons_append, List.nil_append, List.length_cons,
      List.length_nil] at this ⊢
    rw [this]
    congr 1
    omega

theorem toI32_id {n : Int} (h1 : -2147483648 ≤ n) (h2 : n ≤ 2147483647) : toI32 n = n := by
  unfold toI32; omega

theorem intStr_head_not_blank (n : Int) : ∀ c ∈ (intStr n).head?, (c == ' ') = false := by
  intro c hc
  cases n with
  | ofNat m =>
    have hm : c ∈ natStr m := List.mem_of_mem_head? hc
    have := isDigitC_ne (natStr_digit hm) (d := ' ') (by decide)
    simpa using this
  | negSucc m =>
    simp only [intStr, List.head?_cons, Option.mem_def, Option.some.injEq] at hc
    subst hc; decide

/-- Characters of a printed integer are digits or the minus sign. -/
theorem intStr_chars {n : Int} {c : Char} (h : c ∈ intStr n) : isDigitC c = true ∨ c = '-' := by
  cases n with
  | ofNat m => exact Or.inl (natStr_digit h)
  | negSucc m =>
    simp only [intStr, List.mem_cons] at h
    rcases h with h | h
    · exact Or.inr h
    · exact Or.inl (natStr_digit h)

theorem intStr_length_le (n : Int) (h1 : -9999999 ≤ n) (h2 : n ≤ 99999999) :
    (intStr n).length ≤ 8 := by
  cases n with
  | ofNat m =>
    have : m < 10 ^ 8 := by
      have : (Int.ofNat m) = (m : Int) := rfl
      omega
    exact natStr_length_le (by decide) this
  | negSucc m =>
    have : m + 1 < 10 ^ 7 := by
      have : Int.negSucc m = -((m : Int) + 1) := by omega
      omega
    have := natStr_length_le (n := m + 1) (k := 7) (by decide) this
    simp only [intStr, List.length_cons]
    omega

end Iges
