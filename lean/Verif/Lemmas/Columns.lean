import Verif.Model.Io
import Verif.Lemmas.Str
import Verif.Spec.Columns
namespace Iges

theorem blank_iff (c : Char) : Spec.Blank c ↔ isSpaceC c = true := by
  simp [Spec.Blank, isSpaceC, or_assoc]

theorem digitsVal_eq (s : Str) : digitsVal s = Nat.ofDigitChars 10 s 0 := by
  simp [digitsVal, Nat.ofDigitChars_eq_foldl]

theorem ofDigitChars_lt (s : Str) (h : ∀ c ∈ s, c.isDigit = true) :
    Nat.ofDigitChars 10 s 0 < 10 ^ s.length := by
  induction s with
  | nil => simp [Nat.ofDigitChars_eq_foldl]
  | cons c s ih =>
    rw [Nat.ofDigitChars_cons, Nat.ofDigitChars_eq_ofDigitChars_zero]
    have hc : c.isDigit = true := h c (by simp)
    have hlt : c.toNat - '0'.toNat ≤ 9 := by
      simp only [Char.isDigit, Bool.and_eq_true, decide_eq_true_eq, ge_iff_le] at hc
      have : c.toNat ≤ 57 := hc.2
      have : '0'.toNat = 48 := rfl
      omega
    have := ih (fun x hx => h x (by simp [hx]))
    simp only [List.length_cons, Nat.pow_succ]
    have : 10 ^ s.length * (10 * 0 + (c.toNat - '0'.toNat)) ≤ 10 ^ s.length * 9 :=
      Nat.mul_le_mul_left _ (by omega)
    omega

theorem digitsVal_lt (s : Str) (h : ∀ c ∈ s, isDigitC c = true) : digitsVal s < 10 ^ s.length := by
  rw [digitsVal_eq]; exact ofDigitChars_lt s (fun c hc => by rw [← isDigitC_eq]; exact h c hc)

theorem takeSign_spec (r : Str) :
    ∃ sgn, (sgn = [] ∨ sgn = ['-'] ∨ sgn = ['+']) ∧ r = sgn ++ (takeSign r).2.2 ∧
      (takeSign r).2.1 = sgn.length ∧ ((takeSign r).1 = true ↔ sgn = ['-']) := by
  unfold takeSign
  split
  · exact ⟨['-'], by simp⟩
  · exact ⟨['+'], by simp⟩
  · exact ⟨[], by simp⟩

theorem drop_three {α} (a b c d : List α) :
    (a ++ b ++ c ++ d).drop (a.length + b.length + c.length) = d := by
  have : a.length + b.length + c.length = (a ++ b ++ c).length := by simp [Nat.add_assoc]
  rw [this, List.drop_left]

/-- What a successful `strtol` means. -/
theorem strtol_inv (s : Str) (he : (strtol s).err = false) (hu : (strtol s).used ≠ 0) :
    ∃ ws sgn ds rest, s = ws ++ sgn ++ ds ++ rest ∧ (∀ c ∈ ws, isSpaceC c = true) ∧
      (sgn = [] ∨ sgn = ['-'] ∨ sgn = ['+']) ∧ ds ≠ [] ∧ (∀ c ∈ ds, isDigitC c = true) ∧
      (∀ c ∈ rest.head?, isDigitC c = false) ∧
      (strtol s).used = ws.length + sgn.length + ds.length ∧
      (strtol s).val = (if sgn = ['-'] then - (digitsVal ds : Int) else digitsVal ds) := by
  obtain ⟨sgn, hs, h1, h2, h3⟩ := takeSign_spec (s.dropWhile isSpaceC)
  refine ⟨s.takeWhile isSpaceC, sgn, (takeSign (s.dropWhile isSpaceC)).2.2.takeWhile isDigitC,
    (takeSign (s.dropWhile isSpaceC)).2.2.dropWhile isDigitC, ?_, ?_, hs, ?_, ?_, ?_, ?_, ?_⟩
  · rw [List.append_assoc, List.takeWhile_append_dropWhile, List.append_assoc, ← h1,
      List.takeWhile_append_dropWhile]
  · intro c hc; exact List.all_eq_true.mp (List.all_takeWhile) c hc
  · intro hnil
    apply hu
    unfold strtol
    simp [hnil]
  · intro c hc; exact List.all_eq_true.mp (List.all_takeWhile) c hc
  · intro c hc
    have := List.head?_dropWhile_not isDigitC (takeSign (s.dropWhile isSpaceC)).2.2
    rw [Option.mem_def] at hc
    rw [hc] at this
    simpa using this
  · have h3' : ((takeSign (s.dropWhile isSpaceC)).1 = true) = (sgn = ['-']) := propext h3
    revert he hu
    unfold strtol
    simp only [h3']
    generalize (if sgn = ['-'] then _ else _ : Int) = v
    split
    · simp
    · split
      · simp
      · split
        · simp
        · simp [h2]
  · have h3' : ((takeSign (s.dropWhile isSpaceC)).1 = true) = (sgn = ['-']) := propext h3
    revert he hu
    unfold strtol
    simp only [h3']
    generalize (if sgn = ['-'] then _ else _ : Int) = v
    split
    · simp
    · split
      · simp
      · split
        · simp
        · simp

theorem dropWhile_blank_empty (col : Str) :
    (col.dropWhile (· == ' ')).isEmpty = true ↔ Spec.BlankColumn col := by
  induction col with
  | nil => simp [Spec.BlankColumn]
  | cons c col ih =>
    rw [List.dropWhile_cons]
    by_cases h : c = ' '
    · subst h
      simp only [beq_self_eq_true, if_true, ih, Spec.BlankColumn, List.mem_cons]
      constructor
      · intro h c hc; rcases hc with rfl | hc; rfl; exact h c hc
      · intro h c hc; exact h c (Or.inr hc)
    · have : (c == ' ') = false := by simpa using h
      simp only [this]
      simp only [Bool.false_eq_true, if_false, List.isEmpty_cons, false_iff]
      intro hb; exact h (hb c (by simp))

theorem takeWhile_blank (col : Str) : ∀ c ∈ col.takeWhile (· == ' '), c = ' ' := by
  intro c hc
  have := List.all_eq_true.mp (List.all_takeWhile (p := (· == ' ')) (l := col)) c hc
  simpa using this

/-- The scanning part of `DEItemToInt`, on a column with its leading blanks removed. -/
def scanCol (tmp : Str) (var : Int) : Bool × Int :=
  let r := strtol tmp
  if r.err ∨ r.used = 0 then (false, var)
  else
    match tmp.drop r.used with
    | [] => (true, toI32 r.val)
    | c :: _ => if c = '\x00' then (true, toI32 r.val) else (false, var)

theorem signed_eq (sgn ds : Str) :
    Spec.signed sgn ds = (if sgn = ['-'] then - (digitsVal ds : Int) else digitsVal ds) := by
  simp [Spec.signed, digitsVal_eq]

theorem scanCol_iff (tmp : Str) (hlen : tmp.length ≤ 8) (var v : Int) :
    scanCol tmp var = (true, v) ↔ Spec.IntColumn tmp v := by
  constructor
  · intro h
    unfold scanCol at h
    simp only [] at h
    split at h
    · simp at h
    · rename_i hne
      have hne' : (strtol tmp).err = false ∧ (strtol tmp).used ≠ 0 := by
        simpa using hne
      obtain ⟨ws, sgn, ds, rest, hsp, hws, hsgn, hdne, hds, hrest, hused, hval⟩ :=
        strtol_inv tmp hne'.1 hne'.2
      have hdrop : tmp.drop (strtol tmp).used = rest := by
        rw [hused]
        conv => lhs; rw [hsp]
        exact drop_three ..
      have hlt : digitsVal ds < 10 ^ 8 := by
        have h1 := digitsVal_lt ds hds
        have h2 : ds.length ≤ 8 := by
          have := congrArg List.length hsp
          simp at this; omega
        exact Nat.lt_of_lt_of_le h1 (Nat.pow_le_pow_right (by decide) h2)
      have hI : toI32 (strtol tmp).val = Spec.signed sgn ds := by
        rw [hval, signed_eq]
        apply toI32_id <;> split <;> omega
      refine ⟨ws, sgn, ds, rest, hsp, fun c hc => (blank_iff c).mpr (hws c hc), hsgn, hdne,
        fun c hc => by rw [← isDigitC_eq]; exact hds c hc, ?_, ?_⟩
      · rw [hdrop] at h
        cases rest with
        | nil => exact Or.inl rfl
        | cons c r =>
          simp only [] at h
          split at h
          · rename_i hc; right; simp [hc]
          · simp at h
      · rw [hdrop, hI] at h
        split at h
        · simpa using h.symm
        · split at h
          · simpa using h.symm
          · simp at h
  · rintro ⟨ws, sgn, ds, rest, hsp, hws, hsgn, hdne, hds, hrest, hv⟩
    have hds' : ∀ c ∈ ds, isDigitC c = true := fun c hc => by rw [isDigitC_eq]; exact hds c hc
    have hlt : digitsVal ds < 10 ^ 8 := by
      have h1 := digitsVal_lt ds hds'
      have h2 : ds.length ≤ 8 := by
        have := congrArg List.length hsp
        simp at this; omega
      exact Nat.lt_of_lt_of_le h1 (Nat.pow_le_pow_right (by decide) h2)
    have hhead : ∀ c ∈ rest.head?, isDigitC c = false := by
      rcases hrest with rfl | h
      · simp
      · rw [h]; simp; decide
    have := strtol_run ws sgn ds rest (fun c hc => (blank_iff c).mp (hws c hc)) hsgn hds' hdne hhead
      (by unfold longMin; split <;> omega) (by unfold longMax; split <;> omega)
    rw [← hsp, ← signed_eq, ← hv] at this
    have hdrop : tmp.drop (ws.length + sgn.length + ds.length) = rest := by
      conv => lhs; rw [hsp]
      exact drop_three ..
    unfold scanCol
    simp only [this, hdrop]
    have hpos : 0 < ds.length := List.length_pos_iff.mpr hdne
    have hI : toI32 v = v := by
      rw [hv, signed_eq]
      apply toI32_id <;> split <;> omega
    rw [hI]
    have : ¬ ((false = true) ∨ ws.length + sgn.length + ds.length = 0) := by
      simp; intro _ _; exact hdne
    simp only [this, if_false]
    rcases hrest with rfl | h
    · rfl
    · cases rest with
      | nil => simp at h
      | cons c r => simp at h; subst h; simp

theorem intColumn_dropBlank (col : Str) (v : Int) :
    Spec.IntColumn (col.dropWhile (· == ' ')) v ↔ Spec.IntColumn col v := by
  constructor
  · rintro ⟨ws, sgn, ds, rest, hsp, hws, h⟩
    refine ⟨col.takeWhile (· == ' ') ++ ws, sgn, ds, rest, ?_, ?_, h⟩
    · conv => lhs; rw [← List.takeWhile_append_dropWhile (p := (· == ' ')) (l := col), hsp]
      simp
    · intro c hc
      rcases List.mem_append.mp hc with hc | hc
      · rw [takeWhile_blank col c hc]; simp [Spec.Blank]
      · exact hws c hc
  · rintro ⟨ws, sgn, ds, rest, hsp, hws, hsgn, hdne, hds, hr⟩
    refine ⟨ws.dropWhile (· == ' '), sgn, ds, rest, ?_, ?_, hsgn, hdne, hds, hr⟩
    · have hh : ∀ x ∈ (sgn ++ ds ++ rest).head?, (x == ' ') = false := by
        intro x hx
        obtain ⟨d, ds', rfl⟩ := List.exists_cons_of_ne_nil hdne
        have hd : isDigitC d = true := by rw [isDigitC_eq]; exact hds d (by simp)
        rcases hsgn with rfl | rfl | rfl
        · simp at hx; subst hx; simpa using isDigitC_ne hd (d := ' ') (by decide)
        · simp at hx; subst hx; decide
        · simp at hx; subst hx; decide
      subst hsp
      rw [List.append_assoc, List.append_assoc, List.append_assoc, List.append_assoc]
      rw [List.append_assoc] at hh
      induction ws with
      | nil => simp only [List.nil_append, List.dropWhile_nil]; exact dropWhile_of_head _ _ hh
      | cons w ws ih =>
        simp only [List.cons_append, List.dropWhile_cons]
        split
        · exact ih (fun c hc => hws c (by simp [hc]))
        · simp
    · intro c hc; exact hws c ((List.dropWhile_sublist _).subset hc)

end Iges
