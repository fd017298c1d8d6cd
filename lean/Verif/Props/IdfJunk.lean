import Verif.Props.IdfWords
/-
C73, numbers in words of IDF texts: exponents, and what follows a number in a word.
-/
namespace Iges.Props.IdfWords
open Iges.Idf Iges.Idf.Spec

/-- The text of a sign. -/
def signOf : Option Bool → Str
  | none => []
  | some true => ['-']
  | some false => ['+']

/-- The text of an exponent: its letter, its sign and its digits. -/
def expText : Option (Char × Option Bool × Str) → Str
  | none => []
  | some (m, sg, ed) => m :: (signOf sg ++ ed)

/-- The value of an exponent. -/
def expVal : Option (Char × Option Bool × Str) → ℤ
  | none => 0
  | some (_, sg, ed) => if sg = some true then -(digitsVal ed : ℤ) else digitsVal ed

/-- An exponent is `e` or `E`, perhaps a sign, and digits. -/
def ExpOk : Option (Char × Option Bool × Str) → Prop
  | none => True
  | some (m, _, ed) => (m = 'e' ∨ m = 'E') ∧ ed ≠ [] ∧ ∀ c ∈ ed, isDigitC c = true

/-- What may follow a number without becoming part of it. -/
def Behind (frac : Option Str) (ex : Option (Char × Option Bool × Str)) (junk : Str) : Prop :=
  ∀ c ∈ junk.head?, isDigitC c = false ∧ (ex = none → c ≠ 'e' ∧ c ≠ 'E' ∧ (frac = none → c ≠ '.'))

namespace Junk

private theorem takeSign_plain {l : Str} (h : ∀ c ∈ l.head?, c ≠ '-' ∧ c ≠ '+') : takeSign l = (false, 0, l) := by
  cases l with
  | nil => rfl
  | cons c r =>
    have := h c (by simp)
    unfold takeSign
    split
    · rename_i e; simp at e; exact absurd e.1 this.1
    · rename_i e; simp at e; exact absurd e.1 this.2
    · rfl

/-- The digits behind the dot, and the rest. -/
private def fracOf (r2 : Str) : Str × Str :=
  match r2 with
  | c :: t => if c = '.' then (t.takeWhile isDigitC, t.dropWhile isDigitC) else ([], r2)
  | [] => ([], [])

private theorem scan_eq (s : Str) : scanNum s =
    let r := (takeSign (s.dropWhile isSpaceC)).2.2
    let neg := (takeSign (s.dropWhile isSpaceC)).1
    let ip := r.takeWhile isDigitC
    let fp := (fracOf (r.dropWhile isDigitC)).1
    let r3 := (fracOf (r.dropWhile isDigitC)).2
    if ip = [] ∧ fp = [] then none
    else
      let done (ex : ℤ) (rest : Str) : Option (ℚ × Str) :=
        let v : ℚ := digitsVal (ip ++ fp) * (10 : ℚ) ^ (ex - fp.length)
        if (dblOverflow : ℚ) ≤ v then none else some (if neg then -v else v, rest)
      match r3 with
      | c :: t =>
        if c = 'e' ∨ c = 'E' then
          let r4 := (takeSign t).2.2
          let ed := r4.takeWhile isDigitC
          if ed = [] then none
          else done (if (takeSign t).1 then -(digitsVal ed : ℤ) else digitsVal ed) (r4.dropWhile isDigitC)
        else done 0 r3
      | [] => done 0 [] := rfl

private theorem digit_plain {c : Char} (h : isDigitC c = true) : c ≠ '-' ∧ c ≠ '+' :=
  ⟨isDigitC_ne h rfl, isDigitC_ne h rfl⟩

end Junk
open Junk

/-- **C73_prefix**: a word that begins with a number - sign, digits, perhaps a dot and digits, perhaps an exponent - is
read as this number, whatever follows it in the word, as long as that does not lengthen the number. -/
theorem C73_prefix (neg : Bool) (ip : Str) (frac : Option Str) (ex : Option (Char × Option Bool × Str)) (junk : Str)
    (hi : ∀ c ∈ ip, isDigitC c = true) (hf : ∀ fp, frac = some fp → ∀ c ∈ fp, isDigitC c = true)
    (h0 : ip ≠ [] ∨ ∃ fp, frac = some fp ∧ fp ≠ []) (hex : ExpOk ex) (hj : Behind frac ex junk)
    (hv : (digitsVal (ip ++ frac.getD []) : ℚ) * 10 ^ (expVal ex - (frac.getD []).length) < dblOverflow) :
    readNum (decText neg ip frac ++ expText ex ++ junk) =
      some ((if neg then -1 else 1) * ((digitsVal (ip ++ frac.getD []) : ℚ) * 10 ^ (expVal ex - (frac.getD []).length))) := by
  set fp := frac.getD [] with hfp
  have hfd : ∀ c ∈ fp, isDigitC c = true := by
    cases frac with
    | none => intro c hc; rw [hfp] at hc; cases hc
    | some f => exact hf f rfl
  set tail : Str := expText ex ++ junk with htl
  -- what follows the digits
  have hth : ∀ c ∈ tail.head?, isDigitC c = false ∧ (frac = none → c ≠ '.') := by
    intro c hc
    cases ex with
    | none =>
      have hc : c ∈ junk.head? := by simpa [htl, expText] using hc
      exact ⟨(hj c hc).1, ((hj c hc).2 rfl).2.2⟩
    | some e =>
      obtain ⟨m, sg, ed⟩ := e
      have : m = c := by simpa [htl, expText] using hc
      subst this
      rcases hex.1 with rfl | rfl <;> exact ⟨by decide, fun _ => by decide⟩
  have hfh : ∀ c ∈ (fracText frac ++ tail).head?, isDigitC c = false := by
    intro c hc
    cases frac with
    | none => exact (hth c (by simpa [fracText] using hc)).1
    | some f =>
      have : '.' = c := by simpa [fracText] using hc
      subst this; decide
  have hhead : ∀ c ∈ (ip ++ (fracText frac ++ tail)).head?, c ≠ '-' ∧ c ≠ '+' ∧ isSpaceC c = false := by
    intro c hc
    cases ip with
    | cons d ds =>
      have : d = c := by simpa using hc
      subst this
      have := hi d (by simp)
      exact ⟨isDigitC_ne this rfl, isDigitC_ne this rfl, isDigitC_not_space this⟩
    | nil =>
      cases frac with
      | none => rcases h0 with h0 | ⟨f, hf', -⟩ <;> simp_all
      | some f =>
        have : '.' = c := by simpa [fracText] using hc
        subst this; decide
  have htext : decText neg ip frac ++ expText ex ++ junk = (if neg then ['-'] else []) ++ (ip ++ (fracText frac ++ tail)) := by
    unfold decText; simp [htl]
  have hts : (takeSign (decText neg ip frac ++ expText ex ++ junk)).1 = neg ∧
      (takeSign (decText neg ip frac ++ expText ex ++ junk)).2.2 = ip ++ (fracText frac ++ tail) := by
    rw [htext]
    cases neg with
    | true => simp [takeSign]
    | false =>
      simp only [Bool.false_eq_true, if_false, List.nil_append]
      rw [takeSign_plain fun c hc => ⟨(hhead c hc).1, (hhead c hc).2.1⟩]
      exact ⟨rfl, rfl⟩
  have hsp : ∀ c ∈ (decText neg ip frac ++ expText ex ++ junk).head?, isSpaceC c = false := by
    rw [htext]
    cases neg with
    | true => intro c hc; simp at hc; subst hc; rfl
    | false =>
      simp only [Bool.false_eq_true, if_false, List.nil_append]
      intro c hc; exact (hhead c hc).2.2
  have hne : ¬ (ip = [] ∧ fp = []) := by
    rintro ⟨e1, e2⟩
    rcases h0 with h0 | ⟨f, hf', h0⟩
    · exact h0 e1
    · rw [hfp, hf'] at e2; exact h0 e2
  have hres : ∀ v : ℚ, (if neg = true then -v else v) = (if neg = true then -1 else 1) * v := by
    intro v; split <;> ring
  have hsplit : fracOf (fracText frac ++ tail) = (fp, tail) := by
    unfold fracOf
    cases hfr : frac with
    | some f =>
      have hfp' : fp = f := by rw [hfp, hfr]; rfl
      simp only [fracText, List.cons_append, if_true]
      have hfd' : ∀ c ∈ f, isDigitC c = true := by rw [← hfp']; exact hfd
      rw [takeWhile_append_of_all _ _ _ hfd', dropWhile_append_of_all _ _ _ hfd', takeWhile_of_head _ _ fun c hc => (hth c hc).1,
        dropWhile_of_head _ _ fun c hc => (hth c hc).1, List.append_nil, hfp']
    | none =>
      have hfp' : fp = [] := by rw [hfp, hfr]; rfl
      rw [hfp']
      simp only [fracText, List.nil_append]
      cases ht : tail with
      | nil => rfl
      | cons c t =>
        have := (hth c (by rw [ht]; simp)).2 hfr
        simp only [if_neg this]
  unfold readNum
  rw [scan_eq, dropWhile_of_head _ _ hsp, hts.1, hts.2]
  simp only
  rw [takeWhile_append_of_all _ _ _ hi, takeWhile_of_head _ _ hfh, dropWhile_append_of_all _ _ _ hi,
    dropWhile_of_head _ _ hfh, List.append_nil, hsplit]
  simp only
  rw [if_neg hne]
  cases ex with
  | none =>
    have ht : tail = junk := by simp [htl, expText]
    rw [ht]
    simp only [expVal] at hv ⊢
    cases hjk : junk with
    | nil => simp only; rw [if_neg (not_le.2 hv), Option.map_some, hres]
    | cons c t =>
      have := (hj c (by rw [hjk]; simp)).2 rfl
      simp only
      rw [if_neg (by rintro (h | h); exact this.1 h; exact this.2.1 h), if_neg (not_le.2 hv), Option.map_some, hres]
  | some e =>
    obtain ⟨m, sg, ed⟩ := e
    obtain ⟨hm, hed, hdig⟩ := hex
    have hjd : ∀ c ∈ junk.head?, isDigitC c = false := fun c hc => (hj c hc).1
    have hedh : ∀ c ∈ (ed ++ junk).head?, c ≠ '-' ∧ c ≠ '+' := by
      intro c hc
      cases ed with
      | nil => exact absurd rfl hed
      | cons d ds =>
        have : d = c := by simpa using hc
        subst this
        exact digit_plain (hdig d (by simp))
    have hsg : (takeSign (signOf sg ++ ed ++ junk)).1 = decide (sg = some true) ∧
        (takeSign (signOf sg ++ ed ++ junk)).2.2 = ed ++ junk := by
      rcases sg with _ | _ | _
      · simp only [signOf, List.nil_append]; rw [takeSign_plain hedh]; simp
      · simp [takeSign, signOf]
      · simp [takeSign, signOf]
    have ht : tail = m :: (signOf sg ++ ed ++ junk) := by
      simp [htl, expText]
    rw [ht]
    simp only
    rw [if_pos hm, hsg.1, hsg.2]
    rw [takeWhile_append_of_all _ _ _ hdig, takeWhile_of_head _ _ hjd, List.append_nil, if_neg hed]
    simp only [expVal] at hv
    simp only [decide_eq_true_eq]
    rw [if_neg (not_le.2 hv), Option.map_some, hres]
    rfl

/-- **C73_none**: a word without a digit is not taken for a number. -/
theorem C73_none (w : Str) (h : ∀ c ∈ w, isDigitC c = false) : readNum w = none := by
  have hsub : ∀ c ∈ (takeSign (w.dropWhile isSpaceC)).2.2, isDigitC c = false := by
    intro c hc
    refine h c (List.dropWhile_subset isSpaceC ?_)
    unfold takeSign at hc
    split at hc
    · rename_i r e; exact e ▸ List.mem_cons_of_mem _ hc
    · rename_i r e; exact e ▸ List.mem_cons_of_mem _ hc
    · exact hc
  unfold readNum scanNum
  set r := (takeSign (w.dropWhile isSpaceC)).2.2 with hr
  have h1 : r.takeWhile isDigitC = [] := takeWhile_of_head _ _ fun c hc => hsub c (List.mem_of_mem_head? hc)
  have h2 : r.dropWhile isDigitC = r := dropWhile_of_head _ _ fun c hc => hsub c (List.mem_of_mem_head? hc)
  simp only
  rw [h1, h2]
  cases hrr : r with
  | nil => rfl
  | cons c t =>
    have h3 : t.takeWhile isDigitC = [] := takeWhile_of_head _ _ fun d hd =>
      hsub d (by rw [hrr]; exact List.mem_cons_of_mem _ (List.mem_of_mem_head? hd))
    by_cases hc : c = '.'
    · simp [hc, h3]
    · simp [hc]

/-- The exponent of a number without digits makes the word unreadable: `1e`, or `12 eggs` written as one word. -/
theorem C73_bare_exponent : readNum "12eggs".toList = none ∧ readNum "12mm".toList = some 12 := by
  constructor <;> decide +kernel

example : readNum "-1.5e+2mm".toList = some ((if true then -1 else 1) * ((digitsVal "15".toList : ℚ) * 10 ^ ((2 : ℤ) - 1))) :=
  C73_prefix true "1".toList (some "5".toList) (some ('e', some false, "2".toList)) "mm".toList (by decide)
    (by intro fp h; cases h; decide) (.inl (by decide)) ⟨.inl rfl, by decide, by decide⟩
    (by intro c hc; have : 'm' = c := by simpa using hc
        subst this; exact ⟨by decide, by intro h; cases h⟩)
    (by
      have : (digitsVal ("1".toList ++ (some "5".toList).getD []) : ℚ) = 15 := by decide +kernel
      rw [this]
      have h2 : expVal (some ('e', some false, "2".toList)) = 2 := by decide
      have h3 : ((some "5".toList).getD []).length = 1 := by decide
      rw [h2, h3]
      decide +kernel)

example : ∀ c ∈ "mm".toList, isDigitC c = false := by decide

end Iges.Props.IdfWords
