import Verif.Lemmas.Ops
import Verif.Model.Real
import Verif.Spec.Params
namespace Iges

theorem findFrom_none {s : Str} {c : Char} {i : Nat} : findFrom s c i = none ↔ c ∉ s.drop i := by
  unfold findFrom; simp

theorem idxOf_append_not_mem {tok r : Str} {c : Char} (h : c ∉ tok) :
    (tok ++ c :: r).idxOf c = tok.length := by
  induction tok with
  | nil => simp
  | cons x t ih =>
    simp only [List.mem_cons, not_or] at h
    rw [List.cons_append, List.idxOf_cons]
    have : (x == c) = false := by simpa using fun e => h.1 e.symm
    simp [this, ih h.2]

theorem exists_first {s : Str} {pd rd : Char} (h : pd ∈ s ∨ rd ∈ s) :
    ∃ tok d rest, s = tok ++ d :: rest ∧ (d = pd ∨ d = rd) ∧ pd ∉ tok ∧ rd ∉ tok := by
  induction s with
  | nil => simp at h
  | cons c s ih =>
    by_cases hc : c = pd ∨ c = rd
    · exact ⟨[], c, s, rfl, hc, by simp, by simp⟩
    · have h1 : c ≠ pd := fun e => hc (Or.inl e)
      have h2 : c ≠ rd := fun e => hc (Or.inr e)
      have : pd ∈ s ∨ rd ∈ s := by
        rcases h with h | h
        · left; rcases List.mem_cons.mp h with h | h
          · exact absurd h.symm h1
          · exact h
        · right; rcases List.mem_cons.mp h with h | h
          · exact absurd h.symm h2
          · exact h
      obtain ⟨tok, d, rest, e, hd, a, b⟩ := ih this
      refine ⟨c :: tok, d, rest, by simp [e], hd, ?_, ?_⟩
      · simp only [List.mem_cons, not_or]; exact ⟨fun e => h1 e.symm, a⟩
      · simp only [List.mem_cons, not_or]; exact ⟨fun e => h2 e.symm, b⟩

/-- A delimited token is found by `ParseLString`. -/
theorem ParseLString_token {data : Str} {i : Nat} {eor : Bool} {pd rd : Char} {tok : Str} {d : Char}
    (h : Spec.TokenAt data i pd rd tok d) :
    ParseLString data i eor pd rd =
      .ok ⟨true, tok, i + tok.length + 1, if d = rd then true else eor⟩ := by
  obtain ⟨rest, hs, hd, hp, hr⟩ := h
  unfold ParseLString
  rw [hs]
  cases tok with
  | nil => simp only [List.nil_append, if_pos hd, List.length_nil, Nat.add_zero]
  | cons c tok =>
    simp only [List.cons_append]
    have hc : ¬ (c = pd ∨ c = rd) := by
      rintro (rfl | rfl)
      · exact hp (by simp)
      · exact hr (by simp)
    rw [if_neg hc]
    -- where the delimiters are
    have key : ∀ x, x ∉ (c :: tok) → x ∈ d :: rest → ∃ k, findFrom data x i = some (i + (c :: tok).length + k)
        ∧ (k = 0 ↔ x = d) := by
      intro x hx hm
      refine ⟨(d :: rest).idxOf x, ?_, ?_⟩
      · unfold findFrom
        rw [hs]
        have : x ∈ (c :: tok) ++ d :: rest := by
          rw [List.mem_append]; exact Or.inr hm
        rw [if_pos this, List.idxOf_append, if_neg hx]
        simp; omega
      · rw [List.idxOf_cons]
        by_cases e : d = x
        · subst e; simp
        · have : (d == x) = false := by simpa using e
          simp [this, Ne.symm e]
    have keyn : ∀ x, x ∉ (c :: tok) → x ∉ d :: rest → findFrom data x i = none := by
      intro x hx hm
      rw [findFrom_none, hs, List.mem_append]
      rintro (h | h)
      · exact hx h
      · exact hm h
    have htake : substr data i (i + (c :: tok).length - i) = c :: tok := by
      unfold substr
      rw [hs, Nat.add_sub_cancel_left, List.take_left]
    have hdrop : data.drop (i + (c :: tok).length) = d :: rest := by
      rw [← List.drop_drop, hs, List.drop_left]
    have hE : nearest (findFrom data pd i) (findFrom data rd i) = some (i + (c :: tok).length) := by
      by_cases m1 : pd ∈ d :: rest
      · obtain ⟨k1, f1, z1⟩ := key pd hp m1
        by_cases m2 : rd ∈ d :: rest
        · obtain ⟨k2, f2, z2⟩ := key rd hr m2
          rw [f1, f2]
          simp only [nearest]
          rcases hd with hd | hd
          · have : k1 = 0 := z1.mpr hd.symm
            subst this
            rw [if_neg (by omega)]; rfl
          · have : k2 = 0 := z2.mpr hd.symm
            subst this
            split
            · rfl
            · simp only [Option.some.injEq]; omega
        · rw [f1, keyn rd hr m2]
          simp only [nearest]
          have hd' : d = pd := by
            rcases hd with hd | hd
            · exact hd
            · exact absurd (by simp [hd]) m2
          have : k1 = 0 := z1.mpr hd'.symm
          subst this; rfl
      · have hd' : d = rd := by
          rcases hd with hd | hd
          · exact absurd (by simp [hd]) m1
          · exact hd
        obtain ⟨k2, f2, z2⟩ := key rd hr (by simp [hd'])
        rw [keyn pd hp m1, f2]
        have : k2 = 0 := z2.mpr hd'.symm
        subst this; rfl
    rw [hE]
    simp only []
    rw [htake, hdrop]
    simp only []
    by_cases hdr : d = rd
    · simp [hdr]
    · rcases hd with hd | hd
      · rw [if_neg hdr, if_pos hd, if_neg hdr]
      · exact absurd hd hdr

/-- `ParseLString` succeeds exactly on delimited tokens. -/
theorem ParseLString_iff {data : Str} {i : Nat} {eor : Bool} {pd rd : Char} (r : PStr) :
    (ParseLString data i eor pd rd = .ok r ∧ r.ok = true) ↔
    ∃ tok d, Spec.TokenAt data i pd rd tok d ∧
      r = ⟨true, tok, i + tok.length + 1, if d = rd then true else eor⟩ := by
  constructor
  · rintro ⟨h, hok⟩
    by_cases hm : pd ∈ data.drop i ∨ rd ∈ data.drop i
    · obtain ⟨tok, d, rest, e, hd, a, b⟩ := exists_first hm
      have ht : Spec.TokenAt data i pd rd tok d := ⟨rest, e, hd, a, b⟩
      rw [ParseLString_token ht] at h
      exact ⟨tok, d, ht, by simpa using h.symm⟩
    · exfalso
      simp only [not_or] at hm
      unfold ParseLString at h
      split at h
      · simp only [Res.ok.injEq] at h; subst h; simp at hok
      · rename_i c t hc
        have : ¬ (c = pd ∨ c = rd) := by
          rintro (rfl | rfl)
          · exact hm.1 (by simp [hc])
          · exact hm.2 (by simp [hc])
        rw [if_neg this, findFrom_none.mpr hm.1, findFrom_none.mpr hm.2] at h
        simp only [nearest, Res.ok.injEq] at h
        subst h; simp at hok
  · rintro ⟨tok, d, ht, rfl⟩
    exact ⟨ParseLString_token ht, rfl⟩

theorem ParseLString_not_ub {data : Str} {i : Nat} {eor : Bool} {pd rd : Char} :
    ∃ r, ParseLString data i eor pd rd = .ok r := by
  by_cases hm : pd ∈ data.drop i ∨ rd ∈ data.drop i
  · obtain ⟨tok, d, rest, e, hd, a, b⟩ := exists_first hm
    exact ⟨_, ParseLString_token ⟨rest, e, hd, a, b⟩⟩
  · simp only [not_or] at hm
    unfold ParseLString
    split
    · exact ⟨_, rfl⟩
    · rename_i c t hc
      have : ¬ (c = pd ∨ c = rd) := by
        rintro (rfl | rfl)
        · exact hm.1 (by simp [hc])
        · exact hm.2 (by simp [hc])
      rw [if_neg this, findFrom_none.mpr hm.1, findFrom_none.mpr hm.2]
      exact ⟨_, rfl⟩

theorem TokenAt.lt {data : Str} {i : Nat} {pd rd : Char} {tok : Str} {d : Char}
    (h : Spec.TokenAt data i pd rd tok d) : i + tok.length + 1 ≤ data.length := by
  obtain ⟨rest, hs, _⟩ := h
  have := congrArg List.length hs
  simp at this
  omega

theorem strtol_used_le (s : Str) : (strtol s).used ≤ s.length := by
  by_cases he : (strtol s).err = false
  · by_cases hu : (strtol s).used = 0
    · omega
    · obtain ⟨ws, sgn, ds, rest, h, _, _, _, _, _, h2, _⟩ := strtol_inv s he hu
      rw [h2]
      conv => rhs; rw [h]
      simp; omega
  · unfold strtol
    simp only []
    obtain ⟨sgn, hs, h1, h2, h3⟩ := takeSign_spec (s.dropWhile isSpaceC)
    have hlen : (s.takeWhile isSpaceC).length + (takeSign (s.dropWhile isSpaceC)).2.1 +
        ((takeSign (s.dropWhile isSpaceC)).2.2.takeWhile isDigitC).length ≤ s.length := by
      have e1 : s.length = (s.takeWhile isSpaceC).length + (s.dropWhile isSpaceC).length := by
        rw [← List.length_append, List.takeWhile_append_dropWhile]
      have e2 := congrArg List.length h1
      have e3 := (List.takeWhile_sublist isDigitC (l := (takeSign (s.dropWhile isSpaceC)).2.2)).length_le
      simp at e2
      omega
    generalize (if (takeSign (s.dropWhile isSpaceC)).1 = true then _ else _ : Int) = v
    split
    · simp
    · split
      · exact hlen
      · split <;> exact hlen

theorem legal_not_space {c : Char} (h : Spec.LegalDelim c) : isSpaceC c = false := by
  obtain ⟨h1, h2, _⟩ := h
  simp only [isSpaceC, Bool.or_eq_false_iff, beq_eq_false_iff_ne, ne_eq]
  refine ⟨⟨⟨⟨⟨?_, ?_⟩, ?_⟩, ?_⟩, ?_⟩, ?_⟩ <;> (rintro rfl; revert h1; decide)

theorem legal_not_digit {c : Char} (h : Spec.LegalDelim c) : isDigitC c = false := by
  rw [isDigitC_eq]; exact h.2.2.1

theorem legal_not_mem_intStr {c : Char} (h : Spec.LegalDelim c) (n : Int) : c ∉ intStr n := by
  intro hc
  rcases intStr_chars hc with h1 | h1
  · rw [legal_not_digit h] at h1; exact Bool.noConfusion h1
  · exact h.2.2.2.2.1 h1

theorem legal_not_mem_blanks {c : Char} (h : Spec.LegalDelim c) (k : Nat) :
    c ∉ List.replicate k ' ' := by
  intro hc
  have := List.eq_of_mem_replicate hc
  subst this
  have := legal_not_space h
  revert this; decide

theorem legal_not_mem_natStr {c : Char} (h : Spec.LegalDelim c) (n : Nat) : c ∉ natStr n :=
  legal_not_mem_intStr h (Int.ofNat n)

theorem blanks_space (k : Nat) : ∀ c ∈ List.replicate k ' ', isSpaceC c = true := by
  intro c hc; rw [List.eq_of_mem_replicate hc]; decide

/-- An integer parameter, possibly preceded by blanks, is read back. -/
theorem ParseInt_intStr {pre post : Str} {k : Nat} {n : Int} {d pd rd : Char} {eor : Bool}
    {dflt : Option Int} (hd : d = pd ∨ d = rd) (hp : Spec.LegalDelim pd) (hr : Spec.LegalDelim rd)
    (hn : -2147483648 ≤ n ∧ n ≤ 2147483647) :
    ParseInt (pre ++ (List.replicate k ' ' ++ intStr n ++ d :: post)) pre.length eor pd rd dflt =
      .ok ⟨true, some n, pre.length + (k + (intStr n).length) + 1, if d = rd then true else eor⟩ := by
  have ht : Spec.TokenAt (pre ++ (List.replicate k ' ' ++ intStr n ++ d :: post)) pre.length pd rd
      (List.replicate k ' ' ++ intStr n) d := by
    refine ⟨post, by rw [List.drop_left], hd, ?_, ?_⟩
    · rw [List.mem_append]; rintro (h | h)
      · exact legal_not_mem_blanks hp k h
      · exact legal_not_mem_intStr hp n h
    · rw [List.mem_append]; rintro (h | h)
      · exact legal_not_mem_blanks hr k h
      · exact legal_not_mem_intStr hr n h
  unfold ParseInt
  rw [ParseLString_token ht]
  simp only [Res.bind]
  have hne : (List.replicate k ' ' ++ intStr n).isEmpty = false := by
    have := intStr_ne_nil n
    cases h : intStr n with
    | nil => exact absurd h this
    | cons a b => simp
  have hst := strtol_intStr (List.replicate k ' ') n [] (blanks_space k) (by simp)
    (by unfold longMin; omega) (by unfold longMax; omega)
  simp only [List.append_nil] at hst
  have hpos : 0 < (intStr n).length := List.length_pos_iff.mpr (intStr_ne_nil n)
  simp only [not_true_eq_false, if_false, hne, hst, List.length_replicate, List.length_append]
  rw [if_neg (by simp), if_neg (by simp; intro; exact intStr_ne_nil n), toI32_id (by omega) (by omega)]

/-- A Hollerith parameter, possibly preceded by blanks, is read back. -/
theorem ParseHString_holl {pre post s : Str} {k : Nat} {d pd rd : Char} {eor : Bool}
    (hs : s ≠ []) (hd : d = pd ∨ d = rd) (hp : Spec.LegalDelim pd) (hr : Spec.LegalDelim rd)
    (hsz : (pre ++ (List.replicate k ' ' ++ natStr s.length ++ 'H' :: s ++ d :: post)).length ≤ intMax) :
    ParseHString (pre ++ (List.replicate k ' ' ++ natStr s.length ++ 'H' :: s ++ d :: post)) pre.length
        eor pd rd =
      .ok ⟨true, s, pre.length + (k + (natStr s.length).length + 1 + s.length) + 1,
        if d = rd then true else eor⟩ := by
  unfold ParseHString
  rw [List.drop_left]
  have hne : (List.replicate k ' ' ++ natStr s.length ++ 'H' :: s ++ d :: post) ≠ [] := by simp
  obtain ⟨c, t, hc⟩ := List.exists_cons_of_ne_nil hne
  have hcc : ¬ (c = pd ∨ c = rd) := by
    have hm : c ∈ List.replicate k ' ' ++ natStr s.length := by
      have : (List.replicate k ' ' ++ natStr s.length) ≠ [] := by
        simp [natStr_ne_nil]
      obtain ⟨x, y, hxy⟩ := List.exists_cons_of_ne_nil this
      rw [hxy] at hc ⊢
      simp at hc; simp [hc.1]
    rw [List.mem_append] at hm
    rintro (rfl | rfl)
    · rcases hm with h | h
      · exact legal_not_mem_blanks hp k h
      · exact legal_not_mem_natStr hp _ h
    · rcases hm with h | h
      · exact legal_not_mem_blanks hr k h
      · exact legal_not_mem_natStr hr _ h
  have hlen : s.length ≤ 2147483647 := by
    have : intMax = 2147483647 := rfl
    simp at hsz; omega
  have hst := strtol_intStr (List.replicate k ' ') (Int.ofNat s.length) ('H' :: s ++ d :: post)
    (blanks_space k) (by simp; decide)
    (by unfold longMin; have : (0:Int) ≤ Int.ofNat s.length := Int.natCast_nonneg _; omega)
    (by unfold longMax; have : Int.ofNat s.length = (s.length : Int) := rfl; omega)
  have hi : intStr (Int.ofNat s.length) = natStr s.length := rfl
  rw [hi] at hst
  have hst' : strtol (List.replicate k ' ' ++ natStr s.length ++ 'H' :: s ++ d :: post) =
      ⟨Int.ofNat s.length, k + (natStr s.length).length, false⟩ := by
    rw [List.append_assoc, hst, List.length_replicate]
  rw [hst', hc]
  simp only []
  rw [if_neg hcc]
  have hpos := natStr_length_pos s.length
  rw [if_neg (by simp; intro; exact natStr_ne_nil _)]
  have hd1 : (pre ++ (List.replicate k ' ' ++ natStr s.length ++ 'H' :: s ++ d :: post)).drop
      (pre.length + (k + (natStr s.length).length)) = 'H' :: s ++ d :: post := by
    rw [← List.drop_drop, List.drop_left]
    have : k + (natStr s.length).length = (List.replicate k ' ' ++ natStr s.length).length := by simp
    rw [this, List.append_assoc, List.drop_left]
  rw [← hc, hd1]
  simp only [List.cons_append]
  rw [if_neg (by simp)]
  have hti : toI32 (Int.ofNat s.length) = (s.length : Int) :=
    toI32_id (by have : (0:Int) ≤ Int.ofNat s.length := Int.natCast_nonneg _; omega)
      (by have : Int.ofNat s.length = (s.length : Int) := rfl; omega)
  have hspos : 0 < s.length := List.length_pos_iff.mpr hs
  rw [hti]
  simp only [Int.toNat_natCast]
  rw [if_neg (by omega)]
  have hlt : pre.length + (k + (natStr s.length).length) + 1 + s.length <
      (pre ++ (List.replicate k ' ' ++ natStr s.length ++ 'H' :: s ++ d :: post)).length := by
    simp; omega
  rw [if_neg (by omega), if_neg (by omega)]
  have hd2 : (pre ++ (List.replicate k ' ' ++ natStr s.length ++ 'H' :: s ++ d :: post)).drop
      (pre.length + (k + (natStr s.length).length) + 1) = s ++ d :: post := by
    rw [← List.drop_drop, hd1]
    simp
  have hsub : substr (pre ++ (List.replicate k ' ' ++ natStr s.length ++ 'H' :: s ++ d :: post))
      (pre.length + (k + (natStr s.length).length) + 1) s.length = s := by
    unfold substr; rw [hd2, List.take_left]
  have hd3 : (pre ++ (List.replicate k ' ' ++ natStr s.length ++ 'H' :: s ++ d :: post)).drop
      (pre.length + (k + (natStr s.length).length) + 1 + s.length) = d :: post := by
    rw [← List.drop_drop, hd2, List.drop_left]
  rw [hsub, hd3]
  simp only []
  have hidx : pre.length + (k + (natStr s.length).length) + 1 + s.length + 1 =
    pre.length + (k + (natStr s.length).length + 1 + s.length) + 1 := by omega
  by_cases hdr : d = rd
  · rw [if_pos hdr, if_pos hdr, hidx]
  · rcases hd with hd | hd
    · rw [if_neg hdr, if_pos hd, if_neg hdr, hidx]
    · exact absurd hd hdr

/-- An empty Hollerith parameter (just the delimiter) is read back as the empty string. -/
theorem ParseHString_empty {pre post : Str} {d pd rd : Char} {eor : Bool} (hd : d = pd ∨ d = rd) :
    ParseHString (pre ++ d :: post) pre.length eor pd rd =
      .ok ⟨true, [], pre.length + 1, if d = rd then true else eor⟩ := by
  unfold ParseHString
  rw [List.drop_left]
  simp only [if_pos hd]

theorem strtod_blanks (ws t : Str) (hws : ∀ c ∈ ws, isSpaceC c = true) :
    (strtod (ws ++ t)).val = (strtod t).val ∧ (strtod (ws ++ t)).err = (strtod t).err ∧
      ((strtod t).used ≠ 0 → (strtod (ws ++ t)).used ≠ 0) := by
  unfold strtod
  rw [takeWhile_append_of_all _ _ _ hws, dropWhile_append_of_all _ _ _ hws]
  simp only []
  split
  · simp
  · split
    · simp
    · simp only [List.length_append, ne_eq, true_and]
      intro h h'; apply h; omega

theorem dToE_blanks (k : Nat) (t : Str) :
    dToE (List.replicate k ' ' ++ t) = List.replicate k ' ' ++ dToE t := by
  induction k with
  | zero => simp
  | succ k ih =>
    simp only [List.replicate_succ, List.cons_append, dToE, ih]
    rfl

/-- A real parameter, possibly preceded by blanks, has the value of its text. -/
theorem ParseReal_text {pre post t : Str} {k : Nat} {d pd rd : Char} {eor : Bool}
    {dflt : Option RealTok} (hd : d = pd ∨ d = rd) (hp : Spec.LegalDelim pd) (hr : Spec.LegalDelim rd)
    (htp : pd ∉ t) (htr : rd ∉ t) (ht : t ≠ [])
    (hu : (strtod (dToE t)).used ≠ 0) (he : (strtod (dToE t)).err = false) :
    ParseReal (pre ++ (List.replicate k ' ' ++ t ++ d :: post)) pre.length eor pd rd dflt =
      .ok ⟨true, some (strtod (dToE t)).val, pre.length + (k + t.length) + 1, if d = rd then true else eor⟩ := by
  have htok : Spec.TokenAt (pre ++ (List.replicate k ' ' ++ t ++ d :: post)) pre.length pd rd
      (List.replicate k ' ' ++ t) d := by
    refine ⟨post, by rw [List.drop_left], hd, ?_, ?_⟩
    · rw [List.mem_append]; rintro (h | h)
      · exact legal_not_mem_blanks hp k h
      · exact htp h
    · rw [List.mem_append]; rintro (h | h)
      · exact legal_not_mem_blanks hr k h
      · exact htr h
  unfold ParseReal
  rw [ParseLString_token htok]
  simp only [Res.bind]
  have hne : (List.replicate k ' ' ++ t).isEmpty = false := by
    cases t with
    | nil => exact absurd rfl ht
    | cons a b => simp
  obtain ⟨h1, h2, h3⟩ := strtod_blanks (List.replicate k ' ') (dToE t) (blanks_space k)
  simp only [not_true_eq_false, if_false, hne, dToE_blanks, h1, h2, he]
  rw [if_neg (by simp), if_neg (by simp; exact h3 hu)]
  simp

end Iges
