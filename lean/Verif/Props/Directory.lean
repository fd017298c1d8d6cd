import Verif.Lemmas.Directory
/-
C11, C12, C13, C14: directory entries, status numbers, DE pointers and the terminate record.
-/
namespace Iges.Props
open Iges

/-! ### C12 -/

/-- **C12** — The status number is the four two-digit groups of the standard, and decoding it gives
the four values back. -/
theorem C12_status_roundtrip (visible : Bool) (depends use hier : Nat) (h1 : depends ≤ 3)
    (h2 : use ≤ 6) (h3 : hier ≤ 2) :
    statusNum visible depends use hier = Spec.statusGroups (if visible then 0 else 1) depends use hier ∧
    decodeStatus (statusNum visible depends use hier) = some (visible, (depends : Int), (use : Int), (hier : Int)) := by
  constructor
  · unfold statusNum Spec.statusGroups; cases visible <;> simp <;> omega
  · unfold decodeStatus statusNum
    cases visible
    all_goals
      simp only [if_true, if_false, Bool.false_eq_true]
      rw [if_neg (by omega), if_neg (by omega), if_neg (by omega), if_neg (by omega), if_neg (by omega)]
      simp only [Option.some.injEq, Prod.mk.injEq]
      refine ⟨?_, by omega, by omega, by omega⟩
    · rw [beq_eq_false_iff_ne]; omega
    · rw [beq_iff_eq]; omega

/-- **C12** — An eight-digit number is decoded exactly when its groups are legal, to these groups. -/
theorem C12_status_decode_iff (n : Nat) (hn : n ≤ 99999999) (v : Bool) (d u h : Int) :
    decodeStatus n = some (v, d, u, h) ↔
      ∃ b d' u' h', b ≤ 1 ∧ d' ≤ 3 ∧ u' ≤ 6 ∧ h' ≤ 2 ∧ n = Spec.statusGroups b d' u' h' ∧
        (v = true ↔ b = 0) ∧ d = d' ∧ u = u' ∧ h = h' := by
  constructor
  · intro e
    unfold decodeStatus at e
    simp only at e
    split at e
    · cases e
    · split at e
      · cases e
      · split at e
        · cases e
        · split at e
          · cases e
          · split at e
            · cases e
            · simp only [Option.some.injEq, Prod.mk.injEq] at e
              obtain ⟨e1, e2, e3, e4⟩ := e
              refine ⟨n / 1000000 % 100, n / 10000 % 100, n / 100 % 100, n % 100, ?_, ?_, ?_, ?_, ?_, ?_, ?_, ?_, ?_⟩
              all_goals first
                | omega
                | (unfold Spec.statusGroups; omega)
                | (rw [← e1, beq_iff_eq]; omega)
  · rintro ⟨b, d', u', h', hb, hd, hu, hh, rfl, hv, rfl, rfl, rfl⟩
    unfold Spec.statusGroups at *
    unfold decodeStatus
    rw [if_neg (by omega)]
    simp only
    rw [if_neg (by omega), if_neg (by omega), if_neg (by omega), if_neg (by omega)]
    simp only [Option.some.injEq, Prod.mk.injEq]
    refine ⟨?_, by omega, by omega, by omega⟩
    cases v
    · rw [beq_eq_false_iff_ne]; simp at hv; omega
    · rw [beq_iff_eq]; simp at hv; omega

example : statusNum false 1 5 2 = 1010502 ∧ decodeStatus 1010502 = some (false, 1, 5, 2) ∧
    decodeStatus 70000 = none := by decide

/-! ### C11 -/

/-- A DE number that a pointer may hold. -/
def PtrOk (p : Option Int) : Prop := ∀ s, p = some s → 0 < s ∧ s ≤ 9999999

/-- Attributes the standard allows in a directory entry, for a model whose largest line weight is
`grad`. -/
structure LegalDE (d : DE) (p : DEPtrs) (grad : Int) : Prop where
  type : 0 < d.entityType ∧ d.entityType ≤ 99999
  pdata : 0 ≤ d.parameterData ∧ 0 < d.paramLineCount ∧ d.parameterData + d.paramLineCount ≤ 10000000
  ptrs : PtrOk p.pStructure ∧ PtrOk p.pLineFontPattern ∧ PtrOk p.pView ∧ PtrOk p.pTransform ∧
    PtrOk p.pLabelAssoc ∧ PtrOk p.pColor
  font : 0 ≤ d.lineFontPattern ∧ d.lineFontPattern ≤ 5
  level : 0 ≤ d.level ∧ d.level ≤ 99999999
  color : 0 ≤ d.colorNum ∧ d.colorNum ≤ 8
  status : 0 ≤ d.depends ∧ d.depends ≤ 3 ∧ 0 ≤ d.use ∧ d.use ≤ 6 ∧ 0 ≤ d.hierarchy ∧ d.hierarchy ≤ 2
  weight : 0 ≤ d.lineWeightNum ∧ d.lineWeightNum ≤ grad ∧ d.lineWeightNum ≤ 99999999
  form : 0 ≤ d.form ∧ d.form ≤ 99999999
  label : d.label.length ≤ 8 ∧ d.label.head? ≠ some ' ' ∧ '\n' ∉ d.label
  subscript : 0 ≤ d.entitySubscript ∧ d.entitySubscript ≤ 99999999
  seq : 0 < d.seq ∧ d.seq < 9999997 ∧ d.seq % 2 = 1

/-- What a reader of the directory entry must see: the pointers have taken the place of the numbers. -/
def storedDE (d : DE) (p : DEPtrs) : DE :=
  { d with
    structure_ := -(p.pStructure.getD 0)
    lineFontPattern := match p.pLineFontPattern with | some s => -s | none => d.lineFontPattern
    level := match p.pLevel with | some s => -s | none => d.level
    view := p.pView.getD 0
    transform := p.pTransform.getD 0
    labelAssoc := p.pLabelAssoc.getD 0
    colorNum := match p.pColor with | some s => -s | none => d.colorNum }

theorem fmt_ok {n : Int} (h : -9999999 ≤ n ∧ n ≤ 99999999) : ∃ s, FormatDEInt n = some s ∧ s.length = 8 ∧ '\n' ∉ s := by
  have hf := FormatDEInt_some n h.1 h.2
  refine ⟨_, hf, FormatDEInt_length hf, ?_⟩
  rw [List.mem_append]
  rintro (hm | hm)
  · have := List.eq_of_mem_replicate hm; revert this; decide
  · exact intStr_no_nl n hm

/-- The two lines of a legal directory entry. -/
theorem writeDE_legal {d : DE} {p : DEPtrs} {grad : Int} (h : LegalDE d p grad) (hl : PtrOk p.pLevel) :
    ∃ c1 c2 : List Str, c1.length = 9 ∧ c2.length = 9 ∧ (∀ c ∈ c1, c.length = 8 ∧ '\n' ∉ c) ∧
      (∀ c ∈ c2, c.length = 8 ∧ '\n' ∉ c) ∧
      writeDE d p = some ((c1.flatten ++ 'D' :: Spec.rjust 7 d.seq) ++ ['\n'] ++
        ((c2.flatten ++ 'D' :: Spec.rjust 7 (d.seq + 1)) ++ ['\n'])) ∧
      c1.map some = [FormatDEInt d.entityType, FormatDEInt d.parameterData, FormatDEInt (storedDE d p).structure_,
        FormatDEInt (storedDE d p).lineFontPattern, FormatDEInt (storedDE d p).level,
        FormatDEInt (storedDE d p).view, FormatDEInt (storedDE d p).transform,
        FormatDEInt (storedDE d p).labelAssoc, FormatDEInt (statusNum d.visible d.depends d.use d.hierarchy)] ∧
      c2.map some = [FormatDEInt d.entityType, FormatDEInt d.lineWeightNum, FormatDEInt (storedDE d p).colorNum,
        FormatDEInt d.paramLineCount, FormatDEInt d.form, some (List.replicate 8 ' '), some (List.replicate 8 ' '),
        some (labelColumn d.label), FormatDEInt d.entitySubscript] := by
  obtain ⟨t1, t2⟩ := h.type
  obtain ⟨pa1, pa2, pa3⟩ := h.pdata
  obtain ⟨q1, q2, q3, q4, q5, q6⟩ := h.ptrs
  have hst := h.status
  have hw := h.weight
  have hfo := h.form
  have hsu := h.subscript
  have hse := h.seq
  have hco := h.color
  have hfn := h.font
  have hle := h.level
  have neg : ∀ q : Option Int, PtrOk q → ∀ n : Int, 0 ≤ n ∧ n ≤ 99999999 →
      (-9999999 ≤ (match q with | some s => -s | none => n) ∧ (match q with | some s => -s | none => n) ≤ 99999999) := by
    intro q hq n hn
    cases q with
    | none => simp only; omega
    | some s => have := hq s rfl; simp only; omega
  have pos : ∀ q : Option Int, PtrOk q → -9999999 ≤ q.getD 0 ∧ q.getD 0 ≤ 99999999 := by
    intro q hq
    cases q with
    | none => simp only [Option.getD_none]; omega
    | some s => have := hq s rfl; simp only [Option.getD_some]; omega
  obtain ⟨a1, b1, l1, n1⟩ := fmt_ok (n := d.entityType) (by omega)
  obtain ⟨a2, b2, l2, n2⟩ := fmt_ok (n := d.parameterData) (by omega)
  obtain ⟨a3, b3, l3, n3⟩ := fmt_ok (n := (storedDE d p).structure_) (by have := pos _ q1; show -9999999 ≤ -(p.pStructure.getD 0) ∧ _; cases hq : p.pStructure with
      | none => simp [storedDE, hq]
      | some s => have := q1 s hq; simp [storedDE, hq]; omega)
  obtain ⟨a4, b4, l4, n4⟩ := fmt_ok (n := (storedDE d p).lineFontPattern) (neg _ q2 _ (by omega))
  obtain ⟨a5, b5, l5, n5⟩ := fmt_ok (n := (storedDE d p).level) (neg _ hl _ (by omega))
  obtain ⟨a6, b6, l6, n6⟩ := fmt_ok (n := (storedDE d p).view) (pos _ q3)
  obtain ⟨a7, b7, l7, n7⟩ := fmt_ok (n := (storedDE d p).transform) (pos _ q4)
  obtain ⟨a8, b8, l8, n8⟩ := fmt_ok (n := (storedDE d p).labelAssoc) (pos _ q5)
  obtain ⟨a9, b9, l9, n9⟩ := fmt_ok (n := statusNum d.visible d.depends d.use d.hierarchy)
    (by unfold statusNum; split <;> omega)
  obtain ⟨a12, b12, l12, n12⟩ := fmt_ok (n := d.lineWeightNum) (by omega)
  obtain ⟨a13, b13, l13, n13⟩ := fmt_ok (n := (storedDE d p).colorNum) (neg _ q6 _ (by omega))
  obtain ⟨a14, b14, l14, n14⟩ := fmt_ok (n := d.paramLineCount) (by omega)
  obtain ⟨a15, b15, l15, n15⟩ := fmt_ok (n := d.form) (by omega)
  obtain ⟨a19, b19, l19, n19⟩ := fmt_ok (n := d.entitySubscript) (by omega)
  have hs1 := seqColumn_some 'D' (n := d.seq) (by omega) (by omega)
  have hs2 := seqColumn_some 'D' (n := d.seq + 1) (by omega) (by omega)
  have r1 : (Spec.rjust 7 d.seq).length = 7 := rjust_length 7 _ (intStr_length_le7 _ (by omega) (by omega))
  have r2 : (Spec.rjust 7 (d.seq + 1)).length = 7 := rjust_length 7 _ (intStr_length_le7 _ (by omega) (by omega))
  have lab : (labelColumn d.label).length = 8 ∧ '\n' ∉ labelColumn d.label := by
    have := h.label
    unfold labelColumn
    constructor
    · rw [List.length_append, List.length_replicate, List.length_take]; omega
    · rw [List.mem_append]
      rintro (hm | hm)
      · have := List.eq_of_mem_replicate hm; revert this; decide
      · exact this.2.2 (List.mem_of_mem_take hm)
  have e3 : -(p.pStructure.getD 0) = (storedDE d p).structure_ := rfl
  have e4 : numOrPtr p.pLineFontPattern d.lineFontPattern
      (decide (0 ≤ d.lineFontPattern ∧ d.lineFontPattern < 6)) = (storedDE d p).lineFontPattern := by
    unfold numOrPtr storedDE
    rw [decide_eq_true (by omega)]; cases p.pLineFontPattern <;> simp
  have e5 : numOrPtr p.pLevel d.level (decide (0 ≤ d.level)) = (storedDE d p).level := by
    unfold numOrPtr storedDE
    rw [decide_eq_true (by omega)]; cases p.pLevel <;> simp
  have e13 : numOrPtr p.pColor d.colorNum (decide (0 ≤ d.colorNum ∧ d.colorNum < 9)) = (storedDE d p).colorNum := by
    unfold numOrPtr storedDE
    rw [decide_eq_true (by omega)]; cases p.pColor <;> simp
  have blank : '\n' ∉ List.replicate 8 ' ' := by decide
  refine ⟨[a1, a2, a3, a4, a5, a6, a7, a8, a9],
    [a1, a12, a13, a14, a15, List.replicate 8 ' ', List.replicate 8 ' ', labelColumn d.label, a19],
    rfl, rfl, ?_, ?_, ?_, ?_, ?_⟩
  · simp only [List.mem_cons, List.not_mem_nil, or_false]
    rintro c (rfl | rfl | rfl | rfl | rfl | rfl | rfl | rfl | rfl) <;> constructor <;> assumption
  · simp only [List.mem_cons, List.not_mem_nil, or_false]
    rintro c (rfl | rfl | rfl | rfl | rfl | rfl | rfl | rfl | rfl)
    any_goals (constructor <;> assumption)
    · exact ⟨by simp, blank⟩
    · exact ⟨by simp, blank⟩
    · exact lab
  · have v6 : p.pView.getD 0 = (storedDE d p).view := rfl
    have v7 : p.pTransform.getD 0 = (storedDE d p).transform := rfl
    have v8 : p.pLabelAssoc.getD 0 = (storedDE d p).labelAssoc := rfl
    unfold writeDE
    rw [e3, e4, e5, e13, v6, v7, v8, b1, b2, b3, b4, b5, b6, b7, b8, b9, hs1, b12, b13, b14, b15, b19, hs2]
    simp only [Option.bind_eq_bind, Option.bind_some]
    rw [if_neg (by omega), if_neg (by simp [l1, l2, l3, l4, l5, l6, l7, l8, l9, r1]),
      if_neg (by simp [l1, l12, l13, l14, l15, lab.1, l19, r2])]
    have : List.replicate 16 ' ' = List.replicate 8 ' ' ++ List.replicate 8 ' ' := by decide
    simp only [this, List.flatten_cons, List.flatten_nil, List.append_nil, List.append_assoc]
  · simp [b1, b2, b3, b4, b5, b6, b7, b8, b9]
  · simp [b1, b12, b13, b14, b15, b19]

theorem label_read {label : Str} (h1 : label.length ≤ 8) (h2 : label.head? ≠ some ' ') :
    (labelColumn label).dropWhile (· == ' ') = label := by
  unfold labelColumn
  rw [dropWhile_append_of_all _ _ _ (by intro c hc; rw [List.eq_of_mem_replicate hc]; decide),
    List.take_of_length_le h1]
  apply dropWhile_of_head
  intro c hc
  cases hb : (c == ' ')
  · rfl
  · exfalso; apply h2; rw [beq_iff_eq] at hb; subst hb; exact hc

/-- The part of `readDE` that precedes the level check, and what follows. -/
theorem readDE_written {d : DE} {p : DEPtrs} {grad : Int} (h : LegalDE d p grad) (hl : PtrOk p.pLevel) :
    ∃ l1 l2 rec, writeDE d p = some (l1 ++ ['\n'] ++ (l2 ++ ['\n'])) ∧
      l1.length = 80 ∧ l2.length = 80 ∧ '\n' ∉ l1 ∧ '\n' ∉ l2 ∧
      ReadIGESRecord l1 = some rec ∧ rec.section_type = 'D' ∧ rec.index = d.seq ∧
      (p.pLevel = none → readDE d.entityType (some grad) rec (some l2) = some (storedDE d p)) ∧
      (p.pLevel ≠ none → readDE d.entityType (some grad) rec (some l2) = none) ∧
      deInt rec.data 0 none = some d.entityType ∧ l1[72]? = some 'D' ∧ l2[72]? = some 'D' := by
  obtain ⟨c1, c2, len1, len2, ok1, ok2, hw, m1, m2⟩ := writeDE_legal h hl
  have hse := h.seq
  have hle := intStr_length_le7 d.seq (by omega) (by omega)
  have hle2 := intStr_length_le7 (d.seq + 1) (by omega) (by omega)
  have nl : ∀ cols : List Str, (∀ c ∈ cols, c.length = 8 ∧ '\n' ∉ c) → ∀ n, '\n' ∉ cols.flatten ++ 'D' :: Spec.rjust 7 n := by
    intro cols hc n hm
    rcases List.mem_append.mp hm with hm | hm
    · obtain ⟨c, hc1, hc2⟩ := List.mem_flatten.mp hm
      exact (hc c hc1).2 hc2
    · rcases List.mem_cons.mp hm with hm | hm
      · revert hm; decide
      · exact rjust_no_nl 7 n hm
  have len : ∀ cols : List Str, cols.length = 9 → (∀ c ∈ cols, c.length = 8 ∧ '\n' ∉ c) → ∀ n, (intStr n).length ≤ 7 →
      (cols.flatten ++ 'D' :: Spec.rjust 7 n).length = 80 := by
    intro cols hc9 hc n hn
    rw [List.length_append, flatten_len cols 8 (fun c h => (hc c h).1), hc9, List.length_cons, rjust_length 7 n hn]
  have rec1 := record_cols c1 'D' d.seq (fun c h => (ok1 c h).1) len1 (by decide) (by omega) (by omega)
  have rec2 := record_cols c2 'D' (d.seq + 1) (fun c h => (ok2 c h).1) len2 (by decide) (by omega) (by omega)
  have get1 : ∀ k (hk : k < 9), ∀ v, (c1.map some)[k]? = some (FormatDEInt v) → ∀ dflt, deInt c1.flatten k dflt = some v := by
    intro k hk v hv dflt
    have hk' : k < c1.length := by omega
    have := deInt_cols c1 k [] v dflt (fun c h => (ok1 c h).1) hk' (by omega) (by
      rw [List.getElem?_map, List.getElem?_eq_getElem hk'] at hv
      simp at hv; exact hv.symm)
    simpa using this
  have get2 : ∀ k (hk : k < 9), ∀ v, (c2.map some)[k]? = some (FormatDEInt v) → ∀ dflt, deInt c2.flatten k dflt = some v := by
    intro k hk v hv dflt
    have hk' : k < c2.length := by omega
    have := deInt_cols c2 k [] v dflt (fun c h => (ok2 c h).1) hk' (by omega) (by
      rw [List.getElem?_map, List.getElem?_eq_getElem hk'] at hv
      simp at hv; exact hv.symm)
    simpa using this
  rw [m1] at get1
  rw [m2] at get2
  have f0 := get1 0 (by omega) _ rfl
  have f1 := get1 1 (by omega) _ rfl
  have f2 := get1 2 (by omega) _ rfl
  have f3 := get1 3 (by omega) _ rfl
  have f4 := get1 4 (by omega) _ rfl
  have f5 := get1 5 (by omega) _ rfl
  have f6 := get1 6 (by omega) _ rfl
  have f7 := get1 7 (by omega) _ rfl
  have f8 := get1 8 (by omega) _ rfl
  have g0 := get2 0 (by omega) _ rfl
  have g1 := get2 1 (by omega) _ rfl
  have g2 := get2 2 (by omega) _ rfl
  have g3 := get2 3 (by omega) _ rfl
  have g4 := get2 4 (by omega) _ rfl
  have g8 := get2 8 (by omega) _ rfl
  have g7 : DEItemToStr c2.flatten 7 = some d.label := by
    have := DEItemToStr_cols c2 7 [] (fun c h => (ok2 c h).1) (by omega) (by omega)
    rw [List.append_nil] at this
    rw [show (7 : Int) = ((7 : Nat) : Int) from rfl, this]
    have hk : 7 < c2.length := by omega
    have e : (c2.map some)[7]? = some (some (labelColumn d.label)) := by rw [m2]; rfl
    rw [List.getElem?_map, List.getElem?_eq_getElem hk] at e
    simp at e
    rw [e, label_read h.label.1 h.label.2.1]
  have col : ∀ cols : List Str, cols.length = 9 → (∀ c ∈ cols, c.length = 8 ∧ '\n' ∉ c) → ∀ n,
      (cols.flatten ++ 'D' :: Spec.rjust 7 n)[72]? = some 'D' := by
    intro cols hc9 hc n
    have : cols.flatten.length = 72 := by rw [flatten_len cols 8 (fun c h => (hc c h).1), hc9]
    rw [List.getElem?_append_right (by omega), this]
    rfl
  refine ⟨_, _, _, hw, len c1 len1 ok1 _ hle, len c2 len2 ok2 _ hle2, nl c1 ok1 _, nl c2 ok2 _, rec1, rfl, rfl, ?_, ?_, f0 none,
    col c1 len1 ok1 _, col c2 len2 ok2 _⟩
  · intro hp
    have t := h.type
    have q := h.ptrs
    have hst := h.status
    have lfp : (storedDE d p).lineFontPattern < 6 := by
      unfold storedDE; simp only
      cases hq : p.pLineFontPattern with
      | none => have := h.font; simp only; omega
      | some s => have := q.2.1 s hq; simp only; omega
    have stp : (storedDE d p).structure_ ≤ 0 := by
      unfold storedDE; simp only
      cases hq : p.pStructure with
      | none => simp
      | some s => have := q.1 s hq; simp; omega
    have colp : (storedDE d p).colorNum < 9 := by
      unfold storedDE; simp only
      cases hq : p.pColor with
      | none => have := h.color; simp only; omega
      | some s => have := q.2.2.2.2.2 s hq; simp only; omega
    have levp : 0 ≤ (storedDE d p).level := by
      unfold storedDE; simp only [hp]; exact h.level.1
    have pos : ∀ q : Option Int, PtrOk q → 0 ≤ q.getD 0 := by
      intro q hq
      cases q with
      | none => simp
      | some s => have := hq s rfl; simp; omega
    have vp : 0 ≤ (storedDE d p).view := pos _ q.2.2.1
    have tp : 0 ≤ (storedDE d p).transform := pos _ q.2.2.2.1
    have lp : 0 ≤ (storedDE d p).labelAssoc := pos _ q.2.2.2.2.1
    have dec : decodeStatus (statusNum d.visible d.depends d.use d.hierarchy) = some (d.visible, d.depends, d.use, d.hierarchy) := by
      have := (C12_status_roundtrip d.visible d.depends.toNat d.use.toNat d.hierarchy.toNat (by omega) (by omega) (by omega)).2
      rwa [Int.toNat_of_nonneg (by omega), Int.toNat_of_nonneg (by omega), Int.toNat_of_nonneg (by omega)] at this
    have pdt := h.pdata
    have wt := h.weight
    have fo := h.form
    have su := h.subscript
    unfold readDE
    simp only [f0, f1, f2, f3, f4, f5, f6, f7, f8, g0, g1, g2, g3, g4, g7, g8, rec2, Option.bind_eq_bind,
      Option.bind_some, ne_eq, not_true_eq_false, if_false, Option.getD_some, dec]
    rw [if_neg (by omega), if_neg (by omega), if_neg (by omega), if_neg (by omega), if_neg (by omega),
      if_neg (by omega), if_neg (by omega), if_neg (by omega), if_neg (by omega), if_neg (by omega),
      if_neg (by omega), if_neg (by omega), if_neg (by omega), if_neg (by omega), if_neg (by omega)]
    rfl
  · intro hp
    cases hq : p.pLevel with
    | none => exact absurd hq hp
    | some s =>
      have hs := hl s hq
      have levn : (storedDE d p).level < 0 := by
        unfold storedDE; simp only [hq]; omega
      unfold readDE
      simp only [f0, f1, f2, f3, f4, Option.bind_eq_bind, Option.bind_some, levn, if_true]
      repeat (first | rfl | split)

/-- **C11** — Writing the directory entry of any legal entity without a level pointer gives two
80-column lines which are read back to the same attributes (with the DE numbers of the entities
pointed to). -/
theorem C11_de_roundtrip_partial (d : DE) (p : DEPtrs) (grad : Int) (h : LegalDE d p grad)
    (hlev : p.pLevel = none) :
    ∃ l1 l2 rec, writeDE d p = some (l1 ++ ['\n'] ++ (l2 ++ ['\n'])) ∧ l1.length = 80 ∧ l2.length = 80 ∧
      getlines [] (l1 ++ ['\n'] ++ (l2 ++ ['\n'])) = [l1, l2] ∧
      ReadIGESRecord l1 = some rec ∧ rec.section_type = 'D' ∧ rec.index = d.seq ∧
      readDE d.entityType (some grad) rec (some l2) = some (storedDE d p) := by
  obtain ⟨l1, l2, rec, a1, a2, a3, a4, a5, a6, a7, a8, a9, _⟩ := readDE_written h (by intro s hs; rw [hlev] at hs; cases hs)
  refine ⟨l1, l2, rec, a1, a2, a3, ?_, a6, a7, a8, a9 hlev⟩
  rw [List.append_assoc, List.singleton_append, getlines_line [] l1 _ a4, getlines_line [] l2 _ a5]
  simp [getlines]

/-- The missing case: an entity whose level is a pointer is written without complaint and cannot be
read again. -/
theorem C11_level_pointer_unreadable (d : DE) (p : DEPtrs) (grad : Int) (h : LegalDE d p grad)
    (s : Int) (hs : p.pLevel = some s) (hr : 0 < s ∧ s ≤ 9999999) :
    ∃ l1 l2 rec, writeDE d p = some (l1 ++ ['\n'] ++ (l2 ++ ['\n'])) ∧ ReadIGESRecord l1 = some rec ∧
      readDE d.entityType (some grad) rec (some l2) = none := by
  obtain ⟨l1, l2, rec, a1, a2, a3, a4, a5, a6, a7, a8, a9, a10, _⟩ := readDE_written h
    (by intro s' hs'; rw [hs] at hs'; cases hs'; exact hr)
  exact ⟨l1, l2, rec, a1, a6, a10 (by rw [hs]; simp)⟩

/-- **C11** — For every supported type except 124 the entity's own reader accepts its written
directory entry exactly when the form number is one the standard gives to that type, and keeps the
sequence number, parameter pointer, line count, form, label and subscript. -/
theorem C11_entity_forms (t : Nat) (forms : List Int) (ht : (t, forms) ∈ Spec.formsOf) (d : DE) (p : DEPtrs)
    (grad : Int) (h : LegalDE d p grad) (hlev : p.pLevel = none) (hd : d.entityType = t) :
    ∃ l1 l2 rec, writeDE d p = some (l1 ++ ['\n'] ++ (l2 ++ ['\n'])) ∧ ReadIGESRecord l1 = some rec ∧
      (d.form ∉ forms → readEntityDE t (some grad) rec (some l2) = none) ∧
      (d.form ∈ forms → ∃ r, readEntityDE t (some grad) rec (some l2) = some r ∧
        r.seq = d.seq ∧ r.entityType = t ∧ r.parameterData = d.parameterData ∧
        r.paramLineCount = d.paramLineCount ∧ r.form = d.form ∧ r.label = d.label ∧
        r.entitySubscript = d.entitySubscript) := by
  obtain ⟨l1, l2, rec, a1, _, _, _, a5, _, _, a8⟩ := C11_de_roundtrip_partial d p grad h hlev
  rw [hd] at a8
  refine ⟨l1, l2, rec, a1, a5, ?_, ?_⟩
  · intro hf
    unfold readEntityDE
    rw [a8, Option.bind_some]
    simp only [Spec.formsOf, List.mem_cons, Prod.mk.injEq, List.not_mem_nil, or_false] at ht
    have hs : (storedDE d p).form = d.form := rfl
    rcases ht with ⟨rfl, rfl⟩ | ⟨rfl, rfl⟩ | ⟨rfl, rfl⟩ | ⟨rfl, rfl⟩ | ⟨rfl, rfl⟩ | ⟨rfl, rfl⟩ | ⟨rfl, rfl⟩ |
      ⟨rfl, rfl⟩ | ⟨rfl, rfl⟩ | ⟨rfl, rfl⟩ | ⟨rfl, rfl⟩ | ⟨rfl, rfl⟩ | ⟨rfl, rfl⟩ | ⟨rfl, rfl⟩ | ⟨rfl, rfl⟩ |
      ⟨rfl, rfl⟩ | ⟨rfl, rfl⟩ | ⟨rfl, rfl⟩ | ⟨rfl, rfl⟩ | ⟨rfl, rfl⟩ | ⟨rfl, rfl⟩ | ⟨rfl, rfl⟩ | ⟨rfl, rfl⟩
    all_goals
      simp only [List.mem_cons, List.not_mem_nil, or_false] at hf
      simp only [fixDE, hs]
      rw [if_pos (by omega)]
  · intro hf
    unfold readEntityDE
    rw [a8, Option.bind_some]
    simp only [Spec.formsOf, List.mem_cons, Prod.mk.injEq, List.not_mem_nil, or_false] at ht
    have hs : (storedDE d p).form = d.form := rfl
    rcases ht with ⟨rfl, rfl⟩ | ⟨rfl, rfl⟩ | ⟨rfl, rfl⟩ | ⟨rfl, rfl⟩ | ⟨rfl, rfl⟩ | ⟨rfl, rfl⟩ | ⟨rfl, rfl⟩ |
      ⟨rfl, rfl⟩ | ⟨rfl, rfl⟩ | ⟨rfl, rfl⟩ | ⟨rfl, rfl⟩ | ⟨rfl, rfl⟩ | ⟨rfl, rfl⟩ | ⟨rfl, rfl⟩ | ⟨rfl, rfl⟩ |
      ⟨rfl, rfl⟩ | ⟨rfl, rfl⟩ | ⟨rfl, rfl⟩ | ⟨rfl, rfl⟩ | ⟨rfl, rfl⟩ | ⟨rfl, rfl⟩ | ⟨rfl, rfl⟩ | ⟨rfl, rfl⟩
    all_goals
      simp only [List.mem_cons, List.not_mem_nil, or_false] at hf
      simp only [fixDE, hs]
      rw [if_neg (by omega)]
      exact ⟨_, rfl, rfl, hd, rfl, rfl, rfl, rfl, rfl⟩

/-- A directory entry used in the examples: a circular arc with a colour pointer and a label. -/
def sampleDE : DE :=
  { seq := 7, entityType := 100, parameterData := 12, structure_ := 0, lineFontPattern := 1, level := 3,
    view := 0, transform := 0, labelAssoc := 0, visible := false, depends := 1, use := 5, hierarchy := 0,
    lineWeightNum := 2, colorNum := 4, paramLineCount := 2, form := 0, label := "ARC 1".toList,
    entitySubscript := 41 }

def samplePtrs : DEPtrs := ⟨none, none, none, none, some 3, none, some 5⟩

theorem sample_ptrOk (p : Option Int) (h : p = none ∨ ∃ s, p = some s ∧ 0 < s ∧ s ≤ 9999999) : PtrOk p := by
  intro s hs
  rcases h with rfl | ⟨t, rfl, h⟩
  · cases hs
  · cases hs; exact h

example : LegalDE sampleDE samplePtrs 10 where
  type := by decide
  pdata := by decide
  ptrs := ⟨sample_ptrOk _ (.inl rfl), sample_ptrOk _ (.inl rfl), sample_ptrOk _ (.inl rfl),
    sample_ptrOk _ (.inr ⟨3, rfl, by decide⟩), sample_ptrOk _ (.inl rfl), sample_ptrOk _ (.inr ⟨5, rfl, by decide⟩)⟩
  font := by decide
  level := by decide
  color := by decide
  status := by decide
  weight := by decide
  form := by decide
  label := by decide
  subscript := by decide
  seq := by decide

/-- The transformation matrix reader does not check its form: form 7 does not exist, and is accepted. -/
theorem C11_form124_unchecked (d : DE) : (fixDE 124 d).isSome = true := by
  simp only [fixDE]
  rw [if_neg (by omega)]; rfl

/-! ### C13 -/

/-- **C13** — The DE number given to the `i`-th entity resolves to the `i`-th entity of the list, and
to nothing if the list is shorter. -/
theorem C13_resolve_written {α} (entities : List α) (i : Nat) :
    writeSeq i = Spec.dirSeq i ∧ resolve entities (writeSeq i) = entities[i]? := by
  constructor
  · unfold writeSeq Spec.dirSeq; push_cast; rfl
  · unfold resolve writeSeq
    simp only
    have e : (2 * (i : Int) + 1) / 2 = i := by omega
    rw [e, Int.toNat_natCast]
    split
    · rfl
    · rw [List.getElem?_eq_none (by omega)]

/-- **C13** — Different positions get different numbers, all odd and positive. -/
theorem C13_seq_injective (i j : Nat) : (writeSeq i = writeSeq j → i = j) ∧ writeSeq i % 2 = 1 ∧ 0 < writeSeq i := by
  unfold writeSeq; omega

/-- **C13** — A stored number resolves exactly when it is below twice the number of entities. -/
theorem C13_outside_refused {α} (entities : List α) (val : Int) (h : 0 ≤ val) :
    (resolve entities val).isSome = true ↔ val < 2 * entities.length := by
  unfold resolve
  simp only
  split
  · rename_i hlt
    rw [List.getElem?_eq_getElem (by omega)]
    simp; omega
  · simp; omega

/-- The reader does not require an odd number: the even number `2i` names the same entity as
`2i+1`. -/
theorem C13_even_numbers_accepted {α} (entities : List α) (i : Nat) :
    resolve entities (2 * i) = entities[i]? := by
  rw [← (C13_resolve_written entities i).2]
  unfold resolve writeSeq
  have e : (2 * (i : Int) + 1) / 2 = i := by omega
  have e' : (2 * (i : Int)) / 2 = i := by omega
  simp only [e, e']

example : resolve ["a", "b", "c"] (writeSeq 1) = some "b" ∧ resolve ["a", "b", "c"] 7 = none := by decide

/-! ### C14 -/

/-- **C14** — The terminate record is one line of 80 columns, and reading it gives the four counts
back. -/
theorem C14_terminate_roundtrip (nS nG nD nP : Nat) (hS : nS ≤ 9999999) (hG : nG ≤ 9999999)
    (hD : nD ≤ 9999999) (hP : nP ≤ 9999999) :
    ∃ l, writeTerminate nS nG nD nP = some (l ++ ['\n']) ∧ l.length = 80 ∧ '\n' ∉ l ∧
      l = 'S' :: Spec.rjust 7 nS ++ 'G' :: Spec.rjust 7 nG ++ 'D' :: Spec.rjust 7 nD ++
        'P' :: Spec.rjust 7 nP ++ List.replicate 40 ' ' ++ 'T' :: Spec.rjust 7 1 ∧
      readTS (some l) = some ((nS : Int), (nG : Int), (nD : Int), (nP : Int)) := by
  have rl : ∀ n : Nat, n ≤ 9999999 → (Spec.rjust 7 (n : Int)).length = 7 := fun n hn =>
    rjust_length 7 _ (intStr_length_le7 _ (by omega) (by omega))
  have fm : ∀ n : Nat, n ≤ 9999999 → ∀ c, ∃ s, FormatDEInt (n : Int) = some s ∧ s.set 0 c = c :: Spec.rjust 7 n ∧
      s = ' ' :: Spec.rjust 7 n := by
    intro n hn c
    have hf := FormatDEInt_some (n : Int) (by omega) (by omega)
    refine ⟨_, hf, FormatDEInt_set c hf (by omega) (by omega), ?_⟩
    have h0 := FormatDEInt_set ' ' hf (by omega) (by omega)
    have hh := rjust8_head (n : Int) (by omega) (by omega)
    rw [← FormatDEInt_rjust hf] at hh
    rw [← h0]
    revert hh
    generalize List.replicate (8 - (intStr (n : Int)).length) ' ' ++ intStr (n : Int) = z
    intro hh
    cases z with
    | nil => cases hh
    | cons a z => simp only [List.head?_cons, Option.some.injEq] at hh; subst hh; rfl
  obtain ⟨s1, f1, g1, k1⟩ := fm nS hS 'S'
  obtain ⟨s2, f2, g2, k2⟩ := fm nG hG 'G'
  obtain ⟨s3, f3, g3, k3⟩ := fm nD hD 'D'
  obtain ⟨s4, f4, g4, k4⟩ := fm nP hP 'P'
  obtain ⟨s5, f5, g5, k5⟩ := fm 1 (by omega) 'T'
  refine ⟨_, ?_, ?_, ?_, rfl, ?_⟩
  · unfold writeTerminate
    rw [f1, f2, f3, f4, show (1 : Int) = ((1 : Nat) : Int) from rfl, f5]
    simp only [Option.bind_eq_bind, Option.bind_some, g1, g2, g3, g4, g5]
  · have h1 : (Spec.rjust 7 1).length = 7 := by decide +kernel
    simp only [List.length_append, List.length_cons, List.length_replicate, rl nS hS, rl nG hG, rl nD hD,
      rl nP hP, h1]
  · have nr : ∀ n, '\n' ∉ Spec.rjust 7 n := rjust_no_nl 7
    simp only [List.mem_append, List.mem_cons, not_or, nr, not_false_eq_true, and_true]
    refine ⟨⟨⟨⟨⟨?_, ?_⟩, ?_⟩, ?_⟩, ?_⟩, ?_⟩ <;> decide
  · have b8 : List.replicate 40 ' ' = List.replicate 8 ' ' ++ (List.replicate 8 ' ' ++ (List.replicate 8 ' ' ++
        (List.replicate 8 ' ' ++ List.replicate 8 ' '))) := by decide
    have hrec := record_cols ['S' :: Spec.rjust 7 nS, 'G' :: Spec.rjust 7 nG, 'D' :: Spec.rjust 7 nD,
      'P' :: Spec.rjust 7 nP, List.replicate 8 ' ', List.replicate 8 ' ', List.replicate 8 ' ',
      List.replicate 8 ' ', List.replicate 8 ' '] 'T' 1 (by
        simp only [List.mem_cons, List.not_mem_nil, or_false]
        rintro c (rfl | rfl | rfl | rfl | rfl | rfl | rfl | rfl | rfl) <;>
          simp [rl nS hS, rl nG hG, rl nD hD, rl nP hP]) rfl (by decide) (by decide) (by decide)
    have hdata : ∀ a b c d r : Str, a.length = 7 → b.length = 7 → c.length = 7 → d.length = 7 →
        (((('S' :: a ++ ('G' :: b ++ ('D' :: c ++ ('P' :: d ++ r)))).set 0 ' ').set 8 ' ').set 16 ' ').set 24 ' ' =
          ' ' :: a ++ (' ' :: b ++ (' ' :: c ++ (' ' :: d ++ r))) ∧
        (('S' :: a ++ ('G' :: b ++ ('D' :: c ++ ('P' :: d ++ r)))).drop 8).head? = some 'G' ∧
        (('S' :: a ++ ('G' :: b ++ ('D' :: c ++ ('P' :: d ++ r)))).drop 16).head? = some 'D' ∧
        (('S' :: a ++ ('G' :: b ++ ('D' :: c ++ ('P' :: d ++ r)))).drop 24).head? = some 'P' := by
      intro a b c d r ha hb hc hd
      refine ⟨?_, ?_, ?_, ?_⟩
      · simp [List.set_append, ha, hb, hc, hd]
      · simp [List.drop_append, ha]
      · simp [List.drop_append, ha, hb]
      · simp [List.drop_append, ha, hb, hc]
    obtain ⟨e0, e1, e2, e3⟩ := hdata (Spec.rjust 7 nS) (Spec.rjust 7 nG) (Spec.rjust 7 nD) (Spec.rjust 7 nP)
      (List.replicate 40 ' ') (rl nS hS) (rl nG hG) (rl nD hD) (rl nP hP)
    have hflat : ['S' :: Spec.rjust 7 nS, 'G' :: Spec.rjust 7 nG, 'D' :: Spec.rjust 7 nD,
        'P' :: Spec.rjust 7 nP, List.replicate 8 ' ', List.replicate 8 ' ', List.replicate 8 ' ',
        List.replicate 8 ' ', List.replicate 8 ' '].flatten =
        'S' :: Spec.rjust 7 nS ++ ('G' :: Spec.rjust 7 nG ++ ('D' :: Spec.rjust 7 nD ++
          ('P' :: Spec.rjust 7 nP ++ List.replicate 40 ' '))) := by
      rw [b8]; simp [-List.replicate_append_replicate]
    rw [hflat] at hrec
    have hl : ∀ s t : Str, ('S' :: Spec.rjust 7 nS ++ 'G' :: Spec.rjust 7 nG ++ 'D' :: Spec.rjust 7 nD ++
        'P' :: Spec.rjust 7 nP ++ s ++ t) = ('S' :: Spec.rjust 7 nS ++ ('G' :: Spec.rjust 7 nG ++
        ('D' :: Spec.rjust 7 nD ++ ('P' :: Spec.rjust 7 nP ++ s)))) ++ t := by
      intro s t; simp only [List.append_assoc]
    rw [hl]
    have hcols : ' ' :: Spec.rjust 7 nS ++ (' ' :: Spec.rjust 7 nG ++ (' ' :: Spec.rjust 7 nD ++
        (' ' :: Spec.rjust 7 nP ++ List.replicate 40 ' '))) = [s1, s2, s3, s4].flatten ++ List.replicate 40 ' ' := by
      rw [k1, k2, k3, k4]; simp
    have len8 : ∀ c ∈ [s1, s2, s3, s4], c.length = 8 := by
      simp only [List.mem_cons, List.not_mem_nil, or_false]
      rintro c (rfl | rfl | rfl | rfl)
      · exact FormatDEInt_length f1
      · exact FormatDEInt_length f2
      · exact FormatDEInt_length f3
      · exact FormatDEInt_length f4
    have q0 := deInt_cols [s1, s2, s3, s4] 0 (List.replicate 40 ' ') nS none len8 (by simp) (by omega) f1
    have q1 := deInt_cols [s1, s2, s3, s4] 1 (List.replicate 40 ' ') nG none len8 (by simp) (by omega) f2
    have q2 := deInt_cols [s1, s2, s3, s4] 2 (List.replicate 40 ' ') nD none len8 (by simp) (by omega) f3
    have q3 := deInt_cols [s1, s2, s3, s4] 3 (List.replicate 40 ' ') nP none len8 (by simp) (by omega) f4
    have e00 : (('S' :: Spec.rjust 7 nS ++ ('G' :: Spec.rjust 7 nG ++ ('D' :: Spec.rjust 7 nD ++
          ('P' :: Spec.rjust 7 nP ++ List.replicate 40 ' ')))).drop 0).head? = some 'S' := rfl
    unfold readTS
    simp only [Option.bind_eq_bind, Option.bind_some]
    rw [hrec]
    simp only [Option.bind_some, e00, e1, e2, e3, ne_eq, not_true_eq_false, if_false, e0, hcols, q0, q1, q2, q3]

/-- A count of eight digits loses its first digit, which the section letter overwrites; the writer
does not notice. -/
theorem C14_large_count_lost :
    ∃ l, writeTerminate 3 4 10000004 7 = some (l ++ ['\n']) ∧ readTS (some l) = some (3, 4, 4, 7) :=
  ⟨"S      3G      4D0000004P      7                                        T      1".toList, by decide +kernel, by decide +kernel⟩

example : readTS (some "S      3G      4D      8P     12                                        T      1".toList)
    = some (3, 4, 8, 12) := by decide +kernel

end Iges.Props
