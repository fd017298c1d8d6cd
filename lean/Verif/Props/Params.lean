import Verif.Lemmas.Gather
/-
C05, C06, C07: free-format parameters.
-/
namespace Iges.Props
open Iges

/-- C06: a non-empty string written as a Hollerith parameter is read back unchanged, whatever it
contains (delimiters, blanks, digits, the letter H), wherever it stands in the data and whatever
follows; the cursor stops just behind the delimiter and the end of record is reported exactly when
the record delimiter closed the parameter. -/
theorem C06_hollerith_roundtrip (before s after : Str) (d pd rd : Char) (eor : Bool)
    (hs : s ≠ []) (hd : d = pd ∨ d = rd) (hp : Spec.LegalDelim pd) (hr : Spec.LegalDelim rd)
    (hc : Str) (hhc : GetHConst s = some hc)
    (hsz : (before ++ hc ++ s ++ d :: after).length ≤ intMax) :
    ParseHString (before ++ hc ++ s ++ d :: after) before.length eor pd rd =
      .ok ⟨true, s, (before ++ hc ++ s).length + 1, if d = rd then true else eor⟩ := by
  obtain ⟨_, rfl⟩ := GetHConst_some hhc
  have e : before ++ (natStr s.length ++ ['H']) ++ s ++ d :: after =
      before ++ (List.replicate 0 ' ' ++ natStr s.length ++ 'H' :: s ++ d :: after) := by simp
  rw [e] at hsz ⊢
  rw [ParseHString_holl hs hd hp hr hsz]
  simp; omega

example : GetHConst "a,b;3H".toList = some "6H".toList ∧
    ParseHString "6Ha,b;3H,1;".toList 0 false ',' ';' = .ok ⟨true, "a,b;3H".toList, 9, false⟩ := by decide

/-- A parameter value as it was before writing. -/
def valueOf : Param → PValue
  | .int n => .int n
  | .str s => .str s
  | .real t => .real (strtod (dToE t)).val
  | .dflt => .dflt

/-- Parameters the library can write: integers of C++ `int` type, any string, real texts that are
numbers fitting a line. -/
def Writable (pd rd : Char) : Param → Prop
  | .int n => -2147483648 ≤ n ∧ n ≤ 2147483647
  | .str s => '\n' ∉ s
  | .real t => t ≠ [] ∧ t.length ≤ 63 ∧ pd ∉ t ∧ rd ∉ t ∧ '\n' ∉ t ∧
      (strtod (dToE t)).used ≠ 0 ∧ (strtod (dToE t)).err = false
  | .dflt => True

theorem Writable.ok {pd rd : Char} {p : Param} (h : Writable pd rd p) : p.Ok pd rd := by
  cases p with
  | int n => exact h
  | str s => trivial
  | real t => exact ⟨h.1, h.2.1, h.2.2.1, h.2.2.2.1⟩
  | dflt => trivial

theorem readParams_at {T data i ps pd rd eor} (h : At T data i ps)
    (hd : ∀ x ∈ ps, x.2 = pd ∨ x.2 = rd) (hp : Spec.LegalDelim pd) (hr : Spec.LegalDelim rd)
    (hw : ∀ x ∈ ps, Writable pd rd x.1) (hsz : data.length ≤ intMax) :
    ∃ i' eor', readParams pd rd (ps.map Prod.fst) data i eor =
        .ok (some (ps.map fun x => valueOf x.1, i', eor')) ∧
      ((∃ x ∈ ps, x.2 = rd) → eor' = true) ∧ (eor = true → eor' = true) := by
  induction ps generalizing i eor with
  | nil => exact ⟨i, eor, rfl, by simp, fun h => h⟩
  | cons x ps ih =>
    obtain ⟨p, d⟩ := x
    have hd0 := hd (p, d) (by simp)
    have hw0 := hw (p, d) (by simp)
    have one : ∃ i', readParam pd rd p data i eor = .ok (some (valueOf p, i', if d = rd then true else eor)) ∧
        At T data i' ps := by
      cases p with
      | int n =>
        obtain ⟨i', h1, h2, _⟩ := h.int (eor := eor) (dflt := none) hd0 hp hr hw0
        exact ⟨i', by simp only [readParam, h1, Res.bind, valueOf], h2⟩
      | str s =>
        obtain ⟨i', h1, h2, _⟩ := h.str (eor := eor) hd0 hp hr hsz
        exact ⟨i', by simp only [readParam, h1, Res.bind, valueOf]; simp, h2⟩
      | real t =>
        obtain ⟨i', h1, h2, _⟩ := h.real (eor := eor) (dflt := none) hd0 hp hr (Writable.ok hw0)
          hw0.2.2.2.2.2.1 hw0.2.2.2.2.2.2
        exact ⟨i', by simp only [readParam, h1, Res.bind, valueOf], h2⟩
      | dflt =>
        obtain ⟨i', h1, h2, _⟩ := h.dflt (eor := eor) hd0
        exact ⟨i', by simp only [readParam, h1, Res.bind, valueOf]; simp, h2⟩
    obtain ⟨i1, h1, h2⟩ := one
    obtain ⟨i2, eor2, h3, h4, h5⟩ := ih (eor := if d = rd then true else eor) h2
      (fun x hx => hd x (List.mem_cons_of_mem _ hx)) (fun x hx => hw x (List.mem_cons_of_mem _ hx))
    refine ⟨i2, eor2, ?_, ?_, ?_⟩
    · simp only [List.map_cons, readParams, h1, Res.bind, h3]
    · rintro ⟨y, hy, hyr⟩
      rcases List.mem_cons.mp hy with rfl | hy
      · apply h5; simp only at hyr; simp [hyr]
      · exact h4 ⟨y, hy, hyr⟩
    · intro he; apply h5; simp [he]

theorem flatten_no_nl {datas : List Str} {s : Str} (h : datas.flatten = s) (hs : '\n' ∉ s) :
    ∀ d ∈ datas, '\n' ∉ d := by
  intro d hd hc
  apply hs
  rw [← h, List.mem_flatten]
  exact ⟨d, hd, hc⟩

theorem Enc.no_nl_body {ps : List Param} {pd rd : Char} (hw : ∀ p ∈ ps, Writable pd rd p) :
    ∀ p ∈ ps, '\n' ∉ p.body := by
  intro p hp
  have := hw p hp
  cases p with
  | int n => exact intStr_no_nl n
  | str s =>
    simp only [Param.body]
    split
    · simp
    · simp only [List.mem_append, List.mem_cons, not_or]
      exact ⟨intStr_no_nl (Int.ofNat _), by decide, this⟩
  | real t => exact this.2.2.2.2.1
  | dflt => simp [Param.body]

/-- No line end enters the data columns. -/
theorem run_no_nl {de : Int} {pd rd : Char} (hde : -9999999 ≤ de ∧ de ≤ 99999999)
    (hp0 : Spec.LegalDelim pd) (hr0 : Spec.LegalDelim rd)
    (ps : List (Param × Char)) (hp : ∀ x ∈ ps, Writable pd rd x.1) (hd : ∀ x ∈ ps, x.2 = pd ∨ x.2 = rd)
    (e : Emit) (hl : e.fStr.length ≤ 64)
    (hi : 1 ≤ e.index ∧ e.index + ((ps.map fun x => x.1.cost).sum : Nat) ≤ 9999999) :
    ∃ e' S, runOps de pd rd (paramOps ps) e = .ok e' ∧ Adv 64 (Spec.pdTail de) e e' S ∧ '\n' ∉ S := by
  have hnl : ∀ d, d = pd ∨ d = rd → d ≠ '\n' := by
    rintro d (rfl | rfl) rfl
    · have := hp0.1; revert this; decide
    · have := hr0.1; revert this; decide
  induction ps generalizing e with
  | nil => exact ⟨e, [], rfl, Adv.refl hl, by simp⟩
  | cons x ps ih =>
    obtain ⟨p, d⟩ := x
    simp only [List.map_cons, List.sum_cons] at hi
    obtain ⟨e1, k, j, h1, h2, h3, h4, h5, _, h6, h7⟩ := param_run hde p d (hd (p, d) (by simp))
      (Writable.ok (hp (p, d) (by simp))) e hl ⟨hi.1, by omega⟩
    obtain ⟨e2, S, g1, g2, g3⟩ := ih (fun x hx => hp x (List.mem_cons_of_mem _ hx))
      (fun x hx => hd x (List.mem_cons_of_mem _ hx)) e1 h2.le ⟨by omega, by omega⟩
    refine ⟨e2, _, by simp only [paramOps, List.map_cons, runOps, h1, Res.bind]; exact g1, h2.trans g2, ?_⟩
    have hb : '\n' ∉ p.body := Enc.no_nl_body (pd := pd) (rd := rd) (ps := [p])
      (by simpa using hp (p, d) (by simp)) p (by simp)
    simp only [List.mem_append, List.mem_cons, not_or]
    refine ⟨⟨⟨?_, hb⟩, (hnl d (hd (p, d) (by simp))).symm, ?_⟩, g3⟩
    · intro h; have := List.eq_of_mem_replicate h; revert this; decide
    · intro h; have := List.eq_of_mem_replicate h; revert this; decide

/-- Number of sequence numbers that is certainly enough for the parameters (used to state that the
seven-digit limit is not exceeded). -/
def roomFor (ps : List Param) : Nat := (ps.map Param.cost).sum

/-- C05 (with C03, C04): the parameters of an entity, written by the emitter functions in order and
closed by the record delimiter, give complete parameter-data lines; reading these lines back (as
text cut at newlines, through the record reader and the checks of `readPD`) and parsing gives
exactly the values written, in order, ending with the end-of-record mark.  This holds for every
list of integers, strings and real texts, wherever the line breaks fall. -/
theorem C05_params_roundtrip (etype de i0 : Int) (ps : List Param) (pd rd : Char) (more : Str)
    (hp : Spec.LegalDelim pd) (hr : Spec.LegalDelim rd) (hne : pd ≠ rd)
    (hps : ps ≠ []) (hw : ∀ p ∈ ps, Writable pd rd p)
    (het : -2147483648 ≤ etype ∧ etype ≤ 2147483647)
    (hde : 1 ≤ de ∧ de ≤ 9999999) (hi : 1 ≤ i0)
    (hroom : i0 + (roomFor (.int etype :: ps) : Nat) ≤ 9999999) :
    ∃ e', runOps de pd rd (paramOps (delimit pd rd (.int etype :: ps))) ⟨[], [], i0⟩ = .ok e' ∧
      e'.fStr = [] ∧
      ∃ pdout i', readPDText etype de i0 (e'.index - i0) pd rd (getlines [] (e'.fOut ++ more)) =
          .ok (some pdout) ∧
        readParams pd rd (.int etype :: ps) pdout 0 false =
          .ok (some ((.int etype :: ps).map valueOf, i', true)) := by
  have hde' : -9999999 ≤ de ∧ de ≤ 99999999 := by omega
  have hwall : ∀ p ∈ (Param.int etype :: ps), Writable pd rd p := by
    intro p h
    rcases List.mem_cons.mp h with rfl | h
    · exact het
    · exact hw p h
  have hfst := delimit_params (pd := pd) (rd := rd) (.int etype :: ps)
  have hwd : ∀ x ∈ delimit pd rd (.int etype :: ps), Writable pd rd x.1 := by
    intro x hx
    apply hwall
    rw [← hfst]
    exact List.mem_map_of_mem hx
  have hcost : ((delimit pd rd (.int etype :: ps)).map fun x => x.1.cost).sum = roomFor (.int etype :: ps) := by
    unfold roomFor
    rw [← hfst, List.map_map]
    congr 1
    rw [hfst]
    rfl
  obtain ⟨e', S, jT, h1, h2, h3, hjT, h4, h5⟩ := params_run (pd := pd) (rd := rd) hde'
    (delimit pd rd (.int etype :: ps))
    (fun x hx => Writable.ok (hwd x hx)) (delimit_delims _) (delimit_noEarly hne _)
    ⟨[], [], i0⟩ (by simp) ⟨hi, by simp only; rw [hcost]; exact hroom⟩
  obtain ⟨e'', S', g1, g2, g3⟩ := run_no_nl (pd := pd) (rd := rd) hde' hp hr
    (delimit pd rd (.int etype :: ps)) hwd (delimit_delims _)
    ⟨[], [], i0⟩ (by simp) ⟨hi, by simp only; rw [hcost]; exact hroom⟩
  rw [h1] at g1
  simp only [Res.ok.injEq] at g1
  subst g1
  obtain ⟨x, hx1, hx2⟩ := delimit_last (pd := pd) (rd := rd) (.int etype :: ps) (by simp)
  have hfs := h4 x hx1 hx2
  obtain ⟨datas, a, b, c, d⟩ := h2.ex
  obtain ⟨datas', a', b', c', d'⟩ := g2.ex
  simp only [List.nil_append] at a d a' d'
  rw [hfs, List.append_nil] at d d'
  have hdn : datas.length = datas'.length := by simp only at b b'; omega
  -- the data columns are determined by the output
  have hcols : ∀ (i : Int) (u v : List Str), u.length = v.length → (∀ d ∈ u, d.length = 64) →
      (∀ d ∈ v, d.length = 64) →
      Spec.lines (Spec.pdTail de) i u = Spec.lines (Spec.pdTail de) i v → u = v := by
    intro i u
    induction u generalizing i with
    | nil => intro v h; simp at h; simp [List.length_eq_zero_iff.mp h.symm]
    | cons p u ih =>
      intro v h hu hv he
      cases v with
      | nil => simp at h
      | cons q v =>
        simp only [Spec.lines, List.append_assoc] at he
        have hpq := List.append_inj he (by rw [hu p (by simp), hv q (by simp)])
        have := List.append_cancel_left hpq.2
        simp only [List.cons.injEq, true_and] at this
        rw [hpq.1, ih (i + 1) v (by simpa using h) (fun d hd => hu d (by simp [hd]))
          (fun d hd => hv d (by simp [hd])) this]
  have hdd : datas = datas' := by
    apply hcols i0 datas datas' hdn c c'
    rw [← a, ← a']
  subst hdd
  have hno := flatten_no_nl d' g3
  have hSS : S = S' := by rw [← d, ← d']
  refine ⟨e', h1, hfs, S, ?_⟩
  have hA := At.start h3
  have hlenS : S.length = 64 * datas.length := by
    rw [← d]
    clear a b d a' b' d' hdn hno
    induction datas with
    | nil => simp
    | cons p u ih =>
      rw [List.flatten_cons, List.length_append, c p (by simp), ih (fun d h => c d (by simp [h])) (fun d h => c' d (by simp [h]))]
      simp; omega
  have hcnt : (datas.length : Int) ≤ 9999999 := by
    rw [hcost] at h5; simp only at b h5; omega
  have hsz : S.length ≤ intMax := by
    have : intMax = 2147483647 := rfl
    omega
  obtain ⟨i', eor', r1, r2, _⟩ := readParams_at (eor := false) hA (delimit_delims _) hp hr hwd hsz
  rw [hfst] at r1
  have hval : (delimit pd rd (.int etype :: ps)).map (fun x => valueOf x.1) =
      (.int etype :: ps).map valueOf := by
    rw [← hfst, List.map_map]
    rw [hfst]; rfl
  rw [hval, r2 ⟨x, List.mem_of_getLast? hx1, hx2⟩] at r1
  refine ⟨i', ?_, r1⟩
  -- the reader
  have hpos : 0 < datas.length := by
    cases datas with
    | nil =>
      simp only [List.flatten_nil] at d
      rw [← d] at h3
      cases ps with
      | nil => exact absurd rfl hps
      | cons q qs =>
        simp only [delimit] at h3
        generalize hY : ([] : Str) = Y at h3
        cases h3 with
        | cons k hk he =>
          have := congrArg List.length hY
          simp at this
    | cons _ _ => simp
  unfold readPDText
  have hidx : e'.index - i0 = (datas.length : Int) := by simp only at b; omega
  have hend : i0 + (datas.length : Int) ≤ 10000000 := by
    rw [hcost] at h5; simp only at b h5; omega
  rw [if_neg (by omega), if_neg (by omega), if_neg (by omega), hidx, Int.toNat_natCast, a,
    getlines_lines _ _ _ _ (pdTail_no_nl de) hno]
  have := gather_lines (etype := etype) (de := de) (pdata := i0) (pd := pd) (rd := rd) hde datas c 0 []
    (getlines [] more) hi (by simpa using hend) ?_
  · simpa [d] using this
  · rintro - d0 ds rfl
    -- the first parameter lies within the first line
    have hi0 : -2147483648 ≤ etype ∧ etype ≤ 2147483647 := het
    have hlen := intStr_length_le32 etype hi0
    have hstep : ∃ S1, S = intStr etype ++ pd :: S1 := by
      cases ps with
      | nil => exact absurd rfl hps
      | cons q qs =>
        have hrun : runOps de pd rd (paramOps (delimit pd rd (.int etype :: q :: qs))) ⟨[], [], i0⟩ =
            runOps de pd rd (paramOps (delimit pd rd (q :: qs))) ⟨intStr etype ++ [pd], [], i0⟩ := by
          simp only [delimit, paramOps, List.map_cons, runOps, Param.op, PdOp.run]
          have : AddPDItem (intStr etype ++ [pd]) ⟨[], [], i0⟩ de rd =
              .ok (⟨intStr etype ++ [pd], [], i0⟩, true) := by
            unfold AddPDItem
            have h64 : ¬ (intStr etype ++ [pd]).length > 64 := by simp; omega
            have h64' : ¬ (([] : Str).length + (intStr etype ++ [pd]).length > 64) := by simp; omega
            have hix : ¬ (i0 > 9999999) := by omega
            have h0 : ¬ (([] : Str).length > 64) := by simp
            simp only [h64, h0, h64', hix, if_false, not_true_eq_false]
            simp [hne]
          rw [this]; rfl
        have hw2 : ∀ x ∈ delimit pd rd (q :: qs), Writable pd rd x.1 := by
          intro x hx; apply hwd; simp only [delimit, List.mem_cons]; exact Or.inr hx
        have hc2 : ((delimit pd rd (q :: qs)).map fun x => x.1.cost).sum ≤ roomFor (.int etype :: q :: qs) := by
          rw [← hcost]; simp only [delimit, List.map_cons, List.sum_cons]; omega
        obtain ⟨f, T, jU, k1, k2, _⟩ := params_run (pd := pd) (rd := rd) hde' (delimit pd rd (q :: qs))
          (fun x hx => Writable.ok (hw2 x hx)) (delimit_delims _) (delimit_noEarly hne _)
          ⟨intStr etype ++ [pd], [], i0⟩ (by simp; omega) ⟨hi, by simp only; omega⟩
        rw [hrun, k1] at h1
        simp only [Res.ok.injEq] at h1
        subst h1
        obtain ⟨w, m1, m2, m3, m4⟩ := k2.ex
        rw [hfs, List.append_nil] at m4
        simp only [List.nil_append] at m1
        have : (d0 :: ds) = w := by
          apply hcols i0 _ _ _ c m3
          · rw [← a, ← m1]
          · simp only at b m2 ⊢; omega
        exact ⟨T, by rw [← d, this, m4]; simp⟩
    obtain ⟨S1, hS1⟩ := hstep
    rw [← d, List.flatten_cons] at hS1
    have hd0 : d0.length = 64 := c d0 (by simp)
    have htk : ∃ R, d0 = intStr etype ++ pd :: R := by
      refine ⟨d0.drop ((intStr etype).length + 1), ?_⟩
      have h1 := congrArg (List.take ((intStr etype).length + 1)) hS1
      rw [List.take_append_of_le_length (by omega)] at h1
      have h2 : (intStr etype ++ pd :: S1).take ((intStr etype).length + 1) = intStr etype ++ [pd] := by
        rw [List.take_append]; simp [List.take_of_length_le]
      rw [h2] at h1
      have h3 := (List.take_append_drop ((intStr etype).length + 1) d0).symm
      rw [h1] at h3
      simpa using h3
    obtain ⟨R, hR⟩ := htk
    have := ParseInt_intStr (pre := []) (post := R ++ Spec.rjust 8 de) (k := 0) (n := etype) (d := pd)
      (pd := pd) (rd := rd) (eor := false) (dflt := none) (Or.inl rfl) hp hr hi0
    refine ⟨(intStr etype).length + 1, ?_⟩
    rw [hR]
    simpa [hne] using this

/-- A concrete instance of the hypotheses of C05. -/
example : ∀ p ∈ [Param.int (-12), .str "a,b;".toList, .real "1.5E+3".toList, .str []],
    Writable ',' ';' p := by
  simp only [List.mem_cons, List.not_mem_nil, or_false, forall_eq_or_imp, forall_eq, Writable]
  refine ⟨by decide, by decide, ?_, by decide⟩
  decide +kernel

/-- C07: `ParseLString`, on any data, any cursor and any delimiters, has no undefined behaviour; it
succeeds exactly when a delimiter follows, and then returns the text up to the first delimiter and
moves the cursor just behind it, inside the data. -/
theorem C07_token (data : Str) (i : Nat) (eor : Bool) (pd rd : Char) :
    ∃ r, ParseLString data i eor pd rd = .ok r ∧
      (r.ok = true ↔ ∃ tok d, Spec.TokenAt data i pd rd tok d) ∧
      (∀ tok d, Spec.TokenAt data i pd rd tok d →
        r.param = tok ∧ r.idx = i + tok.length + 1 ∧ r.eor = (d == rd || eor)) ∧
      (r.ok = true → i < r.idx ∧ r.idx ≤ data.length) := by
  obtain ⟨r, hr⟩ := ParseLString_not_ub (data := data) (i := i) (eor := eor) (pd := pd) (rd := rd)
  refine ⟨r, hr, ⟨?_, ?_⟩, ?_, ?_⟩
  · intro h
    obtain ⟨tok, d, ht, _⟩ := (ParseLString_iff r).mp ⟨hr, h⟩
    exact ⟨tok, d, ht⟩
  · rintro ⟨tok, d, ht⟩
    rw [ParseLString_token ht] at hr
    simp only [Res.ok.injEq] at hr
    subst hr; rfl
  · intro tok d ht
    rw [ParseLString_token ht] at hr
    simp only [Res.ok.injEq] at hr
    subst hr
    refine ⟨rfl, rfl, ?_⟩
    by_cases h : d = rd
    · simp [h]
    · simp [h]
  · intro h
    obtain ⟨tok, d, ht, rfl⟩ := (ParseLString_iff r).mp ⟨hr, h⟩
    have := TokenAt.lt ht
    exact ⟨by simp only; omega, this⟩

/-- C07 for integers: no undefined behaviour; success advances the cursor within the data. -/
theorem C07_int (data : Str) (i : Nat) (eor : Bool) (pd rd : Char) (dflt : Option Int) :
    ∃ r, ParseInt data i eor pd rd dflt = .ok r ∧
      (r.ok = true → i < r.idx ∧ r.idx ≤ data.length ∧ ∃ v, r.param = some v) ∧
      (data.length ≤ i → r.ok = false) := by
  obtain ⟨p, hp, h1, h2, h3⟩ := C07_token data i eor pd rd
  unfold ParseInt
  rw [hp]
  simp only [Res.bind]
  by_cases hok : p.ok = true
  · have hb := h3 hok
    simp only [hok, not_true_eq_false, if_false]
    split
    · cases dflt with
      | none => exact ⟨_, rfl, by simp, by simp⟩
      | some d => exact ⟨_, rfl, fun _ => ⟨hb.1, hb.2, d, rfl⟩, fun h => by omega⟩
    · split
      · exact ⟨_, rfl, by simp, by simp⟩
      · exact ⟨_, rfl, fun _ => ⟨hb.1, hb.2, _, rfl⟩, fun h => by omega⟩
  · simp only [hok]
    exact ⟨_, rfl, by simp, by simp⟩

/-- C07 for reals: no undefined behaviour; success advances the cursor within the data. -/
theorem C07_real (data : Str) (i : Nat) (eor : Bool) (pd rd : Char) (dflt : Option RealTok) :
    ∃ r, ParseReal data i eor pd rd dflt = .ok r ∧
      (r.ok = true → i < r.idx ∧ r.idx ≤ data.length ∧ ∃ v, r.param = some v) ∧
      (data.length ≤ i → r.ok = false) := by
  obtain ⟨p, hp, h1, h2, h3⟩ := C07_token data i eor pd rd
  unfold ParseReal
  rw [hp]
  simp only [Res.bind]
  by_cases hok : p.ok = true
  · have hb := h3 hok
    simp only [hok, not_true_eq_false, if_false]
    split
    · cases dflt with
      | none => exact ⟨_, rfl, by simp, by simp⟩
      | some d => exact ⟨_, rfl, fun _ => ⟨hb.1, hb.2, d, rfl⟩, fun h => by omega⟩
    · split
      · exact ⟨_, rfl, by simp, by simp⟩
      · exact ⟨_, rfl, fun _ => ⟨hb.1, hb.2, _, rfl⟩, fun h => by omega⟩
  · simp only [hok]
    exact ⟨_, rfl, by simp, by simp⟩

/-- C07 for strings, the part that holds: whenever the declared length does not overflow the C++
`int` sum of cursor and length, there is no undefined behaviour and success advances the cursor
within the data.  What is missing: see `C07_hstring_overflow`. -/
theorem C07_hstring_partial (data : Str) (i : Nat) (eor : Bool) (pd rd : Char)
    (hlen : (toI32 (strtol (data.drop i)).val).toNat + data.length + 1 ≤ intMax) :
    ∃ r, ParseHString data i eor pd rd = .ok r ∧
      (r.ok = true → i < r.idx ∧ r.idx ≤ data.length) ∧
      (data.length ≤ i → r.ok = false) := by
  unfold ParseHString
  split
  · exact ⟨_, rfl, by simp, by simp⟩
  · rename_i c t hc
    have hilt : i < data.length := by
      have := congrArg List.length hc
      simp at this; omega
    split
    · exact ⟨_, rfl, fun _ => ⟨by simp only; omega, by simp only; omega⟩, fun h => by omega⟩
    · simp only []
      split
      · exact ⟨_, rfl, by simp, by simp⟩
      · split
        · exact ⟨_, rfl, by simp, by simp⟩
        · rename_i h t' hh
          have hu : i + (strtol (data.drop i)).used < data.length := by
            have := congrArg List.length hh
            simp at this; omega
          split
          · exact ⟨_, rfl, by simp, by simp⟩
          · split
            · exact ⟨_, rfl, by simp, by simp⟩
            · split
              · omega
              · split
                · exact ⟨_, rfl, by simp, by simp⟩
                · rename_i hlt
                  split
                  · rename_i hnil
                    have := congrArg List.length hnil
                    simp at this; omega
                  · split
                    · exact ⟨_, rfl, fun _ => ⟨by simp only; omega, by simp only; omega⟩, fun h => by omega⟩
                    · split
                      · exact ⟨_, rfl, fun _ => ⟨by simp only; omega, by simp only; omega⟩, fun h => by omega⟩
                      · exact ⟨_, rfl, by simp, by simp⟩

/-- C07 fails for strings in full generality: a declared length close to `INT_MAX` makes the
length check itself overflow (iges_io.cpp:281), which is undefined behaviour. -/
theorem C07_hstring_overflow :
    ParseHString "2147483647HA,".toList 0 false ',' ';' = .ub := by decide +kernel

/-- C07: a declared length of more than 32 bits is silently reduced modulo 2^32, so a length that
is not the length of the string is accepted. -/
theorem C07_hstring_wraps :
    ParseHString "4294967297HA,".toList 0 false ',' ';' = .ok ⟨true, "A".toList, 13, false⟩ ∧
    ParseInt "4294967297,".toList 0 false ',' ';' none = .ok ⟨true, some 1, 11, false⟩ := by decide +kernel

/-- C07: reading tokens one after the other stops: `n` consecutive successful reads, started
anywhere, need at least `n` characters of data. -/
theorem C07_chain_terminates (data : Str) (pd rd : Char) (cursor : Nat → Nat) (n : Nat)
    (hstep : ∀ k, k < n → ∃ eor r, ParseLString data (cursor k) eor pd rd = .ok r ∧ r.ok = true ∧
      cursor (k + 1) = r.idx) :
    n ≤ data.length := by
  have hlt : ∀ k, k < n → cursor k < cursor (k + 1) ∧ cursor (k + 1) ≤ data.length := by
    intro k hk
    obtain ⟨eor, r, h1, h2, h3⟩ := hstep k hk
    obtain ⟨r', g1, _, _, g4⟩ := C07_token data (cursor k) eor pd rd
    rw [h1] at g1
    simp only [Res.ok.injEq] at g1
    subst g1
    have := g4 h2
    omega
  have hge : ∀ k, k ≤ n → k ≤ cursor k := by
    intro k
    induction k with
    | zero => intro _; exact Nat.zero_le _
    | succ k ih =>
      intro hk
      have := ih (by omega)
      have := (hlt k (by omega)).1
      omega
  cases n with
  | zero => exact Nat.zero_le _
  | succ m =>
    have h1 := hge (m + 1) (by omega)
    have h2 := (hlt m (by omega)).2
    omega

example : ParseLString "12,ab;".toList 0 false ',' ';' = .ok ⟨true, "12".toList, 3, false⟩ ∧
    ParseLString "12,ab;".toList 3 false ',' ';' = .ok ⟨true, "ab".toList, 6, true⟩ := by decide

end Iges.Props
