import Verif.Lemmas.Parse
import Verif.Model.Params
namespace Iges

/-- `S` is the text of the delimited parameters, with blanks allowed in front of a non-empty
parameter (line ends put them there), followed by the text `T`. -/
inductive Enc (T : Str) : List (Param × Char) → Str → Prop where
  | nil : Enc T [] T
  | cons {p : Param} {d : Char} {ps S} (k : Nat) (hk : p.body = [] → k = 0) (h : Enc T ps S) :
      Enc T ((p, d) :: ps) (List.replicate k ' ' ++ p.body ++ d :: S)

/-- The cursor `i` into `data` stands in front of the given parameters, which `T` follows. -/
def At (T data : Str) (i : Nat) (ps : List (Param × Char)) : Prop :=
  ∃ pre S, data = pre ++ S ∧ i = pre.length ∧ Enc T ps S

/-- Parameters that can be written: integers fit an `int`, real texts fit a line and are free of
delimiters. -/
def Param.Ok (pd rd : Char) : Param → Prop
  | .int n => -2147483648 ≤ n ∧ n ≤ 2147483647
  | .str _ => True
  | .real t => t ≠ [] ∧ t.length ≤ 63 ∧ pd ∉ t ∧ rd ∉ t
  | .dflt => True

def Param.cost : Param → Nat
  | .str s => hCost s
  | _ => 2

theorem intStr_length_le32 (n : Int) (h : -2147483648 ≤ n ∧ n ≤ 2147483647) : (intStr n).length ≤ 11 := by
  cases n with
  | ofNat m =>
    have : m < 10 ^ 10 := by
      have : (Int.ofNat m) = (m : Int) := rfl
      omega
    have := natStr_length_le (by decide) this
    simp only [intStr]; omega
  | negSucc m =>
    have : m + 1 < 10 ^ 10 := by
      have : Int.negSucc m = -((m : Int) + 1) := by omega
      omega
    have := natStr_length_le (n := m + 1) (k := 10) (by decide) this
    simp only [intStr, List.length_cons]
    omega

/-- One parameter: what its emitter call does. -/
theorem param_run {de : Int} {pd rd : Char} (hde : -9999999 ≤ de ∧ de ≤ 99999999) (p : Param) (d : Char)
    (hd : d = pd ∨ d = rd) (hp : p.Ok pd rd) (e : Emit) (hl : e.fStr.length ≤ 64)
    (hi : 1 ≤ e.index ∧ e.index + p.cost ≤ 9999999) :
    ∃ e' k j, (p.op d).run de pd rd e = .ok (e', true) ∧
      Adv 64 (Spec.pdTail de) e e' (List.replicate k ' ' ++ p.body ++ d :: List.replicate j ' ') ∧
      (p.body = [] → k = 0) ∧ (d = rd → e'.fStr = []) ∧ (d ≠ rd → j = 0) ∧ j < 64 ∧
      e.index ≤ e'.index ∧ e'.index ≤ e.index + p.cost := by
  have item : ∀ t : Str, t.length ≤ 63 → e.index + 2 ≤ 9999999 →
      ∃ e' k j, AddPDItem (t ++ [d]) e de rd = .ok (e', true) ∧
      Adv 64 (Spec.pdTail de) e e' (List.replicate k ' ' ++ t ++ d :: List.replicate j ' ') ∧
      (t = [] → k = 0) ∧ (d = rd → e'.fStr = []) ∧ (d ≠ rd → j = 0) ∧ j < 64 ∧
      e.index ≤ e'.index ∧ e'.index ≤ e.index + 2 := by
    intro t ht hc
    obtain ⟨e', h⟩ := AddPDItem_succeeds (t := t ++ [d]) (e := e) (de := de) (rd := rd) (by simp)
      (by simp; omega) hl hde ⟨hi.1, by omega⟩
    obtain ⟨e'', b, h', h1, h2, _⟩ := AddPDItem_total (t := t ++ [d]) (e := e) (de := de) (rd := rd)
      (by simp) hde ⟨hi.1, by omega⟩
    rw [h] at h'
    simp only [Res.ok.injEq, Prod.mk.injEq] at h'
    obtain ⟨rfl, _⟩ := h'
    obtain ⟨k, j, a, b, c, f, _, hj⟩ := AddPDItem_adv h hl hi.1 (by omega)
    refine ⟨e', k, j, h, by simpa using a, ?_, ?_, ?_, hj, h1, h2⟩
    · rintro rfl; exact b (by simp)
    · intro hd; exact c (by simp [hd])
    · intro hd; exact f (by simp [hd])
  cases p with
  | int n =>
    simp only [Param.op, Param.body, PdOp.run, Param.cost] at hi ⊢
    exact item _ (by have := intStr_length_le32 n hp; omega) (by omega)
  | real t =>
    simp only [Param.op, Param.body, PdOp.run, Param.cost] at hi ⊢
    exact item t hp.2.1 (by omega)
  | dflt =>
    simp only [Param.op, Param.body, PdOp.run, Param.cost] at hi ⊢
    have := item [] (by simp) (by omega)
    simpa using this
  | str s =>
    simp only [Param.op, Param.body, PdOp.run, Param.cost] at hi ⊢
    obtain ⟨e', h, h1, h2⟩ := AddPDHStr_total (s := s) (e := e) hl hde hi hd
    obtain ⟨k, j, a, b, c, f, hj⟩ := AddPDHStr_adv h hl hi.1 (by omega)
    refine ⟨e', k, j, h, ?_, ?_, c, f, hj, h1, h2⟩
    · simpa using a
    · intro hb
      apply b
      split at hb
      · assumption
      · simp at hb

/-- The middle parameters are closed by the parameter delimiter, so no blanks follow them. -/
def NoEarlyEnd (rd : Char) : List (Param × Char) → Prop
  | [] => True
  | [_] => True
  | (_, d) :: q :: ps => d ≠ rd ∧ NoEarlyEnd rd (q :: ps)

theorem delimit_noEarly {pd rd : Char} (h : pd ≠ rd) (ps : List Param) : NoEarlyEnd rd (delimit pd rd ps) := by
  induction ps with
  | nil => trivial
  | cons p ps ih =>
    cases ps with
    | nil => trivial
    | cons q ps =>
      simp only [delimit]
      cases hq : delimit pd rd (q :: ps) with
      | nil => trivial
      | cons x xs => rw [hq] at ih; exact ⟨h, ih⟩

theorem delimit_delims {pd rd : Char} (ps : List Param) : ∀ x ∈ delimit pd rd ps, x.2 = pd ∨ x.2 = rd := by
  induction ps with
  | nil => simp [delimit]
  | cons p ps ih =>
    cases ps with
    | nil => simp [delimit]
    | cons q ps =>
      simp only [delimit, List.mem_cons]
      rintro x (rfl | h)
      · simp
      · exact ih x h

theorem delimit_params {pd rd : Char} (ps : List Param) : (delimit pd rd ps).map Prod.fst = ps := by
  induction ps with
  | nil => simp [delimit]
  | cons p ps ih =>
    cases ps with
    | nil => simp [delimit]
    | cons q ps => simp only [delimit, List.map_cons, ih]

theorem delimit_length {pd rd : Char} (ps : List Param) : (delimit pd rd ps).length = ps.length := by
  rw [← List.length_map (f := Prod.fst), delimit_params]

theorem delimit_last {pd rd : Char} (ps : List Param) (h : ps ≠ []) :
    ∃ x, (delimit pd rd ps).getLast? = some x ∧ x.2 = rd := by
  induction ps with
  | nil => exact absurd rfl h
  | cons p ps ih =>
    cases ps with
    | nil => exact ⟨(p, rd), rfl, rfl⟩
    | cons q ps =>
      obtain ⟨x, h1, h2⟩ := ih (by simp)
      refine ⟨x, ?_, h2⟩
      simp only [delimit]
      cases hq : delimit pd rd (q :: ps) with
      | nil => rw [hq] at h1; simp at h1
      | cons y ys => rw [List.getLast?_cons_cons, ← hq]; exact h1

/-- A delimited parameter list is written as an encoding of it. -/
theorem params_run {de : Int} {pd rd : Char} (hde : -9999999 ≤ de ∧ de ≤ 99999999)
    (ps : List (Param × Char)) (hp : ∀ x ∈ ps, x.1.Ok pd rd) (hd : ∀ x ∈ ps, x.2 = pd ∨ x.2 = rd)
    (hne : NoEarlyEnd rd ps) (e : Emit) (hl : e.fStr.length ≤ 64)
    (hi : 1 ≤ e.index ∧ e.index + ((ps.map fun x => x.1.cost).sum : Nat) ≤ 9999999) :
    ∃ e' S j, runOps de pd rd (paramOps ps) e = .ok e' ∧ Adv 64 (Spec.pdTail de) e e' S ∧
      Enc (List.replicate j ' ') ps S ∧ j < 64 ∧
      (∀ x, ps.getLast? = some x → x.2 = rd → e'.fStr = []) ∧
      e'.index ≤ e.index + ((ps.map fun x => x.1.cost).sum : Nat) := by
  induction ps generalizing e with
  | nil => exact ⟨e, [], 0, rfl, Adv.refl hl, .nil, by omega, by simp, by simp⟩
  | cons x ps ih =>
    obtain ⟨p, d⟩ := x
    simp only [List.map_cons, List.sum_cons] at hi ⊢
    obtain ⟨e1, k, j, h1, h2, h3, h4, h5, hj64, h6, h7⟩ := param_run hde p d (hd (p, d) (by simp))
      (hp (p, d) (by simp)) e hl ⟨hi.1, by omega⟩
    cases ps with
    | nil =>
      refine ⟨e1, _, j, by simp [paramOps, runOps, h1, Res.bind], h2, .cons k h3 .nil, hj64, ?_, by simp; omega⟩
      intro x hx hr
      simp at hx; subst hx; exact h4 hr
    | cons q qs =>
      have hjd : d ≠ rd ∧ NoEarlyEnd rd (q :: qs) := hne
      have hj := h5 hjd.1
      subst hj
      obtain ⟨e2, S, j2, g1, g2, g3, gj, g4, g5⟩ := ih (fun x hx => hp x (List.mem_cons_of_mem _ hx)) (fun x hx => hd x (List.mem_cons_of_mem _ hx))
        hjd.2 e1 h2.le ⟨by omega, by omega⟩
      refine ⟨e2, _, j2, by simp only [paramOps, List.map_cons, runOps, h1, Res.bind]; exact g1,
        h2.trans g2, ?_, gj, ?_, by omega⟩
      · have := Enc.cons (p := p) (d := d) k h3 g3
        simpa using this
      · intro x hx hr
        rw [List.getLast?_cons_cons] at hx
        exact g4 x hx hr

theorem At.start {T ps S} (h : Enc T ps S) : At T S 0 ps := ⟨[], S, by simp, rfl, h⟩

theorem At.cons_split {T data i p d ps} (h : At T data i ((p, d) :: ps)) :
    ∃ pre k S, data = pre ++ (List.replicate k ' ' ++ p.body ++ d :: S) ∧ i = pre.length ∧
      (p.body = [] → k = 0) ∧ At T data (pre.length + (k + p.body.length) + 1) ps := by
  obtain ⟨pre, S, hd, hi, he⟩ := h
  cases he with
  | @cons _ _ _ S' k hk he =>
    refine ⟨pre, k, S', hd, hi, hk, pre ++ (List.replicate k ' ' ++ p.body ++ [d]), S', ?_, ?_, he⟩
    · rw [hd]; simp
    · simp; omega

theorem At.int {T data i n d ps pd rd eor dflt} (h : At T data i ((.int n, d) :: ps))
    (hd : d = pd ∨ d = rd) (hp : Spec.LegalDelim pd) (hr : Spec.LegalDelim rd)
    (hn : -2147483648 ≤ n ∧ n ≤ 2147483647) :
    ∃ i', ParseInt data i eor pd rd dflt = .ok ⟨true, some n, i', if d = rd then true else eor⟩ ∧
      At T data i' ps ∧ i < i' := by
  obtain ⟨pre, k, S, h1, h2, _, h4⟩ := h.cons_split
  refine ⟨_, ?_, h4, by omega⟩
  subst h2
  have := ParseInt_intStr (pre := pre) (post := S) (k := k) (n := n) (eor := eor) (dflt := dflt) hd hp hr hn
  rw [h1]
  exact this

theorem At.real {T data i t d ps pd rd eor dflt} (h : At T data i ((.real t, d) :: ps))
    (hd : d = pd ∨ d = rd) (hp : Spec.LegalDelim pd) (hr : Spec.LegalDelim rd)
    (ht : (Param.real t).Ok pd rd)
    (hu : (strtod (dToE t)).used ≠ 0) (he : (strtod (dToE t)).err = false) :
    ∃ i', ParseReal data i eor pd rd dflt =
        .ok ⟨true, some (strtod (dToE t)).val, i', if d = rd then true else eor⟩ ∧
      At T data i' ps ∧ i < i' := by
  obtain ⟨pre, k, S, h1, h2, _, h4⟩ := h.cons_split
  refine ⟨_, ?_, h4, by omega⟩
  subst h2
  have := ParseReal_text (pre := pre) (post := S) (k := k) (t := t) (eor := eor) (dflt := dflt) hd hp hr
    ht.2.2.1 ht.2.2.2 ht.1 hu he
  rw [h1]
  exact this

theorem At.str {T data i s d ps pd rd eor} (h : At T data i ((.str s, d) :: ps))
    (hd : d = pd ∨ d = rd) (hp : Spec.LegalDelim pd) (hr : Spec.LegalDelim rd)
    (hsz : data.length ≤ intMax) :
    ∃ i', ParseHString data i eor pd rd = .ok ⟨true, s, i', if d = rd then true else eor⟩ ∧
      At T data i' ps ∧ i < i' := by
  obtain ⟨pre, k, S, h1, h2, h3, h4⟩ := h.cons_split
  refine ⟨_, ?_, h4, by omega⟩
  subst h2
  by_cases hs : s = []
  · subst hs
    have : k = 0 := h3 rfl
    subst this
    rw [h1]
    simp only [List.replicate_zero, Param.body, if_true, List.nil_append, List.length_nil]
    exact ParseHString_empty hd
  · simp only [Param.body, if_neg hs] at h1 ⊢
    rw [h1] at hsz ⊢
    have := ParseHString_holl (pre := pre) (post := S) (k := k) (s := s) (eor := eor) hs hd hp hr (by simpa using hsz)
    simp only [List.append_assoc, List.cons_append, List.length_append, List.length_cons] at this ⊢
    rw [this]
    congr 2
    omega

/-- A defaulted parameter is an empty token. -/
theorem At.dflt {T data i d ps pd rd eor} (h : At T data i ((.dflt, d) :: ps)) (hd : d = pd ∨ d = rd) :
    ∃ i', ParseLString data i eor pd rd = .ok ⟨true, [], i', if d = rd then true else eor⟩ ∧
      At T data i' ps ∧ i < i' := by
  obtain ⟨pre, k, S, h1, h2, h3, h4⟩ := h.cons_split
  refine ⟨_, ?_, h4, by omega⟩
  have : k = 0 := h3 rfl
  subst this
  have ht : Spec.TokenAt data i pd rd [] d := by
    refine ⟨S, ?_, hd, by simp, by simp⟩
    rw [h1, h2, List.drop_left]; simp [Param.body]
  rw [ParseLString_token ht]
  simp [Param.body, h2]

theorem At.dfltInt {T data i d ps pd rd eor v} (h : At T data i ((.dflt, d) :: ps)) (hd : d = pd ∨ d = rd) :
    ∃ i', ParseInt data i eor pd rd (some v) = .ok ⟨true, some v, i', if d = rd then true else eor⟩ ∧
      At T data i' ps ∧ i < i' := by
  obtain ⟨i', h1, h2, h3⟩ := h.dflt (eor := eor) hd
  refine ⟨i', ?_, h2, h3⟩
  unfold ParseInt
  rw [h1]
  simp [Res.bind]

end Iges
