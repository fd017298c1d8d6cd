import Verif.Props.EntityCases
import Verif.Spec.Plane
/-
C106: planes.
-/
namespace Iges.Props.Planes
open Iges Iges.Spec

/-! ### Counting delimiters -/

private def cnt (pd rd : Char) (s : Str) : Nat := s.countP fun c => decide (c = pd ∨ c = rd)

private theorem cnt_append (pd rd : Char) (a b : Str) : cnt pd rd (a ++ b) = cnt pd rd a + cnt pd rd b := List.countP_append

private theorem cnt_zero {pd rd : Char} {s : Str} (h1 : pd ∉ s) (h2 : rd ∉ s) : cnt pd rd s = 0 := by
  unfold cnt
  rw [List.countP_eq_zero]
  intro a ha
  simp only [decide_eq_true_eq]
  rintro (rfl | rfl)
  · exact h1 ha
  · exact h2 ha

private theorem cnt_blank {pd rd : Char} (hp : LegalDelim pd) (hr : LegalDelim rd) (k : Nat) : cnt pd rd (List.replicate k ' ') = 0 := by
  refine cnt_zero ?_ ?_
  · intro h
    have := List.eq_of_mem_replicate h
    subst this
    exact absurd hp (by decide)
  · intro h
    have := List.eq_of_mem_replicate h
    subst this
    exact absurd hr (by decide)

private theorem token_used {data : Str} {i : Nat} {pd rd : Char} {tok : Str} {d : Char} (h : TokenAt data i pd rd tok d) :
    cnt pd rd (data.drop (i + tok.length + 1)) + 1 ≤ cnt pd rd (data.drop i) := by
  obtain ⟨rest, h1, h2, h3, h4⟩ := h
  have e : data.drop (i + tok.length + 1) = rest := by
    rw [Nat.add_assoc, ← List.drop_drop, h1]
    simp
  rw [e, h1, cnt_append]
  have : cnt pd rd (d :: rest) = cnt pd rd rest + 1 := by
    unfold cnt
    rw [List.countP_cons_of_pos (by simpa using h2)]
  omega

private theorem find_used {c rd : Char} : ∀ {s : Str} {i : Nat}, findChar c s = some i →
    cnt c rd (s.drop (i + 1)) + 1 ≤ cnt c rd s
  | [], i, h => by simp [findChar] at h
  | a :: s, i, h => by
    unfold findChar at h
    by_cases ha : a = c
    · rw [if_pos ha] at h
      simp only [Option.some.injEq] at h
      subst h
      unfold cnt
      rw [List.countP_cons_of_pos (by simp [ha])]
      simp
    · rw [if_neg ha] at h
      cases hf : findChar c s with
      | none => simp [hf] at h
      | some j =>
        simp only [hf, Option.map_some, Option.some.injEq] at h
        subst h
        have := find_used (rd := rd) hf
        have h2 : cnt c rd s ≤ cnt c rd (a :: s) := by
          unfold cnt; rw [List.countP_cons]; omega
        simp only [List.drop_succ_cons]
        omega

private theorem bind_val {α β : Type} {x : Rd α} {f : α → Rd β} {r : β} (h : (x >>= f) = .val r) : ∃ a, x = .val a ∧ f a = .val r := by
  cases x with
  | val a => exact ⟨a, rfl, h⟩
  | fail => cases h
  | ub => cases h
  | exn => cases h

private theorem need_val {p : Prop} [Decidable p] {β : Type} {f : Unit → Rd β} {r : β} (h : (Rd.need p >>= f) = .val r) : p ∧ f () = .val r := by
  by_cases hp : p
  · rw [Rd.need_true hp] at h; exact ⟨hp, h⟩
  · rw [Rd.need_false hp] at h; cases h

private theorem parseReal_used {data : Str} {i : Nat} {eor : Bool} {pd rd : Char} {d : Option RealTok} {r : PVal RealTok}
    (h : ParseReal data i eor pd rd d = .ok r) (hok : r.ok = true) :
    cnt pd rd (data.drop r.idx) + 1 ≤ cnt pd rd (data.drop i) := by
  obtain ⟨p, hp, -⟩ := C07_token data i eor pd rd
  unfold ParseReal at h
  rw [hp] at h
  simp only [Res.bind] at h
  by_cases hpo : p.ok = true
  · obtain ⟨tok, dd, ht, rfl⟩ := (ParseLString_iff p).mp ⟨hp, hpo⟩
    have hu := token_used ht
    simp only [not_true_eq_false, if_false] at h
    have : r.idx = i + tok.length + 1 := by
      split at h
      · cases d <;> simp only [Res.ok.injEq] at h <;> subst h <;> rfl
      · split at h <;> simp only [Res.ok.injEq] at h <;> subst h <;> rfl
    rw [this]; exact hu
  · rw [if_pos hpo] at h
    simp only [Res.ok.injEq] at h
    subst h
    cases hok

private theorem parseInt_used {data : Str} {i : Nat} {eor : Bool} {pd rd : Char} {d : Option Int} {r : PVal Int}
    (h : ParseInt data i eor pd rd d = .ok r) (hok : r.ok = true) :
    cnt pd rd (data.drop r.idx) + 1 ≤ cnt pd rd (data.drop i) := by
  obtain ⟨p, hp, -⟩ := C07_token data i eor pd rd
  unfold ParseInt at h
  rw [hp] at h
  simp only [Res.bind] at h
  by_cases hpo : p.ok = true
  · obtain ⟨tok, dd, ht, rfl⟩ := (ParseLString_iff p).mp ⟨hp, hpo⟩
    have hu := token_used ht
    simp only [not_true_eq_false, if_false] at h
    have : r.idx = i + tok.length + 1 := by
      split at h
      · cases d <;> simp only [Res.ok.injEq] at h <;> subst h <;> rfl
      · split at h <;> simp only [Res.ok.injEq] at h <;> subst h <;> rfl
    rw [this]; exact hu
  · rw [if_pos hpo] at h
    simp only [Res.ok.injEq] at h
    subst h
    cases hok

private theorem real_used {s : Src} {c : Cur} {d : Option RealTok} {a : ℚ × Cur} (h : s.real c d = .val a) :
    cnt s.pd s.rd (s.data.drop a.2.idx) + 1 ≤ cnt s.pd s.rd (s.data.drop c.idx) := by
  obtain ⟨r, hr, -⟩ := C07_real s.data c.idx c.eor s.pd s.rd d
  unfold Src.real at h
  rw [hr, Rd.lift_ok] at h
  split at h
  · rename_i h1 h2
    simp only [Rd.val.injEq] at h
    subst h
    exact parseReal_used hr h1
  · cases h

private theorem int_used {s : Src} {c : Cur} {d : Option Int} {a : Int × Cur} (h : s.int c d = .val a) :
    cnt s.pd s.rd (s.data.drop a.2.idx) + 1 ≤ cnt s.pd s.rd (s.data.drop c.idx) := by
  obtain ⟨r, hr, -⟩ := C07_int s.data c.idx c.eor s.pd s.rd d
  unfold Src.int at h
  rw [hr, Rd.lift_ok] at h
  split at h
  · rename_i h1 h2
    simp only [Rd.val.injEq] at h
    subst h
    exact parseInt_used hr h1
  · cases h

private theorem body_used {form : Int} {s : Src} {c : Cur} {a : Plane × Cur} (h : Plane.readParams form s c = .val a) :
    9 ≤ cnt s.pd s.rd (s.data.drop c.idx) := by
  unfold Plane.readParams at h
  obtain ⟨a1, h1, h⟩ := bind_val h
  obtain ⟨a2, h2, h⟩ := bind_val h
  obtain ⟨a3, h3, h⟩ := bind_val h
  obtain ⟨a4, h4, h⟩ := bind_val h
  obtain ⟨-, h⟩ := need_val h
  obtain ⟨a5, h5, h⟩ := bind_val h
  obtain ⟨-, h⟩ := need_val h
  obtain ⟨-, h⟩ := need_val h
  obtain ⟨a6, h6, h⟩ := bind_val h
  obtain ⟨a7, h7, h⟩ := bind_val h
  obtain ⟨a8, h8, h⟩ := bind_val h
  obtain ⟨a9, h9, h⟩ := bind_val h
  have := real_used h1
  have := real_used h2
  have := real_used h3
  have := real_used h4
  have := int_used h5
  have := real_used h6
  have := real_used h7
  have := real_used h8
  have := real_used h9
  omega

/-! ### What is written -/

/-- the state of the writer: complete lines, and at most `n` delimiters in them and in the line begun -/
private structure Written (E : PdEnv) (de i0 : Int) (e : Emit) (n m : Nat) (datas : List Str) : Prop where
  out : e.fOut = lines (pdTail de) i0 datas
  idx : e.index = i0 + (datas.length : Nat)
  len : ∀ d ∈ datas, d.length = 64
  le : e.fStr.length ≤ 64
  nl : '\n' ∉ datas.flatten ++ e.fStr
  start : ∃ R, datas.flatten ++ e.fStr = intStr 108 ++ E.pd :: R
  count : cnt E.pd E.rd (datas.flatten ++ e.fStr) ≤ n
  few : datas.length ≤ m

private theorem addItem {E : PdEnv} (hE : E.Ok) {de i0 : Int} (hde : 1 ≤ de ∧ de ≤ 9999999) (h1 : 1 ≤ i0) {e : Emit} {n m : Nat} {ds : List Str}
    (h : Written E de i0 e n m ds) (hroom : i0 + (m + 2 : Nat) ≤ 9999999) {t : Str} (ht : t ≠ []) (hl : t.length ≤ 64) (hnl : '\n' ∉ t)
    (hlast : t.getLast? ≠ some E.rd) :
    ∃ e' ds', AddPDItem t e de E.rd = .ok (e', true) ∧ Written E de i0 e' (n + cnt E.pd E.rd t) (m + 2) ds' ∧ t <:+ e'.fStr := by
  have hi := h.idx
  have hf := h.few
  obtain ⟨e', he⟩ := AddPDItem_succeeds (rd := E.rd) ht hl h.le (de := de) ⟨by omega, by omega⟩ ⟨by omega, by omega⟩
  obtain ⟨e2, b, he2, hm1, hm2, -⟩ := AddPDItem_total (rd := E.rd) (e := e) (de := de) ht ⟨by omega, by omega⟩ ⟨by omega, by omega⟩
  rw [he] at he2
  simp only [Res.ok.injEq, Prod.mk.injEq] at he2
  obtain ⟨rfl, -⟩ := he2
  obtain ⟨k, j, ha, -, -, hj, -⟩ := AddPDItem_adv he h.le (by omega) (by omega)
  have hj := hj hlast
  subst hj
  obtain ⟨d2, a1, a2, a3, a4⟩ := ha.ex
  have hflat : (ds ++ d2).flatten ++ e'.fStr = (ds.flatten ++ e.fStr) ++ (List.replicate k ' ' ++ t) := by
    rw [List.flatten_append, List.append_assoc, a4]
    simp
  refine ⟨e', ds ++ d2, he, ⟨?_, ?_, ?_, ha.le, ?_, ?_, ?_, ?_⟩, ?_⟩
  · rw [a1, h.out, hi, ← lines_append]
  · rw [a2, hi]; simp; omega
  · intro d hd
    rcases List.mem_append.mp hd with hd | hd
    · exact h.len d hd
    · exact a3 d hd
  · rw [hflat]
    simp only [List.mem_append, not_or]
    refine ⟨by simpa using h.nl, ?_, hnl⟩
    intro hh
    have := List.eq_of_mem_replicate hh
    revert this; decide
  · obtain ⟨R, hR⟩ := h.start
    exact ⟨R ++ (List.replicate k ' ' ++ t), by rw [hflat, hR]; simp⟩
  · rw [hflat, cnt_append, cnt_append _ _ (List.replicate k ' '), cnt_blank hE.pd hE.rd]
    have := h.count
    omega
  · have : e'.index = i0 + ((ds ++ d2).length : Nat) := by rw [a2, hi]; simp; omega
    have h3 : (((ds ++ d2).length : Nat) : Int) ≤ (m : Nat) + 2 := by omega
    exact_mod_cast h3
  · unfold AddPDItem at he
    rw [if_neg (by omega), if_neg (by have := h.le; omega)] at he
    generalize (if e.fStr.length + t.length > 64 then pdFlush e de else (e, true)) = p at he
    obtain ⟨e1, ok⟩ := p
    simp only [] at he
    by_cases hok : ok = true
    · simp only [hok, not_true_eq_false, if_false] at he
      by_cases hx : e1.index > 9999999
      · simp [hx] at he
      · rw [if_neg hx] at he
        cases hg : t.getLast? with
        | none => simp [hg] at he
        | some c =>
          simp only [hg] at he
          rw [if_neg (by rintro rfl; exact hlast hg)] at he
          simp only [Res.ok.injEq, Prod.mk.injEq, and_true] at he
          subst he
          exact List.suffix_append _ _
    · simp [hok] at he

private theorem cnt_closed {pd rd : Char} {t : Str} (h1 : pd ∉ t) (h2 : rd ∉ t) : cnt pd rd (t ++ [pd]) = 1 := by
  rw [cnt_append, cnt_zero h1 h2]
  unfold cnt
  simp

private theorem cnt_suffix {pd rd : Char} {t s : Str} (h : t <:+ s) : cnt pd rd t ≤ cnt pd rd s := by
  obtain ⟨r, rfl⟩ := h
  rw [cnt_append]; omega

private theorem nl_ne {c : Char} (h : LegalDelim c) : '\n' ≠ c := by
  rintro rfl
  exact absurd h (by decide)

private theorem addReals {E : PdEnv} (hE : E.Ok) {de i0 : Int} (hde : 1 ≤ de ∧ de ≤ 9999999) (h1 : 1 ≤ i0) :
    ∀ (xs : List ℚ) {e : Emit} {n m : Nat} {ds : List Str}, Written E de i0 e n m ds → i0 + (m + 2 * xs.length : Nat) ≤ 9999999 →
    (∀ x ∈ xs, |x| ≤ 10 ^ (300 : ℤ)) →
    ∃ e' ds', emitGroups E de (realGroups E.pd E.pd E.res xs) e = .val e' ∧ Written E de i0 e' (n + xs.length) (m + 2 * xs.length) ds' ∧
      (xs ≠ [] → 1 ≤ cnt E.pd E.rd e'.fStr)
  | [], e, n, m, ds, h, _, _ => ⟨e, ds, rfl, by simpa using h, fun h => absurd rfl h⟩
  | x :: xs, e, n, m, ds, h, hroom, hb => by
    have hw := (realText_ok hE.est hE.num hE.res (hb x (by simp)) hE.pd hE.rd).1
    obtain ⟨w1, w2, w3, w4, w5, -, -⟩ := hw
    simp only [List.length_cons] at hroom
    obtain ⟨e1, ds1, g1, g2, g3⟩ := addItem hE hde h1 h (by omega) (t := realText E.est E.res x ++ [E.pd]) (by simp)
      (by simp; omega) (by simp only [List.mem_append, List.mem_singleton, not_or]; exact ⟨w5, nl_ne hE.pd⟩)
      (by simp [hE.ne])
    rw [cnt_closed w3 w4] at g2
    have hg : emitGroup E de [(.real x E.res, E.pd)] e = .val e1 := by
      have hf := FormatPDREal_eq (est := E.est) (minRes := E.res) (x := x) (d := E.pd) hE.res
      simp only [emitGroup, groupText, Item.text, hf, List.append_nil, g1, Rd.lift_ok]
    have hgs : realGroups E.pd E.pd E.res (x :: xs) = [(.real x E.res, E.pd)] :: realGroups E.pd E.pd E.res xs := by
      cases xs <;> rfl
    obtain ⟨e2, ds2, k1, k2, k3⟩ := addReals hE hde h1 xs g2 (by omega) (fun y hy => hb y (List.mem_cons_of_mem _ hy))
    refine ⟨e2, ds2, ?_, ?_, fun _ => ?_⟩
    · rw [hgs]
      simp only [emitGroups, hg, Rd.val_bind, k1]
    · have e3 : n + (x :: xs).length = n + 1 + xs.length := by simp only [List.length_cons]; omega
      have e4 : m + 2 * (x :: xs).length = m + 2 + 2 * xs.length := by simp only [List.length_cons]; omega
      rw [e3, e4]; exact k2
    · by_cases hx : xs = []
      · subst hx
        simp only [realGroups, emitGroups, Rd.val.injEq] at k1
        subst k1
        have := cnt_suffix (pd := E.pd) (rd := E.rd) g3
        rw [cnt_closed w3 w4] at this
        exact this
      · exact k3 hx

private theorem addPtr {E : PdEnv} (hE : E.Ok) {de i0 : Int} (hde : 1 ≤ de ∧ de ≤ 9999999) (h1 : 1 ≤ i0) {k : Plane}
    (hp : 0 ≤ k.PTR ∧ k.PTR ≤ 9999997) {e : Emit} {n m : Nat} {ds : List Str} (h : Written E de i0 e n m ds) (hroom : i0 + (m + 2 : Nat) ≤ 9999999) :
    ∃ e' ds', k.emitPtr E de e = .val e' ∧ Written E de i0 e' (n + 1) (m + 2) ds' := by
  have dig : ∀ c : Char, LegalDelim c → c ∉ intStr k.PTR := by
    intro c hc hmem
    rcases intStr_chars hmem with h | h
    · rw [isDigitC_eq, hc.2.2.1] at h; cases h
    · exact hc.2.2.2.2.1 h
  unfold Plane.emitPtr
  by_cases hz : k.PTR ≠ 0
  · rw [if_pos hz]
    have hlen := intStr_length_le k.PTR (by omega) (by omega)
    obtain ⟨e1, ds1, g1, g2, g3⟩ := addItem hE hde h1 h hroom (t := intStr k.PTR ++ [E.pd]) (by simp)
      (by simp; omega) (by simp only [List.mem_append, List.mem_singleton, not_or]; exact ⟨intStr_no_nl _, nl_ne hE.pd⟩)
      (by simp [hE.ne])
    rw [cnt_closed (dig _ hE.pd) (dig _ hE.rd)] at g2
    refine ⟨e1, ds1, ?_, g2⟩
    simp only [emitGroup, groupText, Item.text, List.append_nil, g1, Rd.lift_ok]
  · rw [if_neg hz]
    have hf : FormatDEInt 0 = some "       0".toList := by decide +kernel
    rw [hf]
    simp only
    obtain ⟨e1, ds1, g1, g2, g3⟩ := addItem hE hde h1 h hroom (t := "       0".toList) (by decide) (by decide) (by decide)
      (by
        intro hc
        have : E.rd = '0' := by
          have h2 : "       0".toList.getLast? = some '0' := by decide
          rw [h2] at hc
          simpa using hc.symm
        have h3 := hE.rd
        rw [this] at h3
        exact absurd h3 (by decide))
    refine ⟨e1, ds1, by rw [g1]; rfl, ?_⟩
    have hc : cnt E.pd E.rd "       0".toList ≤ 1 := by
      have : ∀ c : Char, LegalDelim c → c ∉ "       0".toList := by
        intro c hc hm
        have : c = ' ' ∨ c = '0' := by
          have hall : ∀ x ∈ "       0".toList, x = ' ' ∨ x = '0' := by decide
          exact hall c hm
        rcases this with rfl | rfl
        · exact absurd hc (by decide)
        · exact absurd hc (by decide)
      rw [cnt_zero (this _ hE.pd) (this _ hE.rd)]; omega
    exact ⟨g2.out, g2.idx, g2.len, g2.le, g2.nl, g2.start, by have := g2.count; omega, g2.few⟩

private theorem lines81 {de : Int} (hde : 1 ≤ de ∧ de ≤ 9999999) : ∀ (datas : List Str) (i : Int), 1 ≤ i → i + (datas.length : Nat) ≤ 10000000 →
    (∀ d ∈ datas, d.length = 64) → (lines (pdTail de) i datas).length % 81 = 0
  | [], _, _, _, _ => by simp [lines]
  | d :: ds, i, h1, h2, hd => by
    simp only [List.length_cons] at h2
    have ih := lines81 hde ds (i + 1) (by omega) (by omega) (fun x hx => hd x (List.mem_cons_of_mem _ hx))
    have h8 := rjust_length 8 de (intStr_length_le de (by omega) (by omega))
    have h7 := rjust_length 7 i (intStr_length_le7 i (by omega) (by omega))
    have h64 := hd d (by simp)
    simp only [lines, pdTail, List.length_append, List.length_cons, h8, h7, h64]
    omega

/-- C106 fails for every plane without optional pointers: it is written, and whatever follows in the file, what was written is
not read back.  The record is never closed, so its last line is lost. -/
theorem C106_lost (E : PdEnv) (de i0 : Int) (k : Plane) (hset : Setting E de i0 [] 18) (hk : PlaneOk k) :
    ∃ t n, k.format E de [] [] i0 = .val (t, n) ∧
      ∀ more r, Plane.readPD E k.form de i0 (n - i0) (getlines [] (t ++ more)) ≠ .val r := by
  have hE := hset.env
  have hde := hset.de
  have h1 := hset.first
  have hroom := hset.room
  simp only [List.length_nil] at hroom
  have hs := hk.size
  simp only [List.mem_cons, List.not_mem_nil, or_false, forall_eq_or_imp, forall_eq] at hs
  obtain ⟨sA, sB, sC, sD, sX, sY, sZ, sS⟩ := hs
  have hstart : Written E de i0 ⟨preText E.pd [108], [], i0⟩ 1 0 [] := by
    have dig : ∀ c : Char, LegalDelim c → c ∉ intStr 108 := by
      intro c hc hmem
      rcases intStr_chars hmem with h | h
      · rw [isDigitC_eq, hc.2.2.1] at h; cases h
      · exact hc.2.2.2.2.1 h
    refine ⟨rfl, by simp, by simp, ?_, ?_, ⟨[], by simp [preText]⟩, ?_, by simp⟩
    · have := intStr_length_le 108 (by omega) (by omega)
      simp only [preText, List.length_append, List.length_cons, List.length_nil]
      omega
    · simp only [preText, List.flatten_nil, List.nil_append, List.mem_append, List.mem_singleton, not_or]
      exact ⟨intStr_no_nl _, nl_ne hE.pd⟩
    · simp only [preText, List.flatten_nil, List.nil_append]
      rw [cnt_closed (dig _ hE.pd) (dig _ hE.rd)]
  obtain ⟨e1, d1, a1, b1, -⟩ := addReals hE hde h1 [k.A, k.B, k.C, k.D] hstart (by simp only [List.length_cons, List.length_nil]; omega)
    (by simp only [List.mem_cons, List.not_mem_nil, or_false, forall_eq_or_imp, forall_eq]; exact ⟨sA, sB, sC, sD⟩)
  obtain ⟨e2, d2, a2, b2⟩ := addPtr hE hde h1 hk.ptr b1 (by simp only [List.length_cons, List.length_nil]; omega)
  obtain ⟨e3, datas, a3, b3, c3⟩ := addReals hE hde h1 [k.X, k.Y, k.Z, k.Size] b2 (by simp only [List.length_cons, List.length_nil]; omega)
    (by simp only [List.mem_cons, List.not_mem_nil, or_false, forall_eq_or_imp, forall_eq]; exact ⟨sX, sY, sZ, sS⟩)
  have hcnt := b3.count
  have hlast := c3 (by simp)
  rw [cnt_append] at hcnt
  simp only [List.length_cons, List.length_nil] at hcnt
  have hnine : cnt E.pd E.rd datas.flatten ≤ 9 := by omega
  have hnl : ∀ d ∈ datas, '\n' ∉ d := by
    intro d hd hc
    exact b3.nl (List.mem_append_left _ (List.mem_flatten.mpr ⟨d, hd, hc⟩))
  have hlen81 : (lines (pdTail de) i0 datas).length % 81 = 0 := by
    have hfew := b3.few
    simp only [List.length_cons, List.length_nil] at hfew
    exact lines81 hde datas i0 h1 (by omega) b3.len
  refine ⟨lines (pdTail de) i0 datas, e3.index, ?_, ?_⟩
  · unfold Plane.format
    have hb := hk.bounded
    rw [if_neg (by tauto), if_neg (by tauto), if_neg, if_neg (by omega), a1]
    · simp only [Rd.val_bind, a2, a3, if_true]
      rw [b3.out, formatComments, if_neg (by omega)]
      rfl
    · rintro ⟨x, y, z⟩
      have := hk.dir
      rw [x, y, z] at this
      norm_num at this
  · intro more r hr
    have hidx : e3.index - i0 = (datas.length : Int) := by have := b3.idx; omega
    unfold Plane.readPD readPDWith at hr
    rw [hidx] at hr
    unfold readPDText at hr
    rw [if_neg (by omega), if_neg (by omega)] at hr
    by_cases hds : datas = []
    · subst hds
      simp at hr
    have hpos : 0 < datas.length := List.length_pos_iff.mpr hds
    have hfew := b3.few
    simp only [List.length_cons, List.length_nil] at hfew
    rw [if_neg (by omega), Int.toNat_natCast, getlines_lines _ _ _ _ (pdTail_no_nl de) hnl] at hr
    have hg := gather_lines (etype := 108) (de := de) (pdata := i0) (pd := E.pd) (rd := E.rd) hde datas b3.len 0 []
      (getlines [] more) h1 (by simp; omega) (by
        rintro - d0 ds rfl
        have hd0 : d0.length = 64 := b3.len d0 (by simp)
        obtain ⟨R0, hR0⟩ := b3.start
        have h3 : (intStr 108).length = 3 := by decide +kernel
        have hR : ∃ R, d0 = intStr 108 ++ E.pd :: R := by
          refine ⟨d0.drop 4, ?_⟩
          have h4 := congrArg (List.take 4) hR0
          rw [List.flatten_cons, List.append_assoc, List.take_append_of_le_length (by omega)] at h4
          have h5 : (intStr 108 ++ E.pd :: R0).take 4 = intStr 108 ++ [E.pd] := by
            rw [List.take_append]; simp [h3, List.take_of_length_le]
          rw [h5] at h4
          have h6 := (List.take_append_drop 4 d0).symm
          rw [h4] at h6
          simpa using h6
        obtain ⟨R, hR⟩ := hR
        have := ParseInt_intStr (pre := []) (post := R ++ Spec.rjust 8 de) (k := 0) (n := 108) (d := E.pd)
          (pd := E.pd) (rd := E.rd) (eor := false) (dflt := none) (Or.inl rfl) hE.pd hE.rd (by omega)
        refine ⟨(intStr 108).length + 1, ?_⟩
        rw [hR]
        simpa [hE.ne] using this)
    simp only [Nat.cast_zero, add_zero, List.nil_append] at hg
    rw [hg, Rd.lift_ok] at hr
    simp only at hr
    split at hr
    · cases hr
    · rename_i i hfi
      split at hr
      · cases hr
      · obtain ⟨a, ha, -⟩ := bind_val hr
        have h9 := body_used ha
        simp only at h9
        have := find_used (rd := E.rd) hfi
        omega

/-- a plane without a curve -/
example := C106_lost (exEnv id (1 / 1000)) 7 3 ⟨0, 0, 0, 1, 5, 0, 1, 2, 3, 4⟩
  ⟨exEnv_ok _ (by norm_num), by decide, ⟨by decide, by decide⟩, by decide, by decide⟩
  ⟨Or.inr (Or.inr (by norm_num)), fun x hx => small_ok (by revert x; decide +kernel), by decide, by decide⟩

/-! ### Bounded planes with optional pointers -/

private theorem emit_append (E : PdEnv) (de : Int) : ∀ (a b : List (List (Item × Char))) (e : Emit),
    emitGroups E de (a ++ b) e = (emitGroups E de a e >>= emitGroups E de b)
  | [], _, _ => rfl
  | g :: a, b, e => by
    simp only [List.cons_append, emitGroups]
    cases emitGroup E de g e with
    | val e' => exact emit_append E de a b e'
    | fail => rfl
    | ub => rfl
    | exn => rfl

private theorem bind_assoc' {α β γ : Type} (x : Rd α) (f : α → Rd β) (g : β → Rd γ) : ((x >>= f) >>= g) = (x >>= fun a => f a >>= g) := by
  cases x <;> rfl

private theorem near_ne {res x y : ℚ} (h : Near res x y) (hx : 1 / 10 ^ 8 ≤ |x|) : y ≠ 0 := by
  rintro rfl
  have := h.2.2 hx
  rw [zero_sub, abs_neg] at this
  have h0 : (0 : ℚ) < 1 / 10 ^ 8 := by norm_num
  linarith

/-- C106, planes with a bounding curve and at least one optional pointer: they are written, and what was written is read back with
the same values in the same roles.  Missing: planes without optional pointers (`C106_lost`), planes without a curve
(`C106_unbounded_misread`). -/
theorem C106_bounded_partial (E : PdEnv) (de i0 : Int) (k : Plane) (xs : List ExtraRef) (hset : Setting E de i0 xs 18)
    (hx : xs ≠ []) (hk : PlaneOk k) (hb : k.form ≠ 0) :
    PdCycle (18 + 2 * xs.length + 4) de i0 (k.format E de xs [] i0) (Plane.readPD E k.form de)
      (fun r => PlaneNear E.res k r.1 ∧ r.2.1 = secA xs ++ secB xs ∧ r.2.2 = []) := by
  have hr := hset.env.res
  have hp : k.PTR ≠ 0 := hk.bounded.mp hb
  have hp32 : -2147483648 ≤ k.PTR ∧ k.PTR ≤ 2147483647 := by have := hk.ptr; omega
  have hs := hk.size
  simp only [List.mem_cons, List.not_mem_nil, or_false, forall_eq_or_imp, forall_eq] at hs
  obtain ⟨sA, sB, sC, sD, sX, sY, sZ, sS⟩ := hs
  have s1 : ∀ x ∈ [k.A, k.B, k.C, k.D], |x| ≤ 10 ^ (300 : ℤ) := by
    simp only [List.mem_cons, List.not_mem_nil, or_false, forall_eq_or_imp, forall_eq]
    exact ⟨sA, sB, sC, sD⟩
  have s2 : ∀ x ∈ [k.X, k.Y, k.Z, k.Size], |x| ≤ 10 ^ (300 : ℤ) := by
    simp only [List.mem_cons, List.not_mem_nil, or_false, forall_eq_or_imp, forall_eq]
    exact ⟨sX, sY, sZ, sS⟩
  have hroom := hset.room
  have hfirst := hset.first
  have heq : k.format E de xs [] i0 = formatPD E de [108] (realGroups E.pd E.pd E.res [k.A, k.B, k.C, k.D] ++
      ([[(.int k.PTR, E.pd)]] ++ realGroups E.pd (E.last xs) E.res [k.X, k.Y, k.Z, k.Size])) xs [] 9999999 i0 := by
    have hl : E.last xs = E.pd := by simp [PdEnv.last, hx]
    unfold Plane.format formatPD
    rw [if_neg (by tauto), if_neg (by tauto), if_neg, hl]
    · simp only [emit_append, bind_assoc', Plane.emitPtr, if_pos hp, emitGroups]
      split
      · rfl
      · cases emitGroups E de (realGroups E.pd E.pd E.res [k.A, k.B, k.C, k.D]) ⟨preText E.pd [108], [], i0⟩ with
        | val e =>
          simp only [Rd.val_bind]
        | fail => rfl
        | ub => rfl
        | exn => rfl
    · rintro ⟨x, y, z⟩
      have := hk.dir
      rw [x, y, z] at this
      norm_num at this
  rw [heq]
  refine pdCycle (pre := []) hset.env (R := PlaneNear E.res k) (body := Plane.readParams k.form)
    (items := [k.A, k.B, k.C, k.D].map (Item.real · E.res) ++ (.int k.PTR :: [k.X, k.Y, k.Z, k.Size].map (Item.real · E.res)))
    hset.de (by decide) ?_ (by simp) ?_ ?_ ?_ hset.extras ⟨hset.first, ?_⟩ hset.room ?_ ?_
  · have := preText_length E.pd [108] 10 (by norm_num) (by simp)
    simp only [List.length_cons, List.length_nil] at this
    omega
  · intro it hit
    rcases List.mem_append.mp hit with hit | hit
    · exact realItems_ok hr s1 it hit
    · rcases List.mem_cons.mp hit with rfl | hit
      · exact hp32
      · exact realItems_ok hr s2 it hit
  · intro g hg
    rcases List.mem_append.mp hg with hg | hg
    · exact realGroups_ok _ _ hr _ s1 g hg
    · rcases List.mem_append.mp hg with hg | hg
      · rw [List.mem_singleton] at hg
        subst hg
        exact Or.inl ⟨_, _, rfl, hp32⟩
      · exact realGroups_ok _ _ hr _ s2 g hg
  · rfl
  · omega
  · simp [Item.cost]
  · intro T s c rest hs h
    refine Reads.real hset.env hs h hr sA fun yA c nA h => ?_
    refine Reads.real hset.env hs h hr sB fun yB c nB h => ?_
    refine Reads.real hset.env hs h hr sC fun yC c nC h => ?_
    refine Reads.real hset.env hs h hr sD fun yD c nD h => ?_
    refine Reads.need ?_ ?_
    · rintro ⟨x, y, z⟩
      rcases hk.dir with hd | hd | hd
      · exact near_ne nA hd x
      · exact near_ne nB hd y
      · exact near_ne nC hd z
    refine Reads.int hset.env hs h hp32 fun c h => ?_
    refine Reads.need (by tauto) ?_
    refine Reads.need (by tauto) ?_
    refine Reads.real hset.env hs h hr sX fun yX c nX h => ?_
    refine Reads.real hset.env hs h hr sY fun yY c nY h => ?_
    refine Reads.real hset.env hs h hr sZ fun yZ c nZ h => ?_
    refine Reads.real hset.env hs h hr sS fun yS c nS h => ?_
    exact Reads.ret h ⟨rfl, nA, nB, nC, nD, rfl, nX, nY, nZ, nS⟩

/-- a bounded plane with two optional pointers -/
example := C106_bounded_partial _ _ _ ⟨1, 0, 0, 1, 5, 3, 1, 2, 3, 4⟩ _ ((exSetting id).mono (by decide)) (by decide)
  ⟨Or.inr (Or.inr (by norm_num)), fun x hx => small_ok (by revert x; decide +kernel), by decide, by decide⟩ (by decide)

private def misread (k : Plane) (E : PdEnv) (xs : List ExtraRef) : Bool :=
  match k.format E 7 xs [] 1 with
  | .val (t, n) =>
    match Plane.readPD E k.form 7 1 (n - 1) (getlines [] t) with
    | .val r => decide (r.1.X = k.Y ∧ r.1.Y = k.Z ∧ r.1.Z = k.Size ∧ r.1.X ≠ k.X)
    | _ => false
  | _ => false

/-- C106 fails for planes without a curve even with optional pointers: the place of the curve is written without its delimiter and
runs into the next number, so this plane is read back with its `X` lost and the other numbers moved by one place. -/
theorem C106_unbounded_misread : ∃ (E : PdEnv) (k : Plane) (xs : List ExtraRef), E.Ok ∧ ExtrasOk xs ∧ PlaneOk k ∧
    ∃ t n r, k.format E 7 xs [] 1 = .val (t, n) ∧ Plane.readPD E k.form 7 1 (n - 1) (getlines [] t) = .val r ∧
      r.1.X = k.Y ∧ r.1.Y = k.Z ∧ r.1.Z = k.Size ∧ r.1.X ≠ k.X := by
  refine ⟨exEnv id (1 / 1000), ⟨0, 0, 0, 1, 5, 0, 0, 2, 3, 4⟩, [⟨402, 1⟩, ⟨402, 5⟩], exEnv_ok _ (by norm_num), ⟨by decide, by decide⟩,
    ⟨Or.inr (Or.inr (by norm_num)), fun x hx => small_ok (by revert x; decide +kernel), by decide, by decide⟩, ?_⟩
  have h : misread ⟨0, 0, 0, 1, 5, 0, 0, 2, 3, 4⟩ (exEnv id (1 / 1000)) [⟨402, 1⟩, ⟨402, 5⟩] = true := by decide +kernel
  unfold misread at h
  split at h
  · rename_i t n ht
    split at h
    · rename_i r hr
      exact ⟨t, n, r, ht, hr, by simpa using h⟩
    · cases h
  · cases h

/-! ### Scaling, curves and life of planes -/

/-- C106 fails for changes of the unit or scale: a plane that does not go through the origin stays where it is while the points on it are
moved, so that no point of the plane is on the plane afterwards. -/
theorem C106_rescale_lost (k : Plane) (sf x y z : ℚ) (hD : k.D ≠ 0) (hs : sf ≠ 1) (h : OnPlane k x y z) :
    ¬ OnPlane (k.rescale sf) (x * sf) (y * sf) (z * sf) := by
  unfold OnPlane Plane.rescale at *
  intro h2
  have : k.D * (sf - 1) = 0 := by linear_combination h2 - sf * h
  rcases mul_eq_zero.mp this with h3 | h3
  · exact hD h3
  · exact hs (by linarith)

/-- C106, scaling of planes through the origin. -/
theorem C106_rescale_partial (k : Plane) (sf x y z : ℚ) (hD : k.D = 0) (h : OnPlane k x y z) :
    OnPlane (k.rescale sf) (x * sf) (y * sf) (z * sf) := by
  unfold OnPlane Plane.rescale at *
  linear_combination sf * h + (sf - 1) * hD

/-- the plane `z = 5`, from inches to millimetres -/
example : ¬ OnPlane (Plane.rescale (127 / 5) ⟨0, 0, 0, 1, 5, 0, 1, 2, 3, 4⟩) (1 * (127 / 5)) (2 * (127 / 5)) (5 * (127 / 5)) :=
  C106_rescale_lost _ _ _ _ _ (by norm_num) (by norm_num) (by simp [OnPlane])

/-- C106, the curve of a plane that was read: reading fails unless the pointer leads to a closed curve; the pointer 1 (the first entity
of the file), which the form of a bounded plane allows, is passed over. -/
theorem C106_curve_partial (es : List Plane.Shape) (iPtr : Int) (p : Plane.Held) :
    Plane.associate es iPtr .unset = some p ↔
      (1 < iPtr ∧ ∃ i : Nat, iPtr / 2 = i ∧ es[i]? = some .closedCurve ∧ p = .curve i) ∨ (iPtr ≤ 1 ∧ p = .unset) := by
  unfold Plane.associate
  by_cases h : 1 < iPtr
  · rw [if_pos h]
    have hn : iPtr / 2 = ((iPtr / 2).toNat : Int) := by omega
    constructor
    · intro hh
      split at hh
      · rename_i he
        simp only [Option.some.injEq] at hh
        exact Or.inl ⟨h, _, hn, he, hh.symm⟩
      · cases hh
    · rintro (⟨-, i, h1, h2, rfl⟩ | ⟨h1, -⟩)
      · have : (iPtr / 2).toNat = i := by omega
        rw [this, h2]
      · omega
  · rw [if_neg h]
    constructor
    · intro hh
      simp only [Option.some.injEq] at hh
      exact Or.inr ⟨by omega, hh.symm⟩
    · rintro (⟨h1, -⟩ | ⟨-, rfl⟩)
      · exact absurd h1 h
      · rfl

/-- C106 fails for the life of planes: of the planes that were made and read, exactly those with a pointer other than the first entity can
be written or deleted; for the others an indeterminate pointer is used. -/
theorem C106_indeterminate (es : List Plane.Shape) (iPtr : Int) (p : Plane.Held) (h : Plane.associate es iPtr .unset = some p) :
    Plane.usable p = true ↔ 1 < iPtr := by
  rcases (C106_curve_partial es iPtr p).mp h with ⟨h1, i, -, -, rfl⟩ | ⟨h1, rfl⟩
  · exact ⟨fun _ => h1, fun _ => rfl⟩
  · constructor
    · intro h2; cases h2
    · intro h2; omega

/-- C106 fails for keeping planes: every bounded plane that was read with its curve counts as an orphan, which `Cull` deletes, even when it is
used and independent. -/
theorem C106_culled (es : List Plane.Shape) (iPtr form : Int) (p : Plane.Held) (used independent : Bool) (hp : 1 < iPtr)
    (hf : form ≠ 0) (h : Plane.associate es iPtr .unset = some p) : Plane.isOrphaned used independent form p = true := by
  rcases (C106_curve_partial es iPtr p).mp h with ⟨-, i, -, -, rfl⟩ | ⟨h1, -⟩
  · simp [Plane.isOrphaned, hf]
  · omega

example : Plane.associate [.other, .openCurve, .closedCurve] 5 .unset = some (.curve 2) ∧
    Plane.associate [.closedCurve] 1 .unset = some .unset ∧ Plane.associate [.other, .openCurve] 3 .unset = none := by decide

end Iges.Props.Planes
