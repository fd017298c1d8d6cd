import Verif.Model.Entity
import Verif.Lemmas.Reader
import Verif.Lemmas.Gather
import Mathlib.Data.List.Forall2
namespace Iges
open Iges.Props

/-- The text of delimited parameters without blanks. -/
def gtext : List (Param × Char) → Str
  | [] => []
  | (p, d) :: g => p.body ++ d :: gtext g

theorem gtext_append (a b : List (Param × Char)) : gtext (a ++ b) = gtext a ++ gtext b := by
  induction a with
  | nil => rfl
  | cons x a ih => obtain ⟨p, d⟩ := x; simp [gtext, ih]

theorem Enc.plain {T : Str} {ps : List (Param × Char)} {S : Str} (g : List (Param × Char)) (h : Enc T ps S) :
    Enc T (g ++ ps) (gtext g ++ S) := by
  induction g with
  | nil => exact h
  | cons x g ih =>
    obtain ⟨p, d⟩ := x
    have := Enc.cons (p := p) (d := d) 0 (fun _ => rfl) ih
    simpa [gtext] using this

theorem Enc.group {T : Str} {ps : List (Param × Char)} {S : Str} {g : List (Param × Char)} {k : Nat}
    (hg : g ≠ []) (hk : ∀ x, g.head? = some x → x.1.body = [] → k = 0) (h : Enc T ps S) :
    Enc T (g ++ ps) (List.replicate k ' ' ++ gtext g ++ S) := by
  cases g with
  | nil => exact absurd rfl hg
  | cons x g =>
    obtain ⟨p, d⟩ := x
    have := Enc.cons (p := p) (d := d) k (hk _ rfl) (Enc.plain g h)
    simpa [gtext] using this

theorem Enc.no_nl {T : Str} {ps : List (Param × Char)} {S : Str} (h : Enc T ps S) (hT : '\n' ∉ T)
    (hb : ∀ x ∈ ps, '\n' ∉ x.1.body ∧ x.2 ≠ '\n') : '\n' ∉ S := by
  induction h with
  | nil => exact hT
  | @cons p d ps S k hk h ih =>
    have h0 := hb (p, d) (by simp)
    simp only [List.mem_append, List.mem_cons, not_or]
    refine ⟨⟨?_, h0.1⟩, h0.2.symm, ih fun x hx => hb x (List.mem_cons_of_mem _ hx)⟩
    intro h; have := List.eq_of_mem_replicate h; revert this; decide

/-- What one emitter call does when it writes the parameters `g` and may use `c` sequence numbers. -/
def StepOk (de : Int) (rd : Char) (run : Emit → Rd Emit) (g : List (Param × Char)) (c : Nat) : Prop :=
  g ≠ [] ∧ ∀ e : Emit, e.fStr.length ≤ 64 → 1 ≤ e.index → e.index + c ≤ 9999999 →
    ∃ e' k j, run e = .val e' ∧
      Adv 64 (Spec.pdTail de) e e' (List.replicate k ' ' ++ gtext g ++ List.replicate j ' ') ∧
      (∀ x, g.head? = some x → x.1.body = [] → k = 0) ∧
      (∀ x, g.getLast? = some x → (x.2 = rd → e'.fStr = []) ∧ (x.2 ≠ rd → j = 0)) ∧
      j < 64 ∧ e.index ≤ e'.index ∧ e'.index ≤ e.index + c

/-- Steps one after the other. -/
def runSteps : List (Emit → Rd Emit) → Emit → Rd Emit
  | [], e => .val e
  | f :: fs, e => f e >>= runSteps fs

theorem Rd.bind_assoc' {α β γ : Type} (x : Rd α) (f : α → Rd β) (g : β → Rd γ) :
    (x >>= f) >>= g = x >>= fun a => f a >>= g := by cases x <;> rfl

theorem runSteps_append (a b : List (Emit → Rd Emit)) (e : Emit) :
    runSteps (a ++ b) e = runSteps a e >>= runSteps b := by
  induction a generalizing e with
  | nil => rfl
  | cons f a ih =>
    simp only [List.cons_append, runSteps, Rd.bind_assoc']
    congr 1
    funext x
    exact ih x

theorem noEarly_append {rd : Char} {a b : List (Param × Char)} (hb : b ≠ []) (h : NoEarlyEnd rd (a ++ b)) :
    (∀ x ∈ a, x.2 ≠ rd) ∧ NoEarlyEnd rd b := by
  induction a with
  | nil => exact ⟨by simp, h⟩
  | cons x a ih =>
    obtain ⟨p, d⟩ := x
    have hne : a ++ b ≠ [] := by simp [hb]
    cases hab : a ++ b with
    | nil => exact absurd hab hne
    | cons y ys =>
      have h' : NoEarlyEnd rd ((p, d) :: y :: ys) := by rw [← hab]; exact h
      obtain ⟨h1, h2⟩ := h'
      rw [← hab] at h2
      obtain ⟨i1, i2⟩ := ih h2
      refine ⟨?_, i2⟩
      simp only [List.mem_cons]
      rintro z (rfl | hz)
      · exact h1
      · exact i1 z hz

/-- Only non-empty parameters follow one that is closed by the record delimiter. -/
def Spaced (rd : Char) : List (Param × Char) → Prop
  | [] => True
  | [_] => True
  | (_, d) :: q :: ps => (d = rd → q.1.body ≠ []) ∧ Spaced rd (q :: ps)

theorem NoEarlyEnd.spaced {rd : Char} : ∀ {ps : List (Param × Char)}, NoEarlyEnd rd ps → Spaced rd ps
  | [], _ => trivial
  | [_], _ => trivial
  | (_, _) :: _ :: _, h => ⟨fun hd => absurd hd h.1, NoEarlyEnd.spaced h.2⟩

theorem Spaced.append {rd : Char} {a b : List (Param × Char)} {y : Param × Char} (hb : b.head? = some y)
    (h : Spaced rd (a ++ b)) :
    (∀ x, a.getLast? = some x → x.2 = rd → y.1.body ≠ []) ∧ Spaced rd b := by
  induction a with
  | nil => exact ⟨by simp, h⟩
  | cons x a ih =>
    obtain ⟨p, d⟩ := x
    cases a with
    | nil =>
      cases b with
      | nil => simp at hb
      | cons z b =>
        simp only [List.head?_cons, Option.some.injEq] at hb
        subst hb
        refine ⟨?_, h.2⟩
        intro x hx hr
        simp only [List.getLast?_singleton, Option.some.injEq] at hx
        subst hx
        exact h.1 hr
    | cons z a =>
      obtain ⟨i1, i2⟩ := ih h.2
      refine ⟨?_, i2⟩
      intro x hx
      rw [List.getLast?_cons_cons] at hx
      exact i1 x hx

/-- Blanks in front of a non-empty parameter. -/
theorem Enc.pad {T : Str} {ps : List (Param × Char)} {S : Str} {y : Param × Char} (j : Nat) (hy : ps.head? = some y)
    (hb : y.1.body ≠ []) (h : Enc T ps S) : Enc T ps (List.replicate j ' ' ++ S) := by
  cases h with
  | nil => simp at hy
  | @cons p d ps S k hk h =>
    simp only [List.head?_cons, Option.some.injEq] at hy
    subst hy
    have := Enc.cons (p := p) (d := d) (j + k) (fun h => absurd h hb) h
    rw [← List.replicate_append_replicate] at this
    simpa only [List.append_assoc] using this

/-- A sequence of emitter calls writes an encoding of all their parameters. -/
theorem steps_run {de : Int} {rd : Char} (steps : List ((Emit → Rd Emit) × List (Param × Char) × Nat))
    (hs : ∀ s ∈ steps, StepOk de rd s.1 s.2.1 s.2.2)
    (hne : Spaced rd ((steps.map fun s => s.2.1).flatten)) (e : Emit) (hl : e.fStr.length ≤ 64)
    (h1 : 1 ≤ e.index) (hi : e.index + ((steps.map fun s => s.2.2).sum : Nat) ≤ 9999999) :
    ∃ e' S j, runSteps (steps.map fun s => s.1) e = .val e' ∧ Adv 64 (Spec.pdTail de) e e' S ∧
      Enc (List.replicate j ' ') ((steps.map fun s => s.2.1).flatten) S ∧ j < 64 ∧
      (∀ x, ((steps.map fun s => s.2.1).flatten).getLast? = some x → x.2 = rd → e'.fStr = []) ∧
      e.index ≤ e'.index ∧ e'.index ≤ e.index + ((steps.map fun s => s.2.2).sum : Nat) := by
  induction steps generalizing e with
  | nil => exact ⟨e, [], 0, rfl, Adv.refl hl, .nil, by omega, by simp, by omega, by simp⟩
  | cons s steps ih =>
    obtain ⟨run, g, c⟩ := s
    obtain ⟨hg, hrun⟩ := hs (run, g, c) (by simp)
    simp only [List.map_cons, List.sum_cons, List.flatten_cons] at hi hne ⊢
    simp only at hg hrun
    obtain ⟨e1, k, j, r1, r2, r3, r4, r5, r6, r7⟩ := hrun e hl h1 (by omega)
    obtain ⟨x, hx⟩ : ∃ x, g.getLast? = some x := ⟨g.getLast hg, List.getLast?_eq_some_getLast hg⟩
    by_cases hrest : (steps.map fun s => s.2.1).flatten = []
    · have hst : steps = [] := by
        cases steps with
        | nil => rfl
        | cons t ts =>
          exfalso
          simp only [List.map_cons, List.flatten_cons, List.append_eq_nil_iff] at hrest
          exact (hs t (by simp)).1 hrest.1
      subst hst
      refine ⟨e1, _, j, by simp [runSteps, r1], r2, ?_, r5, ?_, r6, by simpa using r7⟩
      · have := Enc.group (T := List.replicate j ' ') hg r3 Enc.nil
        simpa using this
      · intro y hy hr
        simp only [List.map_nil, List.flatten_nil, List.append_nil] at hy
        exact (r4 y hy).1 hr
    · obtain ⟨y, hy⟩ : ∃ y, ((steps.map fun s => s.2.1).flatten).head? = some y := by
        cases h : (steps.map fun s => s.2.1).flatten with
        | nil => exact absurd h hrest
        | cons y ys => exact ⟨y, rfl⟩
      obtain ⟨hd, hne'⟩ := hne.append hy
      obtain ⟨e2, S, j2, q1, q2, q3, q4, q5, q6, q7⟩ := ih (fun s h => hs s (List.mem_cons_of_mem _ h)) hne'
        e1 r2.le (by omega) (by omega)
      have q3' : Enc (List.replicate j2 ' ') ((steps.map fun s => s.2.1).flatten) (List.replicate j ' ' ++ S) := by
        by_cases hr : x.2 = rd
        · exact q3.pad j hy (hd x hx hr)
        · rw [(r4 x hx).2 hr]; exact q3
      refine ⟨e2, _, j2, by simp only [runSteps, r1, Rd.val_bind]; exact q1, r2.trans q2, ?_, q4, ?_, by omega, by omega⟩
      · have := Enc.group hg r3 q3'
        simpa using this
      · intro y hy hr
        rw [List.getLast?_append_of_ne_nil _ hrest] at hy
        exact q5 y hy hr

/-- The parameter of an item as it can be parsed. -/
def Item.param (E : PdEnv) : Item → Param
  | .int n => .int n
  | .str s => .str s
  | .real x r => .real (realText E.est r x)
  | .hitem s => .str s

/-- Conditions on the surroundings: legal different delimiters, positive resolution, digit estimate and
conversion as the C library makes them. -/
structure PdEnv.Ok (E : PdEnv) : Prop where
  pd : Spec.LegalDelim E.pd
  rd : Spec.LegalDelim E.rd
  ne : E.pd ≠ E.rd
  res : 0 < E.res
  est : EstOk E.est
  num : DoubleConv E.num

/-- Items that can be written: integers of C++ `int` type, strings without line ends, reals up to
`1e300` written with a positive resolution, and non-empty strings that fit a line if written as items. -/
def Item.Ok : Item → Prop
  | .int n => -2147483648 ≤ n ∧ n ≤ 2147483647
  | .str s => '\n' ∉ s
  | .real x r => 0 < r ∧ |x| ≤ 10 ^ (300 : ℤ)
  | .hitem s => s ≠ [] ∧ '\n' ∉ s ∧ (natStr s.length).length + s.length + 2 ≤ 64

theorem Item.writable {E : PdEnv} (hE : E.Ok) {it : Item} (h : it.Ok) : Writable E.pd E.rd (it.param E) := by
  cases it with
  | int n => exact h
  | str s => exact h
  | real x r => exact (realText_ok hE.est hE.num h.1 h.2 hE.pd hE.rd).1
  | hitem s => exact h.2.1

/-- Delimited items as delimited parameters. -/
def toParams (E : PdEnv) (g : List (Item × Char)) : List (Param × Char) := g.map fun x => (x.1.param E, x.2)

/-- An emitter call with parameters it can write: a single item, or a few integers. -/
def GroupOk (g : List (Item × Char)) : Prop :=
  (∃ it d, g = [(it, d)] ∧ it.Ok) ∨
  (g ≠ [] ∧ g.length ≤ 5 ∧ ∀ x ∈ g, ∃ n, x.1 = Item.int n ∧ (-2147483648 ≤ n ∧ n ≤ 2147483647))

def Item.cost : Item → Nat
  | .str s => hCost s
  | _ => 2

theorem groupText_ints (E : PdEnv) (g : List (Item × Char))
    (h : ∀ x ∈ g, ∃ n, x.1 = Item.int n ∧ (-2147483648 ≤ n ∧ n ≤ 2147483647)) :
    groupText E g = some (gtext (toParams E g)) ∧ (gtext (toParams E g)).length ≤ 12 * g.length := by
  induction g with
  | nil => exact ⟨rfl, by simp [toParams, gtext]⟩
  | cons x g ih =>
    obtain ⟨it, d⟩ := x
    obtain ⟨n, rfl, hn⟩ : ∃ n, it = Item.int n ∧ (-2147483648 ≤ n ∧ n ≤ 2147483647) := h (it, d) (by simp)
    obtain ⟨h1, h2⟩ := ih fun y hy => h y (List.mem_cons_of_mem _ hy)
    have h3 : toParams E ((Item.int n, d) :: g) = (.int n, d) :: toParams E g := rfl
    rw [h3]
    refine ⟨by simp [groupText, Item.text, h1, gtext, Param.body], ?_⟩
    have := intStr_length_le32 n hn
    simp only [gtext, Param.body, List.length_append, List.length_cons]
    omega

theorem item_step {de : Int} {rd : Char} (hde : -9999999 ≤ de ∧ de ≤ 99999999) {t : Str}
    {g : List (Param × Char)} (hg : g ≠ []) (ht : t = gtext g) (hlen : t.length ≤ 64)
    (hone : ∀ x, g.head? = some x → x.1.body = [] → g.length = 1) :
    StepOk de rd (fun e => Rd.lift (AddPDItem t e de rd) fun r => .val r.1) g 2 := by
  refine ⟨hg, fun e hl h1 hi => ?_⟩
  have htne : t ≠ [] := by
    cases g with
    | nil => exact absurd rfl hg
    | cons x g => obtain ⟨p, d⟩ := x; rw [ht]; simp [gtext]
  have hlast : ∀ x, g.getLast? = some x → t.getLast? = some x.2 := by
    intro x hx
    have hgl := List.dropLast_concat_getLast hg
    rw [List.getLast?_eq_some_getLast hg] at hx
    rw [← hgl] at ht
    rw [Option.some.inj hx] at ht
    obtain ⟨p, d⟩ := x
    rw [ht, gtext_append]
    simp [gtext]
  obtain ⟨e', h⟩ := AddPDItem_succeeds (t := t) (e := e) (de := de) (rd := rd) htne hlen hl hde ⟨h1, by omega⟩
  obtain ⟨e'', b, h', b1, b2, _⟩ := AddPDItem_total (t := t) (e := e) (de := de) (rd := rd) htne hde ⟨h1, by omega⟩
  rw [h] at h'
  simp only [Res.ok.injEq, Prod.mk.injEq] at h'
  obtain ⟨rfl, _⟩ := h'
  obtain ⟨k, j, a, b, c, f, _, hj⟩ := AddPDItem_adv h hl h1 (by omega)
  refine ⟨e', k, j, by simp [h], by rw [← ht]; exact a, ?_, ?_, hj, b1, b2⟩
  · intro x hx hb
    apply b
    have := hone x hx hb
    match g, hx, this with
    | [(p, d)], hx, _ =>
      simp only [List.head?_cons, Option.some.injEq] at hx
      subst hx
      rw [ht]; simp [gtext] at hb ⊢; simp [hb]
  · intro x hx
    have := hlast x hx
    rw [this] at c f
    exact ⟨fun h => c (by rw [h]), fun h => f (by simpa using h)⟩

theorem group_step {E : PdEnv} (hE : E.Ok) {de : Int} (hde : -9999999 ≤ de ∧ de ≤ 99999999)
    {g : List (Item × Char)} (h : GroupOk g) (hd : ∀ x ∈ g, x.2 = E.pd ∨ x.2 = E.rd) :
    StepOk de E.rd (emitGroup E de g) (toParams E g) ((g.map fun x => x.1.cost).sum) := by
  have bump : ∀ {run ps c c'}, StepOk de E.rd run ps c → c ≤ c' → StepOk de E.rd run ps c' := by
    intro run ps c c' hst hc
    refine ⟨hst.1, fun e hl h1 hi => ?_⟩
    obtain ⟨e', k, j, a1, a2, a3, a4, a5, a6, a7⟩ := hst.2 e hl h1 (by omega)
    exact ⟨e', k, j, a1, a2, a3, a4, a5, a6, by omega⟩
  rcases h with ⟨it, d, rfl, hit⟩ | ⟨hne, hlen, hint⟩
  · have hdd := hd (it, d) (by simp)
    simp only at hdd
    cases it with
    | str s =>
      refine ⟨by simp [toParams], fun e hl h1 hi => ?_⟩
      simp only [List.map_cons, List.map_nil, List.sum_cons, List.sum_nil, Item.cost, Nat.add_zero] at hi ⊢
      obtain ⟨e', h, b1, b2⟩ := AddPDHStr_total (s := s) (e := e) hl hde ⟨h1, hi⟩ hdd
      obtain ⟨k, j, a, b, c, f, hj⟩ := AddPDHStr_adv h hl h1 (by omega)
      refine ⟨e', k, j, by simp [emitGroup, h], ?_, ?_, ?_, hj, b1, b2⟩
      · simpa [toParams, gtext, Item.param, Param.body] using a
      · intro x hx hb
        simp only [toParams, List.map_cons, List.map_nil, List.head?_cons, Option.some.injEq] at hx
        subst hx
        apply b
        simp only [Item.param, Param.body] at hb
        split at hb
        · assumption
        · simp at hb
      · intro x hx
        simp only [toParams, List.map_cons, List.map_nil, List.getLast?_singleton, Option.some.injEq] at hx
        subst hx
        exact ⟨c, f⟩
    | int n =>
      have := intStr_length_le32 n hit
      have hst := item_step (rd := E.rd) (t := intStr n ++ [d])
        (g := toParams E [(Item.int n, d)]) hde (by simp [toParams])
        (by simp [toParams, gtext, Item.param, Param.body]) (by simp; omega) (by simp [toParams])
      refine bump ⟨hst.1, fun e hl h1 hi => ?_⟩ (c := 2) (by simp [Item.cost])
      obtain ⟨e', k, j, h, rest⟩ := hst.2 e hl h1 hi
      refine ⟨e', k, j, ?_, rest⟩
      simp only [emitGroup, groupText, Item.text]
      simpa using h
    | real x r =>
      have hw := (realText_ok hE.est hE.num hit.1 hit.2 hE.pd hE.rd).1
      have hf := FormatPDREal_eq (est := E.est) (minRes := r) (x := x) (d := d) hit.1
      have hst := item_step (rd := E.rd) (t := realText E.est r x ++ [d])
        (g := toParams E [(Item.real x r, d)]) hde (by simp [toParams])
        (by simp [toParams, gtext, Item.param, Param.body]) (by have := hw.2.1; simp; omega) (by simp [toParams])
      refine bump ⟨hst.1, fun e hl h1 hi => ?_⟩ (c := 2) (by simp [Item.cost])
      obtain ⟨e', k, j, h, rest⟩ := hst.2 e hl h1 hi
      refine ⟨e', k, j, ?_, rest⟩
      simp only [emitGroup, groupText, Item.text, hf]
      simpa using h
    | hitem s =>
      have hst := item_step (rd := E.rd) (t := natStr s.length ++ 'H' :: (s ++ [d]))
        (g := toParams E [(Item.hitem s, d)]) hde (by simp [toParams])
        (by simp [toParams, gtext, Item.param, Param.body, hit.1]) (by have := hit.2.2; simp; omega)
        (by simp [toParams])
      refine bump ⟨hst.1, fun e hl h1 hi => ?_⟩ (c := 2) (by simp [Item.cost])
      obtain ⟨e', k, j, h, rest⟩ := hst.2 e hl h1 hi
      refine ⟨e', k, j, ?_, rest⟩
      simp only [emitGroup, groupText, Item.text]
      simpa using h
  · obtain ⟨h1, h2⟩ := groupText_ints E g hint
    have hst := item_step (rd := E.rd) (t := gtext (toParams E g)) (g := toParams E g) hde
      (by simpa [toParams] using hne) rfl (by omega) (by
        intro x hx hb
        cases g with
        | nil => exact absurd rfl hne
        | cons y g =>
          simp only [toParams, List.map_cons, List.head?_cons, Option.some.injEq] at hx
          subst hx
          obtain ⟨n, hn, _⟩ := hint y (by simp)
          rw [hn] at hb
          exact absurd hb (intStr_ne_nil n))
    have hrun : emitGroup E de g = fun e => Rd.lift (AddPDItem (gtext (toParams E g)) e de E.rd) fun r => .val r.1 := by
      funext e
      unfold emitGroup
      split
      · rename_i s d
        obtain ⟨n, hn, _⟩ := hint (Item.str s, d) (by simp)
        cases hn
      · rw [h1]
    rw [hrun]
    refine bump hst ?_
    cases g with
    | nil => exact absurd rfl hne
    | cons y g =>
      obtain ⟨n, hn, _⟩ := hint y (by simp)
      simp only [List.map_cons, List.sum_cons, hn, Item.cost]; omega


/-- Parameter delimiter after each item, `last` after the last one. -/
def closeItems (pd last : Char) : List Item → List (Item × Char)
  | [] => []
  | [x] => [(x, last)]
  | x :: y :: r => (x, pd) :: closeItems pd last (y :: r)

/-- The optional parameters, without delimiters. -/
def extraParams (A B : List Int) : List Param :=
  if A = [] then .dflt :: .int B.length :: B.map .int
  else if B = [] then .int A.length :: A.map .int
  else .int A.length :: (A.map .int ++ .int B.length :: B.map .int)

/-- All optional parameters of an entity. -/
def extrasOf (xs : List ExtraRef) : List Param := if xs = [] then [] else extraParams (secA xs) (secB xs)

/-- Optional pointers that can be written: of the four types, with DE sequence numbers. -/
def ExtrasOk (xs : List ExtraRef) : Prop :=
  xs.length ≤ 2147483647 ∧
  ∀ x ∈ xs, (x.etype = 212 ∨ x.etype = 312 ∨ x.etype = 402 ∨ x.etype = 406) ∧ goodDE x.de

theorem delimit_cons2 (pd rd : Char) (p : Param) {ps : List Param} (h : ps ≠ []) :
    delimit pd rd (p :: ps) = (p, pd) :: delimit pd rd ps := by
  cases ps with
  | nil => exact absurd rfl h
  | cons q qs => rfl

theorem delimit_append (pd rd : Char) (ps : List Param) {qs : List Param} (h : qs ≠ []) :
    delimit pd rd (ps ++ qs) = ps.map (fun p => (p, pd)) ++ delimit pd rd qs := by
  induction ps with
  | nil => rfl
  | cons p ps ih =>
    rw [List.cons_append, delimit_cons2 _ _ _ (by simp [h]), ih]; rfl

theorem closeInts_rd (pd rd : Char) (B : List Int) : closeInts pd rd B = delimit pd rd (B.map .int) := by
  induction B with
  | nil => rfl
  | cons n B ih =>
    cases B with
    | nil => rfl
    | cons m B => simp only [closeInts, ih, List.map_cons, delimit]

theorem closeInts_pd (pd : Char) (A : List Int) : closeInts pd pd A = A.map fun n => (.int n, pd) := by
  induction A with
  | nil => rfl
  | cons n B ih =>
    cases B with
    | nil => rfl
    | cons m B => simp only [closeInts, ih, List.map_cons]

theorem extraItems_eq (pd rd : Char) {A B : List Int} (h : A ≠ [] ∨ B ≠ []) :
    extraItems pd rd A B = delimit pd rd (extraParams A B) := by
  unfold extraItems extraParams
  by_cases hA : A = []
  · have hB : B ≠ [] := by rcases h with h | h; exact absurd hA h; exact h
    rw [if_pos hA, if_pos hA, delimit_cons2 _ _ _ (by simp), delimit_cons2 _ _ _ (by simpa using hB), closeInts_rd]
  · rw [if_neg hA, if_neg hA]
    by_cases hB : B = []
    · rw [if_pos hB, if_pos hB, delimit_cons2 _ _ _ (by simpa using hA), closeInts_rd]
    · rw [if_neg hB, if_neg hB, delimit_cons2 _ _ _ (by simp), delimit_append _ _ _ (by simp),
        delimit_cons2 _ _ _ (by simpa using hB), closeInts_pd, closeInts_rd]
      simp

theorem extras_some {xs : List ExtraRef} (h : ExtrasOk xs) (hx : xs ≠ []) : secA xs ≠ [] ∨ secB xs ≠ [] := by
  cases xs with
  | nil => exact absurd rfl hx
  | cons x xs =>
    have := (h.2 x (by simp)).1
    by_cases h6 : x.etype = 406
    · right; simp [secB, h6]
    · left
      have : (x.etype == 212 || x.etype == 312 || x.etype == 402) = true := by
        simp only [Bool.or_eq_true, beq_iff_eq]; omega
      simp [secA, this]

theorem closeItems_params {E : PdEnv} {items : List Item} (hi : items ≠ []) {xs : List ExtraRef}
    (hx : ExtrasOk xs) :
    toParams E (closeItems E.pd (E.last xs) items) ++
      (if xs = [] then [] else extraItems E.pd E.rd (secA xs) (secB xs)) =
    delimit E.pd E.rd (items.map (Item.param E) ++ extrasOf xs) := by
  by_cases hxs : xs = []
  · rw [if_pos hxs, extrasOf, if_pos hxs, PdEnv.last, if_pos hxs, List.append_nil, List.append_nil]
    clear hi
    induction items with
    | nil => rfl
    | cons a r ih =>
      cases r with
      | nil => rfl
      | cons b r =>
        simp only [closeItems, toParams, List.map_cons, delimit] at ih ⊢
        rw [ih]
  · have hpd : ∀ items, closeItems E.pd E.pd items = items.map fun it => (it, E.pd) := by
      intro items
      induction items with
      | nil => rfl
      | cons a r ih =>
        cases r with
        | nil => rfl
        | cons b r => simp only [closeItems, ih, List.map_cons]
    rw [if_neg hxs, extrasOf, if_neg hxs, PdEnv.last, if_neg hxs, extraItems_eq _ _ (extras_some hx hxs), hpd,
      delimit_append]
    · simp [toParams]
    · unfold extraParams; split
      · simp
      · split <;> simp

theorem preText_gtext (pd : Char) (ns : List Int) :
    preText pd ns = gtext (ns.map fun n => (Param.int n, pd)) := by
  induction ns with
  | nil => rfl
  | cons n ns ih => simp [preText, gtext, Param.body, ih]

theorem mem_secA {xs : List ExtraRef} {n : Int} (h : n ∈ secA xs) : ∃ x ∈ xs, x.de = n := by
  simp only [secA, List.mem_map, List.mem_filter] at h
  obtain ⟨x, ⟨h1, _⟩, h2⟩ := h
  exact ⟨x, h1, h2⟩

theorem mem_secB {xs : List ExtraRef} {n : Int} (h : n ∈ secB xs) : ∃ x ∈ xs, x.de = n := by
  simp only [secB, List.mem_map, List.mem_filter] at h
  obtain ⟨x, ⟨h1, _⟩, h2⟩ := h
  exact ⟨x, h1, h2⟩

theorem extras_writable {pd rd : Char} {xs : List ExtraRef} (h : ExtrasOk xs) :
    ∀ p ∈ extrasOf xs, Writable pd rd p := by
  have hg : ∀ n, goodDE n → -2147483648 ≤ n ∧ n ≤ 2147483647 := by
    intro n h; unfold goodDE at h; omega
  have hA : ∀ p ∈ (secA xs).map Param.int, Writable pd rd p := by
    intro p hp
    obtain ⟨n, hn, rfl⟩ := List.mem_map.mp hp
    obtain ⟨x, hx, rfl⟩ := mem_secA hn
    exact hg _ (h.2 x hx).2
  have hB : ∀ p ∈ (secB xs).map Param.int, Writable pd rd p := by
    intro p hp
    obtain ⟨n, hn, rfl⟩ := List.mem_map.mp hp
    obtain ⟨x, hx, rfl⟩ := mem_secB hn
    exact hg _ (h.2 x hx).2
  have lA : Writable pd rd (.int (secA xs).length) := by
    have : (secA xs).length ≤ xs.length := by simp only [secA, List.length_map]; exact List.length_filter_le _ _
    have := h.1
    exact ⟨by omega, by omega⟩
  have lB : Writable pd rd (.int (secB xs).length) := by
    have : (secB xs).length ≤ xs.length := by simp only [secB, List.length_map]; exact List.length_filter_le _ _
    have := h.1
    exact ⟨by omega, by omega⟩
  intro p hp
  unfold extrasOf at hp
  split at hp
  · simp at hp
  · unfold extraParams at hp
    split at hp
    · rcases List.mem_cons.mp hp with rfl | hp
      · trivial
      · rcases List.mem_cons.mp hp with rfl | hp
        · exact lB
        · exact hB p hp
    · split at hp
      · rcases List.mem_cons.mp hp with rfl | hp
        · exact lA
        · exact hA p hp
      · rcases List.mem_cons.mp hp with rfl | hp
        · exact lA
        · rcases List.mem_append.mp hp with hp | hp
          · exact hA p hp
          · rcases List.mem_cons.mp hp with rfl | hp
            · exact lB
            · exact hB p hp

/-- The sequence numbers an entity may use at most. -/
def roomOf (items : List Item) (xs : List ExtraRef) : Nat :=
  (items.map Item.cost).sum + roomFor (extrasOf xs)

theorem runOps_steps (de : Int) (pd rd : Char) (ops : List PdOp) (e : Emit) :
    Rd.lift (runOps de pd rd ops e) (fun r => .val r) =
      runSteps (ops.map fun o => fun e => Rd.lift (o.run de pd rd e) fun r => .val r.1) e := by
  induction ops generalizing e with
  | nil => rfl
  | cons o ops ih =>
    simp only [runOps, List.map_cons, runSteps]
    cases h : o.run de pd rd e with
    | ok r => simp only [Res.bind, Rd.lift_ok, Rd.val_bind]; exact ih r.1
    | ub => rfl
    | exn => rfl

theorem emitGroups_steps (E : PdEnv) (de : Int) (gs : List (List (Item × Char))) (e : Emit) :
    emitGroups E de gs e = runSteps (gs.map (emitGroup E de)) e := by
  induction gs generalizing e with
  | nil => rfl
  | cons g gs ih =>
    simp only [emitGroups, List.map_cons, runSteps]
    congr 1
    funext x
    exact ih x

theorem param_step {de : Int} {pd rd : Char} (hde : -9999999 ≤ de ∧ de ≤ 99999999) (p : Param) (d : Char)
    (hd : d = pd ∨ d = rd) (hp : p.Ok pd rd) :
    StepOk de rd (fun e => Rd.lift ((p.op d).run de pd rd e) fun r => .val r.1) [(p, d)] p.cost := by
  refine ⟨by simp, fun e hl h1 hi => ?_⟩
  obtain ⟨e', k, j, a1, a2, a3, a4, a5, a6, a7, a8⟩ := param_run hde p d hd hp e hl ⟨h1, hi⟩
  refine ⟨e', k, j, by simp [a1], by simpa [gtext] using a2, ?_, ?_, a6, a7, a8⟩
  · intro x hx hb
    simp only [List.head?_cons, Option.some.injEq] at hx
    subst hx; exact a3 hb
  · intro x hx
    simp only [List.getLast?_singleton, Option.some.injEq] at hx
    subst hx; exact ⟨a4, a5⟩

theorem noEarly_of_delimit {pd rd : Char} (h : pd ≠ rd) (ps : List Param) :
    NoEarlyEnd rd (delimit pd rd ps) := delimit_noEarly h ps

theorem findChar_first (c : Char) (a b : Str) (h : c ∉ a) : findChar c (a ++ c :: b) = some a.length := by
  induction a with
  | nil => simp [findChar]
  | cons x a ih =>
    simp only [List.mem_cons, not_or] at h
    simp only [List.cons_append, findChar, if_neg (Ne.symm h.1), ih h.2, Option.map_some, List.length_cons]

theorem flatten64 (datas : List Str) (h : ∀ d ∈ datas, d.length = 64) : datas.flatten.length = 64 * datas.length := by
  induction datas with
  | nil => rfl
  | cons d ds ih =>
    simp only [List.flatten_cons, List.length_append, List.length_cons]
    rw [h d (by simp), ih fun x hx => h x (List.mem_cons_of_mem _ hx)]; omega

theorem lines_length {de : Int} (hde : 1 ≤ de ∧ de ≤ 9999999) (datas : List Str) (h : ∀ d ∈ datas, d.length = 64)
    (i : Int) (hi : 0 ≤ i) (hj : i + datas.length ≤ 10000000) :
    (Spec.lines (Spec.pdTail de) i datas).length = 81 * datas.length := by
  induction datas generalizing i with
  | nil => rfl
  | cons d ds ih =>
    simp only [List.length_cons] at hj ⊢
    have h0 := pdTail_length de i (by omega) ⟨hi, by omega⟩
    have h1 := ih (fun x hx => h x (List.mem_cons_of_mem _ hx)) (i + 1) (by omega) (by omega)
    simp only [Spec.lines, List.length_append, List.length_cons, h0, h1, h d (by simp)]
    omega

/-- The cursor stands in front of the given parameters; the end of the record has been seen exactly if
there are none. -/
def Ready (T : Str) (s : Src) (c : Cur) (ps : List Param) : Prop :=
  At T s.data c.idx (delimit s.pd s.rd ps) ∧ c.eor = ps.isEmpty

/-- The optional pointers as delimited parameters. -/
def exItems (E : PdEnv) (xs : List ExtraRef) : List (Param × Char) :=
  if xs = [] then [] else extraItems E.pd E.rd (secA xs) (secB xs)

/-- What `format` writes for parameters it can write, and how the lines read; the delimiters are given. -/
theorem pd_written_at {E : PdEnv} (hE : E.Ok) {de i0 etype limit : Int} {pre : List Int} {its : List (Item × Char)}
    {groups : List (List (Item × Char))} {xs : List ExtraRef}
    (hde : 1 ≤ de ∧ de ≤ 9999999) (het : 100 ≤ etype ∧ etype ≤ 999)
    (hfit : (preText E.pd (etype :: pre)).length ≤ 64)
    (hok : ∀ x ∈ its, x.1.Ok) (hdl : ∀ x ∈ its, x.2 = E.pd ∨ x.2 = E.rd)
    (hgroups : ∀ g ∈ groups, GroupOk g)
    (hflat : groups.flatten = its)
    (hsp : Spaced E.rd (toParams E its ++ exItems E xs))
    (hlast : ∃ x, (toParams E its ++ exItems E xs).getLast? = some x ∧ x.2 = E.rd)
    (hx : ExtrasOk xs) (hlim : 1 ≤ i0 ∧ i0 ≤ limit)
    (hroom : i0 + (roomOf (its.map Prod.fst) xs : Nat) ≤ 9999999) :
    ∃ n datas j, formatPD E de (etype :: pre) groups xs [] limit i0 =
        .val (Spec.lines (Spec.pdTail de) i0 datas, n) ∧
      n = i0 + (datas.length : Nat) ∧ 0 < datas.length ∧ n ≤ i0 + (roomOf (its.map Prod.fst) xs : Nat) ∧
      (∀ d ∈ datas, d.length = 64) ∧ (∀ d ∈ datas, '\n' ∉ d) ∧
      (∀ more, readPDText etype de i0 (n - i0) E.pd E.rd
        (getlines [] (Spec.lines (Spec.pdTail de) i0 datas ++ more)) = .ok (some datas.flatten)) ∧
      findChar E.pd datas.flatten = some 3 ∧ datas.flatten.length ≤ intMax ∧ j < 64 ∧
      At (List.replicate j ' ') datas.flatten 4
        ((pre.map fun n => (Param.int n, E.pd)) ++ (toParams E its ++ exItems E xs)) := by
  have hde' : -9999999 ≤ de ∧ de ≤ 99999999 := by omega
  set ex : List (Param × Char) := exItems E xs with hex
  have hps0 := closeItems_params (E := E) (items := [Item.int 0]) (by simp) hx
  rw [show (if xs = [] then [] else extraItems E.pd E.rd (secA xs) (secB xs)) = ex from rfl] at hps0
  have hexdel : ∀ x ∈ ex, x.2 = E.pd ∨ x.2 = E.rd := by
    intro x hx'
    refine delimit_delims (List.map (Item.param E) [Item.int 0] ++ extrasOf xs) x ?_
    rw [← hps0]; exact List.mem_append_right _ hx'
  have hexfst : ex.map Prod.fst = extrasOf xs := by
    have h1 := congrArg (List.map Prod.fst) hps0
    rw [delimit_params, List.map_append] at h1
    exact List.append_cancel_left (as := [Param.int 0]) h1
  have hexw : ∀ x ∈ ex, Writable E.pd E.rd x.1 := by
    intro x hx'
    refine extras_writable hx _ ?_
    rw [← hexfst]
    exact List.mem_map_of_mem hx'
  set qs := toParams E its ++ ex with hqs
  have hw : ∀ x ∈ qs, Writable E.pd E.rd x.1 := by
    intro p hp
    rcases List.mem_append.mp hp with hp | hp
    · obtain ⟨it, h1, rfl⟩ := List.mem_map.mp hp
      exact Item.writable hE (hok it h1)
    · exact hexw p hp
  have hdel : ∀ x ∈ qs, x.2 = E.pd ∨ x.2 = E.rd := by
    intro p hp
    rcases List.mem_append.mp hp with hp | hp
    · obtain ⟨it, h1, rfl⟩ := List.mem_map.mp hp
      exact hdl it h1
    · exact hexdel p hp
  -- the steps
  let steps1 : List ((Emit → Rd Emit) × List (Param × Char) × Nat) :=
    groups.map fun g => (emitGroup E de g, toParams E g, (g.map fun x => x.1.cost).sum)
  let steps2 : List ((Emit → Rd Emit) × List (Param × Char) × Nat) :=
    ex.map fun x => (fun e => Rd.lift ((x.1.op x.2).run de E.pd E.rd e) fun r => Rd.val r.1, [x], x.1.cost)
  have hf1 : (steps1.map fun s => s.2.1).flatten = toParams E its := by
    rw [← hflat]
    simp only [steps1, toParams, List.map_map, List.map_flatten]
    rfl
  have hf2 : (steps2.map fun s => s.2.1).flatten = ex := by
    simp only [steps2, List.map_map]
    clear_value ex
    clear * -
    induction ex with
    | nil => rfl
    | cons x ex ih => simp [ih]
  have hc1 : (steps1.map fun s => s.2.2).sum = ((its.map Prod.fst).map Item.cost).sum := by
    rw [← hflat]
    simp only [steps1, List.map_map]
    clear * -
    induction groups with
    | nil => rfl
    | cons g gs ih => simp only [List.map_cons, List.sum_cons, List.flatten_cons, List.map_append, List.sum_append]; rw [ih]; rfl
  have hc2 : (steps2.map fun s => s.2.2).sum = roomFor (extrasOf xs) := by
    rw [← hexfst]
    simp [steps2, roomFor, Function.comp_def]
  have hall : ∀ s ∈ steps1 ++ steps2, StepOk de E.rd s.1 s.2.1 s.2.2 := by
    intro s hs
    rcases List.mem_append.mp hs with hs | hs
    · obtain ⟨g, hg, rfl⟩ := List.mem_map.mp hs
      refine group_step hE hde' (hgroups g hg) ?_
      intro x hxg
      have : (x.1.param E, x.2) ∈ toParams E its := by
        rw [← hflat]
        exact List.mem_map.mpr ⟨x, List.mem_flatten.mpr ⟨g, hg, hxg⟩, rfl⟩
      exact hdel _ (List.mem_append_left _ this)
    · obtain ⟨x, hxe, rfl⟩ := List.mem_map.mp hs
      exact param_step hde' x.1 x.2 (hdel x (List.mem_append_right _ hxe)) (Writable.ok (hexw x hxe))
  have hflatAll : ((steps1 ++ steps2).map fun s => s.2.1).flatten = qs := by
    rw [List.map_append, List.flatten_append, hf1, hf2]
  have hcost : ((steps1 ++ steps2).map fun s => s.2.2).sum = roomOf (its.map Prod.fst) xs := by
    rw [List.map_append, List.sum_append, hc1, hc2]; rfl
  obtain ⟨e', S, j, r1, r2, r3, r4, r5, r6, r7⟩ := steps_run (steps1 ++ steps2) hall
    (by rw [hflatAll]; exact hsp) ⟨preText E.pd (etype :: pre), [], i0⟩ hfit
    hlim.1 (by rw [hcost]; exact hroom)
  rw [hflatAll] at r3 r5
  rw [hcost] at r7
  obtain ⟨x, hx1, hx2⟩ := hlast
  have hfs := r5 x hx1 hx2
  obtain ⟨datas, a, b, c, d⟩ := r2.ex
  simp only [List.nil_append] at a b d r6 r7
  rw [hfs, List.append_nil] at d
  -- the emitter part of formatPD
  have hmap1 : (steps1 ++ steps2).map (fun s => s.1) = groups.map (emitGroup E de) ++
      (paramOps ex).map (fun o => fun e => Rd.lift (o.run de E.pd E.rd e) fun r => Rd.val r.1) := by
    simp only [steps1, steps2, List.map_append, List.map_map, paramOps]; rfl
  rw [hmap1, runSteps_append, ← emitGroups_steps] at r1
  have hform : formatPD E de (etype :: pre) groups xs [] limit i0 = formatComments [] e'.fOut e'.index := by
    unfold formatPD
    rw [if_neg (by omega)]
    cases hem : emitGroups E de groups ⟨preText E.pd (etype :: pre), [], i0⟩ with
    | val e1 =>
      rw [hem, Rd.val_bind] at r1
      rw [Rd.val_bind]
      by_cases hxs : xs = []
      · rw [if_pos hxs, Rd.val_bind]
        rw [hex, exItems, if_pos hxs] at r1
        simp only [paramOps, List.map_nil, runSteps, Rd.val.injEq] at r1
        rw [r1]
      · rw [if_neg hxs]
        have : formatExtraParams E de xs e1 = .val e' := by
          unfold formatExtraParams
          rw [if_neg hxs, if_neg (by
            rintro ⟨y, hy, hy'⟩
            have := (hx.2 y hy).1
            omega), runOps_steps, ← r1, hex, exItems, if_neg hxs]
        rw [this, Rd.val_bind]
    | fail => rw [hem] at r1; simp at r1
    | ub => rw [hem] at r1; simp at r1
    | exn => rw [hem] at r1; cases r1
  have hend : i0 + (datas.length : Int) ≤ 9999999 := by omega
  have hlen := lines_length hde datas c i0 (by omega) (by omega)
  have hdpos : 0 < datas.length := by
    cases datas with
    | nil =>
      simp only [List.flatten_nil, preText, List.cons_append, List.append_assoc] at d
      have := congrArg List.length d
      simp at this
    | cons _ _ => simp
  have hSlen := flatten64 datas c
  have hsz : datas.flatten.length ≤ intMax := by
    have : intMax = 2147483647 := rfl
    omega
  -- the data
  have hfull : Enc (List.replicate j ' ') (((etype :: pre).map fun n => (Param.int n, E.pd)) ++ qs)
      datas.flatten := by
    rw [d, preText_gtext]
    exact Enc.plain _ r3
  have hnl : '\n' ∉ datas.flatten := by
    have hd0 : ∀ c, c = E.pd ∨ c = E.rd → c ≠ '\n' := by
      rintro c (rfl | rfl) h
      · have := hE.pd.1; rw [h] at this; revert this; decide
      · have := hE.rd.1; rw [h] at this; revert this; decide
    refine Enc.no_nl hfull ?_ ?_
    · intro h; have := List.eq_of_mem_replicate h; revert this; decide
    · intro y hy
      rcases List.mem_append.mp hy with hy | hy
      · obtain ⟨n, _, rfl⟩ := List.mem_map.mp hy
        exact ⟨intStr_no_nl n, hd0 _ (Or.inl rfl)⟩
      · refine ⟨?_, hd0 _ (hdel y hy)⟩
        exact Enc.no_nl_body (ps := [y.1]) (by simpa using hw y hy) _ (by simp)
  have hno := flatten_no_nl rfl hnl
  have hdata : datas.flatten = intStr etype ++ E.pd :: (preText E.pd pre ++ S) := by rw [d]; simp [preText]
  have het3 : (intStr etype).length = 3 := by
    obtain ⟨m, rfl⟩ : ∃ m : Nat, etype = m := ⟨etype.toNat, by omega⟩
    have h1 := natStr_length_le (n := m) (k := 3) (by decide) (by omega)
    have : ¬ (intStr (m : Int)).length ≤ 2 := by
      intro h
      have h2 : m < 10 ^ 2 := by
        exact (Nat.length_toDigits_le_iff (by decide) (by decide)).mp (by simpa [intStr, natStr] using h)
      omega
    have h3 : (intStr (m : Int)).length = (natStr m).length := rfl
    omega
  have hpdn : E.pd ∉ intStr etype := by
    intro hmem
    have hdg := hE.pd.2.2.1
    rcases intStr_chars hmem with h | h
    · rw [isDigitC_eq, hdg] at h; cases h
    · exact hE.pd.2.2.2.2.1 h
  refine ⟨e'.index, datas, j, ?_, by omega, hdpos, by omega, c, hno, ?_, ?_, hsz, r4, ?_⟩
  · rw [hform, a, formatComments, if_neg (by rw [hlen]; omega)]
    rfl
  · intro more
    unfold readPDText
    have hidx : e'.index - i0 = (datas.length : Int) := by omega
    rw [if_neg (by omega), if_neg (by omega), if_neg (by omega), hidx, Int.toNat_natCast,
      getlines_lines _ _ _ _ (pdTail_no_nl de) hno]
    have := gather_lines (etype := etype) (de := de) (pdata := i0) (pd := E.pd) (rd := E.rd) hde datas c 0 []
      (getlines [] more) hlim.1 (by simp; omega) ?_
    · simpa using this
    · rintro - d0 ds rfl
      have hd0 : d0.length = 64 := c d0 (by simp)
      have htk : ∃ R, d0 = intStr etype ++ E.pd :: R := by
        refine ⟨d0.drop ((intStr etype).length + 1), ?_⟩
        have h1 := congrArg (List.take ((intStr etype).length + 1)) hdata
        rw [List.flatten_cons, List.take_append_of_le_length (by omega)] at h1
        have h2 : (intStr etype ++ E.pd :: (preText E.pd pre ++ S)).take ((intStr etype).length + 1) =
            intStr etype ++ [E.pd] := by
          rw [List.take_append]; simp [List.take_of_length_le]
        rw [h2] at h1
        have h3 := (List.take_append_drop ((intStr etype).length + 1) d0).symm
        rw [h1] at h3
        simpa using h3
      obtain ⟨R, hR⟩ := htk
      have := ParseInt_intStr (pre := []) (post := R ++ Spec.rjust 8 de) (k := 0) (n := etype) (d := E.pd)
        (pd := E.pd) (rd := E.rd) (eor := false) (dflt := none) (Or.inl rfl) hE.pd hE.rd (by omega)
      refine ⟨(intStr etype).length + 1, ?_⟩
      rw [hR]
      simpa [hE.ne] using this
  · rw [hdata, findChar_first _ _ _ hpdn, het3]
  · refine ⟨intStr etype ++ [E.pd], preText E.pd pre ++ S, by simp [hdata], by simp [het3], ?_⟩
    rw [preText_gtext]
    exact Enc.plain _ r3

/-- What `format` writes for parameters it can write, and how the lines read. -/
theorem pd_written {E : PdEnv} (hE : E.Ok) {de i0 etype limit : Int} {pre : List Int} {items : List Item}
    {groups : List (List (Item × Char))} {xs : List ExtraRef}
    (hde : 1 ≤ de ∧ de ≤ 9999999) (het : 100 ≤ etype ∧ etype ≤ 999)
    (hfit : (preText E.pd (etype :: pre)).length ≤ 64)
    (hitems : items ≠ []) (hok : ∀ it ∈ items, it.Ok)
    (hgroups : ∀ g ∈ groups, GroupOk g)
    (hflat : groups.flatten = closeItems E.pd (E.last xs) items)
    (hx : ExtrasOk xs) (hlim : 1 ≤ i0 ∧ i0 ≤ limit)
    (hroom : i0 + (roomOf items xs : Nat) ≤ 9999999) :
    ∃ n datas j, formatPD E de (etype :: pre) groups xs [] limit i0 =
        .val (Spec.lines (Spec.pdTail de) i0 datas, n) ∧
      n = i0 + (datas.length : Nat) ∧ 0 < datas.length ∧ n ≤ i0 + (roomOf items xs : Nat) ∧
      (∀ d ∈ datas, d.length = 64) ∧ (∀ d ∈ datas, '\n' ∉ d) ∧
      (∀ more, readPDText etype de i0 (n - i0) E.pd E.rd
        (getlines [] (Spec.lines (Spec.pdTail de) i0 datas ++ more)) = .ok (some datas.flatten)) ∧
      findChar E.pd datas.flatten = some 3 ∧ datas.flatten.length ≤ intMax ∧ j < 64 ∧
      Ready (List.replicate j ' ') ⟨datas.flatten, E.pd, E.rd, E.num⟩ ⟨4, false⟩
        (pre.map .int ++ (items.map (Item.param E) ++ extrasOf xs)) := by
  have hps := closeItems_params (E := E) hitems hx
  set ps := items.map (Item.param E) ++ extrasOf xs with hpsdef
  have hpsne : ps ≠ [] := by rw [hpsdef]; simp [hitems]
  have hfst : (closeItems E.pd (E.last xs) items).map Prod.fst = items := by
    clear * -
    induction items with
    | nil => rfl
    | cons a r ih =>
      cases r with
      | nil => rfl
      | cons b r => simp only [closeItems, List.map_cons] at ih ⊢; rw [ih]
  have hd2 : ∀ x ∈ closeItems E.pd (E.last xs) items, x.2 = E.pd ∨ x.2 = E.rd := by
    intro x hx'
    refine delimit_delims ps (x.1.param E, x.2) ?_
    rw [← hps]
    exact List.mem_append_left _ (List.mem_map.mpr ⟨x, hx', rfl⟩)
  have hpse : toParams E (closeItems E.pd (E.last xs) items) ++ exItems E xs = delimit E.pd E.rd ps := hps
  obtain ⟨n, datas, j, w1, w2, w3, w4, w5, w6, w7, w8, w9, w10, w11⟩ := pd_written_at hE (limit := limit)
    (its := closeItems E.pd (E.last xs) items) (groups := groups) (xs := xs) (pre := pre) hde het hfit
    (fun x hx' => hok x.1 (by rw [← hfst]; exact List.mem_map_of_mem hx'))
    hd2 hgroups hflat (by rw [hpse]; exact (delimit_noEarly hE.ne ps).spaced)
    (by rw [hpse]; exact delimit_last ps hpsne) hx hlim (by rw [hfst]; exact hroom)
  rw [hfst] at w4
  refine ⟨n, datas, j, w1, w2, w3, w4, w5, w6, w7, w8, w9, w10, ?_, by simp [hpsne]⟩
  rw [hpse] at w11
  show At _ _ _ (delimit E.pd E.rd (pre.map Param.int ++ ps))
  rw [delimit_append _ _ _ hpsne, List.map_map]
  exact w11

theorem Ready.split {T : Str} {s : Src} {c : Cur} {p : Param} {ps : List Param} (ok : s.Ok)
    (h : Ready T s c (p :: ps)) :
    ∃ d, (d = s.pd ∨ d = s.rd) ∧ At T s.data c.idx ((p, d) :: delimit s.pd s.rd ps) ∧ c.eor = false ∧
      (if d = s.rd then true else c.eor) = ps.isEmpty := by
  obtain ⟨h1, h2⟩ := h
  simp only [List.isEmpty_cons] at h2
  cases ps with
  | nil => exact ⟨s.rd, Or.inr rfl, h1, h2, by simp⟩
  | cons q qs => exact ⟨s.pd, Or.inl rfl, h1, h2, by simp [ok.ne, h2]⟩

theorem Ready.eor {T : Str} {s : Src} {c : Cur} {p : Param} {ps : List Param} (h : Ready T s c (p :: ps)) :
    c.eor = false := h.2

theorem Ready.eor_append {T : Str} {s : Src} {c : Cur} {as : List Param} {p : Param} {ps : List Param}
    (h : Ready T s c (as ++ p :: ps)) : c.eor = false := by
  rw [h.2]; cases as <;> rfl

theorem Ready.int {T : Str} {s : Src} {c : Cur} {n : Int} {ps : List Param} {dflt : Option Int} (ok : s.Ok)
    (h : Ready T s c (.int n :: ps)) (hn : -2147483648 ≤ n ∧ n ≤ 2147483647) :
    ∃ c', s.int c dflt = .val (n, c') ∧ Ready T s c' ps := by
  obtain ⟨d, hd, hat, _, he⟩ := h.split ok
  obtain ⟨i', e1, hat'⟩ := hat.sInt (e := c.eor) (dflt := dflt) ok hd hn
  exact ⟨_, e1, hat', he⟩

theorem Ready.str {T : Str} {s : Src} {c : Cur} {t : Str} {ps : List Param} (ok : s.Ok)
    (h : Ready T s c (.str t :: ps)) :
    ∃ c', s.hstr c = .val (t, c') ∧ Ready T s c' ps := by
  obtain ⟨d, hd, hat, _, he⟩ := h.split ok
  obtain ⟨i', e1, hat'⟩ := hat.sStr (e := c.eor) ok hd
  exact ⟨_, e1, hat', he⟩

theorem Ready.dfltInt {T : Str} {s : Src} {c : Cur} {v : Int} {ps : List Param} (ok : s.Ok)
    (h : Ready T s c (.dflt :: ps)) :
    ∃ c', s.int c (some v) = .val (v, c') ∧ Ready T s c' ps := by
  obtain ⟨d, hd, hat, _, he⟩ := h.split ok
  obtain ⟨i', e1, hat', _⟩ := hat.dfltInt (pd := s.pd) (rd := s.rd) (eor := c.eor) (v := v) hd
  exact ⟨⟨i', if d = s.rd then true else c.eor⟩, by simp only [Src.int, e1, Rd.lift_ok], hat', he⟩

/-- The text being parsed belongs to the surroundings `E`. -/
structure SrcOf (E : PdEnv) (s : Src) : Prop where
  pd : s.pd = E.pd
  rd : s.rd = E.rd
  num : s.num = E.num
  size : s.data.length ≤ intMax

theorem SrcOf.ok {E : PdEnv} (hE : E.Ok) {s : Src} (h : SrcOf E s) : s.Ok :=
  ⟨h.pd ▸ hE.pd, h.rd ▸ hE.rd, h.pd ▸ h.rd ▸ hE.ne, h.size⟩

/-- Reading a real that was written. -/
theorem Ready.real {E : PdEnv} (hE : E.Ok) {T : Str} {s : Src} (hs : SrcOf E s) {c : Cur} {x r : ℚ}
    {ps : List Param} (dflt : Option RealTok)
    (h : Ready T s c (.real (realText E.est r x) :: ps)) (hr : 0 < r) (hx : |x| ≤ 10 ^ (300 : ℤ)) :
    ∃ y c', s.real c dflt = .val (y, c') ∧ Spec.Near r x y ∧ Ready T s c' ps := by
  have ok := hs.ok hE
  obtain ⟨hw, hnear⟩ := realText_ok hE.est hE.num hr hx hE.pd hE.rd
  obtain ⟨d, hd, hat, _, he⟩ := h.split ok
  obtain ⟨i', e1, hat'⟩ := hat.sReal (e := c.eor) (dflt := dflt) ok hd (by rw [hs.pd, hs.rd]; exact hw)
  exact ⟨_, _, e1, by rw [hs.num]; exact hnear, hat', he⟩

/-- Reading a list of values, each written as a list of parameters. -/
theorem readN_list {α β : Type} {T : Str} {s : Src} (f : Cur → Rd (β × Cur)) (enc : α → List Param)
    (R : α → β → Prop) (as : List α)
    (hf : ∀ a ∈ as, ∀ c rest, Ready T s c (enc a ++ rest) → ∃ b c', f c = .val (b, c') ∧ R a b ∧ Ready T s c' rest)
    (c : Cur) (rest : List Param) (h : Ready T s c (as.flatMap enc ++ rest)) :
    ∃ bs c', readN f as.length c = .val (bs, c') ∧ List.Forall₂ R as bs ∧ Ready T s c' rest := by
  induction as generalizing c with
  | nil => exact ⟨[], c, rfl, .nil, h⟩
  | cons a as ih =>
    rw [List.flatMap_cons, List.append_assoc] at h
    obtain ⟨b, c1, e1, r1, h1⟩ := hf a (by simp) c _ h
    obtain ⟨bs, c2, e2, r2, h2⟩ := ih (fun x hx => hf x (List.mem_cons_of_mem _ hx)) c1 h1
    exact ⟨b :: bs, c2, by simp [readN, e1, e2], .cons r1 r2, h2⟩

theorem forall2_eq {α : Type} {as bs : List α} (h : List.Forall₂ (fun a b => b = a) as bs) : bs = as := by
  induction h with
  | nil => rfl
  | cons h _ ih => rw [h, ih]

theorem readExtraDEs {T : Str} {s : Src} (ok : s.Ok) (as : List Int) (hg : ∀ n ∈ as, goodDE n) (c : Cur)
    (rest : List Param) (h : Ready T s c (as.map .int ++ rest)) :
    ∃ c', readN (readExtraDE s) as.length c = .val (as, c') ∧ Ready T s c' rest := by
  obtain ⟨bs, c', e, r, h'⟩ := readN_list (readExtraDE s) (fun n => [Param.int n]) (fun a b => b = a) as
    (by
      intro n hn c rest h
      have hgn := hg n hn
      obtain ⟨c', e, h'⟩ := Ready.int (dflt := none) ok h (by unfold goodDE at hgn; omega)
      exact ⟨n, c', by simp [readExtraDE, e, Rd.need_true hgn], rfl, h'⟩) c rest
    (by rw [← List.map_eq_flatMap]; exact h)
  exact ⟨c', by rw [e, forall2_eq r], h'⟩

/-- Reading the optional pointers that were written. -/
theorem readExtraParams_written {T : Str} {s : Src} (ok : s.Ok) {xs : List ExtraRef} (hx : ExtrasOk xs)
    (hne : xs ≠ []) {c : Cur} (h : Ready T s c (extrasOf xs)) :
    ∃ i', readExtraParams s c.idx = .val (secA xs ++ secB xs, i') ∧ At T s.data i' [] := by
  have hgA : ∀ n ∈ secA xs, goodDE n := by
    intro n hn; obtain ⟨x, h1, rfl⟩ := mem_secA hn; exact (hx.2 x h1).2
  have hgB : ∀ n ∈ secB xs, goodDE n := by
    intro n hn; obtain ⟨x, h1, rfl⟩ := mem_secB hn; exact (hx.2 x h1).2
  have lA : -2147483648 ≤ ((secA xs).length : Int) ∧ ((secA xs).length : Int) ≤ 2147483647 := by
    have : (secA xs).length ≤ xs.length := by simp only [secA, List.length_map]; exact List.length_filter_le _ _
    have := hx.1
    exact ⟨by omega, by omega⟩
  have lB : -2147483648 ≤ ((secB xs).length : Int) ∧ ((secB xs).length : Int) ≤ 2147483647 := by
    have : (secB xs).length ≤ xs.length := by simp only [secB, List.length_map]; exact List.length_filter_le _ _
    have := hx.1
    exact ⟨by omega, by omega⟩
  have hsome := extras_some hx hne
  rw [extrasOf, if_neg hne] at h
  have hceq : c = ⟨c.idx, false⟩ := by
    have := h.2
    have : c.eor = false := by
      rw [this]; unfold extraParams; split
      · rfl
      · split <;> rfl
    cases c; simp_all
  unfold readExtraParams
  rw [← hceq]
  unfold extraParams at h
  by_cases hA : secA xs = []
  · rw [if_pos hA] at h
    have hB : secB xs ≠ [] := by rcases hsome with h | h; exact absurd hA h; exact h
    obtain ⟨c1, e1, h1⟩ := Ready.dfltInt (v := 0) ok h
    obtain ⟨c2, e2, h2⟩ := Ready.int (dflt := some 0) ok h1 lB
    obtain ⟨c3, e3, h3⟩ := readExtraDEs ok (secB xs) hgB c2 [] (by simpa using h2)
    have hc1 : c1.eor = false := h1.2
    have hc3 : c3.eor = true := h3.2
    refine ⟨c3.idx, ?_, h3.1⟩
    rw [e1]
    simp only [Rd.val_bind, Rd.need_true (Int.le_refl 0)]
    simp only [Int.toNat_zero, readN, Rd.val_bind, hc1, Bool.false_eq_true, if_false, e2]
    rw [Rd.need_true (by omega), Rd.val_bind]
    simp only [Int.toNat_natCast, e3, Rd.val_bind, Rd.need_true hc3, hA]
    rfl
  · rw [if_neg hA] at h
    by_cases hB : secB xs = []
    · rw [if_pos hB] at h
      obtain ⟨c2, e2, h2⟩ := Ready.int (dflt := some 0) ok h lA
      obtain ⟨c3, e3, h3⟩ := readExtraDEs ok (secA xs) hgA c2 [] (by simpa using h2)
      have hc3 : c3.eor = true := h3.2
      refine ⟨c3.idx, ?_, h3.1⟩
      rw [e2]
      simp only [Rd.val_bind]
      rw [Rd.need_true (by omega), Rd.val_bind]
      simp only [Int.toNat_natCast, e3, Rd.val_bind, hc3, if_true, hB, List.append_nil]
      rfl
    · rw [if_neg hB] at h
      obtain ⟨c2, e2, h2⟩ := Ready.int (dflt := some 0) ok h lA
      obtain ⟨c3, e3, h3⟩ := readExtraDEs ok (secA xs) hgA c2 _ h2
      have hc3 : c3.eor = false := h3.2
      obtain ⟨c4, e4, h4⟩ := Ready.int (dflt := some 0) ok h3 lB
      obtain ⟨c5, e5, h5⟩ := readExtraDEs ok (secB xs) hgB c4 [] (by simpa using h4)
      have hc5 : c5.eor = true := h5.2
      refine ⟨c5.idx, ?_, h5.1⟩
      rw [e2]
      simp only [Rd.val_bind]
      rw [Rd.need_true (by omega), Rd.val_bind]
      simp only [Int.toNat_natCast, e3, Rd.val_bind, hc3, Bool.false_eq_true, if_false, e4]
      rw [Rd.need_true (by omega), Rd.val_bind]
      simp only [e5, Rd.val_bind, Rd.need_true hc5]
      rfl

theorem cut64_short (n : Nat) (s : Str) (h : s.length < 64) : cut64 n s = [] := by
  cases n with
  | zero => rfl
  | succ n => simp [cut64, h]

/-- There are no comments behind a record that ends on its last line. -/
theorem readComments_none {data : Str} {i j : Nat} (h : At (List.replicate j ' ') data i [])
    (hj : j < 64) (hlen : data.length % 64 = 0) : readComments data i = [] := by
  obtain ⟨pre, S, h1, h2, h3⟩ := h
  cases h3
  have hl : data.length = i + j := by rw [h1, h2]; simp
  unfold readComments
  apply cut64_short
  rw [List.length_drop]
  split <;> omega

/-- The complete cycle for one entity: what `format` writes, `readPD` reads with the values that the
entity-specific part finds, the optional pointers and no comments. -/
theorem pd_roundtrip {E : PdEnv} (hE : E.Ok) {de i0 etype limit : Int} {pre : List Int} {items : List Item}
    {groups : List (List (Item × Char))} {xs : List ExtraRef} {α : Type} {R : α → Prop}
    {body : Src → Cur → Rd (α × Cur)}
    (hde : 1 ≤ de ∧ de ≤ 9999999) (het : 100 ≤ etype ∧ etype ≤ 999)
    (hfit : (preText E.pd (etype :: pre)).length ≤ 64)
    (hitems : items ≠ []) (hok : ∀ it ∈ items, it.Ok)
    (hgroups : ∀ g ∈ groups, GroupOk g)
    (hflat : groups.flatten = closeItems E.pd (E.last xs) items)
    (hx : ExtrasOk xs) (hlim : 1 ≤ i0 ∧ i0 ≤ limit)
    (hroom : i0 + (roomOf items xs : Nat) ≤ 9999999)
    (hbody : ∀ T s c, SrcOf E s → Ready T s c (pre.map Param.int ++ (items.map (Item.param E) ++ extrasOf xs)) →
      ∃ a c', body s c = .val (a, c') ∧ R a ∧ Ready T s c' (extrasOf xs)) :
    ∃ n datas, formatPD E de (etype :: pre) groups xs [] limit i0 =
        .val (Spec.lines (Spec.pdTail de) i0 datas, n) ∧
      n = i0 + (datas.length : Nat) ∧ 0 < datas.length ∧ n ≤ i0 + (roomOf items xs : Nat) ∧
      (∀ d ∈ datas, d.length = 64) ∧ (∀ d ∈ datas, '\n' ∉ d) ∧
      ∃ a, R a ∧ ∀ more, readPDWith E etype de i0 (n - i0)
        (getlines [] (Spec.lines (Spec.pdTail de) i0 datas ++ more)) body = .val (a, secA xs ++ secB xs, []) := by
  obtain ⟨n, datas, j, w1, w2, w3, w4, w5, w6, w7, w8, w9, w10, w11⟩ := pd_written hE hde het hfit hitems hok
    hgroups hflat hx hlim hroom
  have hs : SrcOf E ⟨datas.flatten, E.pd, E.rd, E.num⟩ := ⟨rfl, rfl, rfl, w9⟩
  have ok := hs.ok hE
  obtain ⟨a, c', b1, b2, b3⟩ := hbody _ _ _ hs w11
  refine ⟨n, datas, w1, w2, w3, w4, w5, w6, a, b2, fun more => ?_⟩
  have hmod : datas.flatten.length % 64 = 0 := by rw [flatten64 datas w5]; omega
  unfold readPDWith
  rw [w7 more, Rd.lift_ok]
  simp only [w8]
  rw [if_neg (by omega), b1, Rd.val_bind]
  by_cases hxs : xs = []
  · subst hxs
    simp only [extrasOf, if_true] at b3
    have he : c'.eor = true := b3.2
    simp only [he, if_true, Rd.val_bind]
    rw [readComments_none (j := j) b3.1 w10 hmod]
    rfl
  · have he : c'.eor = false := by
      have := b3.2
      rw [extrasOf, if_neg hxs] at this
      rw [this]; unfold extraParams; split
      · rfl
      · split <;> rfl
    obtain ⟨i', p1, p2⟩ := readExtraParams_written ok hx hxs b3
    simp only [he, Bool.false_eq_true, if_false, p1, Rd.val_bind]
    rw [readComments_none (j := j) p2 w10 hmod]
    rfl

theorem exItems_delimit {E : PdEnv} {xs : List ExtraRef} (hx : ExtrasOk xs) :
    exItems E xs = delimit E.pd E.rd (extrasOf xs) := by
  unfold exItems extrasOf
  by_cases h : xs = []
  · simp [h, delimit]
  · rw [if_neg h, if_neg h, extraItems_eq _ _ (extras_some hx h)]

/-- As `pd_roundtrip`, with given delimiters. -/
theorem pd_roundtrip_at {E : PdEnv} (hE : E.Ok) {de i0 etype limit : Int} {pre : List Int} {its : List (Item × Char)}
    {groups : List (List (Item × Char))} {xs : List ExtraRef} {α : Type} {R : α → Prop}
    {body : Src → Cur → Rd (α × Cur)}
    (hde : 1 ≤ de ∧ de ≤ 9999999) (het : 100 ≤ etype ∧ etype ≤ 999)
    (hfit : (preText E.pd (etype :: pre)).length ≤ 64)
    (hok : ∀ x ∈ its, x.1.Ok) (hdl : ∀ x ∈ its, x.2 = E.pd ∨ x.2 = E.rd)
    (hgroups : ∀ g ∈ groups, GroupOk g)
    (hflat : groups.flatten = its)
    (hsp : Spaced E.rd (toParams E its ++ exItems E xs))
    (hlast : ∃ x, (toParams E its ++ exItems E xs).getLast? = some x ∧ x.2 = E.rd)
    (hx : ExtrasOk xs) (hlim : 1 ≤ i0 ∧ i0 ≤ limit)
    (hroom : i0 + (roomOf (its.map Prod.fst) xs : Nat) ≤ 9999999)
    (hbody : ∀ T s c, SrcOf E s → c.eor = false →
      At T s.data c.idx ((pre.map fun n => (Param.int n, E.pd)) ++ (toParams E its ++ exItems E xs)) →
      ∃ a c', body s c = .val (a, c') ∧ R a ∧ At T s.data c'.idx (exItems E xs) ∧ c'.eor = xs.isEmpty) :
    ∃ n datas, formatPD E de (etype :: pre) groups xs [] limit i0 =
        .val (Spec.lines (Spec.pdTail de) i0 datas, n) ∧
      n = i0 + (datas.length : Nat) ∧ 0 < datas.length ∧ n ≤ i0 + (roomOf (its.map Prod.fst) xs : Nat) ∧
      (∀ d ∈ datas, d.length = 64) ∧ (∀ d ∈ datas, '\n' ∉ d) ∧
      ∃ a, R a ∧ ∀ more, readPDWith E etype de i0 (n - i0)
        (getlines [] (Spec.lines (Spec.pdTail de) i0 datas ++ more)) body = .val (a, secA xs ++ secB xs, []) := by
  obtain ⟨n, datas, j, w1, w2, w3, w4, w5, w6, w7, w8, w9, w10, w11⟩ := pd_written_at hE hde het hfit hok hdl
    hgroups hflat hsp hlast hx hlim hroom
  have hs : SrcOf E ⟨datas.flatten, E.pd, E.rd, E.num⟩ := ⟨rfl, rfl, rfl, w9⟩
  have ok := hs.ok hE
  obtain ⟨a, c', b1, b2, b3, b4⟩ := hbody _ ⟨datas.flatten, E.pd, E.rd, E.num⟩ ⟨4, false⟩ hs rfl w11
  refine ⟨n, datas, w1, w2, w3, w4, w5, w6, a, b2, fun more => ?_⟩
  have hmod : datas.flatten.length % 64 = 0 := by rw [flatten64 datas w5]; omega
  unfold readPDWith
  rw [w7 more, Rd.lift_ok]
  simp only [w8]
  rw [if_neg (by omega), b1, Rd.val_bind]
  by_cases hxs : xs = []
  · subst hxs
    simp only [exItems, if_true] at b3
    have he : c'.eor = true := b4
    simp only [he, if_true, Rd.val_bind]
    rw [readComments_none (j := j) b3 w10 hmod]
    rfl
  · have he : c'.eor = false := by rw [b4]; cases xs; exact absurd rfl hxs; rfl
    have hr : Ready (List.replicate j ' ') ⟨datas.flatten, E.pd, E.rd, E.num⟩ c' (extrasOf xs) := by
      refine ⟨by rw [exItems_delimit hx] at b3; exact b3, ?_⟩
      rw [he, extrasOf, if_neg hxs]; unfold extraParams; split
      · rfl
      · split <;> rfl
    obtain ⟨i', p1, p2⟩ := readExtraParams_written ok hx hxs hr
    simp only [he, Bool.false_eq_true, if_false, p1, Rd.val_bind]
    rw [readComments_none (j := j) p2 w10 hmod]
    rfl

end Iges
