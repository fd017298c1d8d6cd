import Verif.Props.Entities
/-
C43: comments and optional pointers.
-/
namespace Iges.Props
open Iges

/-- A longer read continues after a shorter one. -/
theorem gather_more {etype de pdata : Int} {pd rd : Char} {k : Nat} {t : Str} : ∀ (m i : Nat) (ls : List Str) (acc : Str),
    gatherPD etype de pdata pd rd m i ls acc = .ok (some t) →
    gatherPD etype de pdata pd rd (m + k) i ls acc = gatherPD etype de pdata pd rd k (i + m) (ls.drop m) t
  | 0, i, ls, acc, h => by
    simp only [gatherPD, Res.ok.injEq, Option.some.injEq] at h
    simp [h]
  | m + 1, i, ls, acc, h => by
    rw [show m + 1 + k = (m + k) + 1 by omega]
    cases ls with
    | nil => simp [gatherPD] at h
    | cons l ls =>
      have ih := gather_more (etype := etype) (de := de) (pdata := pdata) (pd := pd) (rd := rd) (k := k) (t := t) m (i + 1) ls
      rw [show i + (m + 1) = (i + 1) + m by omega, List.drop_succ_cons]
      simp only [gatherPD] at h ⊢
      split at h
      · simp at h
      · rename_i r hr
        split at h
        · simp at h
        rename_i e1
        split at h
        · simp at h
        rename_i e2
        split at h
        · simp at h
        rename_i e3
        rw [if_neg e1, if_neg e2, if_neg e3]
        split at h
        · simp at h
        rename_i _ v hv
        split at h
        · simp at h
        rename_i e4
        rw [if_neg e4]
        split at h
        · rename_i h0
          rw [if_pos h0]
          cases hp : ParseInt r.data 0 false pd rd none with
          | ub => simp [hp, Res.bind] at h
          | exn => simp [hp, Res.bind] at h
          | ok p =>
            simp only [hp, Res.bind] at h ⊢
            split at h
            · simp at h
            split at h
            · simp at h
            split at h
            · simp at h
            rename_i f1 f2 f3
            rw [if_neg f1, if_neg f2, if_neg f3]
            exact ih _ h
        · rename_i h0
          rw [if_neg h0]
          exact ih _ h

theorem commentLines_grow : ∀ (fuel : Nat) (c : Str) (seq : Int) (out o : Str) (m : Int),
    commentLines fuel c seq out = some (o, m) → ∃ w, o = out ++ w ∧ seq ≤ m
  | 0, c, seq, out, o, m, h => by
    simp only [commentLines, Option.some.injEq, Prod.mk.injEq] at h
    exact ⟨[], by simp [h.1], by omega⟩
  | fuel + 1, c, seq, out, o, m, h => by
    simp only [commentLines] at h
    split at h
    · simp only [Option.some.injEq, Prod.mk.injEq] at h
      exact ⟨[], by simp [h.1], by omega⟩
    · split at h
      · simp at h
      · obtain ⟨w, hw, hm⟩ := commentLines_grow fuel _ _ _ _ _ h
        exact ⟨_, by rw [hw, List.append_assoc], by omega⟩

theorem commentsLines_grow : ∀ (cs : List Str) (seq : Int) (out o : Str) (m : Int),
    commentsLines cs seq out = some (o, m) → ∃ w, o = out ++ w ∧ seq ≤ m
  | [], seq, out, o, m, h => by
    simp only [commentsLines, Option.some.injEq, Prod.mk.injEq] at h
    exact ⟨[], by simp [h.1], by omega⟩
  | c :: cs, seq, out, o, m, h => by
    simp only [commentsLines] at h
    split at h
    · simp at h
    · rename_i o' s' hc
      obtain ⟨w1, rfl, h1⟩ := commentLines_grow _ _ _ _ _ _ hc
      obtain ⟨w2, rfl, h2⟩ := commentsLines_grow cs _ _ _ _ h
      exact ⟨w1 ++ w2, by simp, by omega⟩

/-- The part of `format` before the comments. -/
theorem formatPD_split (E : PdEnv) (de : Int) (pre : List Int) (groups : List (List (Item × Char)))
    (xs : List ExtraRef) (limit i0 : Int) : ∃ r : Rd Emit, ∀ cs,
    formatPD E de pre groups xs cs limit i0 = r >>= fun e => formatComments cs e.fOut e.index := by
  by_cases hi : i0 < 1 ∨ i0 > limit
  · exact ⟨.fail, fun cs => by simp [formatPD, hi]⟩
  · by_cases hx : xs = []
    · refine ⟨emitGroups E de groups ⟨preText E.pd pre, [], i0⟩, fun cs => ?_⟩
      simp only [formatPD, if_neg hi, if_pos hx]
      cases emitGroups E de groups ⟨preText E.pd pre, [], i0⟩ <;> rfl
    · refine ⟨emitGroups E de groups ⟨preText E.pd pre, [], i0⟩ >>= formatExtraParams E de xs, fun cs => ?_⟩
      simp only [formatPD, if_neg hi, if_neg hx]
      cases emitGroups E de groups ⟨preText E.pd pre, [], i0⟩ <;> rfl

/-- The text of an entity with a short first comment: the lines without comments, one line with blank
columns where the DE pointer belongs, and more. -/
theorem commented_text {E : PdEnv} {de i0 limit : Int} {pre : List Int} {groups : List (List (Item × Char))}
    {xs : List ExtraRef} {c : Str} {cs : List Str} {out text : Str} {q n : Int} (hc : c ≠ []) (hl : c.length ≤ 64)
    (h0 : formatPD E de pre groups xs [] limit i0 = .val (out, q))
    (h1 : formatPD E de pre groups xs (c :: cs) limit i0 = .val (text, n)) :
    ∃ tail w, text = out ++ ((c ++ List.replicate (72 - c.length) ' ') ++ tail ++ '\n' :: w) ∧ '\n' ∉ tail ∧ q + 1 ≤ n := by
  obtain ⟨r, hr⟩ := formatPD_split E de pre groups xs limit i0
  rw [hr] at h0 h1
  cases r with
  | fail => simp at h0
  | ub => simp at h0
  | exn => cases h0
  | val e =>
    rw [Rd.val_bind] at h0 h1
    unfold formatComments at h0 h1
    split at h0
    · simp at h0
    · rename_i h81
      rw [if_neg h81] at h1
      simp only [commentsLines, Rd.val.injEq, Prod.mk.injEq] at h0
      obtain ⟨rfl, rfl⟩ := h0
      obtain ⟨a, c', rfl⟩ := List.exists_cons_of_ne_nil hc
      simp only [commentsLines, List.length_cons, commentLines, reduceCtorEq, if_false] at h1
      rw [List.take_of_length_le (by omega)] at h1
      cases hf : FormatDEInt e.index with
      | none => simp [hf] at h1
      | some s =>
        simp only [hf] at h1
        split at h1
        · simp at h1
        · rename_i r hr
          simp only [Rd.val.injEq] at h1
          subst h1
          split at hr
          · simp at hr
          · rename_i o s' hcl
            obtain ⟨w1, e1, g1⟩ := commentLines_grow _ _ _ _ _ _ hcl
            obtain ⟨w2, e2, g2⟩ := commentsLines_grow _ _ _ _ _ hr
            refine ⟨s.set 0 'P', w1 ++ w2, ?_, ?_, by omega⟩
            · rw [e2, e1]; simp
            · intro hm
              rcases List.mem_or_eq_of_mem_set hm with h | h
              · rw [FormatDEInt_rjust hf] at h
                exact rjust_no_nl _ _ h
              · revert h; decide

theorem stripEolRev_suffix : ∀ s : Str, stripEolRev s <:+ s
  | [] => by simp [stripEolRev]
  | [c] => by simp [stripEolRev]
  | c :: d :: r => by
    simp only [stripEolRev]
    split
    · exact (stripEolRev_suffix (d :: r)).trans (List.suffix_cons _ _)
    · exact List.suffix_refl _

theorem stripEol_prefix (s : Str) : stripEol s <+: s := by
  have := stripEolRev_suffix s.reverse
  rw [stripEol, ← List.reverse_suffix, List.reverse_reverse]
  exact this

/-- A line whose DE pointer columns are blank is not a parameter line of any entity. -/
theorem gather_blank {etype de pdata : Int} {pd rd : Char} {k i : Nat} {c tail : Str} {ls : List Str} {acc : Str}
    (hl : c.length ≤ 64) :
    gatherPD etype de pdata pd rd (k + 1) i (((c ++ List.replicate (72 - c.length) ' ') ++ tail) :: ls) acc = .ok none := by
  simp only [gatherPD]
  split
  · rfl
  · rename_i r hr
    split
    · rfl
    split
    · rfl
    split
    · rfl
    have hd : r.data = c ++ List.replicate (72 - c.length) ' ' := by
      unfold ReadIGESRecord at hr
      simp only [] at hr
      split at hr
      · simp at hr
      rename_i h80
      have hp := stripEol_prefix ((c ++ List.replicate (72 - c.length) ' ') ++ tail)
      generalize stripEol ((c ++ List.replicate (72 - c.length) ' ') ++ tail) = z at hp hr h80
      split at hr
      · simp at hr
      split at hr
      · simp at hr
      split at hr
      · simp at hr
      split at hr
      · simp at hr
      simp only [Option.some.injEq] at hr
      subst hr
      obtain ⟨t, ht⟩ := hp
      have h2 : List.take 72 (z ++ t) = List.take 72 z := by
        rw [List.take_append_of_le_length (by omega)]
      simp only []
      rw [← h2, ht, List.take_append_of_le_length (by simp; omega), List.take_of_length_le (by simp; omega)]
    split
    · rfl
    · rename_i v hv
      exfalso
      have hlen : r.data.length = 72 := by rw [hd]; simp; omega
      rcases (C02_field_value r.data 8 0 v none (by omega) (by omega)).mp hv with h | h
      · simp at h
      · refine intColumn_not_blank h ?_
        intro x hx
        rw [hd, substr, List.drop_append, List.drop_of_length_le (by omega)] at hx
        simp only [List.nil_append] at hx
        exact List.eq_of_mem_replicate (List.mem_of_mem_drop (List.mem_of_mem_take hx))

/-- C43, negation: an entity of any type that is written and read back without its comments cannot be
read back once its first comment is a text of at most 64 characters: whatever `format` writes for it,
`readPD` for the line number and count that `format` reports refuses the lines. -/
theorem C43_comment_refused {β : Type} (E : PdEnv) (etype de i0 limit : Int) (pre : List Int)
    (groups : List (List (Item × Char))) (xs : List ExtraRef) (body : Src → Cur → Rd (β × Cur))
    (R : β × List Int × List Str → Prop) (c : Str) (cs : List Str) (text more : Str) (n : Int) {most : Nat}
    (hcycle : Spec.PdCycle most de i0 (formatPD E de pre groups xs [] limit i0)
      (fun first count ls => readPDWith E etype de first count ls body) R)
    (hc : c ≠ []) (hl : c.length ≤ 64) (hn : '\n' ∉ c)
    (hfmt : formatPD E de pre groups xs (c :: cs) limit i0 = .val (text, n)) :
    readPDWith E etype de i0 (n - i0) (getlines [] (text ++ more)) body = .fail := by
  obtain ⟨datas, hne, -, hd, h0, b, -, hread⟩ := hcycle
  obtain ⟨tail, w, rfl, htail, hq⟩ := commented_text hc hl h0 hfmt
  have hi1 : 1 ≤ i0 := by
    by_contra h
    rw [formatPD, if_pos (Or.inl (by omega))] at h0
    simp at h0
  have hr := hread ((c ++ List.replicate (72 - c.length) ' ' ++ tail ++ '\n' :: w) ++ more)
  have hL : ∀ r, getlines [] (Spec.lines (Spec.pdTail de) i0 datas ++ r) =
      lineList (Spec.pdTail de) i0 datas ++ getlines [] r := fun r =>
    getlines_lines _ _ _ _ (fun k => pdTail_no_nl de k) (fun d h => (hd d h).2)
  have hline : getlines [] ((c ++ List.replicate (72 - c.length) ' ' ++ tail ++ '\n' :: w) ++ more) =
      (c ++ List.replicate (72 - c.length) ' ' ++ tail) :: getlines [] (w ++ more) := by
    rw [List.append_assoc _ _ more, List.cons_append, getlines_line]
    · rfl
    · simp only [List.mem_append, not_or]
      exact ⟨⟨hn, fun h => absurd (List.eq_of_mem_replicate h) (by decide)⟩, htail⟩
  rw [hL, hline] at hr
  rw [List.append_assoc, hL, hline]
  have hlen : ∀ (i : Int) (ds : List Str), (lineList (Spec.pdTail de) i ds).length = ds.length := by
    intro i ds
    induction ds generalizing i with
    | nil => rfl
    | cons d ds ih => simp [lineList, ih]
  have hfail : readPDText etype de i0 (n - i0) E.pd E.rd (lineList (Spec.pdTail de) i0 datas ++
      (c ++ List.replicate (72 - c.length) ' ' ++ tail) :: getlines [] (w ++ more)) = .ok none := by
    simp only [readPDWith] at hr
    unfold readPDText at hr ⊢
    rw [if_neg (by omega)] at hr ⊢
    split at hr
    · simp at hr
    rename_i e2
    split at hr
    · simp at hr
    rw [if_neg e2]
    split
    · rfl
    obtain ⟨k, hk⟩ : ∃ k : Nat, (n - i0).toNat = datas.length + (k + 1) := ⟨(n - i0).toNat - datas.length - 1, by omega⟩
    rw [hk]
    simp only [Int.toNat_natCast] at hr
    generalize hls : lineList (Spec.pdTail de) i0 datas ++
      (c ++ List.replicate (72 - c.length) ' ' ++ tail) :: getlines [] (w ++ more) = ls at hr ⊢
    cases hg : gatherPD etype de i0 E.pd E.rd datas.length 0 ls [] with
    | ub => simp [hg, Rd.lift] at hr
    | exn => simp [hg, Rd.lift] at hr
    | ok o =>
      cases o with
      | none => simp [hg] at hr
      | some t =>
        rw [gather_more _ _ _ _ hg, ← hls, List.drop_left' (hlen _ _)]
        exact gather_blank hl
  rw [readPDWith, hfail]
  rfl

/-- The two lists of optional pointers that the round-trip theorems return hold every pointer exactly
as often as it was attached, associativities first. -/
theorem C43_pointers_kept {xs : List ExtraRef} (h : ExtrasOk xs) : (secA xs ++ secB xs).Perm (xs.map (·.de)) := by
  have key : ∀ ys : List ExtraRef, (∀ x ∈ ys, x.etype = 212 ∨ x.etype = 312 ∨ x.etype = 402 ∨ x.etype = 406) →
      (secA ys ++ secB ys).Perm (ys.map (·.de)) := by
    intro ys hy
    induction ys with
    | nil => simp [secA, secB]
    | cons y ys ih =>
      have := ih fun x hx => hy x (by simp [hx])
      rcases hy y (by simp) with e | e | e | e
      · simpa [secA, secB, e] using this
      · simpa [secA, secB, e] using this
      · simpa [secA, secB, e] using this
      · have h2 : secA (y :: ys) = secA ys := by simp [secA, e]
        have h3 : secB (y :: ys) = y.de :: secB ys := by simp [secB, e]
        rw [h2, h3, List.map_cons]
        exact (List.perm_middle).trans (this.cons _)
  exact key xs fun x hx => (h.2 x hx).1

/-- The part of C43 that holds, stated for lines: the optional pointers of an entity without comments
are read back, each as often as attached.  (The round-trip theorems of the other entities, C29 and C30,
have the same conclusion.)  Missing: comments, see `C43_comment_refused`. -/
theorem C43_optional_pointers_partial (E : PdEnv) (de i0 : Int) (l : Line) (xs : List ExtraRef) (hset : Setting E de i0 xs 12)
    (hb : ∀ x ∈ [l.X1, l.Y1, l.Z1, l.X2, l.Y2, l.Z2], |x| ≤ 10 ^ (300 : ℤ)) :
    Spec.PdCycle (12 + 2 * xs.length + 4) de i0 (l.format E de xs [] i0) (Line.readPD E de)
      (fun r => r.2.1.Perm (xs.map (·.de)) ∧ r.2.2 = []) := by
  obtain ⟨datas, h1, hm, h2, h3, b, hb, h4⟩ := C29_line E de i0 l xs hset hb
  exact ⟨datas, h1, hm, h2, h3, b, ⟨hb.2.1 ▸ C43_pointers_kept hset.extras, hb.2.2⟩, h4⟩

end Iges.Props
