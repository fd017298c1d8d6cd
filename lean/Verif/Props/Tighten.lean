import Verif.Props.Comments
import Verif.Props.Header
import Verif.Props.Attr
/-
Further parts of C42, C43 and C44: refused entities, the columns of comments, gaps in line numbers.
-/
namespace Iges.Props.Tighten
open Iges

/-- **C42_entity_refused**: a setter given an entity that already refers to this one, or does not accept the reference, answers
"no", and the getters find no entity. -/
theorem C42_entity_refused (grad : Option Int) (a : Iges.Attr.Attr) (c : Iges.Attr.Child) (hr : c.reply ≠ .accepted) :
    (∀ s ∈ [Iges.Attr.Setter.fontEnt (some c), .levelEnt (some c), .view (some c), .labelAssoc (some c), .colorEnt (some c)],
      (Iges.Attr.base grad a s).2 = false) ∧
    (Iges.Attr.GetLineFontPatternEntity (Iges.Attr.base grad a (.fontEnt (some c))).1).2 = none ∧
    (Iges.Attr.GetLevelEntity (Iges.Attr.base grad a (.levelEnt (some c))).1).2 = none ∧
    (Iges.Attr.GetView (Iges.Attr.base grad a (.view (some c))).1).2 = none ∧
    (Iges.Attr.GetLabelAssoc (Iges.Attr.base grad a (.labelAssoc (some c))).1).2 = none ∧
    (Iges.Attr.GetColorEntity (Iges.Attr.base grad a (.colorEnt (some c))).1).2 = none := by
  have h : ∀ b, Iges.Attr.attach c b = (none, false) := by
    intro b
    unfold Iges.Attr.attach
    cases b with
    | false => rfl
    | true => cases e : c.reply <;> simp [e] at hr ⊢
  refine ⟨?_, ?_, ?_, ?_, ?_, ?_⟩
  · intro s hs
    simp only [List.mem_cons, List.not_mem_nil, or_false] at hs
    rcases hs with rfl | rfl | rfl | rfl | rfl <;> simp only [Iges.Attr.base, h]
  · simp [Iges.Attr.base, h, Iges.Attr.GetLineFontPatternEntity]
  · simp [Iges.Attr.base, h, Iges.Attr.GetLevelEntity]
  · simp [Iges.Attr.base, h, Iges.Attr.GetView]
  · simp [Iges.Attr.base, h, Iges.Attr.GetLabelAssoc]
  · simp [Iges.Attr.base, h, Iges.Attr.GetColorEntity]

example : (⟨3, 304, 0, .duplicate⟩ : Iges.Attr.Child).reply ≠ .accepted := by intro h; cases h

/-- **C44_no_gaps**: whatever lines are read as a section, its records are numbered one after the other without a gap, all have
the letter of the section, and the section ends at the first record with another letter. -/
theorem C44_no_gaps (c : Char) (n : Nat) (r r' : Record) (ls rest : List Str) (ds : List Str)
    (h : gatherSection c n r ls = some (ds, r', rest)) : ∃ (rs : List Record) (used : List Str) (read : List Record),
    ls = used ++ rest ∧ List.Forall₂ (fun l x => ReadIGESRecord l = some x) used read ∧ r :: read = rs ++ [r'] ∧
    rs.map (·.data) = ds ∧ (∀ x ∈ rs, x.section_type = c) ∧ r'.section_type ≠ c ∧
    ∀ k (hk : k < rs.length), rs[k].index = n + 1 + k := by
  induction ls generalizing n r ds with
  | nil =>
    rw [gatherSection] at h
    split at h
    · rename_i hs
      cases h
      exact ⟨[], [], [], rfl, .nil, rfl, rfl, by simp, hs, by simp⟩
    · cases h
  | cons l ls ih =>
    rw [gatherSection] at h
    split at h
    · rename_i hs
      cases h
      exact ⟨[], [], [], rfl, .nil, rfl, rfl, by simp, hs, by simp⟩
    split at h
    · cases h
    rename_i hs hi
    split at h
    · cases h
    rename_i x hx
    obtain ⟨⟨ds', r'', rest'⟩, h1, h2⟩ := Option.map_eq_some_iff.1 h
    cases h2
    obtain ⟨rs, used, read, e1, e2, e3, e4, e5, e6, e7⟩ := ih (n + 1) x _ h1
    refine ⟨r :: rs, l :: used, x :: read, by rw [e1]; rfl, .cons hx e2, by rw [e3]; rfl, by rw [List.map_cons, e4], ?_, e6, ?_⟩
    · intro y hy
      rcases List.mem_cons.1 hy with rfl | hy
      · exact not_not.1 hs
      · exact e5 y hy
    · intro k hk
      cases k with
      | zero => simpa using not_not.1 hi
      | succ k =>
        have := e7 k (by simpa using hk)
        simp only [List.getElem_cons_succ, this]
        push_cast; omega

/-- the last columns of a line of a comment -/
def tail (i : Int) : Str := ((FormatDEInt i).getD []).set 0 'P'

/-- **C43_comment_columns**: the lines written for a comment have, in their first 72 columns, exactly its text, filled up with
blanks in the last line; they are numbered in order. -/
theorem C43_comment_columns (fuel : ℕ) (c : Str) (hf : c.length ≤ fuel) (seq m : Int) (out o : Str)
    (h : commentLines fuel c seq out = some (o, m)) : ∃ (pieces : List Str) (k : ℕ), o = out ++ Spec.lines tail seq pieces ∧
    (∀ p ∈ pieces, p.length = 72) ∧ pieces.flatten = c ++ List.replicate k ' ' ∧ k < 72 ∧ m = seq + pieces.length := by
  induction fuel generalizing c seq out with
  | zero =>
    have : c = [] := List.length_eq_zero_iff.1 (by omega)
    subst this
    cases h
    exact ⟨[], 0, by simp [Spec.lines], by simp, by simp, by omega, by simp⟩
  | succ fuel ih =>
    rw [commentLines] at h
    split at h
    · rename_i hc
      subst hc
      cases h
      exact ⟨[], 0, by simp [Spec.lines], by simp, by simp, by omega, by simp⟩
    rename_i hc
    simp only at h
    split at h
    · cases h
    rename_i s hs
    have hlen : 0 < c.length := List.length_pos_iff.2 hc
    obtain ⟨ps, k, e1, e2, e3, e4, e5⟩ := ih (c.drop 72) (by rw [List.length_drop]; omega) _ _ h
    have ht : tail seq = s.set 0 'P' := by unfold tail; rw [hs]; rfl
    have hp : (c.take 72 ++ List.replicate (72 - (c.take 72).length) ' ').length = 72 := by
      rw [List.length_append, List.length_replicate, List.length_take]; omega
    by_cases hl : c.length ≤ 72
    · have hd : c.drop 72 = [] := List.drop_of_length_le hl
      have htk : c.take 72 = c := List.take_of_length_le hl
      have hps : ps = [] := by
        rw [hd, List.nil_append] at e3
        cases ps with
        | nil => rfl
        | cons p ps =>
          have h1 := congrArg List.length e3
          have h2 := e2 p (by simp)
          simp only [List.flatten_cons, List.length_append, List.length_replicate] at h1
          omega
      subst hps
      refine ⟨[c.take 72 ++ List.replicate (72 - (c.take 72).length) ' '], 72 - c.length, ?_, ?_, ?_, ?_, ?_⟩
      · rw [e1]
        simp [Spec.lines, ht]
      · intro p hp'
        rw [List.mem_singleton] at hp'
        rw [hp']; exact hp
      · simp [htk]
      · omega
      · rw [e5]; simp
    · refine ⟨(c.take 72 ++ List.replicate (72 - (c.take 72).length) ' ') :: ps, k, ?_, ?_, ?_, e4, ?_⟩
      · rw [e1]
        simp [Spec.lines, ht]
      · intro p hp'
        rcases List.mem_cons.1 hp' with rfl | hp'
        · exact hp
        · exact e2 p hp'
      · have : 72 - (c.take 72).length = 0 := by rw [List.length_take]; omega
        rw [List.flatten_cons, e3, this, List.replicate_zero, List.append_nil, ← List.append_assoc, List.take_append_drop]
      · rw [e5]; push_cast [List.length_cons]; omega

/-- **C43_comments_taken**: what the reader takes for comments: after the end of the record, from the next multiple of 64 on, every
full piece of 64 characters. -/
theorem C43_comments_taken (pre rest : Str) (cs : List Str) (idx b : ℕ) (hp : pre.length = 64 * b) (h1 : idx ≤ pre.length)
    (h2 : pre.length < idx + 64) (hc : ∀ c ∈ cs, c.length = 64) (hr : rest.length < 64) :
    readComments (pre ++ (cs.flatten ++ rest)) idx = cs := by
  have e : (if idx % 64 = 0 then idx else idx + (64 - idx % 64)) = pre.length := by split <;> omega
  unfold readComments
  simp only
  rw [e, List.drop_left]
  have key : ∀ (cs : List Str) (n : ℕ), (∀ c ∈ cs, c.length = 64) → (cs.flatten ++ rest).length ≤ n → cut64 n (cs.flatten ++ rest) = cs := by
    intro cs
    induction cs with
    | nil =>
      intro n _ _
      cases n with
      | zero => rfl
      | succ n => simp [cut64, hr]
    | cons c cs ih =>
      intro n hcs hn
      have hcl := hcs c (by simp)
      simp only [List.flatten_cons, List.append_assoc, List.length_append] at hn ⊢
      cases n with
      | zero => omega
      | succ n =>
        rw [cut64, if_neg (by simp only [List.length_append]; omega)]
        rw [List.take_left' hcl, List.drop_left' hcl, ih n (fun c h => hcs c (by simp [h]))
          (by simp only [List.length_append]; omega)]
  exact key cs _ hc (by simp)

/-- a comment of 100 characters -/
example : ∃ o m, commentLines 100 (List.replicate 100 'x') 1 [] = some (o, m) ∧ m = 3 ∧ o.length = 162 := by
  refine ⟨_, _, rfl, ?_, ?_⟩ <;> decide +kernel

end Iges.Props.Tighten
