import Verif.Spec.Handout
/-
C99: lists handed out are the present ones.
-/
namespace Iges.Props
open Iges Iges.Handout

namespace Handed

/-- The copy is empty, longer than the list, or right. -/
def Good {α : Type} (l c : List α) : Prop := c = [] ∨ l.length < c.length ∨ c = l

theorem refresh_good {α : Type} {l c : List α} (hl : l ≠ []) (h : Good l c) : refresh l c = l := by
  unfold refresh
  rcases h with h | h | h
  · subst h; rw [if_pos]; simpa using hl
  · rw [if_pos]; omega
  · subst h; simp

theorem good_shorter {α : Type} {l l' c : List α} (h : Good l c)
    (hs : l'.length < l.length ∨ l' = l) : Good l' c := by
  rcases hs with hs | hs
  · rcases h with h | h | h
    · exact Or.inl h
    · exact Or.inr (Or.inl (by omega))
    · subst h; exact Or.inr (Or.inl hs)
  · subst hs; exact h

theorem mem_step (m m' : Members) (c : MCall) (cs : List MCall) (h : Good m.items m.copy)
    (hr : c.run m = some m') : Good m'.items m'.copy ∧
      Spec.members m.items (c :: cs) = Spec.members m'.items cs := by
  cases c with
  | add e fit taken =>
    simp only [MCall.run, addMember, Option.some.injEq] at hr
    subst hr
    cases fit <;> cases taken <;> by_cases he : e ∈ m.items <;>
      simp_all [Spec.members, Good]
  | del e =>
    simp only [MCall.run, delMember, Option.some.injEq] at hr
    subst hr
    by_cases he : e ∈ m.items
    · rw [if_pos he]
      refine ⟨good_shorter h (Or.inl ?_), rfl⟩
      have := List.length_erase_of_mem he
      have := List.length_pos_of_mem he
      simp only; omega
    · rw [if_neg he]
      exact ⟨h, by simp [Spec.members, List.erase_of_not_mem he]⟩
  | compact =>
    simp only [MCall.run, Option.some.injEq] at hr
    subst hr
    exact ⟨Or.inl rfl, rfl⟩
  | list =>
    simp only [MCall.run, Option.some.injEq] at hr
    subst hr
    unfold getMembers
    by_cases hi : m.items = []
    · rw [if_pos hi]; exact ⟨h, rfl⟩
    · rw [if_neg hi]
      exact ⟨Or.inr (Or.inr (refresh_good hi h)), rfl⟩
  | dllList =>
    simp only [MCall.run, dllGetMembers] at hr
    by_cases hi : m.items = []
    · cases hc : refresh m.items m.copy with
      | nil => rw [hc] at hr; simp at hr
      | cons a l =>
        rw [hc] at hr
        simp only [Option.map_some, Option.some.injEq] at hr
        subst hr
        refine ⟨Or.inr (Or.inl ?_), rfl⟩
        simp [hi]
    · rw [refresh_good hi h] at hr
      cases hc : m.items with
      | nil => exact absurd hc hi
      | cons a l =>
        rw [hc] at hr
        simp only [Option.map_some, Option.some.injEq] at hr
        subst hr
        refine ⟨Or.inr (Or.inr ?_), ?_⟩
        · simp
        · simp [Spec.members]

theorem mem_run (cs : List MCall) : ∀ (m m' : Members), Good m.items m.copy →
    runMembers m cs = some m' → Good m'.items m'.copy ∧ m'.items = Spec.members m.items cs := by
  induction cs with
  | nil =>
    intro m m' h hr
    simp only [runMembers, Option.some.injEq] at hr
    subst hr; exact ⟨h, rfl⟩
  | cons c cs ih =>
    intro m m' h hr
    simp only [runMembers, Option.bind_eq_some_iff] at hr
    obtain ⟨m1, h1, h2⟩ := hr
    obtain ⟨g, e⟩ := mem_step m m1 c cs h h1
    obtain ⟨g', e'⟩ := ih m1 m' g h2
    exact ⟨g', e'.trans e.symm⟩

/-- The state of a list of texts: addresses are distinct and the copy is good. -/
def TGood (t : Texts) : Prop :=
  (t.items.map Prod.fst).Nodup ∧ Good (t.items.map Prod.fst) t.copy

theorem deref_self (l : List (Nat × Str)) (c : List Nat) (h : (l.map Prod.fst).Nodup) :
    (l.map Prod.fst).map (Texts.deref ⟨l, c⟩) = (l.map Prod.snd).map some := by
  rw [List.map_map, List.map_map]
  apply List.map_congr_left
  intro x hx
  have : l.find? (fun y => y.1 == x.1) = some x := by
    induction l with
    | nil => simp at hx
    | cons y l ih =>
      simp only [List.map_cons, List.nodup_cons] at h
      rw [List.find?_cons]
      rcases List.mem_cons.1 hx with e | e
      · subst e; simp
      · have : ¬ y.1 = x.1 := fun hh => h.1 (hh ▸ List.mem_map_of_mem e)
        rw [show (y.1 == x.1) = false by simpa using this]; exact ih h.2 e
  simp [Texts.deref, this]

theorem hands (t : Texts) (h : TGood t) : Spec.HandsOut t (t.items.map Prod.snd) := by
  unfold Spec.HandsOut getTexts
  by_cases hi : t.items = []
  · simp [hi]
  · have hi' : t.items.map Prod.fst ≠ [] := by simpa using hi
    have hi2 : t.items.map Prod.snd ≠ [] := by simpa using hi
    rw [if_neg hi, if_neg hi2]
    simp only [Option.map_some, Option.some.injEq]
    rw [refresh_good hi' h.2]
    exact deref_self _ _ h.1

theorem get_good (t : Texts) (h : TGood t) : TGood (getTexts t).1 ∧
    (getTexts t).1.items = t.items := by
  unfold getTexts
  by_cases hi : t.items = []
  · rw [if_pos hi]; exact ⟨h, rfl⟩
  · have hi' : t.items.map Prod.fst ≠ [] := by simpa using hi
    rw [if_neg hi]
    exact ⟨⟨h.1, Or.inr (Or.inr (refresh_good hi' h.2))⟩, rfl⟩

theorem erase_map {α β : Type} (f : α → β) : ∀ (l : List α) (n : Nat),
    (l.eraseIdx n).map f = (l.map f).eraseIdx n
  | [], _ => by simp
  | _ :: _, 0 => by simp
  | _ :: l, n + 1 => by simp [erase_map f l n]

theorem com_step (t t' : Texts) (c : TCall) (cs : List TCall) (h : TGood t)
    (hr : c.run t = some t') : TGood t' ∧
      Spec.comments (t.items.map Prod.snd) (c :: cs) = Spec.comments (t'.items.map Prod.snd) cs := by
  cases c with
  | add a s =>
    simp only [TCall.run] at hr
    split at hr
    · cases hr
    · rename_i ha
      cases hr
      refine ⟨⟨?_, Or.inl rfl⟩, ?_⟩
      · simp only [addComment, List.map_append, List.map_cons, List.map_nil]
        rw [List.nodup_append]
        refine ⟨h.1, by simp, ?_⟩
        intro x hx y hy
        simp only [List.mem_singleton] at hy
        subst hy
        exact fun e => ha (e ▸ hx)
      · simp [Spec.comments, addComment]
  | del i =>
    simp only [TCall.run, delComment, Option.some.injEq] at hr
    subst hr
    by_cases hi : i < 0 ∨ i ≥ t.items.length
    · rw [if_pos hi]
      refine ⟨h, ?_⟩
      rcases hi with hi | hi
      · simp [Spec.comments, show ¬ (0 ≤ i) by omega]
      · have : (t.items.map Prod.snd).length ≤ i.toNat := by simp; omega
        simp [Spec.comments, List.eraseIdx_of_length_le this]
    · rw [if_neg hi]
      have hl : i.toNat < t.items.length := by omega
      have e1 : ∀ f : Nat × Str → Nat, (t.items.eraseIdx i.toNat).map f = (t.items.map f).eraseIdx i.toNat :=
        fun f => erase_map f _ _
      refine ⟨⟨?_, good_shorter h.2 (Or.inl ?_)⟩, ?_⟩
      · simp only
        rw [e1]
        exact h.1.sublist (List.eraseIdx_sublist _ _)
      · simp only [List.length_map]
        rw [List.length_eraseIdx_of_lt hl]; omega
      · simp [Spec.comments, show 0 ≤ i by omega, erase_map]
  | clear =>
    simp only [TCall.run, Option.some.injEq] at hr
    subst hr
    refine ⟨⟨by simp [clearComments], good_shorter h.2 ?_⟩, rfl⟩
    by_cases hi : t.items = []
    · right; simp [clearComments, hi]
    · left
      have := List.length_pos_iff.2 hi
      simpa [clearComments] using this
  | compact =>
    simp only [TCall.run, Option.some.injEq] at hr
    subst hr
    exact ⟨⟨h.1, Or.inl rfl⟩, rfl⟩
  | list =>
    simp only [TCall.run, Option.some.injEq] at hr
    subst hr
    obtain ⟨g, e⟩ := get_good t h
    exact ⟨g, by rw [e]; rfl⟩

theorem com_run (cs : List TCall) : ∀ (t t' : Texts), TGood t → runTexts t cs = some t' →
    TGood t' ∧ t'.items.map Prod.snd = Spec.comments (t.items.map Prod.snd) cs := by
  induction cs with
  | nil =>
    intro t t' h hr
    simp only [runTexts, Option.some.injEq] at hr
    subst hr; exact ⟨h, rfl⟩
  | cons c cs ih =>
    intro t t' h hr
    simp only [runTexts, Option.bind_eq_some_iff] at hr
    obtain ⟨t1, h1, h2⟩ := hr
    obtain ⟨g, e⟩ := com_step t t1 c cs h h1
    obtain ⟨g', e'⟩ := ih t1 t' g h2
    exact ⟨g', e'.trans e.symm⟩

/-- The state of the header lines: as before, but the copy is not longer than the list. -/
def HGood (t : Texts) : Prop :=
  (t.items.map Prod.fst).Nodup ∧ (t.copy = [] ∨ t.copy = t.items.map Prod.fst)

theorem HGood.tgood {t : Texts} (h : HGood t) : TGood t :=
  ⟨h.1, h.2.elim Or.inl fun e => Or.inr (Or.inr e)⟩

theorem addTo (l : List Str) (s : Str) : AddToHeader l s = l ++ AddToHeader [] s := by
  unfold AddToHeader
  split
  · simp
  · split
    · simp
    · split <;> simp

theorem fst_zip (as : List Nat) (ls : List Str) (h : as.length = ls.length) :
    (as.zip ls).map Prod.fst = as := List.map_fst_zip (by omega)

theorem snd_zip (as : List Nat) (ls : List Str) (h : as.length = ls.length) :
    (as.zip ls).map Prod.snd = ls := List.map_snd_zip (by omega)

/-- A call that is no clearing and no reading keeps the state good. -/
theorem head_step (t t' : Texts) (c : HCall) (cs : List HCall) (h : HGood t)
    (hc : (match c with | .clear => False | .read _ _ _ => False | _ => True) ∨ t.copy = [])
    (hr : c.run t = some t') : HGood t' ∧ (t.copy = [] → c ≠ .list → t'.copy = []) ∧
      Spec.headers (t.items.map Prod.snd) (c :: cs) = Spec.headers (t'.items.map Prod.snd) cs := by
  cases c with
  | add as s =>
    simp only [HCall.run] at hr
    split at hr
    · rename_i hf
      obtain ⟨h1, h2, h3⟩ := hf
      cases hr
      by_cases hs : s = []
      · simp only [addHeader, if_pos hs]
        refine ⟨h, fun e _ => e, ?_⟩
        simp [Spec.headers, AddToHeader, hs]
      · simp only [addHeader, if_neg hs]
        refine ⟨⟨?_, Or.inl rfl⟩, fun _ _ => by simp, ?_⟩
        · simp only [List.map_append, fst_zip _ _ h1]
          rw [List.nodup_append]
          exact ⟨h.1, h2, fun x hx y hy e => h3 y hy (e ▸ hx)⟩
        · simp only [Spec.headers, List.map_append, snd_zip _ _ h1]
          rw [addTo]
    · cases hr
  | clear =>
    have hc : t.copy = [] := by rcases hc with hc | hc; · exact hc.elim
                                · exact hc
    simp only [HCall.run, Option.some.injEq] at hr
    subst hr
    exact ⟨⟨by simp [clearHeader], Or.inl hc⟩, fun _ _ => hc, rfl⟩
  | read as lines good =>
    have hc : t.copy = [] := by rcases hc with hc | hc; · exact hc.elim
                                · exact hc
    simp only [HCall.run] at hr
    split at hr
    · rename_i hf
      obtain ⟨h1, h2, h3⟩ := hf
      cases hr
      unfold readHeader
      split
      · rename_i hg
        refine ⟨⟨by simp [clearHeader], Or.inl hc⟩, fun _ _ => hc, ?_⟩
        rcases hg with hg | hg
        · simp [Spec.headers, hg, clearHeader]
        · have : (t.items.map Prod.snd).isEmpty = false := by simp [hg]
          simp only [Spec.headers, this, Bool.and_false]
          rfl
      · rename_i hg
        simp only [not_or, Bool.not_eq_false, Decidable.not_not, ne_eq] at hg
        refine ⟨⟨?_, Or.inl hc⟩, fun _ _ => hc, ?_⟩
        · simp only [fst_zip _ _ h1]; exact h2
        · simp [Spec.headers, hg.1, hg.2, snd_zip _ _ h1]
    · cases hr
  | write a =>
    simp only [HCall.run] at hr
    split at hr
    · cases hr
    · cases hr
      unfold writeHeader
      by_cases hi : t.items = []
      · have hcc : t.copy = [] := by rcases h.2 with e | e
                                     · exact e
                                     · simpa [hi] using e
        rw [if_pos hi]
        refine ⟨⟨by simp, Or.inl hcc⟩, fun _ _ => hcc, ?_⟩
        simp [Spec.headers, hi]
      · rw [if_neg hi]
        refine ⟨h, fun e _ => e, ?_⟩
        have : (t.items.map Prod.snd).isEmpty = false := by simp [hi]
        simp only [Spec.headers, this]
        rfl
  | list =>
    simp only [HCall.run, Option.some.injEq] at hr
    subst hr
    obtain ⟨g, e⟩ := get_good t h.tgood
    refine ⟨⟨g.1, ?_⟩, fun _ hh => absurd rfl hh, by rw [e]; rfl⟩
    unfold getTexts
    by_cases hi : t.items = []
    · rw [if_pos hi]; exact h.2
    · have hi' : t.items.map Prod.fst ≠ [] := by simpa using hi
      rw [if_neg hi]
      exact Or.inr (refresh_good hi' h.tgood.2)

theorem head_after (cs : List HCall) : ∀ (t t' : Texts), HGood t →
    (∀ c ∈ cs, match c with | .clear => False | .read _ _ _ => False | _ => True) →
    runHeaders t cs = some t' →
    HGood t' ∧ t'.items.map Prod.snd = Spec.headers (t.items.map Prod.snd) cs := by
  induction cs with
  | nil =>
    intro t t' h _ hr
    simp only [runHeaders, Option.some.injEq] at hr
    subst hr; exact ⟨h, rfl⟩
  | cons c cs ih =>
    intro t t' h hc hr
    simp only [runHeaders, Option.bind_eq_some_iff] at hr
    obtain ⟨t1, h1, h2⟩ := hr
    obtain ⟨g, -, e⟩ := head_step t t1 c cs h (Or.inl (hc c (by simp))) h1
    obtain ⟨g', e'⟩ := ih t1 t' g (fun d hd => hc d (by simp [hd])) h2
    exact ⟨g', e'.trans e.symm⟩

theorem head_run (cs : List HCall) : ∀ (t t' : Texts), HGood t → t.copy = [] →
    Spec.ClearsFirst cs → runHeaders t cs = some t' →
    HGood t' ∧ t'.items.map Prod.snd = Spec.headers (t.items.map Prod.snd) cs := by
  induction cs with
  | nil =>
    intro t t' h _ _ hr
    simp only [runHeaders, Option.some.injEq] at hr
    subst hr; exact ⟨h, rfl⟩
  | cons c cs ih =>
    intro t t' h h0 hc hr
    simp only [runHeaders, Option.bind_eq_some_iff] at hr
    obtain ⟨t1, h1, h2⟩ := hr
    obtain ⟨g, k, e⟩ := head_step t t1 c cs h (Or.inr h0) h1
    by_cases hl : c = .list
    · subst hl
      obtain ⟨g', e'⟩ := head_after cs t1 t' g hc h2
      exact ⟨g', e'.trans e.symm⟩
    · have k0 := k h0 hl
      have hc' : Spec.ClearsFirst cs := by
        cases c with
        | list => exact absurd rfl hl
        | _ => exact hc
      obtain ⟨g', e'⟩ := ih t1 t' g k0 hc' h2
      exact ⟨g', e'.trans e.symm⟩

end Handed

/-- C99, members of a subfigure definition and holes of a trimmed surface: whatever was read
(`start`) and whatever calls were made since, the query gives exactly the entities that are in the
list now, in their order, and fails if and only if there are none. -/
theorem C99_members (start : List Nat) (calls : List MCall) (m : Members)
    (hr : runMembers ⟨start, []⟩ calls = some m) :
    (getMembers m).2 = if Spec.members start calls = [] then none
      else some (Spec.members start calls) := by
  obtain ⟨g, e⟩ := Handed.mem_run calls _ m (Or.inl rfl) hr
  simp only at e
  unfold getMembers
  rw [e] at g ⊢
  by_cases hi : Spec.members start calls = []
  · rw [if_pos hi, if_pos hi]
  · rw [if_neg hi, if_neg hi, Handed.refresh_good hi g]

/-- C99: through the wrapper for other compilers the answer is the same, if there is a member. -/
theorem C99_members_dll_partial (start : List Nat) (calls : List MCall) (m : Members)
    (hr : runMembers ⟨start, []⟩ calls = some m) (hn : Spec.members start calls ≠ []) :
    (dllGetMembers m).map Prod.snd = some (Spec.members start calls) := by
  obtain ⟨g, e⟩ := Handed.mem_run calls _ m (Or.inl rfl) hr
  simp only at e
  unfold dllGetMembers
  rw [e] at g ⊢
  rw [Handed.refresh_good hn g]
  cases h : Spec.members start calls with
  | nil => exact absurd h hn
  | cons a l => rfl

/-- C99 fails for the wrapper: asking a new subfigure definition for its members is undefined. -/
theorem C99_dll_empty_undefined : dllGetMembers ⟨[], []⟩ = none := rfl

/-- Non-vacuity: one member replaced by another between two queries. -/
example : ∃ m, runMembers ⟨[3, 4], []⟩ [.list, .del 3, .add 7 true true, .add 4 true false] = some m ∧
    (getMembers m).2 = some [4, 7] := ⟨_, rfl, rfl⟩

/-- C99, comments: after any history of calls, every pointer handed out leads to a comment that is
still there, and together they are the comments in their order; the query fails if and only if there
are none. -/
theorem C99_comments (calls : List TCall) (t : Texts) (hr : runTexts ⟨[], []⟩ calls = some t) :
    Spec.HandsOut t (Spec.comments [] calls) := by
  obtain ⟨g, e⟩ := Handed.com_run calls _ t ⟨by simp, Or.inl rfl⟩ hr
  have := Handed.hands t g
  rwa [e] at this

/-- C99: asking for one comment or one hole gives the one at that place, counted from zero, and
NULL exactly if there is no such place. -/
theorem C99_index {α : Type} (l : List α) (i : Int) :
    (∀ k : Nat, i = k → getOne l i = l[k]?) ∧
    (getOne l i = none ↔ ¬ ∃ k : Nat, i = k ∧ k < l.length) := by
  unfold getOne
  constructor
  · intro k hk
    subst hk
    split
    · rw [eq_comm, List.getElem?_eq_none_iff]; omega
    · simp
  · split
    · simp only [true_iff]
      rintro ⟨k, rfl, hk⟩
      omega
    · rename_i h
      rw [List.getElem?_eq_none_iff]
      constructor
      · intro h1; omega
      · intro h1; exact absurd ⟨i.toNat, by omega, by omega⟩ h1

/-- Non-vacuity: a comment deleted and another added at the same address. -/
example : ∃ t, runTexts ⟨[], []⟩ [.add 1 ['a'], .add 2 ['b'], .list, .del 0, .add 1 ['c']] = some t ∧
    Spec.comments [] [.add 1 ['a'], .add 2 ['b'], .list, .del 0, .add 1 ['c']] = [['b'], ['c']] :=
  ⟨_, rfl, rfl⟩

/-- C99, header lines, in part: the query gives the present lines if the model was not cleared or read
after a query for them. -/
theorem C99_headers_partial (calls : List HCall) (t : Texts) (hc : Spec.ClearsFirst calls)
    (hr : runHeaders ⟨[], []⟩ calls = some t) : Spec.HandsOut t (Spec.headers [] calls) := by
  obtain ⟨g, e⟩ := Handed.head_run calls _ t ⟨by simp, Or.inl rfl⟩ rfl hc hr
  have := Handed.hands t g.tgood
  rwa [e] at this

/-- Non-vacuity: clear, read a line, ask, add a line, ask. -/
example : ∃ t, runHeaders ⟨[], []⟩ [.clear, .read [1] [['a']] true, .list, .add [2] ['b'], .list] = some t ∧
    Spec.ClearsFirst [.clear, .read [1] [['a']] true, .list, .add [2] ['b'], .list] := by
  refine ⟨_, rfl, ?_⟩
  simp [Spec.ClearsFirst]

/-- C99 fails for header lines: a line, a query, `Clear`, reading a file with one line, and a query:
the pointer handed out leads to the line that was cleared. -/
theorem C99_headers_stale : ∃ (calls : List HCall) (t : Texts), runHeaders ⟨[], []⟩ calls = some t ∧
    Spec.headers [] calls = [['b']] ∧
    (getTexts t).2.map (fun v => v.map (getTexts t).1.deref) = some [none] :=
  ⟨[.add [1] ['a'], .list, .clear, .read [2] [['b']] true], _, rfl, rfl, rfl⟩

/-- The same with `Write` instead of a file that is read. -/
theorem C99_headers_stale_write : ∃ (calls : List HCall) (t : Texts),
    runHeaders ⟨[], []⟩ calls = some t ∧ Spec.headers [] calls = [pad72 defaultStart] ∧
    (getTexts t).2.map (fun v => v.map (getTexts t).1.deref) = some [none] :=
  ⟨[.add [1] ['a'], .list, .clear, .write 2], _, rfl, rfl, rfl⟩

/-- C99 fails for the number of header lines: a model with a line answers the query, and the
caller's variable keeps what it had before, whatever that was. -/
theorem C99_headers_size (n : Nat) : ∃ (calls : List HCall) (t : Texts),
    runHeaders ⟨[], []⟩ calls = some t ∧ Spec.headers [] calls ≠ [] ∧
    (getHeaders t n).2.1.isSome ∧ (getHeaders t n).2.2 = n :=
  ⟨[.add [1] ['a']], _, rfl, by simp [Spec.headers, AddToHeader], rfl, rfl⟩

/-- C99 fails for the edges of an edge list: the query never succeeds and never tells the number. -/
theorem C99_edges_never (t : Edges) (n : Nat) :
    (getEdges t n).2.1 = false ∧ (getEdges t n).2.2.2 = n := by
  unfold getEdges
  split <;> exact ⟨rfl, rfl⟩

/-- C99: the array of edges is the present one after additions alone, or on the first query. -/
theorem C99_edges_partial (old es : List Edge) (n : Nat) :
    (getEdges ⟨old, []⟩ n).2.2.1 = old ∧
    (getEdges (es.foldl addEdge (getEdges ⟨old, []⟩ n).1) n).2.2.1 = old ++ es := by
  have hf : ∀ (es : List Edge) (u : Edges), es.foldl addEdge u = ⟨u.items ++ es, u.copy⟩ := by
    intro es
    induction es with
    | nil => intro u; simp
    | cons e es ih => intro u; rw [List.foldl_cons, ih]; simp [addEdge]
  have h0 : getEdges ⟨old, []⟩ n = (⟨old, old⟩, false, old, n) := by
    unfold getEdges
    by_cases hi : old = [] <;> simp [hi]
  rw [h0, hf]
  refine ⟨rfl, ?_⟩
  unfold getEdges
  by_cases h1 : old = []
  · by_cases h2 : es = [] <;> simp [h1, h2]
  · by_cases h2 : es = [] <;> simp [h1, h2]

/-- C99 fails for edges: an edge, a query, its curve deleted, another edge, and a query: the array
has the first edge. -/
theorem C99_edges_stale : ∃ e f : Edge, e ≠ f ∧
    let t := addEdge (unlinkCurve (getEdges (addEdge ⟨[], []⟩ e) 0).1 e.curv) f
    t.items = [f] ∧ (getEdges t 0).2.2.1 = [e] :=
  ⟨⟨1, 2, 1, 2, 2⟩, ⟨3, 2, 1, 2, 2⟩, by decide, rfl, rfl⟩

/-- C99, bounds of a face: the answer is right if there is one, and undefined if there is none. -/
theorem C99_bounds_partial (loops : List Nat) :
    (loops ≠ [] → getBounds loops = some (loops.length, loops)) ∧
    (loops = [] → getBounds loops = none) := by
  unfold getBounds
  exact ⟨fun h => if_neg h, fun h => if_pos h⟩

example : getBounds [5, 6] = some (2, [5, 6]) := rfl

end Iges.Props
