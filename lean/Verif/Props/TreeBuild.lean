import Verif.Spec.Tree
import Verif.Props.Trees

/-!
C32: building boolean trees.
-/

namespace Iges.Props.TreeBuild
open Iges Iges.Tree Iges.Spec.Tree

/-- Operands minus operators. -/
def weight (ns : List BNode) : Int :=
  ((ns.countP fun n => !n.isOp : Nat) : Int) - (ns.countP (·.isOp) : Nat)

theorem weight_cons (n : BNode) (ns : List BNode) :
    weight (n :: ns) = (if n.isOp then -1 else 1) + weight ns := by
  unfold weight
  simp only [List.countP_cons]
  cases n.isOp <;> simp <;> omega

theorem eval_length : ∀ (ns : List BNode) (st r : List Expr), eval st ns = some r →
    (r.length : Int) = st.length + weight ns
  | [], st, r, h => by
    simp only [eval, Option.some.injEq] at h
    subst h; simp [weight]
  | .arg d :: ns, st, r, h => by
    simp only [eval] at h
    have := eval_length ns _ r h
    rw [this, weight_cons]
    simp [BNode.isOp]; omega
  | .op v :: ns, [], r, h => by simp [eval] at h
  | .op v :: ns, [a], r, h => by simp [eval] at h
  | .op v :: ns, b :: a :: st, r, h => by
    simp only [eval] at h
    have := eval_length ns _ r h
    rw [this, weight_cons]
    simp [BNode.isOp]

theorem balanced_iff (ns : List BNode) : balanced ns ↔ weight ns = 1 := by
  unfold balanced weight; omega

theorem one_of_balanced {ns : List BNode} (h : balanced ns) (hu : NoUnderflow ns) : OneSolid ns := by
  obtain ⟨st, hst⟩ := hu
  have hl := eval_length ns [] st hst
  rw [(balanced_iff ns).1 h] at hl
  simp at hl
  obtain ⟨e, rfl⟩ := List.length_eq_one_iff.1 hl
  exact ⟨e, hst⟩

theorem balanced_of_one {ns : List BNode} (h : OneSolid ns) : balanced ns := by
  obtain ⟨e, he⟩ := h
  have hl := eval_length ns [] _ he
  rw [balanced_iff]
  simpa using hl.symm

theorem eval_append : ∀ (ns ms : List BNode) (st : List Expr),
    eval st (ns ++ ms) = (eval st ns).bind fun r => eval r ms
  | [], _, _ => rfl
  | .arg d :: ns, ms, st => by simp only [List.cons_append, eval]; exact eval_append ns ms _
  | .op v :: ns, ms, [] => by simp [eval]
  | .op v :: ns, ms, [a] => by simp [eval]
  | .op v :: ns, ms, b :: a :: st => by simp only [List.cons_append, eval]; exact eval_append ns ms _

theorem format_balanced {E : PdEnv} {de : Int} {ns : List BNode} {xs : List ExtraRef} {cs : List Str} {i : Int}
    {r : Str × Int} (h : treeFormat E de ns xs cs i = .val r) : 3 ≤ ns.length ∧ balanced ns := by
  unfold treeFormat at h
  split at h
  · cases h
  split at h
  · cases h
  split at h
  · cases h
  rename_i h1 h2
  exact ⟨by omega, by simpa using h2⟩

/-- C32, what is proved of all sequences of calls: a tree that is written describes exactly one
solid, provided that no operator lacks an operand.  What is missing: operators that lack an operand
are accepted (`C32_fails_underflow`). -/
theorem C32_written_partial (cs : List Call) (E : PdEnv) (de : Int) (xs : List ExtraRef) (com : List Str)
    (i : Int) (r : Str × Int) (h : treeFormat E de (run cs).nodes xs com i = .val r)
    (hu : NoUnderflow (run cs).nodes) : OneSolid (run cs).nodes :=
  one_of_balanced (format_balanced h).2 hu

theorem val_of_bind {α β : Type} {r : Rd α} {f : α → Rd β} {b : β} (h : (r >>= f) = .val b) :
    ∃ a, r = .val a ∧ f a = .val b := by
  cases r with
  | val a => exact ⟨a, rfl, h⟩
  | fail => cases h
  | ub => cases h
  | exn => cases h

theorem need_val {p : Prop} [Decidable p] {u : Unit} (h : Rd.need p = .val u) : p := by
  by_contra hp
  rw [Rd.need_false hp] at h
  cases h

theorem readPDWith_val {α : Type} {E : PdEnv} {t de a b : Int} {ls : List Str}
    {body : Src → Cur → Rd (α × Cur)} {x : α} {ps : List Int} {cs : List Str}
    (h : readPDWith E t de a b ls body = .val (x, ps, cs)) : ∃ s c c', body s c = .val (x, c') := by
  unfold readPDWith Rd.lift at h
  split at h
  · rename_i d _
    cases d with
    | none => cases h
    | some data =>
      simp only at h
      split at h
      · cases h
      · split at h
        · cases h
        · obtain ⟨⟨y, c'⟩, h1, h2⟩ := val_of_bind h
          have h3 : y = x := by
            dsimp only at h2
            split at h2
            all_goals
              obtain ⟨⟨xs, j⟩, _, h3⟩ := val_of_bind h2
              simp only [Rd.pure_eq, Rd.val.injEq, Prod.mk.injEq] at h3
              exact h3.1
          exact ⟨_, _, c', by rw [h1, h3]⟩
  · cases h
  · cases h

theorem treeRead_ok {s : Src} {c c' : Cur} {ns : List BNode} (h : treeReadParams s c = .val (ns, c')) :
    3 ≤ ns.length ∧ balanced ns := by
  unfold treeReadParams at h
  obtain ⟨⟨n, c1⟩, _, h⟩ := val_of_bind h
  obtain ⟨_, hn, h⟩ := val_of_bind h
  obtain ⟨_, _, h⟩ := val_of_bind h
  obtain ⟨⟨vs, c2⟩, hv, h⟩ := val_of_bind h
  obtain ⟨_, hb, h⟩ := val_of_bind h
  simp only [Rd.pure_eq, Rd.val.injEq, Prod.mk.injEq] at h
  have hb := need_val hb
  have hn := need_val hn
  rw [h.1] at hb
  refine ⟨?_, hb⟩
  have : ∀ (k : Nat) (c c' : Cur) (vs : List Int), readN (s.intIf goodCode) k c = .val (vs, c') → vs.length = k := by
    intro k
    induction k with
    | zero => intro c c' vs h; simp only [readN, Rd.val.injEq, Prod.mk.injEq] at h; simp [← h.1]
    | succ k ih =>
      intro c c' vs h
      rw [readN] at h
      obtain ⟨⟨v, c3⟩, _, h⟩ := val_of_bind h
      obtain ⟨⟨ws, c4⟩, h4, h⟩ := val_of_bind h
      simp only [Rd.pure_eq, Rd.val.injEq, Prod.mk.injEq] at h
      rw [← h.1, List.length_cons, ih _ _ _ h4]
  have hl := this _ _ _ _ hv
  rw [← h.1, List.length_map, hl]
  omega

/-- The same of every list that is read. -/
theorem C32_read_partial (E : PdEnv) (de a b : Int) (ls : List Str) (ns : List BNode) (ps : List Int)
    (cs : List Str) (h : treeReadPD E de a b ls = .val (ns, ps, cs)) (hu : NoUnderflow ns) : OneSolid ns := by
  obtain ⟨s, c, c', hb⟩ := readPDWith_val h
  exact one_of_balanced (treeRead_ok hb).2 hu

/-- A line of the parameter section that is read as a tree. -/
def sampleLine (t : String) : Str := t.toList ++ List.replicate (64 - t.length) ' ' ++ "       7P      1".toList

example : (∃ ps cs, treeReadPD (exEnv id (1 / 1000)) 7 1 1 [sampleLine "180,3,-2,-4,1;"]
      = .val ([.arg 2, .arg 4, .op 1], ps, cs)) ∧ NoUnderflow [.arg 2, .arg 4, .op 1] :=
  ⟨⟨[], [], by decide +kernel⟩, _, rfl⟩

/-- C32 is false of reading: a list that starts with two operators is accepted. -/
theorem C32_fails_read : (∃ ps cs, treeReadPD (exEnv id (1 / 1000)) 7 1 1 [sampleLine "180,5,1,1,-2,-4,-6;"]
      = .val ([.op 1, .op 1, .arg 2, .arg 4, .arg 6], ps, cs))
    ∧ ¬ NoUnderflow [.op 1, .op 1, .arg 2, .arg 4, .arg 6] :=
  ⟨⟨[], [], by decide +kernel⟩, by rintro ⟨_, h⟩; cases h⟩

/-! ### Histories of calls -/

/-- The first two nodes are operands. -/
def StartOk (ns : List BNode) : Prop := ∀ n ∈ ns.take 2, n.isOp = false

theorem step_start (s : St) (c : Call) (h : StartOk s.nodes) : StartOk (step s c).1.nodes := by
  cases c with
  | addOp v =>
    simp only [step, AddOp]
    split
    · exact h
    split
    · exact h
    · intro n hn
      simp only at hn
      rw [List.take_append_of_le_length (by omega)] at hn
      exact h n hn
  | addArg d ty r =>
    simp only [step, AddArg]
    split
    · exact h
    split
    · exact h
    split
    · exact h
    · intro n hn
      simp only [List.take_append, List.mem_append] at hn
      rcases hn with hn | hn
      · exact h n hn
      · have := List.mem_of_mem_take hn
        simp only [List.mem_singleton] at this
        subst this; rfl
  | clear => intro n hn; simp [step, ClearNodes] at hn
  | destroyed d =>
    simp only [step, unlink]
    split
    · intro n hn; simp at hn
    · exact h

theorem runFrom_start : ∀ (cs : List Call) (s : St), StartOk s.nodes → StartOk (runFrom s cs).nodes
  | [], _, h => h
  | c :: cs, s, h => runFrom_start cs _ (step_start s c h)

/-- After every sequence of calls the list starts with two operands (if it has that many nodes). -/
theorem C32_starts_with_operands (cs : List Call) (k : Nat) (hk : k < 2) (v : Int) :
    (run cs).nodes[k]? ≠ some (.op v) := by
  have h := runFrom_start cs ⟨[], []⟩ (by intro n hn; simp at hn)
  intro hn
  have : BNode.op v ∈ (run cs).nodes.take 2 := by
    rw [List.mem_iff_getElem?]
    exact ⟨k, by rw [List.getElem?_take]; simp [hk, hn]⟩
  exact absurd (h _ this) (by simp [BNode.isOp])

theorem careful_noUnderflow : ∀ (cs : List Call) (s : St), NoUnderflow s.nodes → CarefulFrom s cs →
    NoUnderflow (runFrom s cs).nodes
  | [], _, h, _ => h
  | c :: cs, s, h, hc => by
    refine careful_noUnderflow cs _ ?_ hc.2
    have hc1 := hc.1
    cases c with
    | addOp v =>
      obtain ⟨a, b, st, e⟩ := hc1
      simp only [step, AddOp]
      split
      · exact h
      split
      · exact h
      · exact ⟨.combine v b a :: st, by simp only [eval_append, e]; rfl⟩
    | addArg d ty r =>
      obtain ⟨st, e⟩ := h
      simp only [step, AddArg]
      split
      · exact ⟨st, e⟩
      split
      · exact ⟨st, e⟩
      split
      · exact ⟨st, e⟩
      · exact ⟨.operand d :: st, by simp only [eval_append, e]; rfl⟩
    | clear => exact ⟨[], by simp [step, ClearNodes, eval]⟩
    | destroyed d =>
      simp only [step, unlink]
      split
      · exact ⟨[], rfl⟩
      · exact h

/-- C32 for callers that add an operator only when two results are waiting: after every sequence of
calls, a tree that is written describes exactly one solid.  What is missing is the library's own
test, see `C32_fails_underflow`. -/
theorem C32_careful_partial (cs : List Call) (hc : CarefulFrom ⟨[], []⟩ cs) (E : PdEnv) (de : Int)
    (xs : List ExtraRef) (com : List Str) (i : Int) (r : Str × Int)
    (h : treeFormat E de (run cs).nodes xs com i = .val r) : OneSolid (run cs).nodes :=
  C32_written_partial cs E de xs com i r h (careful_noUnderflow cs _ ⟨[], rfl⟩ hc)

/-- A list that describes exactly one solid and has an operator passes the tests of `format`: the outcome
is that of putting out the numbers. -/
theorem C32_no_good_tree_refused (E : PdEnv) (de : Int) (ns : List BNode) (xs : List ExtraRef) (com : List Str)
    (i : Int) (hi : 1 ≤ i ∧ i ≤ 9999999) (h3 : 3 ≤ ns.length) (h : OneSolid ns) :
    treeFormat E de ns xs com i =
      formatPD E de [180, ns.length] (intGroups E.pd (E.last xs) (ns.map BNode.code)) xs com 9999999 i := by
  unfold treeFormat
  rw [if_neg (by omega), if_neg (by omega), if_neg (by simpa using balanced_of_one h)]

/-- The calls of the samples. -/
def good : List Call :=
  [.addArg 1 150 false, .addArg 3 154 false, .addOp 3, .addArg 5 158 false, .addOp 1]

def bad : List Call :=
  [.addArg 1 150 false, .addArg 3 154 false, .addOp 3, .addOp 1, .addArg 5 158 false]

example : CarefulFrom ⟨[], []⟩ good ∧ (run good).nodes = [.arg 1, .arg 3, .op 3, .arg 5, .op 1]
    ∧ (∃ r, treeFormat (exEnv id (1 / 1000)) 7 (run good).nodes [] [] 1 = .val r) := by
  refine ⟨⟨trivial, trivial, ⟨_, _, _, rfl⟩, trivial, ⟨_, _, _, rfl⟩, trivial⟩, rfl, _, rfl⟩

/-- C32 is false: a tree in which the second operator finds only one operand is built and written. -/
theorem C32_fails_underflow : ∃ r, treeFormat (exEnv id (1 / 1000)) 7 (run bad).nodes [] [] 1 = .val r
    ∧ ¬ NoUnderflow (run bad).nodes := by
  refine ⟨_, rfl, ?_⟩
  rintro ⟨st, h⟩
  cases h

/-- When an operand is destroyed, the other operands stay registered with the emptied tree: they can
not be used in this tree again. -/
theorem C32_fails_rebuild : (run (good ++ [.destroyed 1])).nodes = []
    ∧ (step (run (good ++ [.destroyed 1])) (.addArg 3 154 false)).2 = false
    ∧ (step (run (good ++ [.clear])) (.addArg 3 154 false)).2 = true := by
  refine ⟨rfl, rfl, rfl⟩

/-- For all histories: an operand of the tree is refused for ever after another one was destroyed,
unless it is destroyed itself. -/
theorem C32_lost_operand (s : St) (d e ty : Int) (r : Bool) (hd : BNode.arg d ∈ s.nodes) (he : e ∈ s.regs)
    (hne : e ≠ d) : ∀ (cs : List Call), (∀ c ∈ cs, c ≠ .destroyed e) →
    (step (runFrom (step s (.destroyed d)).1 cs) (.addArg e ty r)).2 = false := by
  have key : ∀ (cs : List Call) (t : St), e ∈ t.regs → BNode.arg e ∉ t.nodes → (∀ c ∈ cs, c ≠ .destroyed e) →
      e ∈ (runFrom t cs).regs ∧ BNode.arg e ∉ (runFrom t cs).nodes := by
    intro cs
    induction cs with
    | nil => intro t h1 h2 _; exact ⟨h1, h2⟩
    | cons c cs ih =>
      intro t h1 h2 hc
      have : e ∈ (step t c).1.regs ∧ BNode.arg e ∉ (step t c).1.nodes := by
        cases c with
        | addOp v =>
          simp only [step, AddOp]
          split
          · exact ⟨h1, h2⟩
          split
          · exact ⟨h1, h2⟩
          · exact ⟨h1, by simpa using h2⟩
        | addArg d' ty' r' =>
          simp only [step, AddArg]
          split
          · exact ⟨h1, h2⟩
          split
          · exact ⟨h1, h2⟩
          split
          · exact ⟨h1, h2⟩
          · rename_i hn
            refine ⟨List.mem_cons_of_mem _ h1, ?_⟩
            simp only [List.mem_append, List.mem_singleton, BNode.arg.injEq, not_or]
            exact ⟨h2, fun h => hn (h ▸ h1)⟩
        | clear => simp [step, ClearNodes, h1, h2]
        | destroyed d' =>
          have hne' : d' ≠ e := fun h => hc (.destroyed d') (by simp) (by rw [h])
          simp only [step, unlink]
          split
          · exact ⟨(List.mem_erase_of_ne (Ne.symm hne')).2 h1, by simp⟩
          · exact ⟨h1, h2⟩
      exact ih _ this.1 this.2 fun c' hc' => hc c' (List.mem_cons_of_mem _ hc')
  intro cs hcs
  have h0 : (step s (.destroyed d)).1 = ⟨[], s.regs.erase d⟩ := by simp [step, unlink, hd]
  obtain ⟨h1, _⟩ := key cs (step s (.destroyed d)).1 (by rw [h0]; exact (List.mem_erase_of_ne hne).2 he)
    (by rw [h0]; simp) hcs
  generalize runFrom (step s (.destroyed d)).1 cs = t at h1
  simp only [step, AddArg]
  split
  · rfl
  split
  · rfl
  · rfl

example := C32_lost_operand (run good) 1 3 154 false (by decide) (by decide) (by decide) [.addArg 9 150 false] (by simp)

end Iges.Props.TreeBuild
