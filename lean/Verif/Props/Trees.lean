import Verif.Props.ListEntities
/-
C31: boolean trees.  C30: loops.
-/
namespace Iges.Props
open Iges

/-- A node of a boolean tree: an operation (union, intersection, difference) or an operand. -/
def BNodeOk : BNode → Prop
  | .op v => 1 ≤ v ∧ v ≤ 3
  | .arg d => IsDE d

theorem BNodeOk.range {n : BNode} (h : BNodeOk n) : -2147483648 ≤ n.code ∧ n.code ≤ 2147483647 := by
  cases n <;> simp only [BNodeOk, IsDE, BNode.code] at * <;> omega

theorem operand_refused {E : PdEnv} {T : Str} {s : Src} (hE : E.Ok) (hs : SrcOf E s) (ns : List BNode)
    (hok : ∀ n ∈ ns, BNodeOk n) (harg : ∃ d, BNode.arg d ∈ ns) (c : Cur) (rest : List Param)
    (h : Ready T s c ((ns.map BNode.code).map Param.int ++ rest)) :
    readN (s.intIf goodCode) ns.length c = .fail := by
  induction ns generalizing c with
  | nil => simp at harg
  | cons n ns ih =>
    have hn := hok n (by simp)
    obtain ⟨c1, e1, h1⟩ := Ready.int (hs.ok hE) (dflt := none) h hn.range
    rw [List.length_cons, readN]
    simp only [Src.intIf, e1, Rd.val_bind]
    cases n with
    | arg d =>
      rw [Rd.need_false (by simp only [BNodeOk, IsDE] at hn; simp only [goodCode, BNode.code]; omega)]
      rfl
    | op v =>
      rw [Rd.need_true (by simp only [BNodeOk] at hn; simp only [goodCode, BNode.code]; omega), Rd.val_bind,
        Rd.pure_eq, Rd.val_bind]
      have := ih (fun m hm => hok m (List.mem_cons_of_mem _ hm)) (by
        obtain ⟨d, hd⟩ := harg
        exact ⟨d, by simpa using hd⟩) c1 h1
      simp only
      rw [show readN (s.intIf goodCode) ns.length c1 = .fail from this]
      rfl

/-- C31 is false: every boolean tree the library writes is refused when it is read.  Operands are
written as the negated (odd) DE number, and reading demands that negative numbers are even. -/
theorem C31_every_tree_refused (E : PdEnv) (de i0 : Int) (ns : List BNode) (xs : List ExtraRef)
    (hset : Setting E de i0 xs (2 * ns.length)) (h3 : 3 ≤ ns.length) (hok : ∀ n ∈ ns, BNodeOk n)
    (hargs : (ns.filter fun n => !n.isOp).length = (ns.filter fun n => n.isOp).length + 1) :
    Spec.PdRefused de i0 (treeFormat E de ns xs [] i0) (treeReadPD E de) := by
  have hroom := hset.room
  have hfirst := hset.first
  have hbal : balanced ns := by
    unfold balanced
    rw [List.countP_eq_length_filter, List.countP_eq_length_filter, hargs]
    push_cast
    omega
  have harg : ∃ d, BNode.arg d ∈ ns := by
    obtain ⟨n, hn⟩ := List.exists_mem_of_length_pos (l := ns.filter fun n => !n.isOp) (by omega)
    rw [List.mem_filter] at hn
    cases n with
    | op v => simp [BNode.isOp] at hn
    | arg d => exact ⟨d, hn.1⟩
  have hr : ∀ n ∈ ns.map BNode.code, -2147483648 ≤ n ∧ n ≤ 2147483647 := by
    intro n hn
    obtain ⟨b, hb, rfl⟩ := List.mem_map.mp hn
    exact (hok b hb).range
  have hf : treeFormat E de ns xs [] i0 =
      formatPD E de [180, ns.length] (intGroups E.pd (E.last xs) (ns.map BNode.code)) xs [] 9999999 i0 := by
    unfold treeFormat
    rw [if_neg (by omega), if_neg (by omega), if_neg (by simpa using hbal)]
  rw [hf]
  refine pd_refused (pre := [ns.length]) (body := treeReadParams) (ns := ns.map BNode.code)
    (by simpa using hset) (by decide)
    (preText_fits _ (by decide) (by simp; omega) (by simp)) (by decide)
    (by intro h; have := congrArg List.length h; simp at this; simp [this] at h3)
    hr (intGroups_ok _ _ _ hr) (intGroups_flatten _ _ _) ?_
  intro j s c hS h
  have ok := hS.ok hset.env
  obtain ⟨c1, e1, h⟩ := Ready.int ok (dflt := none) h (by omega)
  unfold treeReadParams
  simp only [e1, Rd.val_bind]
  rw [Rd.need_true (by omega), Rd.val_bind]
  have hodd : ns.length = (ns.filter fun n => n.isOp).length + (ns.filter fun n => !n.isOp).length := by
    rw [← List.countP_eq_length_filter, ← List.countP_eq_length_filter]
    exact List.length_eq_countP_add_countP (fun n : BNode => n.isOp) (l := ns) |>.trans (by simp)
  rw [Rd.need_true (by omega), Rd.val_bind, Int.toNat_natCast]
  rw [operand_refused hset.env hS ns hok harg c1 _ h]
  rfl

/-- The tree `5 + 7 - 9`. -/
example := C31_every_tree_refused _ _ _ [.arg 5, .arg 7, .op 1, .arg 9, .op 3] _ ((exSetting id).mono (by decide))
  (by decide) (by simp [BNodeOk, IsDE]) (by decide)

/-- Reading the codes of a tree without any test. -/
def readCodes (s : Src) (c : Cur) : Rd (List Int × Cur) := do
  let (n, c) ← s.int c
  readN s.int n.toNat c

/-- C31, the part that holds: what is written for a boolean tree is, in this order, the number of nodes
and one integer for each node: the operation code, or the negated DE number of the operand.  Missing:
that `readPD` accepts it, see `C31_every_tree_refused`. -/
theorem C31_written_partial (E : PdEnv) (de i0 : Int) (ns : List BNode) (xs : List ExtraRef)
    (hset : Setting E de i0 xs (2 * ns.length)) (h3 : 3 ≤ ns.length) (hok : ∀ n ∈ ns, BNodeOk n)
    (hargs : (ns.filter fun n => !n.isOp).length = (ns.filter fun n => n.isOp).length + 1) :
    Spec.PdCycle (2 * ns.length + 2 * xs.length + 4) de i0 (treeFormat E de ns xs [] i0) (fun a b ls => readPDWith E 180 de a b ls readCodes)
      (fun r => r.1 = (ns.map fun | .op v => v | .arg d => -d) ∧ r.2.1 = secA xs ++ secB xs ∧ r.2.2 = []) := by
  have hroom := hset.room
  have hfirst := hset.first
  have hbal : balanced ns := by
    unfold balanced
    rw [List.countP_eq_length_filter, List.countP_eq_length_filter, hargs]
    push_cast
    omega
  have hr : ∀ n ∈ ns.map BNode.code, -2147483648 ≤ n ∧ n ≤ 2147483647 := by
    intro n hn
    obtain ⟨b, hb, rfl⟩ := List.mem_map.mp hn
    exact (hok b hb).range
  have hf : treeFormat E de ns xs [] i0 =
      formatPD E de [180, ns.length] (intGroups E.pd (E.last xs) (ns.map BNode.code)) xs [] 9999999 i0 := by
    unfold treeFormat
    rw [if_neg (by omega), if_neg (by omega), if_neg (by simpa using hbal)]
  rw [hf]
  have hcode : (ns.map fun | .op v => v | .arg d => -d) = ns.map BNode.code :=
    List.map_congr_left fun n _ => by cases n <;> rfl
  rw [hcode]
  refine PdCycle.mono (intCycle (pre := [ns.length]) (body := readCodes) (ns := ns.map BNode.code)
    (R := fun t => t = ns.map BNode.code)
    (by simpa using hset) (by decide)
    (preText_fits _ (by decide) (by simp; omega) (by simp)) (by decide)
    (by intro h; have := congrArg List.length h; simp at this; simp [this] at h3)
    hr (intGroups_ok _ _ _ hr) (intGroups_flatten _ _ _) ?_) (by simp)
  intro T s c rest hS h
  refine Reads.int hset.env hS h (by omega) fun c h => ?_
  have h : Ready T s c ((ns.map BNode.code).map Param.int ++ rest) := h
  rw [intMap_flatMap] at h
  refine Reads.listEnd _ (fun a b => b = a) (ns.map BNode.code) (by simp) h ?_ fun bs hb => forall2_eq hb
  intro a ha c rest h
  obtain ⟨c', e, h'⟩ := Ready.int (hS.ok hset.env) (dflt := none) h (hr a ha)
  exact ⟨a, c', e, rfl, h'⟩

example := C31_written_partial _ _ _ [.arg 5, .arg 7, .op 1, .arg 9, .op 3] _ ((exSetting id).mono (by decide))
  (by decide) (by simp [BNodeOk, IsDE]) (by decide)

/-! ### Loops -/

/-- The integers written for an edge of a loop. -/
def LoopEdge.ints (e : LoopEdge) : List Int :=
  flagInt e.isVertex :: e.data :: e.idx :: flagInt e.orient :: (e.pcurves.length : Int) ::
    e.pcurves.dropLast.flatMap fun p => [flagInt p.1, p.2]

/-- The data of an edge of a loop that has parameter-space curves. -/
structure LoopEdgeOk (e : LoopEdge) : Prop where
  data : IsDE e.data
  idx : 1 ≤ e.idx ∧ e.idx ≤ 2147483647
  count : 1 ≤ e.pcurves.length ∧ e.pcurves.length ≤ 9999999
  curves : ∀ p ∈ e.pcurves, IsDE p.2

theorem loopEdge_ints_range {e : LoopEdge} (h : LoopEdgeOk e) : ∀ n ∈ LoopEdge.ints e, -2147483648 ≤ n ∧ n ≤ 2147483647 := by
  intro n hn
  have := h.idx
  have := h.count
  simp only [LoopEdge.ints, List.mem_cons, List.mem_flatMap, List.not_mem_nil, or_false] at hn
  rcases hn with rfl | rfl | rfl | rfl | rfl | ⟨p, hp, rfl | rfl⟩
  · exact flagInt_range _
  · exact h.data.range
  · omega
  · exact flagInt_range _
  · omega
  · exact flagInt_range _
  · exact (h.curves p (List.mem_of_mem_dropLast hp)).range

theorem pcurves_length (ps : List (Bool × Int)) : (ps.flatMap fun p => [flagInt p.1, p.2]).length = 2 * ps.length := by
  induction ps with
  | nil => rfl
  | cons a l ih => simp only [List.flatMap_cons, List.length_append, ih, List.length_cons, List.length_nil]; omega

theorem loopEdge_ints_length {e : LoopEdge} (h : LoopEdgeOk e) : (LoopEdge.ints e).length + 2 = 5 + 2 * e.pcurves.length := by
  have := h.count
  simp only [LoopEdge.ints, List.length_cons, pcurves_length, List.length_dropLast]
  omega

theorem closeItems_append (pd last : Char) (a b : List Item) (hb : b ≠ []) :
    closeItems pd last (a ++ b) = closeItems pd pd a ++ closeItems pd last b := by
  induction a with
  | nil => rfl
  | cons x a ih =>
    cases a with
    | nil =>
      cases b with
      | nil => exact absurd rfl hb
      | cons y b => rfl
    | cons y a =>
      simp only [List.cons_append] at ih ⊢
      rw [closeItems, ih, closeItems]
      rfl

theorem loopEdge_groups_pd (pd : Char) (e : LoopEdge) :
    (e.groups pd pd).flatten = closeItems pd pd ((LoopEdge.ints e).map Item.int) := by
  have h1 : ∀ ps : List (Bool × Int), (ps.flatMap fun p => [[(Item.int (flagInt p.1), pd)], [(Item.int p.2, pd)]]).flatten =
      closeItems pd pd ((ps.flatMap fun p => [flagInt p.1, p.2]).map Item.int) := by
    intro ps
    induction ps with
    | nil => rfl
    | cons a l ih =>
      rw [List.flatMap_cons, List.flatten_append, ih, List.flatMap_cons, List.map_append]
      by_cases h : (l.flatMap fun p => [flagInt p.1, p.2]).map Item.int = []
      · rw [h]; rfl
      · rw [closeItems_append _ _ _ _ h]; rfl
  unfold LoopEdge.groups LoopEdge.ints
  simp only [List.flatten_cons, h1, List.map_cons]
  generalize (e.pcurves.dropLast.flatMap fun p => [flagInt p.1, p.2]).map Item.int = t
  cases t <;> rfl

theorem loopGroups_flatten (pd last : Char) : ∀ es : List LoopEdge,
    (∀ e, es.getLast? = some e → e.pcurves.length = 1) →
    (loopGroups pd last es).flatten = closeItems pd last ((es.flatMap LoopEdge.ints).map Item.int)
  | [], _ => rfl
  | [e], h => by
    have := h e rfl
    have : e.pcurves.dropLast = [] := by
      apply List.eq_nil_of_length_eq_zero
      rw [List.length_dropLast]; omega
    simp [loopGroups, LoopEdge.groups, LoopEdge.ints, this, closeItems]
  | e :: f :: es, h => by
    have ih := loopGroups_flatten pd last (f :: es) (by simpa using h)
    rw [loopGroups, List.flatten_append, ih, loopEdge_groups_pd, List.flatMap_cons (x := e), List.map_append,
      closeItems_append]
    simp [LoopEdge.ints]

theorem loopGroups_ok (pd last : Char) : ∀ es : List LoopEdge, (∀ e ∈ es, LoopEdgeOk e) →
    ∀ g ∈ loopGroups pd last es, GroupOk g := by
  have key : ∀ (e : LoopEdge) (d : Char), LoopEdgeOk e → ∀ g ∈ e.groups pd d, GroupOk g := by
    intro e d h g hg
    have hr := loopEdge_ints_range h
    simp only [LoopEdge.ints, List.mem_cons, forall_eq_or_imp] at hr
    obtain ⟨h1, h2, h3, h4, h5, h6⟩ := hr
    simp only [LoopEdge.groups, List.mem_cons, List.mem_flatMap, List.not_mem_nil, or_false] at hg
    rcases hg with rfl | rfl | rfl | rfl | rfl | ⟨p, hp, rfl | rfl⟩
    · exact Or.inl ⟨_, _, rfl, h1⟩
    · exact Or.inl ⟨_, _, rfl, h2⟩
    · exact Or.inl ⟨_, _, rfl, h3⟩
    · exact Or.inl ⟨_, _, rfl, h4⟩
    · exact Or.inl ⟨_, _, rfl, h5⟩
    · exact Or.inl ⟨_, _, rfl, flagInt_range _⟩
    · exact Or.inl ⟨_, _, rfl, (h.curves p (List.mem_of_mem_dropLast hp)).range⟩
  intro es
  induction es with
  | nil => intro _ g hg; simp [loopGroups] at hg
  | cons e es ih =>
    intro h g hg
    cases es with
    | nil => exact key e last (h e (by simp)) g hg
    | cons f es =>
      rw [loopGroups] at hg
      rcases List.mem_append.mp hg with hg | hg
      · exact key e pd (h e (by simp)) g hg
      · exact ih (fun x hx => h x (List.mem_cons_of_mem _ hx)) g hg

section
variable {E : PdEnv} {j : Nat} {s : Src}

/-- The number of integers taken. -/
def Takes (j : Nat) (s : Src) {α : Type} (f : Cur → Rd (α × Cur)) (cost : α → Nat) : Prop :=
  ∀ c c' (ns : List Int) a, (∀ n ∈ ns, -2147483648 ≤ n ∧ n ≤ 2147483647) →
    Ready (List.replicate j ' ') s c (ns.map Param.int) → f c = .val (a, c') →
    ∃ ns' : List Int, (∀ n ∈ ns', -2147483648 ≤ n ∧ n ≤ 2147483647) ∧
      Ready (List.replicate j ' ') s c' (ns'.map Param.int) ∧ ns.length = cost a + ns'.length

theorem takes_int (hE : E.Ok) (hs : SrcOf E s) : Takes j s s.int (fun _ => 1) := by
  intro c c' ns a hb h he
  obtain ⟨ns', rfl, h'⟩ := Ready.take hE hs hb h he
  exact ⟨ns', fun n hn => hb n (List.mem_cons_of_mem _ hn), h', by simp; omega⟩

theorem need_val {p : Prop} [Decidable p] {u : Unit} (h : Rd.need p = .val u) : p := by
  by_contra hp
  rw [Rd.need_false hp] at h
  cases h

theorem takes_flag (hE : E.Ok) (hs : SrcOf E s) : Takes j s s.flag (fun _ => 1) := by
  intro c c' ns a hb h he
  obtain ⟨⟨n, c1⟩, e1, he⟩ := Rd.bind_val he
  obtain ⟨u, e2, he⟩ := Rd.bind_val he
  cases he
  exact takes_int hE hs c _ ns n hb h e1

theorem takes_pcurve (hE : E.Ok) (hs : SrcOf E s) : Takes j s (readPCurve s) (fun _ => 2) := by
  intro c c' ns a hb h he
  obtain ⟨⟨n, c1⟩, e1, he⟩ := Rd.bind_val he
  obtain ⟨⟨d, c2⟩, e2, he⟩ := Rd.bind_val he
  obtain ⟨u, e3, he⟩ := Rd.bind_val he
  cases he
  obtain ⟨n1, b1, r1, l1⟩ := takes_int hE hs c c1 ns n hb h e1
  obtain ⟨n2, b2, r2, l2⟩ := takes_int hE hs c1 _ n1 d b1 r1 e2
  exact ⟨n2, b2, r2, by simp only at l1 l2 ⊢; omega⟩

theorem takes_readN {α : Type} {f : Cur → Rd (α × Cur)} {cost : α → Nat} (hf : Takes j s f cost) :
    ∀ m, Takes j s (readN f m) (fun as => (as.map cost).sum)
  | 0 => by
    intro c c' ns a hb h he
    cases he
    exact ⟨ns, hb, h, by simp⟩
  | m + 1 => by
    intro c c' ns a hb h he
    obtain ⟨⟨x, c1⟩, e1, he⟩ := Rd.bind_val he
    obtain ⟨⟨as, c2⟩, e2, he⟩ := Rd.bind_val he
    cases he
    obtain ⟨n1, b1, r1, l1⟩ := hf c c1 ns x hb h e1
    obtain ⟨n2, b2, r2, l2⟩ := takes_readN hf m c1 _ n1 as b1 r1 e2
    exact ⟨n2, b2, r2, by simp only [List.map_cons, List.sum_cons] at l2 ⊢; omega⟩

theorem readN_length {α : Type} {f : Cur → Rd (α × Cur)} : ∀ {m : Nat} {c c' : Cur} {as : List α},
    readN f m c = .val (as, c') → as.length = m
  | 0, c, c', as, h => by cases h; rfl
  | m + 1, c, c', as, h => by
    obtain ⟨⟨x, c1⟩, e1, h⟩ := Rd.bind_val h
    obtain ⟨⟨ys, c2⟩, e2, h⟩ := Rd.bind_val h
    cases h
    simp [readN_length e2]

theorem takes_loopEdge (hE : E.Ok) (hs : SrcOf E s) : Takes j s (readLoopEdge s) (fun e => 5 + 2 * e.pcurves.length) := by
  intro c c' ns a hb h he
  obtain ⟨⟨v, c1⟩, e1, he⟩ := Rd.bind_val he
  obtain ⟨⟨d, c2⟩, e2, he⟩ := Rd.bind_val he
  obtain ⟨⟨i, c3⟩, e3, he⟩ := Rd.bind_val he
  obtain ⟨⟨o, c4⟩, e4, he⟩ := Rd.bind_val he
  obtain ⟨⟨n, c5⟩, e5, he⟩ := Rd.bind_val he
  obtain ⟨u, e6, he⟩ := Rd.bind_val he
  obtain ⟨⟨ps, c7⟩, e7, he⟩ := Rd.bind_val he
  cases he
  obtain ⟨n1, b1, r1, l1⟩ := takes_flag hE hs c c1 ns v hb h e1
  obtain ⟨n2, b2, r2, l2⟩ := takes_int hE hs c1 c2 n1 d b1 r1 e2
  obtain ⟨n3, b3, r3, l3⟩ := takes_int hE hs c2 c3 n2 i b2 r2 e3
  obtain ⟨n4, b4, r4, l4⟩ := takes_flag hE hs c3 c4 n3 o b3 r3 e4
  obtain ⟨n5, b5, r5, l5⟩ := takes_int hE hs c4 c5 n4 n b4 r4 e5
  obtain ⟨n6, b6, r6, l6⟩ := takes_readN (takes_pcurve hE hs) _ c5 _ n5 ps b5 r5 e7
  refine ⟨n6, b6, r6, ?_⟩
  have : (ps.map fun _ => 2).sum = 2 * ps.length := by
    clear * -
    induction ps with
    | nil => rfl
    | cons a l ih => simp only [List.map_cons, List.sum_cons, ih, List.length_cons]; omega
  simp only at l1 l2 l3 l4 l5 l6 ⊢
  omega

theorem takes_loop (hE : E.Ok) (hs : SrcOf E s) :
    Takes j s (loopReadParams s) (fun es => 1 + (es.map fun e => 5 + 2 * e.pcurves.length).sum) := by
  intro c c' ns a hb h he
  obtain ⟨⟨n, c1⟩, e1, he⟩ := Rd.bind_val he
  obtain ⟨u, e6, he⟩ := Rd.bind_val he
  obtain ⟨n1, b1, r1, l1⟩ := takes_int hE hs c c1 ns n hb h e1
  obtain ⟨n2, b2, r2, l2⟩ := takes_readN (takes_loopEdge hE hs) _ c1 c' n1 a b1 r1 he
  exact ⟨n2, b2, r2, by simp only at l1 l2 ⊢; omega⟩

end

theorem loop_ints_length (es : List LoopEdge) (h : ∀ e ∈ es, LoopEdgeOk e) :
    (es.flatMap LoopEdge.ints).length + 2 * es.length = (es.map fun e => 5 + 2 * e.pcurves.length).sum := by
  induction es with
  | nil => rfl
  | cons e es ih =>
    have h1 := loopEdge_ints_length (h e (by simp))
    have h2 := ih fun x hx => h x (List.mem_cons_of_mem _ hx)
    simp only [List.flatMap_cons, List.length_append, List.length_cons, List.map_cons, List.sum_cons]
    omega

/-- C30 is false for loops: a loop in which every edge has parameter-space curves, and the last edge has
exactly one, is written, and is never read back as the same loop: the last curve of every edge is not
written. -/
theorem C30_loop_lost (E : PdEnv) (de i0 : Int) (es : List LoopEdge)
    (hset : Setting E de i0 [] (2 * (es.map fun e => 5 + 2 * e.pcurves.length).sum))
    (hok : ∀ e ∈ es, LoopEdgeOk e) (hlast : ∃ e, es.getLast? = some e ∧ e.pcurves.length = 1) :
    Spec.PdLost de i0 (loopFormat E de es [] [] i0) (loopReadPD E de) (fun r => r.1 = es) := by
  have hroom := hset.room
  have hfirst := hset.first
  have hne : es ≠ [] := by rintro rfl; simp at hlast
  have hpos : 0 < es.length := List.length_pos_iff.mpr hne
  have hlen := loop_ints_length es hok
  have hr : ∀ n ∈ es.flatMap LoopEdge.ints, -2147483648 ≤ n ∧ n ≤ 2147483647 := by
    intro n hn
    obtain ⟨e, he, hn⟩ := List.mem_flatMap.mp hn
    exact loopEdge_ints_range (hok e he) n hn
  have hintsne : es.flatMap LoopEdge.ints ≠ [] := by
    cases es with
    | nil => exact absurd rfl hne
    | cons e es => simp [LoopEdge.ints]
  have hge : es.length ≤ (es.map fun e => 5 + 2 * e.pcurves.length).sum := by omega
  have hf : loopFormat E de es [] [] i0 =
      formatPD E de [508, es.length] (loopGroups E.pd (E.last []) es) [] [] 9999999 i0 := by
    unfold loopFormat
    rw [if_neg (by omega), if_neg]
    rintro (h | ⟨e, he, h⟩)
    · exact hne h
    · have := (hok e he).count; rw [h] at this; simp at this
  rw [hf]
  refine pd_lost (pre := [es.length]) (body := loopReadParams) (R := fun t => t = es)
    (ns := es.flatMap LoopEdge.ints) (hset.mono (by omega)) (by decide)
    (preText_fits _ (by decide) (by simp; omega) (by simp)) (by decide) hintsne hr
    (loopGroups_ok _ _ _ hok) (loopGroups_flatten _ _ _ ?_) ?_
  · obtain ⟨e, h1, h2⟩ := hlast
    intro e' he'
    rw [h1] at he'
    cases he'
    exact h2
  · intro j s c hS h a c' he ha
    subst ha
    have h : Ready (List.replicate j ' ') s c (((a.length : Int) :: a.flatMap LoopEdge.ints).map Param.int) := by
      simpa [extrasOf] using h
    obtain ⟨ns', _, _, hl⟩ := takes_loop hset.env hS c c' _ a (by
      simp only [List.mem_cons, forall_eq_or_imp]
      exact ⟨by omega, hr⟩) h he
    simp only [List.length_cons] at hl
    omega

example := C30_loop_lost (exEnv id (1 / 1000)) 7 3 [⟨false, 5, 1, true, [(true, 9), (false, 11)]⟩, ⟨false, 5, 2, false, [(true, 13)]⟩]
  ⟨exEnv_ok id (by norm_num), by decide, ⟨by decide, by decide⟩, by decide, by decide⟩
  (by
    intro e he
    simp only [List.mem_cons, List.not_mem_nil, or_false] at he
    rcases he with rfl | rfl <;> exact ⟨by decide, by decide, by decide, by decide⟩)
  ⟨_, rfl, rfl⟩

end Iges.Props
