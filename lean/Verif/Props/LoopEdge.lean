import Verif.Spec.Graph
import Verif.Spec.LoopEdge
import Mathlib.Tactic.Ring
import Mathlib.Tactic.Linarith
/-!
C103: adding an edge to a loop.
-/
namespace Iges.Props.LoopEdge

open Iges.Graph Iges.Spec Iges.LoopEdge
open Iges.Link (addLoopEdge addPCurves edit)

/-- `e` has been written into the list of users of the entities of `l`. -/
private def tell (e : Nat) (l : List Nat) (h : Heap) : Heap := fun x =>
  if x ∈ l then (h x).map (fun o => { o with refs := o.refs ++ [e] }) else h x

private theorem addRef_case {h : Heap} {c e : Nat} {oe : Obj} (he : h e = some oe) (ht : oe.etype = 508)
    {r : Heap × Bool × Bool} (H : addRef h c e = some r) :
    (∃ o, h c = some o ∧ o.etype ≠ 0 ∧ c ≠ e ∧ e ∉ o.refs ∧ r = (tell e [c] h, true, false))
      ∨ (r.1 = h ∧ (r.2.1 = false ∨ r.2.2 = true)) := by
  unfold addRef at H
  cases hc : h c with
  | none => simp [hc] at H
  | some o =>
    simp only [hc, he] at H
    by_cases a0 : o.etype = 0
    · rw [if_pos a0] at H; cases H; exact Or.inr ⟨rfl, Or.inl rfl⟩
    rw [if_neg a0] at H
    split at H
    · cases H; exact Or.inr ⟨rfl, Or.inl rfl⟩
    split at H
    · cases H; exact Or.inr ⟨rfl, Or.inl rfl⟩
    split at H
    · cases H; exact Or.inr ⟨rfl, Or.inl rfl⟩
    split at H
    · cases H; exact Or.inr ⟨rfl, Or.inl rfl⟩
    rename_i hs
    split at H
    · cases H; exact Or.inr ⟨rfl, Or.inl rfl⟩
    split at H
    · cases H; exact Or.inr ⟨rfl, Or.inl rfl⟩
    split at H
    · cases H; exact Or.inr ⟨rfl, Or.inl rfl⟩
    split at H
    · cases H; exact Or.inr ⟨rfl, Or.inr rfl⟩
    rename_i hr
    split at H
    · cases H; exact Or.inr ⟨rfl, Or.inr rfl⟩
    cases H
    refine Or.inl ⟨o, rfl, a0, ?_, hr, ?_⟩
    · intro hce
      apply hs
      rw [hce, he] at hc
      cases hc
      exact ⟨Or.inr (Or.inr ht), hce.symm⟩
    · congr 1
      funext x
      unfold tell Heap.put
      by_cases hx : x = c
      · subst hx; simp [hc]
      · simp [hx]

private theorem tell_tell (e c : Nat) (l : List Nat) (h : Heap) (hc : c ∉ l) :
    tell e l (tell e [c] h) = tell e (c :: l) h := by
  funext x
  unfold tell
  by_cases hx : x = c
  · subst hx; simp [hc]
  · simp [hx]

private theorem tell_self {e : Nat} {l : List Nat} {h : Heap} (hl : e ∉ l) : tell e l h e = h e := by
  simp [tell, hl]

private theorem curves_true {e : Nat} {oe : Obj} (ht : oe.etype = 508) : ∀ (ps seen : List Nat) (h h' : Heap),
    h e = some oe → addPCurves e seen ps h = some (h', true) →
    h' = tell e ps h ∧ ps.Nodup ∧ e ∉ ps
      ∧ ∀ p ∈ ps, p ∉ oe.loops.flatMap Prod.snd ∧ ∃ o, h p = some o ∧ e ∉ o.refs
  | [], seen, h, h', he, H => by
    unfold addPCurves at H
    cases H
    refine ⟨?_, List.nodup_nil, by simp, by simp⟩
    funext x; simp [tell]
  | c :: l, seen, h, h', he, H => by
    unfold addPCurves at H
    simp only [Iges.Link.get, he, Option.bind_eq_bind, Option.bind_some] at H
    split at H
    · cases hd : delRefs h (c :: seen) e with
      | none => rw [hd] at H; simp at H
      | some h1 => rw [hd] at H; simp at H
    rename_i hnl
    cases ha : addRef h c e with
    | none => rw [ha] at H; simp at H
    | some r =>
      rw [ha] at H
      simp only [Option.bind_some] at H
      rcases addRef_case he ht ha with ⟨o, h1, _, h2, h3, rfl⟩ | ⟨h1, h2⟩
      · simp only at H
        have he' : tell e [c] h e = some oe := by
          rw [tell_self (by simpa using Ne.symm h2)]; exact he
        obtain ⟨i1, i2, i3, i4⟩ := curves_true ht l (c :: seen) _ h' he' H
        have hcl : c ∉ l := by
          intro hcl
          obtain ⟨_, o', a, b⟩ := i4 c hcl
          simp [tell, h1] at a
          subst a
          simp at b
        refine ⟨by rw [i1, tell_tell _ _ _ _ hcl], List.nodup_cons.mpr ⟨hcl, i2⟩, ?_, ?_⟩
        · simp only [List.mem_cons, not_or]
          exact ⟨Ne.symm h2, i3⟩
        · intro p hp
          rcases List.mem_cons.mp hp with rfl | hp
          · exact ⟨hnl, o, h1, h3⟩
          · obtain ⟨a, o', b, b'⟩ := i4 p hp
            refine ⟨a, o', ?_, b'⟩
            have hpc : p ≠ c := fun hh => hcl (hh ▸ hp)
            simpa [tell, hpc] using b
      · obtain ⟨hh, ok, dup⟩ := r
        simp only at h1 h2
        subst h1
        have hfin : ∀ q : Option Heap,
            (q.bind fun h2 => some (h2, false)) ≠ some (h', true) := by
          intro q; cases q <;> simp
        cases ok <;> cases dup
        · exact absurd H (hfin _)
        · exact absurd H (hfin _)
        · simp at h2
        · exact absurd H (hfin _)

private theorem delRef_tell {e c : Nat} {s : List Nat} {k : Heap} {o : Obj} (ho : k c = some o)
    (hx : o.extras = []) (hn : e ∉ o.refs) (h0 : c ∈ s → o.etype ≠ 0) :
    ∃ b, delRef (tell e s k) c e = some (tell e (s.filter (· ≠ c)) k, b) := by
  by_cases hs : c ∈ s
  · have h0 := h0 hs
    refine ⟨true, ?_⟩
    have e1 : tell e s k c = some { o with refs := o.refs ++ [e] } := by simp [tell, hs, ho]
    unfold delRef
    rw [e1]
    simp only [h0, if_false, List.mem_append, List.mem_singleton, or_true, if_true]
    congr 2
    funext x
    unfold Heap.put tell
    by_cases hxc : x = c
    · subst hxc
      have : (o.refs ++ [e]).erase e = o.refs := by
        rw [List.erase_append_right _ hn]; simp
      simp [this, ho]
    · simp [hxc]
  · refine ⟨false, ?_⟩
    have e1 : tell e s k c = some o := by simp [tell, hs, ho]
    have e2 : s.filter (· ≠ c) = s := by
      apply List.filter_eq_self.mpr
      intro a ha
      simp only [ne_eq, decide_not, Bool.not_eq_true', decide_eq_false_iff_not]
      intro hac; exact hs (hac ▸ ha)
    unfold delRef
    rw [e1, e2]
    simp only [hn, if_false, hx]
    split <;> rfl

private theorem delRefs_tell {e : Nat} {k : Heap} : ∀ (l s : List Nat),
    (∀ p ∈ l, ∃ o, k p = some o ∧ o.extras = [] ∧ e ∉ o.refs ∧ (p ∈ s → o.etype ≠ 0)) → (∀ p ∈ s, p ∈ l) →
    delRefs (tell e s k) l e = some k
  | [], s, _, hs => by
    have : s = [] := by
      apply List.eq_nil_iff_forall_not_mem.mpr
      intro a ha; simpa using hs a ha
    subst this
    simp only [delRefs, Option.some.injEq]
    funext x; simp [tell]
  | c :: l, s, hl, hs => by
    obtain ⟨o, a1, a2, a3, a4⟩ := hl c (by simp)
    obtain ⟨b, hb⟩ := delRef_tell a1 a2 a3 a4
    unfold delRefs
    rw [hb]
    apply delRefs_tell l
    · intro p hp
      obtain ⟨o', b1, b2, b3, b4⟩ := hl p (by simp [hp])
      exact ⟨o', b1, b2, b3, fun hh => b4 (List.mem_filter.mp hh).1⟩
    · intro p hp
      obtain ⟨c1, c2⟩ := List.mem_filter.mp hp
      rcases List.mem_cons.mp (hs p c1) with rfl | h
      · simp at c2
      · exact h

private theorem curves_false {e : Nat} {oe : Obj} (ht : oe.etype = 508) {k : Heap} (he : k e = some oe) :
    ∀ (ps seen : List Nat) (h' : Heap), e ∉ seen → seen.Nodup →
    (∀ p ∈ seen, ∃ o, k p = some o ∧ o.extras = [] ∧ e ∉ o.refs ∧ o.etype ≠ 0) →
    (∀ p ∈ ps, ∃ o, k p = some o ∧ o.extras = [] ∧ e ∉ o.refs) →
    addPCurves e seen ps (tell e seen k) = some (h', false) → h' = k
  | [], seen, h', _, _, _, _, H => by
    unfold addPCurves at H
    cases H
  | c :: l, seen, h', hes, hnd, hseen, hps, H => by
    obtain ⟨o, b1, b2, b3⟩ := hps c (by simp)
    have hroll : delRefs (tell e seen k) (c :: seen) e = some k := by
      apply delRefs_tell
      · intro p hp
        rcases List.mem_cons.mp hp with rfl | hp
        · refine ⟨o, b1, b2, b3, fun hh => ?_⟩
          obtain ⟨o', c1, _, _, c4⟩ := hseen _ hh
          rw [b1] at c1; cases c1; exact c4
        · obtain ⟨o', c1, c2, c3, c4⟩ := hseen p hp
          exact ⟨o', c1, c2, c3, fun _ => c4⟩
      · intro p hp; simp [hp]
    have he' : tell e seen k e = some oe := by rw [tell_self hes]; exact he
    unfold addPCurves at H
    simp only [Iges.Link.get, he', Option.bind_eq_bind, Option.bind_some] at H
    split at H
    · rw [hroll] at H; cases H; rfl
    cases ha : addRef (tell e seen k) c e with
    | none => rw [ha] at H; simp at H
    | some r =>
      rw [ha] at H
      simp only [Option.bind_some] at H
      rcases addRef_case he' ht ha with ⟨o', h1, h0, h2, h3, rfl⟩ | ⟨h1, h2⟩
      · simp only at H
        have hcs : c ∉ seen := by
          intro hh
          simp [tell, hh, b1] at h1
          subst h1
          simp at h3
        have ho : o' = o := by simpa [tell, hcs, b1] using h1.symm
        subst ho
        have e1 : tell e [c] (tell e seen k) = tell e (c :: seen) k := by
          funext x
          unfold tell
          by_cases hx : x = c
          · subst hx; simp [hcs]
          · simp [hx]
        rw [e1] at H
        refine curves_false ht he l (c :: seen) h' ?_ (List.nodup_cons.mpr ⟨hcs, hnd⟩) ?_
          (fun p hp => hps p (by simp [hp])) H
        · simp only [List.mem_cons, not_or]; exact ⟨Ne.symm h2, hes⟩
        · intro p hp
          rcases List.mem_cons.mp hp with rfl | hp
          · exact ⟨_, b1, b2, b3, h0⟩
          · exact hseen p hp
      · obtain ⟨hh, ok, dup⟩ := r
        simp only at h1 h2
        subst h1
        cases ok <;> cases dup
        · simp only [hroll, Option.bind_some] at H; cases H; rfl
        · simp only [hroll, Option.bind_some] at H; cases H; rfl
        · simp at h2
        · simp only [hroll, Option.bind_some] at H; cases H; rfl

/-- What `addLoopEdge` does. -/
private theorem edge_case {h : Heap} {e c : Nat} {oe : Obj} (he : h e = some oe) (ht : oe.etype = 508)
    {h1 : Heap} {b : Bool} (H : addLoopEdge h e c = some (h1, b)) :
    (b = false ∧ h1 = h)
    ∨ (b = true ∧ c ∈ oe.redges.map Prod.fst
        ∧ h1 = h.put e { oe with redges := oe.redges.map fun q => if q.1 = c then (q.1, q.2 + 1) else q })
    ∨ (b = true ∧ c ∉ oe.redges.map Prod.fst ∧ c ≠ e ∧ (∃ o, h c = some o ∧ e ∉ o.refs)
        ∧ h1 = (tell e [c] h).put e { oe with redges := oe.redges ++ [(c, 1)] }) := by
  unfold addLoopEdge at H
  simp only [Iges.Link.get, he, Option.bind_eq_bind, Option.bind_some, edit] at H
  split at H
  · rename_i hc
    simp only [Option.map_some, Option.bind_some] at H
    cases H
    exact Or.inr (Or.inl ⟨rfl, hc, rfl⟩)
  · rename_i hc
    cases ha : addRef h c e with
    | none => rw [ha] at H; simp at H
    | some r =>
      rw [ha] at H
      simp only [Option.bind_some] at H
      rcases addRef_case he ht ha with ⟨o, h1', _, h2, h3, rfl⟩ | ⟨h1', h2⟩
      · simp only [tell_self (show e ∉ [c] by simpa using Ne.symm h2), he, Option.map_some,
          Option.bind_some] at H
        cases H
        exact Or.inr (Or.inr ⟨rfl, hc, h2, ⟨o, h1', h3⟩, rfl⟩)
      · obtain ⟨hh, ok, dup⟩ := r
        simp only at h1' h2
        subst h1'
        cases ok <;> cases dup
        · cases H; exact Or.inl ⟨rfl, rfl⟩
        · cases H; exact Or.inl ⟨rfl, rfl⟩
        · simp at h2
        · cases H; exact Or.inl ⟨rfl, rfl⟩

private theorem fst_bump (l : List (Nat × Int)) (c : Nat) :
    (l.map fun q => if q.1 = c then (q.1, q.2 + 1) else q).map Prod.fst = l.map Prod.fst := by
  rw [List.map_map]
  apply List.map_congr_left
  intro q _
  simp only [Function.comp]
  split <;> rfl

private theorem mem_bump {l : List (Nat × Int)} {c x : Nat} {n : Int} :
    (x, n) ∈ (l.map fun q => if q.1 = c then (q.1, q.2 + 1) else q)
      ↔ (if x = c then (x, n - 1) ∈ l else (x, n) ∈ l) := by
  rw [List.mem_map]
  constructor
  · rintro ⟨⟨y, m⟩, h1, h2⟩
    by_cases hy : y = c
    · simp only [hy, if_true, Prod.mk.injEq] at h2
      obtain ⟨rfl, rfl⟩ := h2
      simpa [hy] using h1
    · simp only [hy, if_false, Prod.mk.injEq] at h2
      obtain ⟨rfl, rfl⟩ := h2
      simpa [hy] using h1
  · intro h
    by_cases hx : x = c
    · rw [if_pos hx] at h
      exact ⟨_, h, by simp [hx]⟩
    · rw [if_neg hx] at h
      exact ⟨_, h, by simp [hx]⟩

private theorem counted_bump {o : Obj} {c : Nat} {ps : List Nat} (hc : c ∈ o.redges.map Prod.fst)
    (H : Counted o) :
    Counted { o with redges := o.redges.map fun q => if q.1 = c then (q.1, q.2 + 1) else q
                     loops := o.loops ++ [(c, ps)] } := by
  obtain ⟨H1, H2⟩ := H
  refine ⟨by simp only [fst_bump]; exact H1, fun x n => ?_⟩
  simp only [mem_bump, List.countP_append, List.countP_cons, List.countP_nil]
  by_cases hx : x = c
  · subst hx
    obtain ⟨⟨y, m⟩, hm, hy⟩ := List.mem_map.mp hc
    simp only at hy
    subst hy
    have hm' := (H2 y m).mp hm
    simp only [if_true, H2, beq_self_eq_true]
    push_cast
    omega
  · have hx' : (c == x) = false := by simpa using Ne.symm hx
    simp only [hx, if_false, H2, hx']
    simp

private theorem counted_new {o : Obj} {c : Nat} {ps : List Nat} (hc : c ∉ o.redges.map Prod.fst)
    (H : Counted o) :
    Counted { o with redges := o.redges ++ [(c, 1)], loops := o.loops ++ [(c, ps)] } := by
  obtain ⟨H1, H2⟩ := H
  refine ⟨?_, fun x n => ?_⟩
  · simp only [List.map_append, List.map_cons, List.map_nil]
    rw [List.nodup_append]
    refine ⟨H1, by simp, ?_⟩
    intro a ha b hb
    simp only [List.mem_singleton] at hb
    rintro rfl
    exact hc (hb ▸ ha)
  · simp only [List.mem_append, List.mem_singleton, Prod.mk.injEq, List.countP_append, List.countP_cons,
      List.countP_nil]
    by_cases hx : x = c
    · subst hx
      have hz : ∀ m, (x, m) ∉ o.redges := fun m hm => hc (List.mem_map.mpr ⟨_, hm, rfl⟩)
      have h0 : o.loops.countP (fun q => q.1 == x) = 0 := by
        by_contra hne
        exact hz _ ((H2 x _).mpr ⟨rfl, by omega⟩)
      simp only [hz, h0, beq_self_eq_true]
      simp
      intro h; omega
    · have hx' : (c == x) = false := by simpa using Ne.symm hx
      simp only [hx, false_and, or_false, H2, hx']
      simp

/-- The table with one more use of `c`. -/
private def oe_bump (o : Obj) (c : Nat) : List (Nat × Int) :=
  o.redges.map fun q => if q.1 = c then (q.1, q.2 + 1) else q

/-- Pointers and users still agree when `e` gets the children `l` more, each once, and they list `e`. -/
private theorem symmetric_tell {h h' : Heap} {e : Nat} {oe oe' : Obj} {l : List Nat} (hs : Symmetric h)
    (he : h e = some oe) (he' : h' e = some oe') (hr : oe'.refs = oe.refs)
    (hc : ∀ x, oe'.children.count x = oe.children.count x + l.count x) (hnd : l.Nodup) (hel : e ∉ l)
    (hl : ∀ p ∈ l, h p ≠ none) (hx : ∀ x, x ≠ e → h' x = tell e l h x) : Symmetric h' := by
  have hlist : ∀ x p, listed h' x p = listed h x p + (if p = e ∧ x ∈ l then 1 else 0) := by
    intro x p
    by_cases hxe : x = e
    · subst hxe
      simp [listed, he, he', hr, hel]
    · unfold listed
      rw [hx x hxe]
      unfold tell
      by_cases hxl : x ∈ l
      · cases hq : h x with
        | none => exact absurd hq (hl x hxl)
        | some o =>
          simp only [hxl, if_true, Option.map_some, and_true, List.count_append]
          by_cases hpe : p = e
          · subst hpe; simp
          · simp [hpe, Ne.symm hpe]
      · simp [hxl]
  intro p c
  rw [hlist c p, ← hs p c]
  by_cases hpe : p = e
  · subst hpe
    unfold uses
    rw [he, he']
    simp only [hc, true_and]
    by_cases hcl : c ∈ l
    · simp [hcl, List.count_eq_one_of_mem hnd hcl]
    · simp [hcl, List.count_eq_zero_of_not_mem hcl]
  · simp only [hpe, false_and, if_false, Nat.add_zero]
    unfold uses
    rw [hx p hpe]
    unfold tell
    by_cases hpl : p ∈ l
    · rw [if_pos hpl]; cases h p <;> rfl
    · rw [if_neg hpl]

/-- **C103**.  If the loop takes an edge, then it has the edges it had and the new one behind them, and
nothing else of it has changed but the table of the lists it uses, which counts right if it did before.
Pointers and lists of users agree as before.  No other entity has changed, except that the edge or vertex list and
the curves may list the loop as their user. -/
theorem C103_added {h h' : Heap} {e c : Nat} {ps : List Nat} {o : Obj} (hs : Symmetric h)
    (he : h e = some o) (ht : o.etype = 508) (H : addEdge h e (some c) ps = some (h', true)) :
    (∃ o', h' e = some o' ∧ o'.loops = o.loops ++ [(c, ps)]
        ∧ o' = { o with loops := o'.loops, redges := o'.redges } ∧ (Counted o → Counted o'))
      ∧ Symmetric h'
      ∧ (∀ x, x ≠ e → x ≠ c → x ∉ ps → h' x = h x)
      ∧ (∀ x ox, x ≠ e → h x = some ox → ∃ ox', h' x = some ox' ∧ SameButUsers ox ox') := by
  unfold addEdge at H
  simp only at H
  cases h1 : addLoopEdge h e c with
  | none => rw [h1] at H; simp at H
  | some r =>
    obtain ⟨k, b⟩ := r
    rw [h1] at H
    have hc1 := edge_case he ht h1
    cases b with
    | false => simp at H
    | true =>
      simp only at H
      cases h2 : addPCurves e [] ps k with
      | none => rw [h2] at H; simp at H
      | some r =>
        obtain ⟨k2, b⟩ := r
        rw [h2] at H
        cases b with
        | false => simp at H
        | true =>
          simp only at H
          rcases hc1 with ⟨hf, _⟩ | ⟨_, hc, hk⟩ | ⟨_, hc, hce, ⟨oc, hoc, hocr⟩, hk⟩
          · cases hf
          · set R := oe_bump o c with hR
            have hke : k e = some { o with redges := R } := by rw [hk]; simp [Heap.put, hR, oe_bump]
            obtain ⟨a1, a2, a3, a4⟩ := curves_true (oe := { o with redges := R }) ht ps [] k k2 hke h2
            have hk2e : k2 e = some { o with redges := R } := by rw [a1, tell_self a3]; exact hke
            rw [edit, hk2e] at H
            simp only [Option.map_some, Option.some.injEq, Prod.mk.injEq, and_true] at H
            have hxx : ∀ x, x ≠ e → h' x = tell e ps h x := by
              intro x hx
              rw [← H]
              simp only [Heap.put, hx, if_false, a1, tell, hk]
            have he' : h' e = some { o with redges := R, loops := o.loops ++ [(c, ps)] } := by
              rw [← H]; simp [Heap.put]
            refine ⟨⟨_, he', rfl, rfl, fun hcn => counted_bump hc hcn⟩, ?_, ?_, ?_⟩
            · refine symmetric_tell hs he he' rfl ?_ a2 a3 ?_ hxx
              · intro x
                simp only [Obj.children, hR, oe_bump, fst_bump, List.count_append, List.flatMap_append,
                  List.flatMap_cons, List.flatMap_nil, List.append_nil]
                omega
              · intro p hp
                obtain ⟨_, op, b1, _⟩ := a4 p hp
                have hpe : p ≠ e := fun hh => a3 (hh ▸ hp)
                simp only [hk, Heap.put, hpe, if_false] at b1
                rw [b1]; simp
            · intro x hx _ hxp
              rw [hxx x hx]; simp [tell, hxp]
            · intro x ox hx hox
              rw [hxx x hx]
              unfold tell
              split
              · exact ⟨{ ox with refs := ox.refs ++ [e] }, by rw [hox]; rfl, by unfold SameButUsers; rfl⟩
              · exact ⟨_, hox, by unfold SameButUsers; rfl⟩
          · have hke : k e = some { o with redges := o.redges ++ [(c, 1)] } := by rw [hk]; simp [Heap.put]
            obtain ⟨a1, a2, a3, a4⟩ :=
              curves_true (oe := { o with redges := o.redges ++ [(c, 1)] }) ht ps [] k k2 hke h2
            have hcp : c ∉ ps := by
              intro hh
              obtain ⟨_, op, b1, b2⟩ := a4 c hh
              simp only [hk, Heap.put, hce, if_false, tell, List.mem_singleton, if_true, hoc,
                Option.map_some, Option.some.injEq] at b1
              subst b1
              simp at b2
            have hk2e : k2 e = some { o with redges := o.redges ++ [(c, 1)] } := by
              rw [a1, tell_self a3]; exact hke
            rw [edit, hk2e] at H
            simp only [Option.map_some, Option.some.injEq, Prod.mk.injEq, and_true] at H
            have hxx : ∀ x, x ≠ e → h' x = tell e (c :: ps) h x := by
              intro x hx
              rw [← H, ← tell_tell _ _ _ _ hcp]
              simp only [Heap.put, hx, if_false, a1, tell, hk]
            have he' : h' e = some { o with redges := o.redges ++ [(c, 1)], loops := o.loops ++ [(c, ps)] } := by
              rw [← H]; simp [Heap.put]
            refine ⟨⟨_, he', rfl, rfl, fun hcn => counted_new hc hcn⟩, ?_, ?_, ?_⟩
            · refine symmetric_tell (l := c :: ps) hs he he' rfl ?_ (List.nodup_cons.mpr ⟨hcp, a2⟩) ?_ ?_ hxx
              · intro x
                simp only [Obj.children, List.map_append, List.map_cons, List.map_nil, List.count_append,
                  List.flatMap_append, List.flatMap_cons, List.flatMap_nil, List.append_nil, List.count_cons,
                  List.count_nil]
                omega
              · simp only [List.mem_cons, not_or]; exact ⟨Ne.symm hce, a3⟩
              · intro p hp
                rcases List.mem_cons.mp hp with rfl | hp
                · rw [hoc]; simp
                · obtain ⟨_, op, b1, _⟩ := a4 p hp
                  have hpe : p ≠ e := fun hh => a3 (hh ▸ hp)
                  have hpc : p ≠ c := fun hh => hcp (hh ▸ hp)
                  simp only [hk, Heap.put, hpe, if_false, tell, List.mem_singleton, hpc] at b1
                  rw [b1]; simp
            · intro x hx hxc hxp
              rw [hxx x hx]; simp [tell, hxp, hxc]
            · intro x ox hx hox
              rw [hxx x hx]
              unfold tell
              split
              · exact ⟨{ ox with refs := ox.refs ++ [e] }, by rw [hox]; rfl, by unfold SameButUsers; rfl⟩
              · exact ⟨_, hox, by unfold SameButUsers; rfl⟩

/-- **C103** (partial).  If the loop refuses an edge, none of whose curves it points at already, and none of
whose curves is the edge list itself or has optional pointers, then the loop has the edges it had, pointers and
lists of users agree, and no entity but the loop and the edge or vertex list has changed, nor that one if the
loop used it before.

Missing: the curves left out, for which it is false (`C103_refused_breaks`), and that the table of the loop is
what it was, which is false too (`C103_refused_counts`). -/
theorem C103_refused_partial {h h' : Heap} {e c : Nat} {ps : List Nat} {o : Obj} (hs : Symmetric h)
    (he : h e = some o) (ht : o.etype = 508) (hc : c ∉ ps)
    (hp : ∀ p ∈ ps, uses h e p = 0 ∧ ∃ op, h p = some op ∧ op.extras = [])
    (H : addEdge h e (some c) ps = some (h', false)) :
    (∃ o', h' e = some o' ∧ o'.loops = o.loops ∧ o' = { o with redges := o'.redges })
      ∧ Symmetric h'
      ∧ (∀ x, x ≠ e → x ≠ c → h' x = h x)
      ∧ (c ≠ e → c ∈ o.redges.map Prod.fst → h' c = h c) := by
  have hnr : ∀ p ∈ ps, ∀ op, h p = some op → e ∉ op.refs := by
    intro p hpp op hop
    have := hs e p
    rw [(hp p hpp).1] at this
    simp only [listed, hop] at this
    exact List.count_eq_zero.mp this.symm
  unfold addEdge at H
  simp only at H
  cases h1 : addLoopEdge h e c with
  | none => rw [h1] at H; simp at H
  | some r =>
    obtain ⟨k, b⟩ := r
    rw [h1] at H
    have hc1 := edge_case he ht h1
    cases b with
    | false =>
      simp only [Option.some.injEq, Prod.mk.injEq, and_true] at H
      rcases hc1 with ⟨_, hk⟩ | ⟨hf, _⟩ | ⟨hf, _⟩
      · rw [← H, hk]
        exact ⟨⟨o, he, rfl, rfl⟩, hs, fun _ _ _ => rfl, fun _ _ => rfl⟩
      · cases hf
      · cases hf
    | true =>
      simp only at H
      have hk' : ∀ (oe' : Obj), oe'.etype = 508 → k e = some oe' → e ∉ ps →
          (∀ p ∈ ps, k p = h p) → h' = k := by
        intro oe' ht' hke hep hkp
        cases h2 : addPCurves e [] ps k with
        | none => rw [h2] at H; simp at H
        | some r =>
          obtain ⟨k2, b⟩ := r
          rw [h2] at H
          cases b with
          | true =>
            simp only at H
            cases hed : edit k2 e (fun o => { o with loops := o.loops ++ [(c, ps)] }) with
            | none => rw [hed] at H; simp at H
            | some q => rw [hed] at H; simp at H
          | false =>
            simp only [Option.some.injEq, Prod.mk.injEq, and_true] at H
            subst H
            have e0 : tell e [] k = k := by funext x; simp [tell]
            rw [← e0] at h2
            refine curves_false ht' hke ps [] k2 (by simp) List.nodup_nil (by simp) ?_ h2
            intro p hpp
            obtain ⟨op, a1, a2⟩ := (hp p hpp).2
            exact ⟨op, by rw [hkp p hpp]; exact a1, a2, hnr p hpp op a1⟩
      have hk2 : ∀ (oe' : Obj), oe'.etype = 508 → k e = some oe' → e ∈ ps → (∀ p, p ∈ ps → p ≠ e → k p = h p) →
          oe'.refs = o.refs → oe'.extras = o.extras → h' = k := by
        intro oe' ht' hke hep hkp hr hxx
        cases h2 : addPCurves e [] ps k with
        | none => rw [h2] at H; simp at H
        | some r =>
          obtain ⟨k2, b⟩ := r
          rw [h2] at H
          cases b with
          | true =>
            exact absurd hep (curves_true ht' ps [] k k2 hke h2).2.2.1
          | false =>
            simp only [Option.some.injEq, Prod.mk.injEq, and_true] at H
            subst H
            have e0 : tell e [] k = k := by funext x; simp [tell]
            rw [← e0] at h2
            refine curves_false ht' hke ps [] k2 (by simp) List.nodup_nil (by simp) ?_ h2
            intro p hpp
            obtain ⟨op, a1, a2⟩ := (hp p hpp).2
            by_cases hpe : p = e
            · subst hpe
              rw [he] at a1; cases a1
              exact ⟨oe', hke, by rw [hxx, a2], by rw [hr]; exact hnr p hpp o he⟩
            · exact ⟨op, by rw [hkp p hpp hpe]; exact a1, a2, hnr p hpp op a1⟩
      rcases hc1 with ⟨hf, _⟩ | ⟨_, hcr, hk⟩ | ⟨_, hcr, hce, ⟨oc, hoc, hocr⟩, hk⟩
      · cases hf
      · have hke : k e = some { o with redges := oe_bump o c } := by rw [hk]; simp [Heap.put, oe_bump]
        have hkx : ∀ x, x ≠ e → k x = h x := by intro x hx; rw [hk]; simp [Heap.put, hx]
        have hh : h' = k := by
          by_cases hep : e ∈ ps
          · exact hk2 { o with redges := oe_bump o c } ht hke hep (fun p _ hpe => hkx p hpe) rfl rfl
          · exact hk' { o with redges := oe_bump o c } ht hke hep (fun p hpp => hkx p (fun hh => hep (hh ▸ hpp)))
        subst hh
        refine ⟨⟨_, hke, rfl, rfl⟩, ?_, fun x hx _ => hkx x hx, fun hce _ => hkx c hce⟩
        refine symmetric_tell (l := []) hs he hke rfl ?_ List.nodup_nil (by simp) (by simp) ?_
        · intro x
          simp only [Obj.children, oe_bump, fst_bump, List.count_nil, Nat.add_zero]
        · intro x hx; rw [hkx x hx]; simp [tell]
      · have hke : k e = some { o with redges := o.redges ++ [(c, 1)] } := by rw [hk]; simp [Heap.put]
        have hkx : ∀ x, x ≠ e → k x = tell e [c] h x := by intro x hx; rw [hk]; simp [Heap.put, hx]
        have hkp : ∀ p, p ∈ ps → p ≠ e → k p = h p := by
          intro p hpp hpe
          have hpc : p ≠ c := fun hh => hc (hh ▸ hpp)
          rw [hkx p hpe]; simp [tell, hpc]
        have hh : h' = k := by
          by_cases hep : e ∈ ps
          · exact hk2 { o with redges := o.redges ++ [(c, 1)] } ht hke hep hkp rfl rfl
          · exact hk' { o with redges := o.redges ++ [(c, 1)] } ht hke hep (fun p hpp => hkp p hpp (fun hh => hep (hh ▸ hpp)))
        subst hh
        refine ⟨⟨_, hke, rfl, rfl⟩, ?_, fun x hx hxc => by rw [hkx x hx]; simp [tell, hxc],
          fun _ hcr' => absurd hcr' hcr⟩
        refine symmetric_tell (l := [c]) hs he hke rfl ?_ (by simp) (by simpa using Ne.symm hce) ?_ hkx
        · intro x
          simp only [Obj.children, List.map_append, List.map_cons, List.map_nil, List.count_append]
          omega
        · intro p hpp
          simp only [List.mem_singleton] at hpp
          subst hpp
          rw [hoc]; simp

/-- **C103**.  A null edge is refused and nothing changes. -/
theorem C103_null (h : Heap) (e : Nat) (ps : List Nat) : addEdge h e none ps = some (h, false) := rfl

/-- **C103**, negation for the curves left out of `C103_refused_partial`.  If the first curve of a new edge is
one that the loop already has, and the edge list is one the loop already uses, then the edge is refused, but the
curve loses its entry for the loop although the loop still points at it: pointers and lists of users do not
agree any more. -/
theorem C103_refused_breaks {h : Heap} {e c p : Nat} {ps : List Nat} {o op : Obj} (hs : Symmetric h)
    (he : h e = some o) (_ht : o.etype = 508) (hc : c ∈ o.redges.map Prod.fst)
    (hp : p ∈ o.loops.flatMap Prod.snd) (hpe : p ≠ e) (hop : h p = some op) (h0 : op.etype ≠ 0) :
    ∃ h', addEdge h e (some c) (p :: ps) = some (h', false) ∧ uses h' e p = uses h e p
      ∧ listed h' p e + 1 = uses h' e p ∧ ¬ Symmetric h' := by
  have hre : e ∈ op.refs := by
    have h1 := hs e p
    simp only [uses, he, listed, hop] at h1
    apply List.count_pos_iff.mp
    rw [← h1]
    apply List.count_pos_iff.mpr
    simp only [Obj.children, List.mem_append]
    exact Or.inl (Or.inr hp)
  set k := h.put e { o with redges := oe_bump o c } with hk
  have h1 : addLoopEdge h e c = some (k, true) := by
    unfold addLoopEdge
    simp only [Iges.Link.get, he, Option.bind_eq_bind, Option.bind_some, edit, hc, if_true, Option.map_some]
    rfl
  have hke : k e = some { o with redges := oe_bump o c } := by simp [hk, Heap.put]
  have hkp : k p = some op := by simp [hk, Heap.put, hpe, hop]
  have hd : delRefs k [p] e = some (k.put p { op with refs := op.refs.erase e }) := by
    simp [delRefs, delRef, hkp, h0, hre]
  have h2 : addPCurves e [] (p :: ps) k = some (k.put p { op with refs := op.refs.erase e }, false) := by
    unfold addPCurves
    simp only [Iges.Link.get, hke, Option.bind_eq_bind, Option.bind_some, hp, if_true, hd]
  have hu : uses (k.put p { op with refs := op.refs.erase e }) e p = uses h e p := by
    simp only [uses, Heap.put, Ne.symm hpe, if_false, hke, he, Obj.children, oe_bump, fst_bump]
  have hl : listed (k.put p { op with refs := op.refs.erase e }) p e + 1
      = uses (k.put p { op with refs := op.refs.erase e }) e p := by
    rw [hu, hs e p]
    simp only [listed, Heap.put, if_true, hop, List.count_erase_self]
    have := List.count_pos_iff.mpr hre
    omega
  refine ⟨_, by unfold addEdge; simp only [h1, h2], hu, hl, fun hsy => ?_⟩
  have := hsy e p
  omega

/-! ### Deleting a list that a loop uses -/

/-- **C103**.  Deleting an edge or vertex list that an edge of a loop uses is undefined behaviour, for every
loop: the list of its edges is gone through with an iterator that is moved off its end, or made invalid, or the
storage of the removed edge is read or freed again. -/
theorem C103_delete_used {redges : List (Nat × Int)} {edges : List (Nat × List Nat)} {c : Nat}
    (ht : c ∈ redges.map Prod.fst) (hc : c ∈ edges.map Prod.fst) : unlinkEdge redges edges c = none := by
  have key : ∀ b, (∀ i, b ≤ i → ∀ q, edges[i]? = some q → q.1 ≠ c) →
      (∃ i q, i < b ∧ edges[i]? = some q ∧ q.1 = c) → b ≤ edges.length →
      scan c (edges.map some) b = none := by
    intro b
    induction b with
    | zero => rintro _ ⟨i, _, h, _⟩; omega
    | succ b ih =>
      intro hhi ⟨i, q, hi, hq, hqc⟩ hb
      have hb' : b < edges.length := by omega
      unfold scan
      have e1 : (edges.map some)[b + 1 - 1]? = some (some (edges[b].1, edges[b].2)) := by
        simp [hb']
      simp only [Nat.add_eq_zero_iff, one_ne_zero, and_false, dite_false]
      split
      · rfl
      · rfl
      rename_i x ps hx
      rw [e1] at hx
      simp only [Option.some.injEq, Prod.mk.injEq] at hx
      obtain ⟨hx1, hx2⟩ := hx
      by_cases hxc : x = c
      · rw [if_pos hxc]
        split
        · rfl
        split
        · rfl
        split
        · rfl
        rename_i n1 n2 n3
        simp only [List.length_map] at n2 n3
        -- back on the entry before, which is kept
        unfold scan
        have hb1 : b + 1 < edges.length := by omega
        have e2 : ((List.map some edges).set (b + 1 - 1) none).dropLast[b + 1 + 1 - 1]?
            = some (some (edges[b + 1].1, edges[b + 1].2)) := by
          rw [List.getElem?_dropLast]
          simp only [List.length_set, List.length_map, Nat.add_sub_cancel]
          rw [if_pos (by omega), List.getElem?_set_ne (by omega)]
          simp [hb1]
        simp only [Nat.add_eq_zero_iff, one_ne_zero, and_false, dite_false]
        split
        · rfl
        · rfl
        rename_i y qs hy
        rw [e2] at hy
        simp only [Option.some.injEq, Prod.mk.injEq] at hy
        have hyc : y ≠ c := by
          rw [← hy.1]
          exact hhi (b + 1) (by omega) _ (by simp [hb1])
        rw [if_neg hyc]
        -- and then on the one that has been freed
        unfold scan
        have e3 : ((List.map some edges).set (b + 1 - 1) none).dropLast[b + 1 + 1 - 1 - 1]?
            = some (none : Iges.LoopEdge.Slot) := by
          rw [List.getElem?_dropLast]
          simp only [List.length_set, List.length_map, Nat.add_sub_cancel]
          rw [if_pos (by omega), List.getElem?_set_self (by simpa using hb')]
        simp only [Nat.add_sub_cancel, Nat.add_eq_zero_iff, one_ne_zero, and_false, dite_false]
        split
        · rfl
        · rfl
        rename_i z rs hz
        rw [e3] at hz
        cases hz
      · rw [if_neg hxc]
        simp only [Nat.add_sub_cancel]
        apply ih
        · intro j hj q' hq'
          by_cases hjb : j = b
          · subst hjb
            rw [List.getElem?_eq_getElem hb'] at hq'
            cases hq'
            rw [hx1]; exact hxc
          · exact hhi j (by omega) q' hq'
        · refine ⟨i, q, ?_, hq, hqc⟩
          by_contra hn
          have hib : i = b := by omega
          subst hib
          rw [List.getElem?_eq_getElem hb'] at hq
          cases hq
          exact hxc (hx1 ▸ hqc)
        · omega
  unfold unlinkEdge
  rw [if_pos ht, key edges.length, Option.map_none]
  · intro i hi q hq
    rw [List.getElem?_eq_none hi] at hq
    cases hq
  · obtain ⟨q, hq, hqc⟩ := List.mem_map.mp hc
    obtain ⟨i, hi, hq⟩ := List.getElem_of_mem hq
    exact ⟨i, q, hi, by rw [List.getElem?_eq_getElem hi, hq], hqc⟩
  · exact le_refl _

/-- **C103**.  If no edge uses the list, the loop keeps all its edges. -/
theorem C103_delete_unused {redges : List (Nat × Int)} {edges : List (Nat × List Nat)} {c : Nat}
    (hc : c ∉ edges.map Prod.fst) :
    ∃ r b, unlinkEdge redges edges c = some (edges.map some, r, b) ∧ c ∉ r.map Prod.fst := by
  have key : ∀ b, b ≤ edges.length → scan c (edges.map some) b = some (edges.map some) := by
    intro b
    induction b with
    | zero => intro _; unfold scan; simp
    | succ b ih =>
      intro hb
      have hb' : b < edges.length := by omega
      have e1 : (edges.map some)[b + 1 - 1]? = some (some (edges[b].1, edges[b].2)) := by
        simp [hb']
      unfold scan
      simp only [Nat.add_eq_zero_iff, one_ne_zero, and_false, dite_false]
      split
      · rename_i hx; rw [e1] at hx; cases hx
      · rename_i hx; rw [e1] at hx; cases hx
      · rename_i x ps hx
        rw [e1] at hx
        simp only [Option.some.injEq, Prod.mk.injEq] at hx
        have : x ≠ c := by
          rintro rfl
          exact hc (List.mem_map.mpr ⟨_, List.getElem_mem hb', hx.1⟩)
        rw [if_neg this]
        exact ih (by omega)
  unfold unlinkEdge
  split
  · refine ⟨redges.filter (·.1 ≠ c), true, by rw [key _ (le_refl _)]; rfl, ?_⟩
    intro hm
    obtain ⟨q, hq, hqc⟩ := List.mem_map.mp hm
    simp [hqc] at hq
  · rename_i hn
    exact ⟨redges, false, rfl, hn⟩

/-! ### Cases -/

/-- A loop, an edge list and three curves, the last one of them a placeholder. -/
private def h0 : Heap := fun i =>
  if i = 1 then some (newObj 508) else if i = 2 then some (newObj 504)
  else if i = 3 then some (newObj 126) else if i = 4 then some (newObj 126)
  else if i = 5 then some (newObj 0) else none

private theorem h0_symmetric : Symmetric h0 := by
  intro p c
  have a : ∀ p, uses h0 p c = 0 := by
    intro p
    unfold uses h0
    split_ifs <;> simp [newObj, Obj.children]
  have b : listed h0 c p = 0 := by
    unfold listed h0
    split_ifs <;> simp [newObj]
  rw [a, b]

/-- The loop with one edge, which has two curves. -/
private def h1 : Heap :=
  match addEdge h0 1 (some 2) [3, 4] with
  | some (h, _) => h
  | none => h0

private theorem h1_added : addEdge h0 1 (some 2) [3, 4] = some (h1, true) := rfl

private theorem h1_symmetric : Symmetric h1 := (C103_added h0_symmetric rfl rfl h1_added).2.1

/-- `C103_added`: an edge with two curves, and a second one on the same list. -/
example : ∃ h o, addEdge h1 1 (some 2) [] = some (h, true) ∧ h 1 = some o ∧ Symmetric h
    ∧ o.loops = [(2, [3, 4]), (2, [])] ∧ o.redges = [(2, 2)] := by
  refine ⟨_, _, rfl, rfl, ?_, rfl, rfl⟩
  exact (C103_added (h := h1) (e := 1) (c := 2) (ps := []) h1_symmetric rfl rfl rfl).2.1

/-- `C103_refused_partial`: the second curve is a placeholder; the first one is released again. -/
example : ∃ h, addEdge h0 1 (some 2) [3, 5] = some (h, false) ∧ Symmetric h ∧ h 3 = h0 3 := by
  refine ⟨_, rfl, ?_, ?_⟩
  · refine (C103_refused_partial (h := h0) (e := 1) (c := 2) (ps := [3, 5]) h0_symmetric rfl rfl (by decide) ?_ rfl).2.1
    intro p hp
    simp only [List.mem_cons, List.not_mem_nil, or_false] at hp
    rcases hp with rfl | rfl
    · exact ⟨rfl, _, rfl, rfl⟩
    · exact ⟨rfl, _, rfl, rfl⟩
  · rfl

/-- **C103**, negation.  A refused edge is counted all the same: the loop has no edge, but the edge list lists it
as a user and stands in its table. -/
theorem C103_refused_counts : ∃ (h h' : Heap) (o o' : Obj), Symmetric h ∧ h 1 = some o ∧ o.etype = 508 ∧ Counted o
    ∧ addEdge h 1 (some 2) [5] = some (h', false) ∧ h' 1 = some o' ∧ o'.loops = [] ∧ ¬ Counted o'
    ∧ listed h 2 1 = 0 ∧ listed h' 2 1 = 1 := by
  refine ⟨h0, _, _, _, h0_symmetric, rfl, rfl, ?_, rfl, rfl, rfl, ?_, rfl, rfl⟩
  · exact ⟨by simp [newObj], fun x n => by simp [newObj]; omega⟩
  · rintro ⟨_, H⟩
    have := (H 2 1).mp (by decide)
    simp [newObj] at this

/-- `C103_refused_breaks`: after it the curve can be deleted, and the loop still points at it. -/
example : ∃ h h', addEdge h1 1 (some 2) [3] = some (h, false) ∧ ¬ Symmetric h
    ∧ destroy h 3 = some h' ∧ h' 3 = none ∧ uses h' 1 3 = 1 := by
  obtain ⟨h, a, _, _, d⟩ := C103_refused_breaks (h := h1) (e := 1) (c := 2) (p := 3) (ps := []) h1_symmetric rfl rfl
    (by decide) (by decide) (by decide) rfl (by decide)
  have a' := a
  change some _ = some _ at a'
  cases a'
  exact ⟨_, _, rfl, d, rfl, rfl, rfl⟩

example : unlinkEdge [(2, 1), (7, 1)] [(2, []), (7, []), (7, [])] 2 = none :=
  C103_delete_used (by decide) (by decide)

example : ∃ r b, unlinkEdge [(2, 1)] [(7, [3])] 2 = some ([some (7, [3])], r, b) ∧ 2 ∉ r.map Prod.fst :=
  C103_delete_unused (by decide)

end Iges.Props.LoopEdge
