import Verif.Model.Depth
import Verif.Spec.Depth
import Verif.Props.Owner

/-!
C35: the nesting depth of subfigure definitions.
-/

namespace Iges.Props.Depth

open Iges.Graph Iges.Depth Iges.Spec Iges.Spec.Depth

/-- A member leads to a definition. -/
def Via (h : Heap) (c b : Nat) : Prop :=
  ∃ oc, h c = some oc ∧ (oc.etype = 308 ∧ c = b ∨ oc.etype = 408 ∧ oc.slot (.own 0) = some b)

theorem contains_iff {h : Heap} {a b : Nat} {oa : Obj} (ha : h a = some oa) :
    Contains h a b ↔ ∃ c ∈ oa.kids, Via h c b := by
  unfold Contains Via
  constructor
  · rintro ⟨o, c, oc, h1, h2, h3, h4⟩
    rw [ha] at h1; cases h1
    exact ⟨c, h2, oc, h3, h4⟩
  · rintro ⟨c, h2, oc, h3, h4⟩
    exact ⟨oa, c, oc, ha, h2, h3, h4⟩

/-- A round that answers. -/
theorem round_some {depth : Nat → Option Nat} {h : Heap} {nd c r : Nat}
    (hc : ∀ oc, h c = some oc → oc.etype = 408 → ∃ d, oc.slot (.own 0) = some d)
    (H : round depth h nd c = some r) :
    nd ≤ r ∧ (∀ b, Via h c b → ∃ t, depth b = some t ∧ t + 1 ≤ r)
      ∧ (r = nd ∨ ∃ b t, Via h c b ∧ depth b = some t ∧ r = t + 1) := by
  unfold round at H
  split at H
  · cases H
  · rename_i o ho
    have upd : ∀ b, (∀ x, Via h c x ↔ x = b) → (depth b).map (fun tm => if tm ≥ nd then tm + 1 else nd) = some r →
        nd ≤ r ∧ (∀ b, Via h c b → ∃ t, depth b = some t ∧ t + 1 ≤ r)
          ∧ (r = nd ∨ ∃ b t, Via h c b ∧ depth b = some t ∧ r = t + 1) := by
      intro b hb hm
      rw [Option.map_eq_some_iff] at hm
      obtain ⟨t, h1, h2⟩ := hm
      split at h2
      · subst h2
        refine ⟨by omega, ?_, Or.inr ⟨b, t, (hb b).mpr rfl, h1, rfl⟩⟩
        intro x hx
        rw [(hb x).mp hx]
        exact ⟨t, h1, Nat.le_refl _⟩
      · subst h2
        refine ⟨Nat.le_refl _, ?_, Or.inl rfl⟩
        intro x hx
        rw [(hb x).mp hx]
        exact ⟨t, h1, by omega⟩
    split at H
    · rename_i h308
      refine upd c ?_ H
      intro x
      constructor
      · rintro ⟨oc, h1, ⟨_, h2⟩ | ⟨h2, _⟩⟩
        · exact h2.symm
        · rw [ho] at h1; cases h1; omega
      · rintro rfl; exact ⟨o, ho, Or.inl ⟨h308, rfl⟩⟩
    · rename_i h308
      split at H
      · rename_i h408
        obtain ⟨d, hd⟩ := hc o ho h408
        rw [hd] at H
        refine upd d ?_ H
        intro x
        constructor
        · rintro ⟨oc, h1, ⟨h2, _⟩ | ⟨_, h2⟩⟩
          · rw [ho] at h1; cases h1; omega
          · rw [ho] at h1; cases h1; rw [hd] at h2; cases h2; rfl
        · rintro rfl; exact ⟨o, ho, Or.inr ⟨h408, hd⟩⟩
      · rename_i h408
        cases H
        refine ⟨Nat.le_refl _, ?_, Or.inl rfl⟩
        rintro x ⟨oc, h1, ⟨h2, _⟩ | ⟨h2, _⟩⟩ <;> rw [ho] at h1 <;> cases h1
        · exact absurd h2 h308
        · exact absurd h2 h408

theorem rounds_some {depth : Nat → Option Nat} {h : Heap} : ∀ (l : List Nat) {nd r : Nat},
    (∀ c ∈ l, ∀ oc, h c = some oc → oc.etype = 408 → ∃ d, oc.slot (.own 0) = some d) →
    rounds depth h nd l = some r →
    nd ≤ r ∧ (∀ c ∈ l, ∀ b, Via h c b → ∃ t, depth b = some t ∧ t + 1 ≤ r)
      ∧ (r = nd ∨ ∃ c ∈ l, ∃ b t, Via h c b ∧ depth b = some t ∧ r = t + 1)
  | [], nd, r, _, H => by cases H; exact ⟨Nat.le_refl _, by simp, Or.inl rfl⟩
  | c :: l, nd, r, hc, H => by
    unfold rounds at H
    split at H
    · cases H
    · rename_i r1 h1
      obtain ⟨a1, a2, a3⟩ := round_some (hc c (by simp)) h1
      obtain ⟨b1, b2, b3⟩ := rounds_some l (fun x hx => hc x (by simp [hx])) H
      refine ⟨by omega, ?_, ?_⟩
      · intro x hx b hb
        rcases List.mem_cons.mp hx with rfl | hx
        · obtain ⟨t, h2, h3⟩ := a2 b hb
          exact ⟨t, h2, by omega⟩
        · exact b2 x hx b hb
      · rcases b3 with rfl | ⟨x, hx, b, t, h2, h3, h4⟩
        · rcases a3 with rfl | ⟨b, t, h2, h3, h4⟩
          · exact Or.inl rfl
          · exact Or.inr ⟨c, by simp, b, t, h2, h3, h4⟩
        · exact Or.inr ⟨x, by simp [hx], b, t, h2, h3, h4⟩

/-- A round answers if the recursive calls do. -/
theorem round_defined {depth : Nat → Option Nat} {h : Heap} {c : Nat} {oc : Obj} (ho : h c = some oc)
    (hd : ∀ b, Via h c b → (depth b).isSome = true) (nd : Nat) : (round depth h nd c).isSome = true := by
  unfold round
  rw [ho]
  simp only
  split
  · rename_i h1
    rw [Option.isSome_map]
    exact hd c ⟨oc, ho, Or.inl ⟨h1, rfl⟩⟩
  · split
    · rename_i h2
      split
      · rfl
      · rename_i d hd'
        rw [Option.isSome_map]
        exact hd d ⟨oc, ho, Or.inr ⟨h2, hd'⟩⟩
    · rfl

theorem rounds_defined {depth : Nat → Option Nat} {h : Heap} : ∀ (l : List Nat) (nd : Nat),
    (∀ c ∈ l, ∃ oc, h c = some oc) → (∀ c ∈ l, ∀ b, Via h c b → (depth b).isSome = true) →
    (rounds depth h nd l).isSome = true
  | [], nd, _, _ => rfl
  | c :: l, nd, ha, hd => by
    obtain ⟨oc, ho⟩ := ha c (by simp)
    obtain ⟨r, hr⟩ := Option.isSome_iff_exists.mp (round_defined ho (hd c (by simp)) nd)
    unfold rounds
    rw [hr]
    exact rounds_defined l r (fun x hx => ha x (by simp [hx])) (fun x hx => hd x (by simp [hx]))

/-- No answer to a recursive call, no answer. -/
theorem rounds_none {depth : Nat → Option Nat} {h : Heap} {b : Nat} (hb : depth b = none) :
    ∀ (l : List Nat) (nd : Nat) {c : Nat}, c ∈ l → Via h c b → rounds depth h nd l = none
  | x :: l, nd, c, hc, hv => by
    unfold rounds
    split
    · rfl
    · rename_i r hr
      rcases List.mem_cons.mp hc with rfl | hc
      · exfalso
        obtain ⟨oc, ho, h1⟩ := hv
        unfold round at hr
        rw [ho] at hr
        simp only at hr
        rcases h1 with ⟨h1, rfl⟩ | ⟨h1, h2⟩
        · rw [if_pos h1, hb] at hr; cases hr
        · rw [if_neg (by omega), if_pos h1, h2] at hr
          simp only [hb] at hr; cases hr
      · exact rounds_none hb l r hc hv

/-- **C35** (part): the depth answered for a definition, and written to the file, is the length
of the longest descent through the definitions it contains.  For all graphs in which the
instances have a definition. -/
theorem C35_depth_partial (h : Heap) (hC : Complete h) : ∀ (n a d : Nat), getDepthLevel n h a = some d →
    Descent h a d ∧ ∀ k, Descent h a k → k ≤ d
  | 0, _, _, H => by cases H
  | n + 1, a, d, H => by
    unfold getDepthLevel at H
    split at H
    · cases H
    · rename_i oa ha
      obtain ⟨_, h2, h3⟩ := rounds_some oa.kids (fun c hc oc ho h408 => by
        obtain ⟨oc', h1, h2⟩ := hC.member a oa ha c hc
        rw [ho] at h1; cases h1
        exact h2 h408) H
      constructor
      · rcases h3 with rfl | ⟨c, hc, b, t, hv, ht, rfl⟩
        · exact Descent.stop a
        · exact Descent.step ((contains_iff ha).mpr ⟨c, hc, hv⟩) (C35_depth_partial h hC n b t ht).1
      · intro k hk
        cases hk with
        | stop => exact Nat.zero_le _
        | step hcon hdes =>
          rename_i b k
          obtain ⟨c, hc, hv⟩ := (contains_iff ha).mp hcon
          obtain ⟨t, ht, hle⟩ := h2 c hc b hv
          have := (C35_depth_partial h hC n b t ht).2 k hdes
          omega

/-- **C35** (part): the depth of a definition is zero if it contains no other, else one more than
the largest depth of those it contains. -/
theorem C35_depth_step_partial (h : Heap) (hC : Complete h) (n a d : Nat)
    (H : getDepthLevel (n + 1) h a = some d) :
    (∀ b, Contains h a b → ∃ t, getDepthLevel n h b = some t ∧ t + 1 ≤ d)
      ∧ (d = 0 ∨ ∃ b, Contains h a b ∧ getDepthLevel n h b = some (d - 1)) := by
  unfold getDepthLevel at H
  split at H
  · cases H
  · rename_i oa ha
    obtain ⟨_, h2, h3⟩ := rounds_some oa.kids (fun c hc oc ho h408 => by
      obtain ⟨oc', h1, h2⟩ := hC.member a oa ha c hc
      rw [ho] at h1; cases h1
      exact h2 h408) H
    constructor
    · intro b hb
      obtain ⟨c, hc, hv⟩ := (contains_iff ha).mp hb
      exact h2 c hc b hv
    · rcases h3 with rfl | ⟨c, hc, b, t, hv, ht, rfl⟩
      · exact Or.inl rfl
      · exact Or.inr ⟨b, (contains_iff ha).mpr ⟨c, hc, hv⟩, by simpa using ht⟩

/-- **C35** (part): the query answers for every definition whose descents are bounded. -/
theorem C35_depth_finite_partial (h : Heap) (hC : Complete h) : ∀ (n a : Nat), (∃ oa, h a = some oa) →
    (∀ k, Descent h a k → k < n) → ∃ d, getDepthLevel n h a = some d
  | 0, a, _, hb => absurd (hb 0 (Descent.stop a)) (Nat.lt_irrefl 0)
  | n + 1, a, ⟨oa, ha⟩, hb => by
    unfold getDepthLevel
    rw [ha]
    rw [← Option.isSome_iff_exists]
    refine rounds_defined oa.kids 0 (fun c hc => ?_) (fun c hc b hv => ?_)
    · obtain ⟨oc, h1, _⟩ := hC.member a oa ha c hc
      exact ⟨oc, h1⟩
    · rw [Option.isSome_iff_exists]
      refine C35_depth_finite_partial h hC n b ?_ ?_
      · obtain ⟨oc, ho, ⟨_, rfl⟩ | ⟨_, h2⟩⟩ := hv
        · exact ⟨oc, ho⟩
        · exact hC.defn c oc b ho h2
      · intro k hk
        have := hb (k + 1) (Descent.step ((contains_iff ha).mpr ⟨c, hc, hv⟩) hk)
        omega

/-- A circular definition is never measured: the query does not answer, whatever the depth of the
recursion. -/
theorem C35_circle_never_returns (h : Heap) : ∀ (n a : Nat), Endless h a → getDepthLevel n h a = none
  | 0, _, _ => rfl
  | n + 1, a, ⟨f, h0, hf⟩ => by
    unfold getDepthLevel
    split
    · rfl
    · rename_i oa ha
      have hc := hf 0
      rw [h0] at hc
      obtain ⟨c, hc, hv⟩ := (contains_iff ha).mp hc
      exact rounds_none (C35_circle_never_returns h n (f 1) ⟨fun i => f (i + 1), rfl, fun i => hf (i + 1)⟩)
        oa.kids 0 hc hv

/-! ### Where it fails -/

/-- **C35 fails** (circular definition).  Two definitions, each containing an instance of the
other: every call is accepted, and the depth of neither can be computed
(`/repo/src/entities/entity308.cpp:274-300` looks at direct members only). -/
theorem C35_fails_circle : ∃ h, Reached h ∧ Endless h 1 ∧ ∀ n, getDepthLevel n h 1 = none := by
  have key : ∃ h, Reached h ∧ Endless h 1 := by
    refine ⟨_, ⟨[.new 1 308, .new 2 308, .new 3 408, .new 4 408, .setDE408 3 (some 2), .setDE408 4 (some 1),
      .addDE 1 (some 3), .addDE 2 (some 4)], ?_, rfl⟩, ?_⟩
    · refine CarefulRun.cons rfl trivial rfl ?_
      refine CarefulRun.cons rfl trivial rfl ?_
      refine CarefulRun.cons rfl trivial rfl ?_
      refine CarefulRun.cons rfl trivial rfl ?_
      refine CarefulRun.cons ⟨⟨_, rfl, rfl⟩, ?_⟩ trivial rfl ?_
      · rintro x h; cases h; exact ⟨_, rfl, rfl⟩
      refine CarefulRun.cons ⟨⟨_, rfl, rfl⟩, ?_⟩ trivial rfl ?_
      · rintro x h; cases h; exact ⟨_, rfl, rfl⟩
      refine CarefulRun.cons ⟨⟨_, rfl, rfl⟩, ?_⟩ (by simp [Careful]) rfl ?_
      · rintro x h; cases h; exact ⟨_, rfl, trivial⟩
      refine CarefulRun.cons ⟨⟨_, rfl, rfl⟩, ?_⟩ (by simp [Careful]) rfl trivial
      rintro x h; cases h; exact ⟨_, rfl, trivial⟩
    · refine ⟨fun i => if i % 2 = 0 then 1 else 2, rfl, fun i => ?_⟩
      by_cases hi : i % 2 = 0
      · have : (i + 1) % 2 ≠ 0 := by omega
        simp only [hi, this, if_true, if_false]
        exact ⟨_, 3, _, rfl, by decide, rfl, Or.inr ⟨rfl, rfl⟩⟩
      · have : (i + 1) % 2 = 0 := by omega
        simp only [hi, this, if_true, if_false]
        exact ⟨_, 4, _, rfl, by decide, rfl, Or.inr ⟨rfl, rfl⟩⟩
  obtain ⟨h, h1, h2⟩ := key
  exact ⟨h, h1, h2, fun n => C35_circle_never_returns h n 1 h2⟩

/-- **C35 fails** (instance without definition).  A definition that contains an instance whose
definition is not set has depth one although it contains no definition
(`/repo/src/entities/entity408.cpp:472-475`, `/repo/src/entities/entity308.cpp:636-643`). -/
theorem C35_fails_empty_instance : ∃ h, Reached h ∧ getDepthLevel 1 h 1 = some 1
    ∧ ∀ k, Descent h 1 k → k = 0 := by
  refine ⟨_, ⟨[.new 1 308, .new 2 408, .addDE 1 (some 2)], ?_, rfl⟩, rfl, ?_⟩
  · refine CarefulRun.cons rfl trivial rfl ?_
    refine CarefulRun.cons rfl trivial rfl ?_
    refine CarefulRun.cons ⟨⟨_, rfl, rfl⟩, ?_⟩ (by simp [Careful]) rfl trivial
    rintro x h; cases h; exact ⟨_, rfl, trivial⟩
  · intro k hk
    cases hk with
    | stop => rfl
    | step hc _ =>
      exfalso
      obtain ⟨oa, c, oc, h1, h2, h3, h4⟩ := hc
      cases h1
      have hc2 : c = 2 := by simpa [newObj] using h2
      subst hc2
      cases h3
      rcases h4 with ⟨h4, _⟩ | ⟨_, h4⟩
      · exact absurd h4 (by decide)
      · exact absurd h4 (by simp [Obj.slot, newObj])

/-! ### A state that meets the hypotheses -/

/-- A definition with an instance of another one, which contains a line. -/
def sample : List Call := [.new 1 308, .new 2 308, .new 3 408, .setDE408 3 (some 2), .addDE 1 (some 3),
  .new 4 110, .addDE 2 (some 4)]

theorem sample_careful : CarefulRun emptyHeap sample := by
  refine CarefulRun.cons rfl trivial rfl ?_
  refine CarefulRun.cons rfl trivial rfl ?_
  refine CarefulRun.cons rfl trivial rfl ?_
  refine CarefulRun.cons ⟨⟨_, rfl, rfl⟩, ?_⟩ trivial rfl ?_
  · rintro x h; cases h; exact ⟨_, rfl, rfl⟩
  refine CarefulRun.cons ⟨⟨_, rfl, rfl⟩, ?_⟩ (by simp [Careful]) rfl ?_
  · rintro x h; cases h; exact ⟨_, rfl, trivial⟩
  refine CarefulRun.cons rfl trivial rfl ?_
  refine CarefulRun.cons ⟨⟨_, rfl, rfl⟩, ?_⟩ (by simp [Careful]) rfl trivial
  rintro x h; cases h; exact ⟨_, rfl, trivial⟩

theorem slot_child {o : Obj} {i d : Nat} (hd : o.slot (.own i) = some d) : d ∈ o.children := by
  simp only [Obj.slot] at hd
  cases hq : o.own[i]? with
  | none => rw [hq] at hd; cases hd
  | some v =>
    rw [hq] at hd
    have hv : v = some d := hd
    subst hv
    have hm : some d ∈ o.own := List.mem_of_getElem? hq
    simp only [Obj.children, List.mem_append, List.mem_filterMap, id_eq, exists_eq_right]
    tauto

theorem kid_child {o : Obj} {c : Nat} (hc : c ∈ o.kids) : c ∈ o.children := by
  simp only [Obj.children, List.mem_append]
  tauto

/-- The hypotheses of C35 hold of that state: the first definition has depth one. -/
example : ∃ h, Reached h ∧ Complete h ∧ getDepthLevel 2 h 1 = some 1 ∧ getDepthLevel 1 h 2 = some 0 := by
  obtain ⟨h, hh⟩ : ∃ h, Graph.run sample = some h := ⟨_, rfl⟩
  have hr : Reached h := ⟨sample, sample_careful, hh⟩
  have hal := Lists.alive_new sample hh
  unfold Graph.run at hh
  cases hh
  refine ⟨_, hr, ?_, rfl, rfl⟩
  obtain ⟨ty, G⟩ := hr.good
  refine ⟨?_, ?_⟩
  · intro a oa ha c hc
    obtain ⟨oc, h1, _⟩ := G.live ha (kid_child hc)
    refine ⟨oc, h1, fun h408 => ?_⟩
    rcases hal c (by rw [h1]; rfl) with h2 | ⟨t, h2⟩
    · cases h2
    simp only [sample, List.mem_cons, List.not_mem_nil, or_false, Call.new.injEq, reduceCtorEq, false_or] at h2
    rcases h2 with ⟨rfl, _⟩ | ⟨rfl, _⟩ | ⟨rfl, _⟩ | ⟨rfl, _⟩
    · cases h1; exact absurd h408 (by decide)
    · cases h1; exact absurd h408 (by decide)
    · cases h1; exact ⟨2, rfl⟩
    · cases h1; exact absurd h408 (by decide)
  · intro c oc d hc hd
    obtain ⟨od, h1, _⟩ := G.live hc (slot_child hd)
    exact ⟨od, h1⟩

end Iges.Props.Depth
