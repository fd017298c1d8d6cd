import Verif.Props.Owner
import Verif.Spec.Export

/-!
C52: `Export` moves every entity of a model to another one.
-/

namespace Iges.Props.Export

open Iges.Graph Iges.Lists Iges.Spec.Lists Iges.Spec.Export Iges.Props.Live Iges.Props.G
  Iges.Props.Lists

/-! ### The selection -/

def Kind (k : Nat) (h : Heap) (e : Nat) : Prop :=
  match k with
  | 0 => TopSurface h e
  | 1 => TopInstance h e
  | _ => Solid h e

/-- The entity is kept in the list of kind `k`. -/
theorem keeps_iff {h : Heap} {e : Nat} {o : Obj} (ho : h e = some o)
    (hu : ∀ u ∈ o.refs, (h u).isSome = true) (k : Nat) (hk : k = 0 ∨ k = 1 ∨ k = 2) :
    ∃ b, keeps h k o = some b ∧ (b = true ↔ Kind k h e) := by
  have hS : TopSurface h e ↔ o.etype = 144 ∧ o.refs = [] := by
    unfold TopSurface
    rw [ho]
    constructor
    · rintro ⟨o', h3, h4⟩; cases h3; exact h4
    · exact fun h3 => ⟨o, rfl, h3⟩
  have hB : Solid h e ↔ o.etype = 186 := by
    unfold Solid
    rw [ho]
    constructor
    · rintro ⟨o', h3, h4⟩; cases h3; exact h4
    · exact fun h3 => ⟨o, rfl, h3⟩
  have hI : TopInstance h e ↔ o.etype = 408
      ∧ (o.refs = [] ∨ ∃ p po, o.refs = [p] ∧ h p = some po ∧ po.etype = 308 ∧ po.refs = []) := by
    unfold TopInstance
    rw [ho]
    constructor
    · rintro ⟨o', h3, h4⟩; cases h3; exact h4
    · exact fun h3 => ⟨o, rfl, h3⟩
  unfold keeps
  by_cases c1 : o.etype = 144 ∧ o.refs.length = 0
  · rw [if_pos c1]
    refine ⟨_, rfl, ?_⟩
    rcases hk with rfl | rfl | rfl <;> simp only [Kind]
    · simpa [hS, c1.1] using c1.2
    · simp [hI, c1.1]
    · simp [hB, c1.1]
  · rw [if_neg c1]
    by_cases c2 : o.etype = 408 ∧ o.refs.length ≤ 1
    · rw [if_pos c2]
      cases hr : o.refs with
      | nil =>
        refine ⟨_, rfl, ?_⟩
        rcases hk with rfl | rfl | rfl <;> simp only [Kind]
        · simp [hS, c2.1]
        · simp [hI, c2.1, hr]
        · simp [hB, c2.1]
      | cons p t =>
        have ht : t = [] := by
          have := c2.2
          rw [hr] at this
          cases t with
          | nil => rfl
          | cons _ _ => simp at this
        subst ht
        obtain ⟨po, hp⟩ := Option.isSome_iff_exists.mp (hu p (by simp [hr]))
        refine ⟨k == 1 && decide (po.refs.length = 0 ∧ po.etype = 308), by simp [hp], ?_⟩
        rcases hk with rfl | rfl | rfl <;> simp only [Kind]
        · simp [hS, c2.1]
        · simp [hI, c2.1, hr, hp]
          exact and_comm
        · simp [hB, c2.1]
    · rw [if_neg c2]
      by_cases c3 : o.etype = 186
      · rw [if_pos c3]
        refine ⟨_, rfl, ?_⟩
        rcases hk with rfl | rfl | rfl <;> simp only [Kind]
        · simp [hS, c3]
        · simp [hI, c3]
        · simp [hB, c3]
      · rw [if_neg c3]
        refine ⟨_, rfl, ?_⟩
        rcases hk with rfl | rfl | rfl <;> simp only [Kind]
        · simp only [hS, Bool.false_eq_true, false_iff]
          rintro ⟨a, b⟩
          exact c1 ⟨a, by simp [b]⟩
        · simp only [hI, Bool.false_eq_true, false_iff]
          rintro ⟨a, b | ⟨p, po, b, _⟩⟩
          · exact c2 ⟨a, by simp [b]⟩
          · exact c2 ⟨a, by simp [b]⟩
        · simp [hB, c3]

theorem pick_mem {h : Heap} (hu : ∀ e o, h e = some o → ∀ u ∈ o.refs, (h u).isSome = true) (k : Nat)
    (hk : k = 0 ∨ k = 1 ∨ k = 2) : ∀ (l : List Nat), (∀ e ∈ l, (h e).isSome = true) →
    ∃ r, pick h k l = some r ∧ ∀ e, e ∈ r ↔ e ∈ l ∧ Kind k h e
  | [], _ => ⟨[], rfl, by simp⟩
  | e :: l, ha => by
    obtain ⟨r, h1, h2⟩ := pick_mem hu k hk l (fun x hx => ha x (by simp [hx]))
    obtain ⟨o, ho⟩ := Option.isSome_iff_exists.mp (ha e (by simp))
    obtain ⟨b, hb1, hb⟩ := keeps_iff ho (hu e o ho) k hk
    unfold pick
    rw [ho, h1]
    simp only [hb1]
    cases b with
    | true =>
      refine ⟨e :: r, rfl, fun x => ?_⟩
      rw [List.mem_cons, List.mem_cons, h2]
      constructor
      · rintro (rfl | ⟨h3, h4⟩)
        · exact ⟨Or.inl rfl, hb.mp rfl⟩
        · exact ⟨Or.inr h3, h4⟩
      · rintro ⟨rfl | h3, h4⟩
        · exact Or.inl rfl
        · exact Or.inr ⟨h3, h4⟩
    | false =>
      refine ⟨r, rfl, fun x => ?_⟩
      rw [List.mem_cons, h2]
      constructor
      · rintro ⟨h3, h4⟩; exact ⟨Or.inr h3, h4⟩
      · rintro ⟨rfl | h3, h4⟩
        · exact absurd (hb.mpr h4) (by simp)
        · exact ⟨h3, h4⟩

theorem selected_mem {h : Heap} (hu : ∀ e o, h e = some o → ∀ u ∈ o.refs, (h u).isSome = true)
    (l : List Nat) (ha : ∀ e ∈ l, (h e).isSome = true) :
    ∃ r, selected h l = some r ∧ ∀ e, e ∈ r ↔ Packaged h l e := by
  obtain ⟨r0, a1, a2⟩ := pick_mem hu 0 (by simp) l ha
  obtain ⟨r1, b1, b2⟩ := pick_mem hu 1 (by simp) l ha
  obtain ⟨r2, c1, c2⟩ := pick_mem hu 2 (by simp) l ha
  simp only [Kind] at a2 b2 c2
  unfold selected
  rw [a1, b1, c1]
  refine ⟨_, rfl, fun e => ?_⟩
  have ne : ∀ (r : List Nat) (P : Nat → Prop), (∀ e, e ∈ r ↔ e ∈ l ∧ P e) → (r ≠ [] ↔ ∃ x ∈ l, P x) := by
    intro r P hr
    constructor
    · intro h1
      obtain ⟨x, hx⟩ := List.exists_mem_of_ne_nil r h1
      exact ⟨x, (hr x).mp hx⟩
    · rintro ⟨x, h1, h2⟩
      exact List.ne_nil_of_mem ((hr x).mpr ⟨h1, h2⟩)
  have n0 := ne r0 _ a2
  have n1 := ne r1 _ b2
  unfold Packaged
  by_cases hi : r1 ≠ []
  · rw [if_pos hi, b2, eq_true (n1.mp hi)]
    simp
  · rw [if_neg hi]
    have hi' : ¬ ∃ x ∈ l, TopInstance h x := fun h => hi (n1.mpr h)
    have hie : e ∈ l → ¬ TopInstance h e := fun h1 h2 => hi' ⟨e, h1, h2⟩
    rw [eq_false hi']
    by_cases hs : r0 ≠ []
    · rw [if_pos hs, a2, eq_true (n0.mp hs)]
      simp only [not_true_eq_false, not_false_eq_true, false_and, true_and, or_false]
      tauto
    · rw [if_neg hs, c2]
      have hs' : ¬ ∃ x ∈ l, TopSurface h x := fun h => hs (n0.mpr h)
      have hse : e ∈ l → ¬ TopSurface h e := fun h1 h2 => hs' ⟨e, h1, h2⟩
      rw [eq_false hs']
      simp only [not_false_eq_true, true_and]
      tauto

/-! ### Filling the definition -/

/-- The new definition with some members. -/
abbrev defn (K : List Nat) : Obj := { newObj 308 with kids := K }

/-- A member after it was taken in. -/
abbrev taken (p : Nat) (o : Obj) : Obj := { o with refs := o.refs ++ [p], depends := 1 }

theorem AddDE_fresh {h : Heap} {p x : Nat} {K : List Nat} {ox : Obj} (hp : h p = some (defn K))
    (hx : h x = some ox) (hxp : x ≠ p) (ht : ox.etype = 144 ∨ ox.etype = 186 ∨ ox.etype = 408)
    (hK : x ∉ K) (hc : p ∉ ox.children) (hr : p ∉ ox.refs) :
    AddDE h p (some x) = some ((h.put x (taken p ox)).put p (defn (K ++ [x])), true) := by
  have hc' := hc
  simp only [Obj.children, List.mem_append, List.mem_filterMap, id_eq, exists_eq_right, not_or] at hc'
  obtain ⟨⟨⟨⟨⟨⟨⟨hde, hex⟩, how⟩, hki⟩, _⟩, _⟩, _⟩, _⟩ := hc'
  have hadd : addRef h x p = some (h.put x { ox with refs := ox.refs ++ [p] }, true, false) := by
    unfold addRef
    rw [hx, hp]
    simp only [how, hki, hde, hr, hex, and_false, if_false]
    rcases ht with ht | ht | ht <;> simp [ht]
  have hnotin : ¬ (some x ∈ (defn K).de ∨ x ∈ (defn K).refs ∨ x ∈ (defn K).extras) := by
    simp [newObj]
  unfold AddDE
  rw [hp]
  simp only
  rw [if_neg hnotin, if_neg hK]
  unfold addKid
  rw [hadd]
  simp only [if_true, Bool.false_eq_true, if_false]
  have hd : setDep (h.put x { ox with refs := ox.refs ++ [p] }) x = h.put x (taken p ox) := by
    unfold setDep
    rw [put_self]
    simp only
    rw [if_neg (by rcases ht with ht | ht | ht <;> simp [ht]), put_put]
  rw [hd, put_ne _ _ hxp.symm, hp]

theorem addEntity_prefix {W n x W' b A} (hA : W.list n = some A)
    (H : AddEntity W n (some x) = some (W', b)) : ∃ B, W'.list n = some (A ++ B) := by
  unfold AddEntity at H
  rw [hA] at H
  simp only at H
  split at H
  · cases H; exact ⟨[], by simpa using hA⟩
  · split at H
    · cases H
    · cases H; exact ⟨[x], by simp⟩

theorem addEntity_defined {W n x A} (hA : W.list n = some A) (hx : (W.heap x).isSome = true) :
    ∃ W', AddEntity W n (some x) = some (W', true) := by
  obtain ⟨o, ho⟩ := Option.isSome_iff_exists.mp hx
  unfold AddEntity
  rw [hA]
  simp only [ho]
  split
  · exact ⟨_, rfl⟩
  · exact ⟨_, rfl⟩

theorem fill_ok {ty : Nat → Nat} {p n : Nat} : ∀ (l : List Nat) {W : World} {K A : List Nat},
    Good ty W.heap → l.Nodup → W.heap p = some (defn K) → W.parent p = some n → W.list n = some A →
    (∀ x ∈ l, x ∉ K ∧ x ≠ p ∧ ∃ ox, W.heap x = some ox
      ∧ (ox.etype = 144 ∨ ox.etype = 186 ∨ ox.etype = 408) ∧ p ∉ ox.children) →
    ∃ W' B, fill W p l = some W' ∧ Good ty W'.heap ∧ W'.heap p = some (defn (K ++ l))
      ∧ (∀ x, x ≠ p → W'.heap x = if x ∈ l then (W.heap x).map (taken p) else W.heap x)
      ∧ W'.list n = some (A ++ B)
  | [], W, K, A, G, _, hp, _, hA, _ => ⟨W, [], rfl, G, by simpa using hp, by simp, by simpa using hA⟩
  | x :: l, W, K, A, G, hn, hp, hpar, hA, hl => by
    obtain ⟨hxK, hxp, ox, hx, ht, hc⟩ := hl x (by simp)
    have hr : p ∉ ox.refs := by
      intro h
      obtain ⟨o, h1, h2⟩ := (G.sym p x).mpr ⟨ox, hx, h⟩
      rw [hp] at h1
      cases h1
      simp [Obj.children, newObj, hxK] at h2
    have hs := AddDE_fresh hp hx hxp ht hxK hc hr
    have hstep : Graph.step W.heap (.addDE p (some x)) = some ((W.heap.put x (taken p ox)).put p (defn (K ++ [x])), true) := hs
    obtain ⟨h2, b, h3, F⟩ := call_ok G (c := .addDE p (some x)) ⟨⟨_, hp, rfl⟩, fun y hy => by
      cases hy; exact ⟨_, hx, trivial⟩⟩ (by simp [Spec.Careful, hxp]) (by simp) (by simp)
    rw [hstep] at h3
    cases h3
    have had : adopts W.heap (.addDE p (some x)) true = [x] := by
      simp [adopts, hp, hxK]
    have hadopt : ∃ W1 B, adopt { W with heap := (W.heap.put x (taken p ox)).put p (defn (K ++ [x])) } p x = some W1
        ∧ W1.list n = some (A ++ B) := by
      unfold adopt
      simp only [hpar]
      split
      · exact ⟨_, [], rfl, by simpa using hA⟩
      · obtain ⟨W1, h4⟩ := addEntity_defined (W := { W with heap := (W.heap.put x (taken p ox)).put p (defn (K ++ [x])) })
          (x := x) hA (by simp [hxp])
        obtain ⟨B, hB⟩ := addEntity_prefix (W := { W with heap := (W.heap.put x (taken p ox)).put p (defn (K ++ [x])) }) hA h4
        exact ⟨W1, B, by rw [h4]; rfl, hB⟩
    obtain ⟨W1, B, h4, h5⟩ := hadopt
    obtain ⟨e1, e2, _⟩ := adopt_eff h4
    have hcall : callEntity W (.addDE p (some x)) = some (W1, true) := by
      unfold callEntity
      rw [hstep]
      simp only [had, receiver, adoptAll, h4]
    have hnx := List.nodup_cons.mp hn
    obtain ⟨W', B', f1, f2, f3, f4, f5⟩ := fill_ok l (W := W1) (K := K ++ [x]) (A := A ++ B)
      (by rw [e1]; exact F.1) hnx.2 (by rw [e1]; simp) (e2.trans hpar) h5 (by
        intro y hy
        obtain ⟨g1, g2, oy, g3, g4, g5⟩ := hl y (by simp [hy])
        have hyx : y ≠ x := fun h => hnx.1 (h ▸ hy)
        refine ⟨by simp [g1, hyx], g2, oy, ?_, g4, g5⟩
        rw [e1]
        simp [put_ne, g2, hyx, g3])
    refine ⟨W', B ++ B', ?_, f2, by simpa using f3, ?_, by simpa using f5⟩
    · unfold fill
      rw [hcall]
      exact f1
    · intro y hy
      rw [f4 y hy, e1]
      by_cases hyx : y = x
      · subst hyx
        simp [hnx.1, hy, hx]
      · simp [hy, hyx]

theorem addAll_ok {n : Nat} : ∀ (l : List Nat) {W : World} {A : List Nat}, W.list n = some A →
    (∀ x ∈ l, (W.heap x).isSome = true) →
    ∃ W' B, addAll W n l = some W' ∧ W'.heap = W.heap ∧ W'.list n = some (A ++ B)
  | [], W, A, hA, _ => ⟨W, [], rfl, rfl, by simpa using hA⟩
  | x :: l, W, A, hA, hl => by
    obtain ⟨W1, h1⟩ := addEntity_defined hA (hl x (by simp))
    obtain ⟨B, hB⟩ := addEntity_prefix hA h1
    obtain ⟨_, e2, _⟩ := addEntity_eff h1
    obtain ⟨W', B', f1, f2, f3⟩ := addAll_ok l hB (fun y hy => by rw [e2]; exact hl y (by simp [hy]))
    refine ⟨W', B ++ B', ?_, f2.trans e2, by simpa using f3⟩
    unfold addAll
    rw [h1]
    exact f1

/-- Nothing was done. -/
theorem export_nothing {W : World} {m n p : Nat} {L Ln : List Nat} (hL : W.list m = some L)
    (hn : W.list n = some Ln) {sel : List Nat} (hs : selected W.heap L = some sel) (h0 : sel = []) :
    Export W m (some n) true p = some (W, true, none) := by
  unfold Export
  rw [hL]
  simp only [Bool.true_eq_false, if_false, hn, hs, h0, if_true]
  split <;> rfl

/-- **C52** (part): exporting a model `m` into another model `n`, when there is something to
package: the call succeeds; `m` is empty afterwards; `n` holds what it held, the new subfigure
definition, and every entity of `m`, each once; the definition refers exactly to the packaged
entities; every other entity refers to what it referred to, and lists of users are right.
Missing: states reached by careless calls or with entities in two models; units, scale and line
weights. -/
theorem C52_export_partial (W : World) (hr : Lists.Reached W) (hg : Props.Reached W.heap) (m n p : Nat)
    (hmn : m ≠ n) (L Ln : List Nat) (hL : W.list m = some L) (hLn : W.list n = some Ln)
    (hp : W.heap p = none) (hpk : ∃ e, Packaged W.heap L e) :
    ∃ W' K, Export W m (some n) true p = some (W', true, some p)
      ∧ W'.list m = some [] ∧ W'.list n = some (Ln ++ p :: K) ∧ K.Perm L ∧ (Ln ++ p :: K).Nodup
      ∧ (∀ k, k ≠ m → k ≠ n → W'.list k = W.list k)
      ∧ (∀ x, x ≠ p → (Alive W' x ↔ Alive W x)) ∧ Alive W' p
      ∧ (∀ q c, q ≠ p → Spec.uses W'.heap q c = Spec.uses W.heap q c)
      ∧ (∀ c, Packaged W.heap L c → Spec.uses W'.heap p c = 1)
      ∧ (∀ c, ¬ Packaged W.heap L c → Spec.uses W'.heap p c = 0)
      ∧ Spec.Symmetric W'.heap := by
  obtain ⟨ty0, G0⟩ := hg.good
  have I := hr.inv
  have hu : ∀ e o, W.heap e = some o → ∀ u ∈ o.refs, (W.heap u).isSome = true := by
    intro e o he u hu
    obtain ⟨ou, h1, _⟩ := (G0.sym u e).mpr ⟨o, he, hu⟩
    rw [h1]; rfl
  have hlive : ∀ e ∈ L, (W.heap e).isSome = true := fun e he => I.live m e trivial ⟨L, hL, he⟩
  obtain ⟨sel, hsel, hmem⟩ := selected_mem hu L hlive
  obtain ⟨e0, he0⟩ := hpk
  have hsel0 : sel ≠ [] := List.ne_nil_of_mem ((hmem e0).mpr he0)
  have hL0 : L ≠ [] := List.ne_nil_of_mem he0.1
  have hsub := selected_sub hsel
  -- the new definition
  obtain ⟨ty, G1⟩ := new_ok G0 hp 308
  let W1 : World := (({ W with heap := W.heap.put p (newObj 308) }).setParent p (some n)).setList n (some (Ln ++ [p]))
  have hN : NewEntity W n p 308 = some (W1, true) := by
    unfold NewEntity
    rw [hLn]
  have hne : ∀ x, (W.heap x).isSome = true → x ≠ p := by
    rintro x h rfl
    rw [hp] at h; cases h
  -- filling it
  obtain ⟨W2, B, f1, f2, f3, f4, f5⟩ := fill_ok (ty := ty) (p := p) (n := n) sel (W := W1) (K := []) (A := Ln ++ [p])
    G1 (hsub.nodup (I.nd m L trivial hL)) (by show W.heap.put p (newObj 308) p = _; rw [put_self]; rfl)
    (by show (if p = p then some n else W.parent p) = some n; simp)
    (by show (if n = n then _ else _) = _; simp) (by
      intro x hx
      have hxl := hlive x (hsub.subset hx)
      obtain ⟨ox, hox⟩ := Option.isSome_iff_exists.mp hxl
      have hxp := hne x hxl
      refine ⟨by simp, hxp, ox, ?_, ?_, ?_⟩
      · show W.heap.put p (newObj 308) x = _
        rw [put_ne _ _ hxp]; exact hox
      · rcases ((hmem x).mp hx).2 with ⟨o, h1, h2, _⟩ | ⟨_, ⟨o, h1, h2, _⟩ | ⟨_, o, h1, h2⟩⟩ <;>
          rw [hox] at h1 <;> cases h1
        · exact Or.inr (Or.inr h2)
        · exact Or.inl h2
        · exact Or.inr (Or.inl h2)
      · intro hc
        obtain ⟨oc, h1, _⟩ := G0.live hox hc
        rw [hp] at h1; cases h1)
  have hW1heap : ∀ x, x ≠ p → W1.heap x = W.heap x := fun x hx => put_ne _ _ hx
  -- moving the entities
  obtain ⟨W3, B', g1, g2, g3⟩ := addAll_ok L f5 (by
    intro x hx
    have hxp := hne x (hlive x hx)
    rw [f4 x hxp, hW1heap x hxp]
    split
    · rw [Option.isSome_map]; exact hlive x hx
    · exact hlive x hx)
  have hE : Export W m (some n) true p = some (W3.setList m (some []), true, some p) := by
    unfold Export
    rw [hL]
    simp only [Bool.true_eq_false, if_false, hL0, hLn, hsel, hsel0, hN, f1, g1]
  -- the lists
  have I0 : InvOn (· ≠ m) W := I.mono (fun _ _ => trivial)
  have I1 := newEntity_inv I0 hp hN
  have hh1 : ∀ m' x, Holds W1 m' x ↔ Holds W m' x ∨ (m' = n ∧ x = p) := by
    intro m' x
    show Holds (World.setList _ n (some (Ln ++ [p]))) m' x ↔ _
    rw [holds_setList]
    split
    · rename_i h; subst h
      rw [holds_of hLn]
      simp
    · rename_i h
      simp only [h, false_and, or_false]
      exact Iff.rfl
  have hs1 : ∀ x ∈ L, ∀ m', m' ≠ m → Holds W1 m' x → m' = n := by
    intro x hx m' hm' hh
    rcases (hh1 m' x).mp hh with h2 | ⟨h2, _⟩
    · exact absurd (I.one m' m x trivial trivial h2 ((holds_of hL x).mpr hx)) hm'
    · exact h2
  obtain ⟨I2, c2, c3, c4, c5, c6⟩ := fill_inv sel I1 (by show (if p = p then some n else W.parent p) = some n; simp)
    (fun x hx => hs1 x (hsub.subset hx)) f1
  obtain ⟨I3, d2, d3, d4⟩ := addAll_inv L I2 (by
    intro x hx m' hm' hh
    rcases c4 m' x hh with h2 | ⟨h2, _⟩
    · exact hs1 x hx m' hm' h2
    · exact h2) g1
  have hlist : (W3.setList m (some [])).list n = some (Ln ++ p :: (B ++ B')) := by
    rw [setList_list, if_neg hmn.symm, g3]
    simp
  have hnd : (Ln ++ p :: (B ++ B')).Nodup := by
    have := I3.nd n _ hmn.symm g3
    simpa using this
  have hK : ∀ x, x ∈ B ++ B' ↔ x ∈ L := by
    intro x
    have hn3 : Holds W3 n x ↔ x ∈ Ln ++ [p] ++ B ++ B' := holds_of g3 x
    have hn1 := hh1 n x
    rw [holds_of hLn] at hn1
    have key : x ∈ Ln ++ [p] ++ B ++ B' ↔ x ∈ Ln ++ [p] ∨ x ∈ L := by
      rw [← hn3, d3]
      constructor
      · rintro (h | ⟨_, h⟩)
        · rcases c4 n x h with h2 | ⟨_, h2⟩
          · left
            rcases hn1.mp h2 with h3 | ⟨_, rfl⟩
            · simp [h3]
            · simp
          · exact Or.inr (hsub.subset h2)
        · exact Or.inr h
      · rintro (h | h)
        · refine Or.inl (c5 n x (hn1.mpr ?_))
          rcases List.mem_append.mp h with h | h
          · exact Or.inl h
          · exact Or.inr ⟨rfl, List.mem_singleton.mp h⟩
        · exact Or.inr ⟨rfl, h⟩
    have hdis : x ∈ B ++ B' → x ∉ Ln ++ [p] := by
      intro h1 h2
      have h3 : (Ln ++ [p] ++ (B ++ B')).Nodup := by simpa using hnd
      exact (List.nodup_append.mp h3).2.2 x h2 x h1 rfl
    have hdis2 : x ∈ L → x ∉ Ln ++ [p] := by
      intro h1 h2
      rcases List.mem_append.mp h2 with h2 | h2
      · exact hmn (I.one m n x trivial trivial ⟨L, hL, h1⟩ ⟨Ln, hLn, h2⟩)
      · exact hne x (hlive x h1) (List.mem_singleton.mp h2)
    constructor
    · intro h
      rcases key.mp (by rw [List.append_assoc]; exact List.mem_append_right _ h) with h2 | h2
      · exact absurd h2 (hdis h)
      · exact h2
    · intro h
      have := key.mpr (Or.inr h)
      rw [List.append_assoc] at this
      rcases List.mem_append.mp this with h2 | h2
      · exact absurd h2 (hdis2 h)
      · exact h2
  -- the heap
  have hheap : (W3.setList m (some [])).heap = W2.heap := g2
  have hval : ∀ q, q ≠ p → (W3.setList m (some [])).heap q = if q ∈ sel then (W.heap q).map (taken p) else W.heap q := by
    intro q hq
    rw [hheap, f4 q hq, hW1heap q hq]
  have hpv : (W3.setList m (some [])).heap p = some (defn sel) := by rw [hheap, f3]; rfl
  have huse : ∀ c, Spec.uses (W3.setList m (some [])).heap p c = sel.count c := by
    intro c
    unfold Spec.uses
    rw [hpv]
    simp [Obj.children, newObj]
  refine ⟨W3.setList m (some []), B ++ B', hE, by simp, hlist, ?_, hnd, ?_, ?_, ⟨_, hpv⟩, ?_, ?_, ?_, ?_⟩
  · refine (List.perm_ext_iff_of_nodup ?_ (I.nd m L trivial hL)).mpr hK
    exact (List.nodup_cons.mp (List.nodup_append.mp hnd).2.1).2
  · intro k hk1 hk2
    rw [setList_list, if_neg hk1, d4 k hk2, c6 k hk2]
    show (if k = n then _ else W.list k) = _
    rw [if_neg hk2]
  · intro x hx
    unfold Alive
    rw [← Option.isSome_iff_exists, ← Option.isSome_iff_exists, hval x hx]
    split
    · rw [Option.isSome_map]
    · exact Iff.rfl
  · intro q c hq
    unfold Spec.uses
    rw [hval q hq]
    by_cases hqs : q ∈ sel
    · rw [if_pos hqs]; cases W.heap q <;> rfl
    · rw [if_neg hqs]
  · intro c hc
    rw [huse]
    exact List.count_eq_one_of_mem (hsub.nodup (I.nd m L trivial hL)) ((hmem c).mpr hc)
  · intro c hc
    rw [huse]
    exact List.count_eq_zero.mpr (fun h => hc ((hmem c).mp h))
  · rw [hheap]
    exact f2.symmetric

/-- **C52**: when there is nothing to package, the call answers true without a handle and changes
nothing. -/
theorem C52_nothing (W : World) (hr : Lists.Reached W) (hg : Props.Reached W.heap) (m n p : Nat)
    (L Ln : List Nat) (hL : W.list m = some L) (hLn : W.list n = some Ln)
    (hpk : ¬ ∃ e, Packaged W.heap L e) : Export W m (some n) true p = some (W, true, none) := by
  obtain ⟨ty0, G0⟩ := hg.good
  have hu : ∀ e o, W.heap e = some o → ∀ u ∈ o.refs, (W.heap u).isSome = true := by
    intro e o he u hu
    obtain ⟨ou, h1, _⟩ := (G0.sym u e).mpr ⟨o, he, hu⟩
    rw [h1]; rfl
  obtain ⟨sel, hsel, hmem⟩ := selected_mem hu L (fun e he => hr.inv.live m e trivial ⟨L, hL, he⟩)
  refine export_nothing hL hLn hsel ?_
  by_contra h
  obtain ⟨x, hx⟩ := List.exists_mem_of_ne_nil sel h
  exact hpk ⟨x, (hmem x).mp hx⟩

/-! ### Where it fails -/

/-- **C52 fails** (nothing to package).  A model that holds a line only: `Export` answers true and
the line stays where it was (`/repo/src/iges/iges.cpp:2482-2483`). -/
theorem C52_fails_nothing_moved : ∃ l W, SoleRun start l ∧ run l = some W ∧ Holds W 1 5
    ∧ Export W 1 (some 2) true 9 = some (W, true, none) := by
  refine ⟨[.newModel 1, .newModel 2, .new 1 5 110], _, ?_, rfl, ⟨[5], rfl, by simp⟩, rfl⟩
  refine SoleRun.cons rfl trivial rfl ?_
  refine SoleRun.cons rfl trivial rfl ?_
  exact SoleRun.cons ⟨⟨_, rfl⟩, rfl⟩ trivial rfl trivial

/-- **C52 fails** (into itself).  A model exported into itself is empty afterwards; its entities,
and the new definition, are alive and belong to no model (`iges.cpp:2577-2618`). -/
theorem C52_fails_self : ∃ l W W', SoleRun start l ∧ run l = some W ∧ W.list 1 = some [5]
    ∧ Export W 1 (some 1) true 9 = some (W', true, some 9) ∧ W'.list 1 = some []
    ∧ Alive W' 5 ∧ Alive W' 9 := by
  refine ⟨[.newModel 1, .new 1 5 144], _, _, ?_, rfl, rfl, rfl, rfl, ⟨_, rfl⟩, ⟨_, rfl⟩⟩
  refine SoleRun.cons rfl trivial rfl ?_
  exact SoleRun.cons ⟨⟨_, rfl⟩, rfl⟩ trivial rfl trivial

/-! ### A state that meets the hypotheses -/

/-- Two models, the first with a trimmed surface on a plane, a solid and a line. -/
def sample : List Op := [.newModel 1, .newModel 2, .new 1 5 144, .new 1 6 128, .call (.setPTS 5 (some 6)),
  .new 1 7 186, .new 2 8 110]

theorem sample_sole : SoleRun start sample := by
  refine SoleRun.cons rfl trivial rfl ?_
  refine SoleRun.cons rfl trivial rfl ?_
  refine SoleRun.cons ⟨⟨_, rfl⟩, rfl⟩ trivial rfl ?_
  refine SoleRun.cons ⟨⟨_, rfl⟩, rfl⟩ trivial rfl ?_
  refine SoleRun.cons ⟨⟨_, rfl, rfl⟩, ?_⟩ ?_ rfl ?_
  · rintro x h; cases h; exact ⟨_, rfl, trivial⟩
  · intro x hx m p h hp
    cases hp
    obtain ⟨L, h1, h2⟩ := h
    by_cases hm : m = 2
    · subst hm; cases h1; cases h2
    by_contra hm'
    simp [setList_list, hm, hm', start] at h1
  refine SoleRun.cons ⟨⟨_, rfl⟩, rfl⟩ trivial rfl ?_
  exact SoleRun.cons ⟨⟨_, rfl⟩, rfl⟩ trivial rfl trivial

/-- The same calls, without the models. -/
def sampleCalls : List Call := [.new 5 144, .new 6 128, .setPTS 5 (some 6), .new 7 186, .new 8 110]

theorem sampleCalls_careful : Spec.CarefulRun emptyHeap sampleCalls := by
  refine CarefulRun.cons rfl trivial rfl ?_
  refine CarefulRun.cons rfl trivial rfl ?_
  refine CarefulRun.cons ⟨⟨_, rfl, rfl⟩, ?_⟩ trivial rfl ?_
  · rintro x h; cases h; exact ⟨_, rfl, trivial⟩
  refine CarefulRun.cons rfl trivial rfl ?_
  exact CarefulRun.cons rfl trivial rfl trivial

/-- The hypotheses of `C52_export_partial` hold of that state. -/
example : ∃ W, run sample = some W ∧ Lists.Reached W ∧ Props.Reached W.heap ∧ W.list 1 = some [5, 6, 7]
    ∧ W.list 2 = some [8] ∧ W.heap 9 = none ∧ Packaged W.heap [5, 6, 7] 5 := by
  refine ⟨_, rfl, ⟨sample, sample_sole, rfl⟩, ⟨sampleCalls, sampleCalls_careful, rfl⟩, rfl, rfl, rfl,
    by simp, Or.inr ⟨?_, Or.inl ⟨_, rfl, rfl, rfl⟩⟩⟩
  rintro ⟨x, hx, o, h1, h2, _⟩
  simp only [List.mem_cons, List.not_mem_nil, or_false] at hx
  rcases hx with rfl | rfl | rfl <;> cases h1 <;> exact absurd h2 (by decide)

end Iges.Props.Export
