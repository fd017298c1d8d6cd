import Verif.Lemmas.LinkOps
/-
What the class parts of linking do when they succeed.
-/
namespace Iges.Props.L

open Iges.Graph Iges.Spec Iges.Link
open Iges.File (REnt Body)

/-! ### Pointers given back -/

theorem dropDEs_ok {es : List REnt} {e : Nat} : ∀ {l : List Nat} {h h' : Heap} {o : Obj},
    Ctx es h → Bal e h → core h e = some o → dropDEs h e l = some h' →
    Step e h h' o { o with de := l.foldl (fun d i => d.set i none) o.de } ∧ Bal e h' ∧ Ctx es h'
  | [], h, h', o, C, B, ho, hl => by
    simp only [dropDEs, Option.some.injEq] at hl
    subst hl
    exact ⟨Step.refl ho, B, C⟩
  | i :: l, h, h', o, C, B, ho, hl => by
    unfold dropDEs at hl
    simp only [Option.bind_eq_bind, Option.bind_eq_some_iff] at hl
    obtain ⟨h1, h2, hl⟩ := hl
    obtain ⟨S, B1⟩ := release_step B ho C.null h2
    have C1 : Ctx es h1 := by
      refine C.step S rfl ?_ (C.exT e o ho)
      intro c hc
      rcases List.mem_or_eq_of_mem_set hc with h3 | h3
      · exact C.deT e o ho c h3
      · cases h3
    obtain ⟨S2, B2, C2⟩ := dropDEs_ok C1 B1 S.now hl
    exact ⟨S.trans S2, B2, C2⟩

/-! ### Single pointers -/

theorem count_children_own {o : Obj} {i c : Nat} (hs : o.own[i]? = some none) (x : Nat) :
    (o.setSlot (.own i) (some c)).children.count x = o.children.count x + if x = c then 1 else 0 := by
  have hp := G.set_some_perm (c := c) hs
  have := hp.count_eq x
  unfold Obj.children Obj.setSlot
  simp only [List.count_append]
  rw [this, List.count_cons]
  by_cases hx : x = c
  · simp [hx]; omega
  · have : ¬ (c == x) = true := by simpa using fun h' => hx h'.symm
    simp [hx, this]

/-- If the pointers of `e` agree with the lists of users, a user `e` is a pointer. -/
theorem Bal.mem {e : Nat} {h : Heap} {o : Obj} (B : Bal e h) (ho : core h e = some o) {x : Nat}
    (hx : e ∈ refsOf h x) : x ∈ o.children := by
  have := B o ho x
  have h1 := List.count_pos_iff.mpr hx
  exact List.count_pos_iff.mp (by omega)

theorem Ctx.noExtra {es h} (C : Ctx es h) {e x : Nat} {o ox : Obj} (ho : core h e = some o)
    (he : ¬ extraType o.etype) (hx : core h x = some ox) : e ∉ ox.extras := by
  intro h1
  have := C.exT x ox hx e h1
  rw [← C.ty ho] at this
  exact he this

theorem linkOwn_ok {es : List REnt} {h h' : Heap} {e i c : Nat} {refused : Bool} {d : OnDup} {o : Obj}
    (C : Ctx es h) (ho : core h e = some o) (hx : ¬ extraType o.etype) (hs : o.own[i]? = some none)
    (hr : refused = true → ∀ h1 h2 dd, core h1 = Function.update (core h) e (some (o.setSlot (.own i) (some c))) →
      addRef h1 c e ≠ some (h2, false, dd))
    (hl : linkOwn h e i c refused d = some (h', true)) :
    Step e h h' o { o with own := o.own.set i (some c) }
      ∧ ((d = .ignore → c ∉ o.children) → Bal e h → Bal e h') ∧ Ctx es h' := by
  unfold linkOwn at hl
  simp only [Option.bind_eq_bind, Option.bind_eq_some_iff] at hl
  obtain ⟨h1, h2, ⟨h3, b, dd⟩, h4, hl⟩ := hl
  have S1 := step_edit (setSlot_local (.own i) (some c)) h2 rfl ho
  obtain ⟨k1, k2⟩ := edit_core (setSlot_local (.own i) (some c)) h2 ho
  cases b with
  | false =>
    simp only [Option.bind_eq_some_iff, Option.some.injEq, Prod.mk.injEq] at hl
    obtain ⟨_, _, _, hl⟩ := hl
    exact absurd h4 (hr hl _ _ _ k1)
  | true =>
    cases dd with
    | false =>
      simp only [Option.some.injEq, Prod.mk.injEq, and_true] at hl
      subst hl
      obtain ⟨S, B⟩ := store_then_add (setSlot_local (.own i) (some c)) rfl ho h2 h4
      exact ⟨S, fun _ => B (count_children_own hs), C.step' S rfl rfl rfl⟩
    | true =>
      cases d with
      | clear =>
        simp only [Option.bind_eq_some_iff] at hl
        obtain ⟨_, _, hl⟩ := hl
        simp at hl
      | stay => simp at hl
      | ignore =>
        simp only [Option.some.injEq, Prod.mk.injEq, and_true] at hl
        subst hl
        obtain ⟨oc, hoc, h5 | h5 | h5⟩ := addRef_cases h4
        · exact absurd h5.2.1 (by decide)
        · obtain ⟨_, _, rfl, h6, _⟩ := h5
          refine ⟨S1, fun hc B => ?_, C.step' S1 rfl rfl rfl⟩
          exfalso
          have C1 := C.step' S1 rfl rfl rfl
          rcases h6 with h6 | h6
          · rw [k2] at h6
            exact hc rfl (B.mem ho h6)
          · exact C1.noExtra S1.now hx hoc h6
        · exact absurd h5.1 (by decide)

theorem findRange_some {n : Nat} {v : Int} {c : Nat} (h : findRange n v = some (some c)) : c = pos v ∧ c < n := by
  unfold findRange at h
  split at h
  · rename_i h1
    simp only [Option.some.injEq] at h
    subst h
    exact ⟨rfl, h1.2⟩
  · simp at h

theorem findOdd_some {n : Nat} {v : Int} {c : Nat} (h : findOdd n v = some (some c)) : c = pos v ∧ c < n := by
  unfold findOdd at h
  split at h
  · simp at h
  · exact findRange_some h

theorem findAbove_some {n : Nat} {v : Int} {c : Nat} (h : findAbove n v = some (some c)) : c = pos v ∧ c < n := by
  unfold findAbove at h
  split at h
  · simp at h
  · exact findRange_some h

theorem findRange_nonneg {n : Nat} {v : Int} {c : Nat} (h : findRange n v = some (some c)) : 0 ≤ v := by
  unfold findRange at h
  split at h
  · omega
  · simp at h

/-- The ways numbers are turned into positions. -/
def IsFind (n : Nat) (f : Find) : Prop := ∀ v c, f v = some (some c) → (c = pos v ∧ c < n) ∧ 0 ≤ v

theorem isFind_range {n : Nat} : IsFind n (findRange n) := fun _ _ h => ⟨findRange_some h, findRange_nonneg h⟩
theorem isFind_odd {n : Nat} : IsFind n (findOdd n) := fun _ _ h => ⟨findOdd_some h, by
  unfold findOdd at h
  split at h
  · simp at h
  · exact findRange_nonneg h⟩
theorem isFind_above {n : Nat} : IsFind n (findAbove n) := fun _ _ h => ⟨findAbove_some h, by
  unfold findAbove at h
  split at h
  · simp at h
  · exact findRange_nonneg h⟩

/-- The type and the form of an entity that was found. -/
structure Found (es : List REnt) (good : Obj → Bool) (v : Int) : Prop where
  inFile : InFile es v
  found : ∃ oc : Obj, oc.etype = typeAt es (pos v) ∧ oc.form = formAt es (pos v) ∧ good oc = true

theorem Ctx.form {es h} (C : Ctx es h) {x : Nat} {o : Obj} (hx : core h x = some o) : o.form = formAt es x := by
  obtain ⟨r, h1, _, h2⟩ := C.static x o hx
  rw [h2, formAt, h1]
  rfl

theorem Ctx.found {es h} (C : Ctx es h) {good : Obj → Bool} {v : Int} {oc : Obj} (h0 : 0 ≤ v)
    (hg : get h (pos v) = some oc) (hgood : good oc = true) : Found es good v :=
  ⟨⟨h0, C.lt (get_core hg)⟩, oc, by have := C.ty (get_core hg); exact this, by have := C.form (get_core hg); exact this,
    hgood⟩

theorem Found.leads {es good v} (F : Found es good v) {T : List Nat} (h : ∀ o : Obj, good o = true → o.etype ∈ T) :
    Leads es T v := by
  obtain ⟨⟨h0, h1⟩, oc, h2, _, h3⟩ := F
  exact ⟨h0, h1, h2 ▸ h oc h3⟩

theorem linkOwnAt_at {es : List REnt} {find : Find} {good : Obj → Bool} {h h' : Heap} {e i : Nat} {v : Int}
    {refused : Bool} {d : OnDup} (hf : IsFind es.length find) (C : Ctx es h)
    (hl : linkOwnAt find good h e i v refused d = some (h', true)) : Found es good v := by
  unfold linkOwnAt at hl
  simp only [Option.bind_eq_bind, Option.bind_eq_some_iff] at hl
  obtain ⟨q, h1, hl⟩ := hl
  cases q with
  | none => simp at hl
  | some c =>
    obtain ⟨⟨rfl, _⟩, h0⟩ := hf v c h1
    simp only [Option.bind_eq_some_iff] at hl
    obtain ⟨oc, h2, hl⟩ := hl
    split at hl
    · rename_i hg
      exact C.found h0 h2 hg
    · simp at hl

theorem linkOwnAt_ok {es : List REnt} {find : Find} {good : Obj → Bool} {h h' : Heap} {e i : Nat} {v : Int}
    {refused : Bool} {d : OnDup} {o : Obj}
    (hf : IsFind es.length find)
    (C : Ctx es h) (ho : core h e = some o) (hx : ¬ extraType o.etype) (hs : o.own[i]? = some none)
    (hr : refused = true → ∀ oc, core h (pos v) = some oc → good { oc with refs := refsOf h (pos v) } = true →
      ∀ h1 h2 dd, core h1 = Function.update (core h) e (some (o.setSlot (.own i) (some (pos v)))) →
      addRef h1 (pos v) e ≠ some (h2, false, dd))
    (hl : linkOwnAt find good h e i v refused d = some (h', true)) :
    Step e h h' o { o with own := o.own.set i (some (pos v)) }
      ∧ ((d = .ignore → pos v ∉ o.children) → Bal e h → Bal e h') ∧ Ctx es h'
      ∧ ∃ oc, get h (pos v) = some oc ∧ good oc = true := by
  unfold linkOwnAt at hl
  simp only [Option.bind_eq_bind, Option.bind_eq_some_iff] at hl
  obtain ⟨q, h1, hl⟩ := hl
  cases q with
  | none => simp at hl
  | some c =>
    obtain ⟨⟨rfl, _⟩, h0⟩ := hf v c h1
    simp only [Option.bind_eq_some_iff] at hl
    obtain ⟨oc, h2, hl⟩ := hl
    split at hl
    · rename_i hg
      obtain ⟨a, b, c⟩ := linkOwn_ok C ho hx hs (by
        intro h3 h4 h5 dd h6
        refine hr h3 _ (get_core h2) ?_ h4 h5 dd h6
        rw [show refsOf h (pos v) = oc.refs from refsOf_some h2]
        exact hg) hl
      exact ⟨a, b, c, oc, h2, hg⟩
    · simp at hl

/-! ### Pointer lists -/

theorem kids_local (c : Nat) : Local fun o => { o with kids := o.kids ++ [c] } := fun _ _ => rfl

theorem count_kids {o : Obj} {c : Nat} (x : Nat) :
    ({ o with kids := o.kids ++ [c] } : Obj).children.count x = o.children.count x + if x = c then 1 else 0 := by
  unfold Obj.children
  simp only [List.count_append, List.count_singleton]
  by_cases hx : x = c
  · simp [hx]; omega
  · have : ¬ (c == x) = true := by simpa using fun h' => hx h'.symm
    simp [hx, this]

theorem mem_children_kids {o : Obj} {c x : Nat} :
    x ∈ ({ o with kids := o.kids ++ [c] } : Obj).children ↔ x ∈ o.children ∨ x = c := by
  unfold Obj.children
  simp only [List.mem_append, List.mem_singleton]
  tauto

theorem linkKid_ok {es : List REnt} {h h' : Heap} {e c : Nat} {ig : Bool} {o : Obj}
    (C : Ctx es h) (ho : core h e = some o) (hx : ¬ extraType o.etype)
    (hl : linkKid h e c ig = some (h', true)) :
    Step e h h' o { o with kids := o.kids ++ [c] }
      ∧ ((ig = true → c ∉ o.children) → Bal e h → Bal e h') ∧ Ctx es h' := by
  unfold linkKid at hl
  simp only [Option.bind_eq_bind, Option.bind_eq_some_iff] at hl
  obtain ⟨⟨h3, b, dd⟩, h4, hl⟩ := hl
  cases b with
  | false => simp at hl
  | true =>
    simp only at hl
    split at hl
    · simp at hl
    · rename_i hd
      simp only [Option.bind_eq_some_iff, Option.some.injEq, Prod.mk.injEq, and_true] at hl
      obtain ⟨h5, h6, rfl⟩ := hl
      cases dd with
      | false =>
        obtain ⟨S, B⟩ := add_then_store (kids_local c) rfl ho h4 h6
        exact ⟨S, fun _ => B count_kids, C.step' S rfl rfl rfl⟩
      | true =>
        have hig : ig = true := by simpa using hd
        obtain ⟨oc, hoc, h7 | h7 | h7⟩ := addRef_cases h4
        · exact absurd h7.2.1 (by decide)
        · obtain ⟨_, _, rfl, h8, _⟩ := h7
          have S := step_edit (kids_local c) h6 rfl ho
          refine ⟨S, fun hc B => ?_, C.step' S rfl rfl rfl⟩
          exfalso
          rcases h8 with h8 | h8
          · exact hc hig (B.mem ho h8)
          · exact C.noExtra ho hx hoc h8
        · exact absurd h7.1 (by decide)

theorem linkKids_ok {es : List REnt} {find : Find} {good : Obj → Bool} {e : Nat} {ig : Bool}
    (hf : IsFind es.length find) : ∀ {l : List Int} {h h' : Heap} {o : Obj},
    Ctx es h → core h e = some o → ¬ extraType o.etype →
    linkKids find good ig e l h = some (h', true) →
    Step e h h' o { o with kids := o.kids ++ l.map pos }
      ∧ ((ig = true → (l.map pos).Nodup ∧ ∀ v ∈ l, pos v ∉ o.children) → Bal e h → Bal e h') ∧ Ctx es h'
  | [], h, h', o, C, ho, hx, hl => by
    simp only [linkKids, Option.some.injEq, Prod.mk.injEq, and_true] at hl
    subst hl
    exact ⟨by simpa using Step.refl ho, fun _ => id, C⟩
  | v :: l, h, h', o, C, ho, hx, hl => by
    unfold linkKids at hl
    simp only [Option.bind_eq_bind, Option.bind_eq_some_iff] at hl
    obtain ⟨q, h1, hl⟩ := hl
    cases q with
    | none => simp at hl
    | some c =>
      obtain ⟨⟨rfl, _⟩, h0⟩ := hf v c h1
      simp only [Option.bind_eq_some_iff] at hl
      obtain ⟨oc, h2, hl⟩ := hl
      split at hl
      · rw [Option.bind_eq_some_iff] at hl
        obtain ⟨⟨h3, b⟩, h4, hl⟩ := hl
        cases b with
        | false => simp at hl
        | true =>
          simp only at hl
          obtain ⟨S, B, C1⟩ := linkKid_ok C ho hx h4
          obtain ⟨S2, B2, C2⟩ := linkKids_ok hf C1 S.now hx hl
          refine ⟨by simpa using S.trans S2, fun hc b => B2 ?_ (B ?_ b), C2⟩
          · intro hi
            obtain ⟨n1, n2⟩ := hc hi
            rw [List.map_cons, List.nodup_cons] at n1
            refine ⟨n1.2, ?_⟩
            intro w hw h5
            rcases mem_children_kids.mp h5 with h5 | h5
            · exact n2 w (by simp [hw]) h5
            · exact n1.1 (h5 ▸ List.mem_map_of_mem hw)
          · intro hi
            exact (hc hi).2 v (by simp)
      · simp at hl

theorem linkKids_good {es : List REnt} {find : Find} {good : Obj → Bool} {e : Nat} {ig : Bool}
    (hf : IsFind es.length find) : ∀ {l : List Int} {h h' : Heap} {o : Obj},
    Ctx es h → core h e = some o → ¬ extraType o.etype →
    linkKids find good ig e l h = some (h', true) →
    ∀ v ∈ l, Found es good v
  | [], h, h', o, C, ho, hx, hl => by simp
  | v :: l, h, h', o, C, ho, hx, hl => by
    unfold linkKids at hl
    simp only [Option.bind_eq_bind, Option.bind_eq_some_iff] at hl
    obtain ⟨q, h1, hl⟩ := hl
    cases q with
    | none => simp at hl
    | some c =>
      obtain ⟨⟨rfl, _⟩, h0⟩ := hf v c h1
      simp only [Option.bind_eq_some_iff] at hl
      obtain ⟨oc, h2, hl⟩ := hl
      split at hl
      · rename_i hg
        rw [Option.bind_eq_some_iff] at hl
        obtain ⟨⟨h3, b⟩, h4, hl⟩ := hl
        cases b with
        | false => simp at hl
        | true =>
          simp only at hl
          obtain ⟨S, _, C1⟩ := linkKid_ok C ho hx h4
          intro w hw
          rcases List.mem_cons.mp hw with rfl | hw
          · exact C.found h0 h2 hg
          · exact linkKids_good hf C1 S.now hx hl w hw
      · simp at hl

theorem linkArgs_ok {es : List REnt} {e : Nat} : ∀ {l : List Int} {h h' : Heap} {o : Obj},
    Ctx es h → core h e = some o → linkArgs es.length e l h = some (h', true) →
    Step e h h' o { o with kids := o.kids ++ l.map pos } ∧ (Bal e h → Bal e h') ∧ Ctx es h'
  | [], h, h', o, C, ho, hl => by
    simp only [linkArgs, Option.some.injEq, Prod.mk.injEq, and_true] at hl
    subst hl
    exact ⟨by simpa using Step.refl ho, id, C⟩
  | v :: l, h, h', o, C, ho, hl => by
    unfold linkArgs at hl
    simp only [Option.bind_eq_bind, Option.bind_eq_some_iff] at hl
    obtain ⟨q, h1, hl⟩ := hl
    cases q with
    | none => simp at hl
    | some c =>
      obtain ⟨rfl, _⟩ := findRange_some h1
      simp only [Option.bind_eq_some_iff] at hl
      obtain ⟨oc, h2, hl⟩ := hl
      split at hl
      · simp only [Option.bind_eq_some_iff] at hl
        obtain ⟨h3, h4, ⟨h5, b, d⟩, h6, hl⟩ := hl
        cases b with
        | false => simp at hl
        | true =>
          cases d with
          | true => simp at hl
          | false =>
            simp only at hl
            obtain ⟨S, B⟩ := store_then_add (kids_local (pos v)) rfl ho h4 h6
            obtain ⟨S2, B2, C2⟩ := linkArgs_ok (C.step' S rfl rfl rfl) S.now hl
            exact ⟨by simpa using S.trans S2, fun b => B2 (B count_kids b), C2⟩
      · simp at hl

theorem linkArgs_at {es : List REnt} {e : Nat} : ∀ {l : List Int} {h h' : Heap} {o : Obj},
    Ctx es h → core h e = some o → linkArgs es.length e l h = some (h', true) →
    ∀ v ∈ l, Found es (fun o => operand180 o.etype) v
  | [], h, h', o, C, ho, hl => by simp
  | v :: l, h, h', o, C, ho, hl => by
    unfold linkArgs at hl
    simp only [Option.bind_eq_bind, Option.bind_eq_some_iff] at hl
    obtain ⟨q, h1, hl⟩ := hl
    cases q with
    | none => simp at hl
    | some c =>
      have h0 := findRange_nonneg h1
      obtain ⟨rfl, _⟩ := findRange_some h1
      simp only [Option.bind_eq_some_iff] at hl
      obtain ⟨oc, h2, hl⟩ := hl
      split at hl
      · rename_i hg
        simp only [Option.bind_eq_some_iff] at hl
        obtain ⟨h3, h4, ⟨h5, b, d⟩, h6, hl⟩ := hl
        cases b with
        | false => simp at hl
        | true =>
          cases d with
          | true => simp at hl
          | false =>
            simp only at hl
            obtain ⟨S, _⟩ := store_then_add (kids_local (pos v)) rfl ho h4 h6
            intro w hw
            rcases List.mem_cons.mp hw with rfl | hw
            · exact C.found h0 h2 hg
            · exact linkArgs_at (C.step' S rfl rfl rfl) S.now hl w hw
      · simp at hl

/-! ### Edge lists -/

/-- One more use of `v`. -/
def incr (v : Nat) (l : List (Nat × Int)) : List (Nat × Int) :=
  if v ∈ l.map Prod.fst then l.map (fun q => if q.1 = v then (q.1, q.2 + 1) else q) else l ++ [(v, 1)]

theorem firsts_snoc (l : List Nat) (x : Nat) :
    firsts (l ++ [x]) = if x ∈ firsts l then firsts l else firsts l ++ [x] := by
  unfold firsts
  rw [List.foldl_append]
  rfl

theorem mem_firsts {l : List Nat} {x : Nat} : x ∈ firsts l ↔ x ∈ l := by
  induction l using List.reverseRecOn generalizing x with
  | nil => simp [firsts]
  | append_singleton l y ih =>
    rw [firsts_snoc]
    split
    · rename_i h
      rw [ih] at h
      simp only [List.mem_append, List.mem_singleton, ih]
      constructor
      · exact Or.inl
      · rintro (h1 | rfl)
        · exact h1
        · exact h
    · simp [ih]

theorem firsts_nodup (l : List Nat) : (firsts l).Nodup := by
  induction l using List.reverseRecOn with
  | nil => simp [firsts]
  | append_singleton l y ih =>
    rw [firsts_snoc]
    split
    · exact ih
    · rename_i h
      rw [List.nodup_append]
      exact ⟨ih, by simp, fun a ha b hb => by
        rw [List.mem_singleton] at hb; subst hb; exact fun h' => h (h' ▸ ha)⟩

theorem tally_fst (l : List Nat) : (tally l).map Prod.fst = firsts l := by
  unfold tally
  rw [List.map_map]
  exact List.map_id _

theorem tally_snoc (l : List Nat) (x : Nat) : tally (l ++ [x]) = incr x (tally l) := by
  unfold incr
  rw [tally_fst]
  unfold tally
  rw [firsts_snoc]
  split
  · rename_i h
    rw [List.map_map]
    apply List.map_congr_left
    intro y _
    simp only [Function.comp_apply, List.count_append, List.count_singleton]
    by_cases hy : y = x
    · subst hy; simp
    · have : ¬ (x == y) = true := by simpa using fun h' => hy h'.symm
      simp [hy, this]
  · rename_i h
    rw [List.map_append]
    congr 1
    · apply List.map_congr_left
      intro y hy
      have : x ≠ y := fun h' => h (h' ▸ hy)
      simp [List.count_append, this]
    · have h0 : l.count x = 0 := List.count_eq_zero.mpr fun h1 => h (mem_firsts.mpr h1)
      simp [List.count_append, h0]

theorem incr_fst (v : Nat) (l : List (Nat × Int)) :
    (incr v l).map Prod.fst = if v ∈ l.map Prod.fst then l.map Prod.fst else l.map Prod.fst ++ [v] := by
  unfold incr
  split
  · rw [List.map_map]
    apply List.map_congr_left
    intro q _
    simp only [Function.comp_apply]
    split <;> rfl
  · simp

theorem put_edit {h : Heap} {e : Nat} {o : Obj} (f : Obj → Obj) (ho : h e = some o) :
    edit h e f = some (h.put e (f o)) := by
  unfold edit; rw [ho]; rfl

theorem incr_local (v : Nat) : Local fun o => { o with verts := incr v o.verts } := fun _ _ => rfl

theorem count_verts_mem {o : Obj} {v : Nat} (hv : v ∈ o.verts.map Prod.fst) (x : Nat) :
    ({ o with verts := incr v o.verts } : Obj).children.count x = o.children.count x := by
  unfold Obj.children
  simp only [incr_fst, if_pos hv]

theorem count_verts_new {o : Obj} {v : Nat} (hv : v ∉ o.verts.map Prod.fst) (x : Nat) :
    ({ o with verts := incr v o.verts } : Obj).children.count x = o.children.count x + if x = v then 1 else 0 := by
  unfold Obj.children
  simp only [incr_fst, if_neg hv, List.count_append, List.count_singleton]
  by_cases hx : x = v
  · simp [hx]; omega
  · have : ¬ (v == x) = true := by simpa using fun h' => hx h'.symm
    simp [hx, this]

/-- A step that keeps the agreement of pointers and users. -/
def BStep (es : List REnt) (e : Nat) (h h' : Heap) (o o' : Obj) : Prop :=
  Step e h h' o o' ∧ (Bal e h → Bal e h') ∧ Ctx es h'

theorem BStep.trans {es e h h1 h2 o o1 o2} (S : BStep es e h h1 o o1) (T : BStep es e h1 h2 o1 o2) :
    BStep es e h h2 o o2 := ⟨S.1.trans T.1, fun b => T.2.1 (S.2.1 b), T.2.2⟩

/-- The difference between pointers and users stays the same. -/
def Even (e : Nat) (h h' : Heap) (o o' : Obj) : Prop :=
  ∀ x, o'.children.count x + (refsOf h x).count e = o.children.count x + (refsOf h' x).count e

theorem Even.bal {e h h' o o'} (E : Even e h h' o o') (ho : core h e = some o) (ho' : core h' e = some o')
    (B : Bal e h) : Bal e h' := by
  intro o2 h2 x
  rw [ho', Option.some.injEq] at h2
  subst h2
  have := E x
  have := B o ho x
  omega

theorem Even.trans {e h h1 h2 o o1 o2} (E : Even e h h1 o o1) (F : Even e h1 h2 o1 o2) : Even e h h2 o o2 := by
  intro x
  have := E x
  have := F x
  omega

theorem even_same {e : Nat} {h h' : Heap} {o o' : Obj} (hr : refsOf h' = refsOf h)
    (hc : ∀ x, o'.children.count x = o.children.count x) : Even e h h' o o' := by
  intro x
  rw [hr, hc]

theorem even_add {e c : Nat} {h h' : Heap} {o o' : Obj}
    (hr : refsOf h' = Function.update (refsOf h) c (refsOf h c ++ [e]))
    (hc : ∀ x, o'.children.count x = o.children.count x + if x = c then 1 else 0) : Even e h h' o o' := by
  intro x
  rw [hc, hr]
  by_cases hx : x = c
  · subst hx
    rw [Function.update_self, count_add, if_pos rfl, if_pos rfl]
    omega
  · rw [Function.update_of_ne hx, if_neg hx, Nat.add_zero]

theorem addVertexList_ok {es : List REnt} {h h' : Heap} {e v : Nat} {o : Obj} (C : Ctx es h)
    (ho : core h e = some o) (hl : addVertexList h e (some v) = some (h', true)) :
    Step e h h' o { o with verts := incr v o.verts } ∧ Even e h h' o { o with verts := incr v o.verts }
      ∧ Ctx es h' := by
  obtain ⟨h1, _⟩ := of_core ho
  unfold addVertexList at hl
  rw [h1] at hl
  simp only at hl
  split at hl
  · rename_i hv
    simp only [Option.some.injEq, Prod.mk.injEq, and_true] at hl
    have he : edit h e (fun o => { o with verts := incr v o.verts }) = some h' := by
      rw [put_edit _ h1, ← hl]
      unfold incr
      rw [if_pos hv]
    have S := step_edit (incr_local v) he rfl ho
    exact ⟨S, even_same (edit_core (incr_local v) he ho).2 (count_verts_mem hv), C.step' S rfl rfl rfl⟩
  · rename_i hv
    cases ha : addRef h v e with
    | none => rw [ha] at hl; cases hl
    | some q =>
      obtain ⟨h2, b, d⟩ := q
      rw [ha] at hl
      simp only at hl
      split at hl
      · rename_i hbd
        obtain ⟨rfl, rfl⟩ := hbd
        cases h3 : h2 e with
        | none => rw [h3] at hl; cases hl
        | some o1 =>
          rw [h3] at hl
          simp only [Option.some.injEq, Prod.mk.injEq, and_true] at hl
          have hc2 : core h2 e = some o ∧ refsOf h2 = Function.update (refsOf h) v (refsOf h v ++ [e]) := by
            obtain ⟨oc, hoc, h5 | h5 | h5⟩ := addRef_cases ha
            · rw [h5.2.2.1]; exact ⟨ho, h5.2.2.2.1⟩
            · exact absurd h5.2.1 (by decide)
            · exact absurd h5.1 (by decide)
          have hov : o1.verts = o.verts := by
            have := core_some h3
            rw [hc2.1, Option.some.injEq] at this
            rw [this]
          have he : edit h2 e (fun o => { o with verts := incr v o.verts }) = some h' := by
            rw [put_edit _ h3, ← hl]
            unfold incr
            rw [if_neg (by rw [hov]; exact hv)]
          obtain ⟨S, _⟩ := add_then_store (incr_local v) rfl ho ha he
          refine ⟨S, even_add ?_ (count_verts_new hv), C.step' S rfl rfl rfl⟩
          rw [(edit_core (incr_local v) he hc2.1).2]
          exact hc2.2
      · simp at hl

theorem edges_local (q : Graph.Edge) : Local fun o => { o with edges := o.edges ++ [q] } := fun _ _ => rfl

theorem count_edges {o : Obj} {q : Graph.Edge} (x : Nat) :
    ({ o with edges := o.edges ++ [q] } : Obj).children.count x
      = o.children.count x + if x = q.curv then 1 else 0 := by
  unfold Obj.children
  simp only [List.count_append, List.map_append, List.map_cons, List.map_nil, List.count_singleton]
  by_cases hx : x = q.curv
  · simp [hx]; omega
  · have : ¬ (q.curv == x) = true := by simpa using fun h' => hx h'.symm
    simp [hx, this]

theorem AddEdge_ok {es : List REnt} {h h' : Heap} {e c s t : Nat} {sv tv : Int} {o : Obj} (C : Ctx es h)
    (ho : core h e = some o) (hl : AddEdge h e (some c) (some s) sv (some t) tv = some (h', true)) :
    BStep es e h h' o { o with verts := incr t (incr s o.verts), edges := o.edges ++ [⟨c, s, sv, t, tv⟩] }
      ∧ (∃ os ot, core h s = some os ∧ core h t = some ot ∧ 1 ≤ sv ∧ sv ≤ os.npts ∧ 1 ≤ tv ∧ tv ≤ ot.npts)
      ∧ ∃ oc, get h c = some oc ∧ curve504 oc = true := by
  unfold AddEdge at hl
  simp only at hl
  cases hc : h c with
  | none => simp [hc] at hl
  | some oc =>
    simp only [hc] at hl
    split at hl
    · simp at hl
    · rename_i hcv
      rw [← and_assoc]
      refine ⟨?_, oc, hc, by simpa using hcv⟩
      cases ha : addRef h c e with
      | none => simp [ha] at hl
      | some q =>
        obtain ⟨h1, b, d⟩ := q
        simp only [ha] at hl
        split at hl
        · simp at hl
        · rename_i hbd
          have hb : b = true := by
            cases b
            · exact absurd (Or.inl rfl) hbd
            · rfl
          have hd : d = false := by
            cases d
            · rfl
            · exact absurd (Or.inr rfl) hbd
          subst hb; subst hd
          obtain ⟨occ, hocc, h5 | h5 | h5⟩ := addRef_cases ha
          swap
          · exact absurd h5.2.1 (by decide)
          swap
          · exact absurd h5.1 (by decide)
          obtain ⟨_, _, e1, e2, hne, _, h0⟩ := h5
          have S1 := step_add ho e1 hocc h0 hne e2
          have C1 : Ctx es h1 := C.step' S1 rfl rfl rfl
          cases hv : addVertexList h1 e (some s) with
          | none => simp [hv] at hl
          | some q =>
            obtain ⟨h2, b⟩ := q
            cases b with
            | false =>
              simp only [hv, Option.map_eq_some_iff] at hl
              obtain ⟨_, _, hl⟩ := hl
              simp at hl
            | true =>
              simp only [hv] at hl
              have T1 := addVertexList_ok C1 S1.now hv
              cases hv2 : addVertexList h2 e (some t) with
              | none => simp [hv2] at hl
              | some q =>
                obtain ⟨h3, b⟩ := q
                cases b with
                | false =>
                  simp only [hv2] at hl
                  cases hd : delRef h3 c e with
                  | none => simp [hd] at hl
                  | some q =>
                    simp only [hd, Option.map_eq_some_iff] at hl
                    obtain ⟨_, _, hl⟩ := hl
                    simp at hl
                | true =>
                  simp only [hv2] at hl
                  have T2 := addVertexList_ok T1.2.2 T1.1.now hv2
                  have T := T1.1.trans T2.1
                  cases hs3 : h3 s with
                  | none => simp [hs3] at hl
                  | some os =>
                    cases ht3 : h3 t with
                    | none => simp [hs3, ht3] at hl
                    | some ot =>
                      simp only [hs3, ht3] at hl
                      split at hl
                      · exfalso
                        cases hd : delRef h3 c e with
                        | none => simp [hd] at hl
                        | some q =>
                          simp only [hd] at hl
                          cases hd2 : delVertexList q.1 e s with
                          | none => simp [hd2] at hl
                          | some h5 =>
                            simp only [hd2, Option.map_eq_some_iff] at hl
                            obtain ⟨_, _, hl⟩ := hl
                            simp at hl
                      · rename_i hnum
                        push Not at hnum
                        obtain ⟨n1, n2, n3, n4⟩ := hnum
                        cases he3 : h3 e with
                        | none => simp [he3] at hl
                        | some oe =>
                          simp only [he3, Option.some.injEq, Prod.mk.injEq, and_true] at hl
                          have he : edit h3 e (fun o => { o with edges := o.edges ++ [⟨c, s, sv, t, tv⟩] })
                              = some h' := by
                            rw [put_edit _ he3, ← hl]
                          have S3 := step_edit (edges_local ⟨c, s, sv, t, tv⟩) he rfl T2.1.now
                          have SS := (S1.trans T).trans S3
                          refine ⟨⟨SS, ?_, C.step' SS rfl rfl rfl⟩, ?_⟩
                          · refine Even.bal ?_ ho SS.now
                            intro x
                            have E := (T1.2.1.trans T2.2.1) x
                            have r3 := (edit_core (edges_local ⟨c, s, sv, t, tv⟩) he T2.1.now).2
                            have ce := count_edges (o := { o with verts := incr t (incr s o.verts) })
                              (q := ⟨c, s, sv, t, tv⟩) x
                            have e2x : (refsOf h1 x).count e = (refsOf h x).count e + if x = c then 1 else 0 := by
                              rw [e2]
                              by_cases hx : x = c
                              · subst hx
                                rw [Function.update_self, count_add, if_pos rfl, if_pos rfl]
                              · rw [Function.update_of_ne hx, if_neg hx]; rfl
                            rw [r3]
                            simp only at ce E ⊢
                            rw [ce]
                            omega
                          · have npts : ∀ y oy, h3 y = some oy → ∃ o', core h y = some o' ∧ o'.npts = oy.npts := by
                              intro y oy hy
                              by_cases hye : y = e
                              · subst hye
                                have := core_some hy
                                rw [(S1.trans T).now, Option.some.injEq] at this
                                refine ⟨o, ho, ?_⟩
                                have h9 := congrArg Obj.npts this
                                exact h9
                              · have := core_some hy
                                rw [(S1.trans T).ne hye] at this
                                exact ⟨_, this, rfl⟩
                            obtain ⟨os', a1, a2⟩ := npts s os hs3
                            obtain ⟨ot', b1, b2⟩ := npts t ot ht3
                            exact ⟨os', ot', a1, b1, n1, by rw [a2]; exact n2, n3, by rw [b2]; exact n4⟩

/-- What is known about an edge that was linked. -/
def EdgeAt (es : List REnt) (q : Iges.Edge) : Prop :=
  Leads es [502] q.svp ∧ Leads es [502] q.tvp ∧ Leads es ([102, 106, 112, 130] ++ simpleCurves) q.curv
    ∧ 1 ≤ q.sv ∧ q.sv ≤ pointsAt es (pos q.svp) ∧ 1 ≤ q.tv ∧ q.tv ≤ pointsAt es (pos q.tvp)

theorem Ctx.points {es h} (C : Ctx es h) {x : Nat} {o : Obj} (hx : core h x = some o) : o.npts = pointsAt es x := by
  obtain ⟨r, h1, _, _⟩ := C.static x o hx
  rw [C.npts x o r hx h1, pointsAt, h1]
  obtain ⟨d, b, xs, cs⟩ := r
  cases b <;> rfl

theorem curve504_types {o : Obj} (h : curve504 o = true) : o.etype ∈ [102, 106, 112, 130] ++ simpleCurves := by
  unfold curve504 at h
  simp only [Bool.or_eq_true, Bool.and_eq_true, beq_iff_eq, decide_eq_true_eq, List.mem_cons, List.not_mem_nil,
    or_false] at h
  simp only [simpleCurves, List.cons_append, List.nil_append, List.mem_cons, List.not_mem_nil, or_false]
  omega

theorem linkEdges_at {es : List REnt} {e : Nat} : ∀ {l : List Iges.Edge} {h h' : Heap} {o : Obj},
    Ctx es h → core h e = some o → linkEdges es.length e l h = some (h', true) → ∀ q ∈ l, EdgeAt es q
  | [], h, h', o, C, ho, hl => by simp
  | q :: l, h, h', o, C, ho, hl => by
    unfold linkEdges at hl
    simp only [Option.bind_eq_bind, Option.bind_eq_some_iff] at hl
    obtain ⟨qc, h1, qs, h2, qt, h3, hl⟩ := hl
    cases qc with
    | none => simp at hl
    | some c =>
      cases qs with
      | none => simp at hl
      | some s =>
        cases qt with
        | none =>
          simp only [Option.bind_eq_some_iff] at hl
          obtain ⟨os, _, hl⟩ := hl
          split at hl <;> simp at hl
        | some t =>
          have n1 := findRange_nonneg h1
          have n2 := findRange_nonneg h2
          have n3 := findRange_nonneg h3
          obtain ⟨rfl, _⟩ := findRange_some h1
          obtain ⟨rfl, _⟩ := findRange_some h2
          obtain ⟨rfl, _⟩ := findRange_some h3
          simp only [Option.bind_eq_some_iff] at hl
          obtain ⟨os, hos, ot, hot, hl⟩ := hl
          split at hl
          · simp at hl
          · rename_i hty
            push Not at hty
            rw [Option.bind_eq_some_iff] at hl
            obtain ⟨⟨h4, b⟩, h5, hl⟩ := hl
            cases b with
            | false => simp at hl
            | true =>
              simp only at hl
              obtain ⟨S, ⟨os', ot', k1, k2, k3, k4, k5, k6⟩, oc, k7, k8⟩ := AddEdge_ok C ho h5
              intro w hw
              rcases List.mem_cons.mp hw with rfl | hw
              · refine ⟨⟨n2, C.lt k1, ?_⟩, ⟨n3, C.lt k2, ?_⟩, (C.found n1 k7 k8).leads fun _ => curve504_types, k3, ?_, k5, ?_⟩
                · rw [← C.ty (get_core hos)]
                  simpa using hty.1
                · rw [← C.ty (get_core hot)]
                  simpa using hty.2
                · rw [← C.points k1]; exact k4
                · rw [← C.points k2]; exact k6
              · exact linkEdges_at S.2.2 S.1.now hl w hw

theorem linkEdges_ok {es : List REnt} {e : Nat} : ∀ {l : List Iges.Edge} {h h' : Heap} {o : Obj} {L : List Nat},
    Ctx es h → core h e = some o → o.verts = tally L → linkEdges es.length e l h = some (h', true) →
    BStep es e h h' o { o with
      verts := tally (L ++ l.flatMap fun q => [pos q.svp, pos q.tvp])
      edges := o.edges ++ l.map fun q => ⟨pos q.curv, pos q.svp, q.sv, pos q.tvp, q.tv⟩ }
  | [], h, h', o, L, C, ho, hv, hl => by
    simp only [linkEdges, Option.some.injEq, Prod.mk.injEq, and_true] at hl
    subst hl
    refine ⟨?_, id, C⟩
    simpa [← hv] using Step.refl ho
  | q :: l, h, h', o, L, C, ho, hv, hl => by
    unfold linkEdges at hl
    simp only [Option.bind_eq_bind, Option.bind_eq_some_iff] at hl
    obtain ⟨qc, h1, qs, h2, qt, h3, hl⟩ := hl
    cases qc with
    | none => simp at hl
    | some c =>
      cases qs with
      | none => simp at hl
      | some s =>
        cases qt with
        | none =>
          simp only [Option.bind_eq_some_iff] at hl
          obtain ⟨os, _, hl⟩ := hl
          split at hl <;> simp at hl
        | some t =>
          obtain ⟨rfl, _⟩ := findRange_some h1
          obtain ⟨rfl, _⟩ := findRange_some h2
          obtain ⟨rfl, _⟩ := findRange_some h3
          simp only [Option.bind_eq_some_iff] at hl
          obtain ⟨os, _, ot, _, hl⟩ := hl
          split at hl
          · simp at hl
          · rw [Option.bind_eq_some_iff] at hl
            obtain ⟨⟨h4, b⟩, h5, hl⟩ := hl
            cases b with
            | false => simp at hl
            | true =>
              simp only at hl
              have S := (AddEdge_ok C ho h5).1
              have T := linkEdges_ok (L := L ++ [pos q.svp, pos q.tvp]) S.2.2 S.1.now (by
                simp only
                rw [hv, ← tally_snoc, ← tally_snoc, List.append_assoc]
                rfl) hl
              simpa using S.trans T

/-! ### Loops -/

theorem redges_local (v : Nat) : Local fun o => { o with redges := incr v o.redges } := fun _ _ => rfl

theorem count_redges_mem {o : Obj} {v : Nat} (hv : v ∈ o.redges.map Prod.fst) (x : Nat) :
    ({ o with redges := incr v o.redges } : Obj).children.count x = o.children.count x := by
  unfold Obj.children
  simp only [incr_fst, if_pos hv]

theorem count_redges_new {o : Obj} {v : Nat} (hv : v ∉ o.redges.map Prod.fst) (x : Nat) :
    ({ o with redges := incr v o.redges } : Obj).children.count x = o.children.count x + if x = v then 1 else 0 := by
  unfold Obj.children
  simp only [incr_fst, if_neg hv, List.count_append, List.count_singleton]
  by_cases hx : x = v
  · simp [hx]; omega
  · have : ¬ (v == x) = true := by simpa using fun h' => hx h'.symm
    simp [hx, this]

theorem addLoopEdge_ok {es : List REnt} {h h' : Heap} {e v : Nat} {o : Obj} (C : Ctx es h)
    (ho : core h e = some o) (hl : addLoopEdge h e v = some (h', true)) :
    Step e h h' o { o with redges := incr v o.redges } ∧ Even e h h' o { o with redges := incr v o.redges }
      ∧ Ctx es h' := by
  obtain ⟨h1, _⟩ := of_core ho
  unfold addLoopEdge Link.get at hl
  simp only [Option.bind_eq_bind, h1, Option.bind_some] at hl
  split at hl
  · rename_i hv
    simp only [Option.bind_eq_some_iff, Option.some.injEq, Prod.mk.injEq, and_true] at hl
    obtain ⟨hq, hl, hqe⟩ := hl
    rw [hqe] at hl
    have he : edit h e (fun o => { o with redges := incr v o.redges }) = some h' := by
      rw [put_edit _ h1]
      rw [put_edit _ h1] at hl
      rw [← hl]
      unfold incr
      rw [if_pos hv]
    have S := step_edit (redges_local v) he rfl ho
    exact ⟨S, even_same (edit_core (redges_local v) he ho).2 (count_redges_mem hv), C.step' S rfl rfl rfl⟩
  · rename_i hv
    rw [Option.bind_eq_some_iff] at hl
    obtain ⟨⟨h2, b, d⟩, ha, hl⟩ := hl
    cases b with
    | false => simp at hl
    | true =>
      cases d with
      | true => simp at hl
      | false =>
        simp only [Option.bind_eq_some_iff, Option.some.injEq, Prod.mk.injEq, and_true] at hl
        obtain ⟨hq, hl, hqe⟩ := hl
        rw [hqe] at hl
        have hc2 : core h2 e = some o ∧ refsOf h2 = Function.update (refsOf h) v (refsOf h v ++ [e]) := by
          obtain ⟨oc, hoc, h5 | h5 | h5⟩ := addRef_cases ha
          · rw [h5.2.2.1]; exact ⟨ho, h5.2.2.2.1⟩
          · exact absurd h5.2.1 (by decide)
          · exact absurd h5.1 (by decide)
        have h3 := (of_core hc2.1).1
        have he : edit h2 e (fun o => { o with redges := incr v o.redges }) = some h' := by
          rw [put_edit _ h3]
          rw [put_edit _ h3] at hl
          rw [← hl]
          unfold incr
          rw [if_neg hv]
        obtain ⟨S, _⟩ := add_then_store (redges_local v) rfl ho ha he
        refine ⟨S, even_add ?_ (count_redges_new hv), C.step' S rfl rfl rfl⟩
        rw [(edit_core (redges_local v) he hc2.1).2]
        exact hc2.2

theorem addPCurves_ok {es : List REnt} {e : Nat} : ∀ {l seen : List Nat} {h h' : Heap} {o : Obj},
    Ctx es h → core h e = some o → addPCurves e seen l h = some (h', true) →
    Step e h h' o o ∧ Ctx es h' ∧ ∀ x, (refsOf h' x).count e = (refsOf h x).count e + l.count x
  | [], seen, h, h', o, C, ho, hl => by
    simp only [addPCurves, Option.some.injEq, Prod.mk.injEq, and_true] at hl
    subst hl
    exact ⟨Step.refl ho, C, by simp⟩
  | c :: l, seen, h, h', o, C, ho, hl => by
    unfold addPCurves at hl
    simp only [Option.bind_eq_bind, Option.bind_eq_some_iff] at hl
    obtain ⟨oe, _, hl⟩ := hl
    split at hl
    · simp only [Option.bind_eq_some_iff] at hl
      obtain ⟨_, _, hl⟩ := hl
      simp at hl
    · rw [Option.bind_eq_some_iff] at hl
      obtain ⟨⟨h2, b, d⟩, ha, hl⟩ := hl
      have key : ∀ {b d}, addRef h c e = some (h2, b, d) → (b = true ∧ d = false) ∨
          ¬ (b = true ∧ d = false) := fun _ => em _
      rcases key ha with ⟨rfl, rfl⟩ | hn
      · simp only at hl
        obtain ⟨oc, hoc, h5 | h5 | h5⟩ := addRef_cases ha
        · obtain ⟨_, _, e1, e2, hne, _, h0⟩ := h5
          have S1 := step_add ho e1 hoc h0 hne e2
          have C1 : Ctx es h2 := C.step' S1 rfl rfl rfl
          obtain ⟨S2, C2, R⟩ := addPCurves_ok C1 S1.now hl
          refine ⟨S1.trans S2, C2, ?_⟩
          intro x
          rw [R x, e2, List.count_cons]
          by_cases hx : x = c
          · subst hx
            rw [Function.update_self, count_add]
            simp
            omega
          · rw [Function.update_of_ne hx]
            have : ¬ (c == x) = true := by simpa using fun h' => hx h'.symm
            simp [this]
        · exact absurd h5.2.1 (by decide)
        · exact absurd h5.1 (by decide)
      · exfalso
        cases b
        · simp only [Option.bind_eq_some_iff] at hl
          obtain ⟨_, _, hl⟩ := hl
          simp at hl
        · cases d
          · exact hn ⟨rfl, rfl⟩
          · simp only [Option.bind_eq_some_iff] at hl
            obtain ⟨_, _, hl⟩ := hl
            simp at hl

theorem findAll_some {n : Nat} : ∀ {l : List Int} {ps : List Nat}, findAll n l = some ps →
    ps = l.map pos ∧ ∀ v ∈ l, pos v < n
  | [], ps, h => by
    simp only [findAll, Option.some.injEq] at h
    subst h
    simp
  | v :: l, ps, h => by
    unfold findAll at h
    cases hv : findRange n v with
    | none => simp [hv] at h
    | some q =>
      cases q with
      | none => simp [hv] at h
      | some c =>
        simp only [hv, Option.map_eq_some_iff] at h
        obtain ⟨ps', h1, rfl⟩ := h
        obtain ⟨rfl, hlt⟩ := findRange_some hv
        obtain ⟨rfl, h2⟩ := findAll_some h1
        refine ⟨rfl, ?_⟩
        intro w hw
        rcases List.mem_cons.mp hw with rfl | hw
        · exact hlt
        · exact h2 w hw

theorem findAll_nonneg {n : Nat} : ∀ {l : List Int} {ps : List Nat}, findAll n l = some ps → ∀ v ∈ l, 0 ≤ v
  | [], ps, h => by simp
  | v :: l, ps, h => by
    unfold findAll at h
    cases hv : findRange n v with
    | none => simp [hv] at h
    | some q =>
      cases q with
      | none => simp [hv] at h
      | some c =>
        simp only [hv, Option.map_eq_some_iff] at h
        obtain ⟨ps', h1, rfl⟩ := h
        intro w hw
        rcases List.mem_cons.mp hw with rfl | hw
        · exact findRange_nonneg hv
        · exact findAll_nonneg h1 w hw

theorem loops_local (q : Nat × List Nat) : Local fun o => { o with loops := o.loops ++ [q] } := fun _ _ => rfl

theorem count_loops {o : Obj} {q : Nat × List Nat} (x : Nat) :
    ({ o with loops := o.loops ++ [q] } : Obj).children.count x = o.children.count x + q.2.count x := by
  unfold Obj.children
  simp only [List.count_append, List.flatMap_append, List.flatMap_cons, List.flatMap_nil, List.append_nil]
  omega

theorem linkLoops_ok {es : List REnt} {e : Nat} : ∀ {l : List LoopEdge} {h h' : Heap} {o : Obj} {L : List Nat},
    Ctx es h → core h e = some o → o.redges = tally L → linkLoops es.length e l h = some (h', true) →
    BStep es e h h' o { o with
      redges := tally (L ++ l.map fun q => pos q.data)
      loops := o.loops ++ l.map fun q => (pos q.data, q.pcurves.map fun c => pos c.2) }
  | [], h, h', o, L, C, ho, hv, hl => by
    simp only [linkLoops, Option.some.injEq, Prod.mk.injEq, and_true] at hl
    subst hl
    refine ⟨?_, id, C⟩
    simpa [← hv] using Step.refl ho
  | q :: l, h, h', o, L, C, ho, hv, hl => by
    unfold linkLoops at hl
    simp only [Option.bind_eq_bind, Option.bind_eq_some_iff] at hl
    obtain ⟨qc, h1, hl⟩ := hl
    cases qc with
    | none => simp at hl
    | some c =>
      obtain ⟨rfl, _⟩ := findRange_some h1
      simp only at hl
      cases hf : findAll es.length (q.pcurves.map Prod.snd) with
      | none => simp [hf] at hl
      | some ps =>
        obtain ⟨hps, _⟩ := findAll_some hf
        simp only [hf, Option.bind_eq_some_iff] at hl
        obtain ⟨⟨h2, b⟩, h3, hl⟩ := hl
        cases b with
        | false => simp at hl
        | true =>
          simp only [Option.bind_eq_some_iff] at hl
          obtain ⟨⟨h4, b⟩, h5, hl⟩ := hl
          cases b with
          | false => simp at hl
          | true =>
            simp only [Option.bind_eq_some_iff] at hl
            obtain ⟨h6, h7, hl⟩ := hl
            obtain ⟨S1, E1, C1⟩ := addLoopEdge_ok C ho h3
            obtain ⟨S2, C2, R2⟩ := addPCurves_ok C1 S1.now h5
            have S3 := step_edit (loops_local (pos q.data, ps)) h7 rfl S2.now
            have r3 := (edit_core (loops_local (pos q.data, ps)) h7 S2.now).2
            have SS := (S1.trans S2).trans S3
            have B : BStep es e h h6 o _ := ⟨SS, by
              refine Even.bal ?_ ho SS.now
              intro x
              have := E1 x
              have := R2 x
              have := count_loops (o := { o with redges := incr (pos q.data) o.redges }) (q := (pos q.data, ps)) x
              rw [r3]
              simp only at *
              omega, C.step' SS rfl rfl rfl⟩
            have T := linkLoops_ok (L := L ++ [pos q.data]) B.2.2 SS.now (by
              simp only
              rw [hv, ← tally_snoc]) hl
            have hps' : ps = q.pcurves.map fun c => pos c.2 := by
              rw [hps, List.map_map]; rfl
            simpa [hps'] using B.trans T

theorem linkLoops_at {es : List REnt} {e : Nat} : ∀ {l : List LoopEdge} {h h' : Heap},
    linkLoops es.length e l h = some (h', true) → ∀ q ∈ l, InFile es q.data ∧ ∀ c ∈ q.pcurves, InFile es c.2
  | [], h, h', hl => by simp
  | q :: l, h, h', hl => by
    unfold linkLoops at hl
    simp only [Option.bind_eq_bind, Option.bind_eq_some_iff] at hl
    obtain ⟨qc, h1, hl⟩ := hl
    cases qc with
    | none => simp at hl
    | some c =>
      have h0 := findRange_nonneg h1
      obtain ⟨rfl, hlt⟩ := findRange_some h1
      simp only at hl
      cases hf : findAll es.length (q.pcurves.map Prod.snd) with
      | none => simp [hf] at hl
      | some ps =>
        have hps := (findAll_some hf).2
        simp only [hf, Option.bind_eq_some_iff] at hl
        obtain ⟨⟨h2, b⟩, h3, hl⟩ := hl
        cases b with
        | false => simp at hl
        | true =>
          simp only [Option.bind_eq_some_iff] at hl
          obtain ⟨⟨h4, b⟩, h5, hl⟩ := hl
          cases b with
          | false => simp at hl
          | true =>
            simp only [Option.bind_eq_some_iff] at hl
            obtain ⟨h6, h7, hl⟩ := hl
            intro w hw
            rcases List.mem_cons.mp hw with rfl | hw
            · refine ⟨⟨h0, hlt⟩, ?_⟩
              intro c hc
              exact ⟨findAll_nonneg hf c.2 (List.mem_map_of_mem hc), hps c.2 (List.mem_map_of_mem hc)⟩
            · exact linkLoops_at hl w hw

end Iges.Props.L
