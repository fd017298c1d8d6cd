import Verif.Lemmas.LinkFull
/-
Linking of a whole file: composite curves link their curves early, and a curve whose early linking fails
makes the whole file fail later.
-/
namespace Iges.Props.L

open Iges.Graph Iges.Spec Iges.Link
open Iges.File (REnt Body)

variable {es : List REnt} {G : Geo}

/-! ### Linking by the base class changes nothing else, whether it succeeds or not -/

theorem step_setSlot {h h' : Heap} {e : Nat} {s : Slot} {v : Option Nat} {o : Obj} (ho : core h e = some o)
    (he : edit h e (·.setSlot s v) = some h') : Step e h h' o (o.setSlot s v) :=
  step_edit (setSlot_local s v) he (by cases s <;> rfl) ho

theorem addRef_step {h h' : Heap} {c e : Nat} {b d : Bool} {o : Obj} (ho : core h e = some o)
    (ha : addRef h c e = some (h', b, d)) : Step e h h' o o := by
  obtain ⟨oc, hoc, h5 | h5 | h5⟩ := addRef_cases ha
  · exact step_add ho h5.2.2.1 hoc h5.2.2.2.2.2.2 h5.2.2.2.2.1 h5.2.2.2.1
  · rw [h5.2.2.1]; exact Step.refl ho
  · rw [h5.2.2]; exact Step.refl ho

theorem linkDE_frame {h h' : Heap} {e s : Nat} {v : Int} {o : Obj} {vd : Verdict} (C : Ctx es h)
    (ho : core h e = some o) (h0 : s ≠ 0) (hl : linkDE h es.length e s v = some (h', vd)) :
    ∃ o', Step e h h' o o' ∧ o'.form = o.form ∧ Ctx es h' := by
  unfold linkDE at hl
  simp only [Option.bind_eq_bind] at hl
  split at hl
  · rw [Option.bind_eq_some_iff] at hl
    obtain ⟨oc, h1, hl⟩ := hl
    have hct := C.ty (get_core h1)
    split at hl
    · simp only [Option.some.injEq, Prod.mk.injEq] at hl
      obtain ⟨rfl, _⟩ := hl
      exact ⟨o, Step.refl ho, rfl, C⟩
    · split at hl
      · cases hl
      · rename_i hce
        simp only [Option.bind_eq_some_iff] at hl
        obtain ⟨h2, h3, ⟨h5, b, d⟩, ha, hl⟩ := hl
        have S1 := step_setSlot ho h3
        have S2 := addRef_step S1.now ha
        have clr : ∀ {h6}, edit h5 e (·.setSlot (.de s) none) = some h6 →
            ∃ o', Step e h h6 o o' ∧ o'.form = o.form ∧ Ctx es h6 := by
          intro h6 h7
          have S3 := step_setSlot S2.now h7
          have SS := (S1.trans S2).trans S3
          refine ⟨_, SS, rfl, C.step SS rfl ?_ (C.exT e o ho)⟩
          intro c hc
          simp only [Obj.setSlot, List.set_set] at hc
          rcases List.mem_or_eq_of_mem_set hc with h8 | h8
          · exact C.deT e o ho c h8
          · cases h8
        cases b with
        | false =>
          simp only [Option.bind_eq_some_iff, Option.some.injEq, Prod.mk.injEq] at hl
          obtain ⟨h6, h7, rfl, _⟩ := hl
          exact clr h7
        | true =>
          cases d with
          | true =>
            simp only [Option.bind_eq_some_iff, Option.some.injEq, Prod.mk.injEq] at hl
            obtain ⟨h6, h7, rfl, _⟩ := hl
            exact clr h7
          | false =>
            simp only at hl
            split at hl
            · rename_i hg
              simp only [Option.some.injEq, Prod.mk.injEq] at hl
              obtain ⟨rfl, _⟩ := hl
              have SS := S1.trans S2
              refine ⟨_, SS, rfl, C.step SS rfl ?_ (C.exT e o ho)⟩
              intro c hc
              simp only [Obj.setSlot] at hc
              rcases List.mem_or_eq_of_mem_set hc with h8 | h8
              · exact C.deT e o ho c h8
              · cases h8
                have hoc0 : oc.etype ≠ 0 := by
                  obtain ⟨occ, hocc, h8 | h8 | h8⟩ := addRef_cases ha
                  · have := h8.2.2.2.2.2.2
                    rw [S1.ne hce, get_core h1] at hocc
                    cases hocc
                    exact this
                  · exact absurd h8.2.1 (by decide)
                  · exact absurd h8.1 (by decide)
                simp only at hct
                rw [← hct]
                exact goodTarget_attr h0 hoc0 hg
            · simp only [Option.bind_eq_some_iff, Option.some.injEq, Prod.mk.injEq] at hl
              obtain ⟨h6, h7, rfl, _⟩ := hl
              exact clr h7
  · simp only [Option.some.injEq, Prod.mk.injEq] at hl
    obtain ⟨rfl, _⟩ := hl
    exact ⟨o, Step.refl ho, rfl, C⟩

theorem linkDEs_frame {e : Nat} : ∀ {l : List (Nat × Int)} {h h' : Heap} {o : Obj} {ok ok' st : Bool}, Ctx es h →
    core h e = some o → (∀ q ∈ l, q.1 ≠ 0) → linkDEs es.length e l ok h = some (h', ok', st) →
    ∃ o', Step e h h' o o' ∧ o'.form = o.form ∧ Ctx es h'
  | [], h, h', o, ok, ok', st, C, ho, hq, hl => by
    simp only [linkDEs, Option.some.injEq, Prod.mk.injEq] at hl
    obtain ⟨rfl, _⟩ := hl
    exact ⟨o, Step.refl ho, rfl, C⟩
  | (s, v) :: l, h, h', o, ok, ok', st, C, ho, hq, hl => by
    unfold linkDEs at hl
    simp only [Option.bind_eq_bind, Option.bind_eq_some_iff] at hl
    obtain ⟨⟨h1, vd⟩, h2, hl⟩ := hl
    obtain ⟨o1, S1, f1, C1⟩ := linkDE_frame C ho (hq (s, v) (by simp)) h2
    have next : ∀ {ok}, linkDEs es.length e l ok h1 = some (h', ok', st) →
        ∃ o', Step e h h' o o' ∧ o'.form = o.form ∧ Ctx es h' := by
      intro ok hl
      obtain ⟨o2, S2, f2, C2⟩ := linkDEs_frame C1 S1.now (fun q hq' => hq q (by simp [hq'])) hl
      exact ⟨o2, S1.trans S2, f2.trans f1, C2⟩
    cases vd with
    | fine => exact next hl
    | bad => exact next hl
    | stop =>
      simp only [Option.some.injEq, Prod.mk.injEq] at hl
      obtain ⟨rfl, _⟩ := hl
      exact ⟨o1, S1, f1, C1⟩

theorem linkExtra_frame {h h' : Heap} {e : Nat} {v : Int} {o : Obj} {b : Bool} (C : Ctx es h)
    (ho : core h e = some o) (hl : linkExtra h es.length e v = some (h', b)) :
    ∃ o', Step e h h' o o' ∧ o'.form = o.form ∧ Ctx es h' := by
  cases b with
  | true =>
    obtain ⟨S, _, C', _⟩ := linkExtra_ok C (fun r _ => no402 r) ho hl
    exact ⟨_, S, rfl, C'⟩
  | false =>
    unfold linkExtra at hl
    split at hl
    · simp only [Option.bind_eq_bind, Option.bind_eq_some_iff] at hl
      obtain ⟨oc, h1, hl⟩ := hl
      split at hl
      · rw [Option.bind_eq_some_iff] at hl
        obtain ⟨⟨h2, b, d⟩, ha, hl⟩ := hl
        have S := addRef_step ho ha
        have fin : h2 = h' → ∃ o', Step e h h' o o' ∧ o'.form = o.form ∧ Ctx es h' := by
          rintro rfl
          exact ⟨o, S, rfl, C.step' S rfl rfl rfl⟩
        cases b with
        | false =>
          simp only [Option.some.injEq, Prod.mk.injEq, and_true] at hl
          exact fin hl
        | true =>
          cases d with
          | true =>
            simp only [Option.some.injEq, Prod.mk.injEq, and_true] at hl
            exact fin hl
          | false => simp [Option.bind_eq_some_iff] at hl
      · split at hl
        · simp [Option.bind_eq_some_iff] at hl
        · simp only [Option.some.injEq, Prod.mk.injEq, and_true] at hl
          subst hl
          exact ⟨o, Step.refl ho, rfl, C⟩
    · simp only [Option.some.injEq, Prod.mk.injEq, and_true] at hl
      subst hl
      exact ⟨o, Step.refl ho, rfl, C⟩

theorem linkExtras_frame {e : Nat} : ∀ {l : List Int} {h h' : Heap} {o : Obj} {ok ok' : Bool}, Ctx es h →
    core h e = some o → linkExtras es.length e l ok h = some (h', ok') →
    ∃ o', Step e h h' o o' ∧ o'.form = o.form ∧ Ctx es h'
  | [], h, h', o, ok, ok', C, ho, hl => by
    simp only [linkExtras, Option.some.injEq, Prod.mk.injEq] at hl
    obtain ⟨rfl, _⟩ := hl
    exact ⟨o, Step.refl ho, rfl, C⟩
  | v :: l, h, h', o, ok, ok', C, ho, hl => by
    unfold linkExtras at hl
    simp only [Option.bind_eq_bind, Option.bind_eq_some_iff] at hl
    obtain ⟨⟨h1, b⟩, h2, hl⟩ := hl
    obtain ⟨o1, S1, f1, C1⟩ := linkExtra_frame C ho h2
    obtain ⟨o2, S2, f2, C2⟩ := linkExtras_frame C1 S1.now hl
    exact ⟨o2, S1.trans S2, f2.trans f1, C2⟩

theorem linkBase_frame {h h' : Heap} {e : Nat} {r : REnt} {done done' : List Nat} {ok : Bool} {o : Obj} (C : Ctx es h)
    (hs : r.de.structure_ ≤ 0) (ho : core h e = some o)
    (hl : linkBase es.length e r h done = some (h', done', ok)) :
    (∃ o', Step e h h' o o' ∧ o'.form = o.form ∧ Ctx es h') ∧ (ok = false → done' = done) := by
  unfold linkBase at hl
  split at hl
  · simp only [Option.some.injEq, Prod.mk.injEq] at hl
    obtain ⟨rfl, rfl, rfl⟩ := hl
    exact ⟨⟨o, Step.refl ho, rfl, C⟩, fun h => by cases h⟩
  · simp only [Option.bind_eq_bind, Option.bind_eq_some_iff] at hl
    obtain ⟨⟨h1, ok1, st⟩, h2, hl⟩ := hl
    obtain ⟨o1, S1, f1, C1⟩ := linkDEs_frame C ho (fun q hq => (dePointers_slot hs hq).1) h2
    cases st with
    | true =>
      simp only [Option.some.injEq, Prod.mk.injEq] at hl
      obtain ⟨rfl, rfl, rfl⟩ := hl
      exact ⟨⟨o1, S1, f1, C1⟩, fun _ => rfl⟩
    | false =>
      simp only [Option.bind_eq_some_iff] at hl
      obtain ⟨⟨h3, ok2⟩, h4, hl⟩ := hl
      simp only [Option.some.injEq, Prod.mk.injEq] at hl
      obtain ⟨rfl, hd, rfl⟩ := hl
      obtain ⟨o2, S2, f2, C2⟩ := linkExtras_frame C1 S1.now h4
      refine ⟨⟨o2, S1.trans S2, f2.trans f1, C2⟩, ?_⟩
      rintro rfl
      simpa using hd.symm

/-! ### When the base class succeeds for a curve -/

/-- A directory entry pointer that can be followed. -/
def DeOk (es : List REnt) (e : Nat) (q : Nat × Int) : Prop :=
  pos q.2 ≠ e ∧ ∃ rc, es[pos q.2]? = some rc ∧ goodTarget q.1 (objOf rc) = true
    ∧ (q.1 = 4 → (objOf rc).etype = 124)

/-- An optional pointer that can be followed. -/
def ExOk (es : List REnt) (v : Int) : Prop :=
  0 ≤ v / 2 ∧ pos v < es.length ∧ (typeAt es (pos v) = 406 ∨ typeAt es (pos v) = 212 ∨ typeAt es (pos v) = 312)

/-- The pointers common to all entities can be followed. -/
def Sound (es : List REnt) (e : Nat) (r : REnt) : Prop :=
  (∀ q ∈ dePointers r.de, DeOk es e q) ∧ (∀ v ∈ r.extras, ExOk es v) ∧ (r.extras.map pos).Nodup
    ∧ ∀ q ∈ dePointers r.de, ∀ v ∈ r.extras, pos q.2 ≠ pos v

theorem goodTarget_congr {s : Nat} {o o' : Obj} (h1 : o.etype = o'.etype) (h2 : o.form = o'.form) :
    goodTarget s o = goodTarget s o' := by
  unfold goodTarget
  rw [h1, h2]

theorem linkDE_sound {h h' : Heap} {e s : Nat} {v : Int} (C : Ctx es h)
    (hl : linkDE h es.length e s v = some (h', .fine)) :
    DeOk es e (s, v) ∧ (typeAt es (pos v) ≠ 0 → e ∈ refsOf h' (pos v)) := by
  unfold linkDE at hl
  simp only [Option.bind_eq_bind] at hl
  split at hl
  · rw [Option.bind_eq_some_iff] at hl
    obtain ⟨oc, h1, hl⟩ := hl
    have hct := C.ty (get_core h1)
    simp only at hct
    change oc.etype = typeAt es (pos v) at hct
    obtain ⟨rc, k1, k2, k3⟩ := C.static _ _ (get_core h1)
    simp only at k2 k3
    have hgt : ∀ s, goodTarget s oc = goodTarget s (objOf rc) := fun s => goodTarget_congr k2 k3
    split at hl
    · simp at hl
    · rename_i h4
      have h4' : s = 4 → (objOf rc).etype = 124 := by
        intro h5
        by_contra h6
        exact h4 ⟨h5, by rw [k2]; exact h6⟩
      split at hl
      · cases hl
      · rename_i hce
        simp only [Option.bind_eq_some_iff] at hl
        obtain ⟨h2, h3, ⟨h5, b, d⟩, ha, hl⟩ := hl
        cases b with
        | false =>
          simp only [Option.bind_eq_some_iff, Option.some.injEq, Prod.mk.injEq] at hl
          obtain ⟨h6, h7, rfl, h8⟩ := hl
          have h00 : oc.etype = 0 := by
            by_contra h'
            rw [if_neg h'] at h8; cases h8
          refine ⟨⟨hce, rc, k1, ?_, h4'⟩, fun h9 => absurd (hct.symm.trans h00) h9⟩
          simp only
          rw [← hgt]
          unfold goodTarget
          rw [h00]
          split <;> rfl
        | true =>
          cases d with
          | true => simp [Option.bind_eq_some_iff] at hl
          | false =>
            simp only at hl
            split at hl
            · rename_i hg
              simp only [Option.some.injEq, Prod.mk.injEq, and_true] at hl
              subst hl
              refine ⟨⟨hce, rc, k1, by rw [← hgt]; exact hg, h4'⟩, fun _ => ?_⟩
              obtain ⟨occ, _, h8 | h8 | h8⟩ := addRef_cases ha
              · rw [h8.2.2.2.1]
                rw [show (v / 2).toNat = pos v from rfl, Function.update_self]
                simp
              · exact absurd h8.2.1 (by decide)
              · exact absurd h8.1 (by decide)
            · simp [Option.bind_eq_some_iff] at hl
  · simp at hl

theorem edit_refs {h h' : Heap} {e : Nat} {f : Obj → Obj} {o : Obj} (hf : Local f) (ho : core h e = some o)
    (he : edit h e f = some h') : refsOf h' = refsOf h := (edit_core hf he ho).2

theorem addRef_mono {h h' : Heap} {c e : Nat} {b d : Bool} (ha : addRef h c e = some (h', b, d)) {x p : Nat}
    (hp : p ∈ refsOf h x) : p ∈ refsOf h' x := by
  obtain ⟨oc, hoc, h5 | h5 | h5⟩ := addRef_cases ha
  · rw [h5.2.2.2.1]
    by_cases hx : x = c
    · subst hx; rw [Function.update_self]; simp [hp]
    · rw [Function.update_of_ne hx]; exact hp
  · rw [h5.2.2.1]; exact hp
  · rw [h5.2.2]; exact hp

theorem linkDE_mono {h h' : Heap} {e s : Nat} {v : Int} {o : Obj} {vd : Verdict}
    (ho : core h e = some o) (hl : linkDE h es.length e s v = some (h', vd)) {x p : Nat}
    (hp : p ∈ refsOf h x) : p ∈ refsOf h' x := by
  unfold linkDE at hl
  simp only [Option.bind_eq_bind] at hl
  split at hl
  · rw [Option.bind_eq_some_iff] at hl
    obtain ⟨oc, h1, hl⟩ := hl
    split at hl
    · simp only [Option.some.injEq, Prod.mk.injEq] at hl
      obtain ⟨rfl, _⟩ := hl
      exact hp
    · split at hl
      · cases hl
      · simp only [Option.bind_eq_some_iff] at hl
        obtain ⟨h2, h3, ⟨h5, b, d⟩, ha, hl⟩ := hl
        have S1 := step_setSlot ho h3
        have S2 := addRef_step S1.now ha
        have hp2 : p ∈ refsOf h2 x := by rw [edit_refs (setSlot_local _ _) ho h3]; exact hp
        have hp5 := addRef_mono ha hp2
        have clr : ∀ {h6}, edit h5 e (·.setSlot (.de s) none) = some h6 → p ∈ refsOf h6 x := by
          intro h6 h7
          rw [edit_refs (setSlot_local _ _) S2.now h7]; exact hp5
        cases b with
        | false =>
          simp only [Option.bind_eq_some_iff, Option.some.injEq, Prod.mk.injEq] at hl
          obtain ⟨h6, h7, rfl, _⟩ := hl
          exact clr h7
        | true =>
          cases d with
          | true =>
            simp only [Option.bind_eq_some_iff, Option.some.injEq, Prod.mk.injEq] at hl
            obtain ⟨h6, h7, rfl, _⟩ := hl
            exact clr h7
          | false =>
            simp only at hl
            split at hl
            · simp only [Option.some.injEq, Prod.mk.injEq] at hl
              obtain ⟨rfl, _⟩ := hl
              exact hp5
            · simp only [Option.bind_eq_some_iff, Option.some.injEq, Prod.mk.injEq] at hl
              obtain ⟨h6, h7, rfl, _⟩ := hl
              exact clr h7
  · simp only [Option.some.injEq, Prod.mk.injEq] at hl
    obtain ⟨rfl, _⟩ := hl
    exact hp

theorem linkDEs_sound {e : Nat} : ∀ {l : List (Nat × Int)} {h h' : Heap} {o : Obj} {st : Bool}, Ctx es h →
    core h e = some o → (∀ q ∈ l, q.1 ≠ 0) → linkDEs es.length e l true h = some (h', true, st) →
    (∀ q ∈ l, DeOk es e q ∧ (typeAt es (pos q.2) ≠ 0 → e ∈ refsOf h' (pos q.2)))
      ∧ ∀ x p, p ∈ refsOf h x → p ∈ refsOf h' x
  | [], h, h', o, st, C, ho, hq, hl => by
    simp only [linkDEs, Option.some.injEq, Prod.mk.injEq] at hl
    obtain ⟨rfl, _⟩ := hl
    exact ⟨by simp, fun _ _ h => h⟩
  | (s, v) :: l, h, h', o, st, C, ho, hq, hl => by
    unfold linkDEs at hl
    simp only [Option.bind_eq_bind, Option.bind_eq_some_iff] at hl
    obtain ⟨⟨h1, vd⟩, h2, hl⟩ := hl
    obtain ⟨o1, S1, f1, C1⟩ := linkDE_frame C ho (hq (s, v) (by simp)) h2
    cases vd with
    | stop => simp at hl
    | bad => exact absurd (linkDEs_false hl) (by decide)
    | fine =>
      obtain ⟨a, b⟩ := linkDE_sound C h2
      obtain ⟨c, d⟩ := linkDEs_sound C1 S1.now (fun q hq' => hq q (by simp [hq'])) hl
      refine ⟨?_, fun x p hp => d x p (linkDE_mono ho h2 hp)⟩
      intro q hq'
      rcases List.mem_cons.mp hq' with rfl | hq'
      · exact ⟨a, fun ht => d _ _ (b ht)⟩
      · exact c q hq'

theorem linkExtra_sound {h h' : Heap} {e : Nat} {v : Int} {o : Obj} (C : Ctx es h) (ho : core h e = some o)
    (hl : linkExtra h es.length e v = some (h', true)) :
    ExOk es v ∧ e ∉ refsOf h (pos v) ∧ e ∈ refsOf h' (pos v) ∧ ∀ x p, p ∈ refsOf h x → p ∈ refsOf h' x := by
  unfold linkExtra at hl
  split at hl
  · rename_i hn
    simp only [Option.bind_eq_bind, Option.bind_eq_some_iff] at hl
    obtain ⟨oc, h1, hl⟩ := hl
    have hct := C.ty (get_core h1)
    simp only at hct
    split at hl
    · rename_i ht
      rw [Option.bind_eq_some_iff] at hl
      obtain ⟨⟨h2, b, d⟩, ha, hl⟩ := hl
      cases b with
      | false => simp at hl
      | true =>
        cases d with
        | true => simp at hl
        | false =>
          simp only [Option.bind_eq_some_iff] at hl
          obtain ⟨h3, h4, hl⟩ := hl
          simp only [Option.some.injEq, Prod.mk.injEq, and_true] at hl
          subst hl
          have S := addRef_step ho ha
          have hr := edit_refs (extras_local _) S.now h4
          refine ⟨⟨hn.1, hn.2, by rw [show typeAt es (pos v) = oc.etype from hct.symm]; exact ht⟩, ?_, ?_, ?_⟩
          · obtain ⟨occ, _, h8 | h8 | h8⟩ := addRef_cases ha
            · exact h8.2.2.2.2.1
            · exact absurd h8.2.1 (by decide)
            · exact absurd h8.1 (by decide)
          · obtain ⟨occ, _, h8 | h8 | h8⟩ := addRef_cases ha
            · rw [hr, h8.2.2.2.1, show (v / 2).toNat = pos v from rfl, Function.update_self]
              simp
            · exact absurd h8.2.1 (by decide)
            · exact absurd h8.1 (by decide)
          · intro x p hp
            rw [hr]
            exact addRef_mono ha hp
    · split at hl
      · rename_i h5
        exfalso
        obtain ⟨r, a, b, _⟩ := C.static _ _ (get_core h1)
        have := no402 r
        simp only at b
        rw [objOf_etype, h5] at b
        omega
      · simp at hl
  · simp at hl

theorem linkExtras_sound {e : Nat} : ∀ {l : List Int} {h h' : Heap} {o : Obj}, Ctx es h → core h e = some o →
    linkExtras es.length e l true h = some (h', true) →
    (∀ v ∈ l, ExOk es v ∧ e ∉ refsOf h (pos v)) ∧ (l.map pos).Nodup
  | [], h, h', o, C, ho, hl => by simp
  | v :: l, h, h', o, C, ho, hl => by
    unfold linkExtras at hl
    simp only [Option.bind_eq_bind, Option.bind_eq_some_iff, Bool.true_and] at hl
    obtain ⟨⟨h1, b⟩, h2, hl⟩ := hl
    cases b with
    | false => exact absurd (linkExtras_false hl) (by decide)
    | true =>
      obtain ⟨a1, a2, a3, a4⟩ := linkExtra_sound C ho h2
      obtain ⟨S, _, C1, _⟩ := linkExtra_ok C (fun r _ => no402 r) ho h2
      obtain ⟨b1, b2⟩ := linkExtras_sound C1 S.now hl
      refine ⟨?_, ?_⟩
      · intro w hw
        rcases List.mem_cons.mp hw with rfl | hw
        · exact ⟨a1, a2⟩
        · exact ⟨(b1 w hw).1, fun h9 => (b1 w hw).2 (a4 _ _ h9)⟩
      · rw [List.map_cons, List.nodup_cons]
        refine ⟨?_, b2⟩
        intro h9
        rw [List.mem_map] at h9
        obtain ⟨w, hw, h9⟩ := h9
        exact (b1 w hw).2 (h9 ▸ a3)

theorem linkBase_sound {h h' : Heap} {e : Nat} {r : REnt} {done done' : List Nat} {o : Obj} (C : Ctx es h)
    (hs : r.de.structure_ ≤ 0) (ho : core h e = some o) (hd : e ∉ done)
    (hl : linkBase es.length e r h done = some (h', done', true)) : Sound es e r := by
  unfold linkBase at hl
  rw [if_neg hd] at hl
  simp only [Option.bind_eq_bind, Option.bind_eq_some_iff] at hl
  obtain ⟨⟨h1, ok, st⟩, h2, hl⟩ := hl
  cases st with
  | true => simp at hl
  | false =>
    simp only [Option.bind_eq_some_iff] at hl
    obtain ⟨⟨h3, ok2⟩, h4, hl⟩ := hl
    simp only [Option.some.injEq, Prod.mk.injEq] at hl
    obtain ⟨rfl, _, rfl⟩ := hl
    have hok : ok = true := by
      cases ok
      · exact absurd (linkExtras_false h4) (by decide)
      · rfl
    subst hok
    have hq : ∀ q ∈ dePointers r.de, q.1 ≠ 0 := fun q hq => (dePointers_slot hs hq).1
    obtain ⟨o1, S1, _, C1⟩ := linkDEs_frame C ho hq h2
    obtain ⟨a, _⟩ := linkDEs_sound C ho hq h2
    obtain ⟨b1, b2⟩ := linkExtras_sound C1 S1.now h4
    refine ⟨fun q hq' => (a q hq').1, fun v hv => (b1 v hv).1, b2, ?_⟩
    intro q hq' v hv heq
    refine (b1 v hv).2 ?_
    rw [← heq]
    refine (a q hq').2 ?_
    rw [heq]
    have := (b1 v hv).1.2.2
    omega

/-! The other direction, for a curve that has not been linked. -/

/-- The types of curves other than composite curves. -/
def curveType (t : Nat) : Prop := t = 100 ∨ t = 104 ∨ t = 110 ∨ t = 126

theorem curve_ok {t : Nat} (h : curveType t) : ¬ attrType t ∧ ¬ extraType t ∧ t ≠ 102 := by
  unfold curveType at h
  unfold attrType extraType
  omega

/-- An attribute entity does not refuse a curve. -/
theorem attr_accepts {h h' : Heap} {c e : Nat} {oc o : Obj} {b d : Bool} (C : Ctx es h) (hc : core h c = some oc)
    (ho : core h e = some o) (ht : curveType o.etype) (hct : attrType oc.etype ∨ extraType oc.etype)
    (hn : e ∉ refsOf h c) (ha : addRef h c e = some (h', b, d)) : b = true ∧ d = false := by
  obtain ⟨t1, t2, t3⟩ := curve_ok ht
  obtain ⟨occ, hocc, h8 | h8 | h8⟩ := addRef_cases ha
  · exact ⟨h8.1, h8.2.1⟩
  · exfalso
    rcases h8.2.2.2.1 with h9 | h9
    · exact hn h9
    · exact C.noExtra ho t2 hocc h9
  · exfalso
    obtain ⟨rfl, rfl, _⟩ := h8
    obtain ⟨oc', op, k1, k2, k3⟩ := addRef_refused ha
    rw [hc, Option.some.injEq] at k1
    subst k1
    rw [ho, Option.some.injEq] at k2
    subst k2
    have hty : oc.etype = 124 ∨ oc.etype = 304 ∨ oc.etype = 314 ∨ oc.etype = 402 ∨ oc.etype = 406 ∨ oc.etype = 410
        ∨ oc.etype = 212 ∨ oc.etype = 312 := by
      unfold attrType extraType at hct
      omega
    rcases k3 with k | k | k | k | k | k | k | k
    · omega
    · omega
    · omega
    · omega
    · omega
    · omega
    · omega
    · have := C.deT c _ hc e k
      rw [← C.ty ho] at this
      exact t1 this

theorem goodTarget_zero {s : Nat} {o : Obj} (h : o.etype = 0) : goodTarget s o = true := by
  unfold goodTarget
  rw [h]
  split <;> rfl

theorem linkDE_of {h : Heap} {e s : Nat} {v : Int} {o : Obj} (C : Ctx es h) (ho : core h e = some o)
    (ht : curveType o.etype) (h0 : s ≠ 0) (hok : DeOk es e (s, v))
    (hn : typeAt es (pos v) ≠ 0 → e ∉ refsOf h (pos v)) :
    ∃ h', linkDE h es.length e s v = some (h', .fine) := by
  obtain ⟨hce, rc, h1, h2, h3⟩ := hok
  simp only at hce h1 h2 h3
  have hlt : pos v < es.length := (List.getElem?_eq_some_iff.mp h1).1
  obtain ⟨oc, hoc⟩ := C.all (pos v) hlt
  obtain ⟨k1, k2⟩ := of_core hoc
  obtain ⟨rc', s1, s2, s3⟩ := C.static _ _ hoc
  rw [h1, Option.some.injEq] at s1
  subst s1
  have hct := C.ty hoc
  unfold linkDE Link.get
  simp only [Option.bind_eq_bind]
  rw [show (v / 2).toNat = pos v from rfl, if_pos hlt, k1]
  simp only [Option.bind_some]
  rw [if_neg (by rintro ⟨h5, h6⟩; exact h6 (by rw [s2]; exact h3 h5)), if_neg hce]
  obtain ⟨h4, he⟩ := edit_some (·.setSlot (.de s) (some (pos v))) ho
  have S1 := step_setSlot ho he
  have hc4 : core h4 (pos v) = some oc := by rw [S1.ne hce]; exact hoc
  obtain ⟨h5, b, d, ha⟩ := addRef_some hc4 S1.now
  rw [he]
  simp only [Option.bind_some, ha]
  have S2 := addRef_step S1.now ha
  by_cases hz : oc.etype = 0
  · obtain ⟨occ, hocc, h8 | h8 | h8⟩ := addRef_cases ha
    · rw [hc4, Option.some.injEq] at hocc
      subst hocc
      exact absurd hz h8.2.2.2.2.2.2
    · rw [hc4, Option.some.injEq] at hocc
      subst hocc
      exact absurd hz h8.2.2.2.2
    · obtain ⟨rfl, rfl, _⟩ := h8
      obtain ⟨h6, he2⟩ := edit_some (·.setSlot (.de s) none) S2.now
      simp only [he2, Option.bind_some, hz, if_true]
      exact ⟨_, rfl⟩
  · have hg : goodTarget s oc = true := by rw [goodTarget_congr s2 s3]; exact h2
    have hA : attrType oc.etype := goodTarget_attr h0 hz hg
    have hnot : e ∉ refsOf h4 (pos v) := by
      rw [edit_refs (setSlot_local _ _) ho he]
      exact hn (by rw [← hct]; exact hz)
    have C4 : Ctx es h4 := by
      refine C.step S1 rfl ?_ (C.exT e o ho)
      intro c hc
      simp only [Obj.setSlot] at hc
      rcases List.mem_or_eq_of_mem_set hc with h8 | h8
      · exact C.deT e o ho c h8
      · cases h8
        rw [← hct]; exact hA
    obtain ⟨rfl, rfl⟩ := attr_accepts C4 hc4 S1.now ht (Or.inl hA) hnot ha
    have hg' : goodTarget s { oc with refs := refsOf h (pos v) } = true := by
      exact (goodTarget_congr (o' := oc) rfl rfl).trans hg
    simp only [hg', if_true]
    exact ⟨_, rfl⟩

theorem goodTarget_disjoint {s s' : Nat} {o : Obj} (h : s ≠ s') (h0 : s ≠ 0) (h0' : s' ≠ 0) (h6 : s < 7) (h6' : s' < 7)
    (h1 : goodTarget s o = true) (h2 : goodTarget s' o = true) : o.etype = 0 := by
  unfold goodTarget at h1 h2
  by_contra hz
  rcases (show s = 1 ∨ s = 2 ∨ s = 3 ∨ s = 4 ∨ s = 5 ∨ s = 6 by omega) with rfl | rfl | rfl | rfl | rfl | rfl <;>
    rcases (show s' = 1 ∨ s' = 2 ∨ s' = 3 ∨ s' = 4 ∨ s' = 5 ∨ s' = 6 by omega)
      with rfl | rfl | rfl | rfl | rfl | rfl <;>
    simp at h1 h2 <;> omega

theorem linkDEs_of {e : Nat} : ∀ {l : List (Nat × Int)} {h : Heap} {o : Obj}, Ctx es h → Bal e h →
    core h e = some o → curveType o.etype → (l.map Prod.fst).Nodup →
    (∀ q ∈ l, q.1 ≠ 0 ∧ q.1 < 7 ∧ o.de[q.1]? = some none ∧ DeOk es e q
      ∧ (typeAt es (pos q.2) ≠ 0 → pos q.2 ∉ o.children)) →
    ∃ h', linkDEs es.length e l true h = some (h', true, false)
  | [], h, o, C, B, ho, ht, hn, hq => ⟨h, rfl⟩
  | (s, v) :: l, h, o, C, B, ho, ht, hn, hq => by
    obtain ⟨q1, q2, q3, q4, q5⟩ := hq (s, v) (by simp)
    obtain ⟨h1, hl⟩ := linkDE_of C ho ht q1 q4 (fun h9 h10 => q5 h9 (B.mem ho h10))
    obtain ⟨S, B1, _, hA⟩ := linkDE_fine C ho q3 q1 hl
    have C1 : Ctx es h1 := by
      refine C.step S rfl ?_ (C.exT e o ho)
      intro c hc
      simp only at hc
      rcases List.mem_or_eq_of_mem_set hc with h3 | h3
      · exact C.deT e o ho c h3
      · exact hA c h3.symm
    have hn' := List.nodup_cons.mp hn
    obtain ⟨h2, hl2⟩ := linkDEs_of (l := l) C1 (B1 B) S.now ht hn'.2 (by
      intro q hq'
      obtain ⟨r1, r2, r3, r4, r5⟩ := hq q (by simp [hq'])
      have hne : s ≠ q.1 := fun h5 => hn'.1 (List.mem_map.mpr ⟨q, hq', h5.symm⟩)
      refine ⟨r1, r2, ?_, r4, ?_⟩
      · simp only
        rw [List.getElem?_set_ne hne]
        exact r3
      · intro h9 h10
        have h11 := r5 h9
        have hdiff : tgt es v ≠ some (pos q.2) := by
          unfold tgt
          split
          · intro h; cases h
          · intro h
            rw [Option.some.injEq] at h
            obtain ⟨_, rc, g1, g2, _⟩ := r4
            obtain ⟨_, rc', g1', g2', _⟩ := q4
            simp only at g1' g2'
            rw [h, g1, Option.some.injEq] at g1'
            subst g1'
            have := goodTarget_disjoint hne q1 r1 q2 r2 g2' g2
            rw [objOf_etype] at this
            exact h9 (by rw [typeAt, g1]; exact this)
        have hmem : pos q.2 ∈ o.children := by
          unfold Obj.children at h10 ⊢
          simp only [List.mem_append, List.mem_filterMap, id] at h10 ⊢
          rcases h10 with ((((((⟨a, ha, rfl⟩ | h10) | h10) | h10) | h10) | h10) | h10) | h10
          · rcases List.mem_or_eq_of_mem_set ha with ha | ha
            · exact Or.inl (Or.inl (Or.inl (Or.inl (Or.inl (Or.inl (Or.inl ⟨_, ha, rfl⟩))))))
            · exact absurd ha.symm hdiff
          · exact Or.inl (Or.inl (Or.inl (Or.inl (Or.inl (Or.inl (Or.inr h10))))))
          · exact Or.inl (Or.inl (Or.inl (Or.inl (Or.inl (Or.inr h10)))))
          · exact Or.inl (Or.inl (Or.inl (Or.inl (Or.inr h10))))
          · exact Or.inl (Or.inl (Or.inl (Or.inr h10)))
          · exact Or.inl (Or.inl (Or.inr h10))
          · exact Or.inl (Or.inr h10)
          · exact Or.inr h10
        exact h11 hmem)
    refine ⟨h2, ?_⟩
    unfold linkDEs
    simp only [Option.bind_eq_bind, hl, Option.bind_some]
    exact hl2

theorem mem_children_extras {o : Obj} {c x : Nat} :
    x ∈ ({ o with extras := o.extras ++ [c] } : Obj).children ↔ x ∈ o.children ∨ x = c := by
  unfold Obj.children
  simp only [List.mem_append, List.mem_singleton]
  tauto

theorem linkExtras_of {e : Nat} : ∀ {l : List Int} {h : Heap} {o : Obj}, Ctx es h → Bal e h →
    core h e = some o → curveType o.etype → (l.map pos).Nodup → (∀ v ∈ l, ExOk es v ∧ pos v ∉ o.children) →
    ∃ h', linkExtras es.length e l true h = some (h', true)
  | [], h, o, C, B, ho, ht, hn, hq => ⟨h, rfl⟩
  | v :: l, h, o, C, B, ho, ht, hn, hq => by
    obtain ⟨⟨q1, q2, q3⟩, q4⟩ := hq v (by simp)
    obtain ⟨oc, hoc⟩ := C.all (pos v) q2
    have hct := C.ty hoc
    obtain ⟨k1, k2⟩ := of_core hoc
    obtain ⟨h1, b, d, ha⟩ := addRef_some hoc ho
    obtain ⟨rfl, rfl⟩ := attr_accepts C hoc ho ht (Or.inr (by unfold extraType; omega))
      (fun h9 => q4 (B.mem ho h9)) ha
    have S1 := addRef_step ho ha
    obtain ⟨h2, he⟩ := edit_some (fun o => { o with extras := o.extras ++ [pos v] }) S1.now
    have hl : linkExtra h es.length e v = some (h2, true) := by
      unfold linkExtra Link.get
      rw [if_pos ⟨q1, q2⟩]
      simp only [Option.bind_eq_bind]
      rw [show (v / 2).toNat = pos v from rfl, k1]
      simp only [Option.bind_some]
      rw [if_pos (by omega), ha]
      simp only [Option.bind_some, he]
    obtain ⟨S, B1, C1, _⟩ := linkExtra_ok C (fun r _ => no402 r) ho hl
    rw [List.map_cons, List.nodup_cons] at hn
    obtain ⟨h3, hl3⟩ := linkExtras_of (l := l) C1 (B1 B) S.now ht hn.2 (by
      intro w hw
      refine ⟨(hq w (by simp [hw])).1, ?_⟩
      intro h9
      rcases mem_children_extras.mp h9 with h9 | h9
      · exact (hq w (by simp [hw])).2 h9
      · exact hn.1 (h9 ▸ List.mem_map_of_mem hw))
    refine ⟨h3, ?_⟩
    unfold linkExtras
    simp only [Option.bind_eq_bind, hl, Option.bind_some, Bool.true_and]
    exact hl3

/-- Not linked at all. -/
def Fresh (e : Nat) (r : REnt) (h : Heap) : Prop :=
  core h e = some (objOf r) ∧ ∀ x, (refsOf h x).count e = 0

theorem objOf_children (r : REnt) : (objOf r).children = [] := by
  have : ∀ t, (newObj t).children = [] := by
    intro t
    unfold newObj
    split_ifs <;> rfl
  exact this _

theorem Fresh.bal {e : Nat} {r : REnt} {h : Heap} (F : Fresh e r h) : Bal e h := by
  intro o ho x
  rw [F.1, Option.some.injEq] at ho
  subst ho
  rw [objOf_children, F.2]
  rfl

theorem linkBase_of {h : Heap} {e : Nat} {r : REnt} {done : List Nat} (C : Ctx es h) (hs : r.de.structure_ ≤ 0)
    (F : Fresh e r h) (ht : curveType (objOf r).etype) (hd : e ∉ done) (hS : Sound es e r) :
    ∃ h', linkBase es.length e r h done = some (h', e :: done, true) := by
  obtain ⟨e1, e2⟩ := objOf_empty r
  obtain ⟨s1, s2, s3, s4⟩ := hS
  have hq : ∀ q ∈ dePointers r.de, q.1 ≠ 0 ∧ (objOf r).de[q.1]? = some none := by
    intro q hq
    rw [e1]
    exact dePointers_slot hs hq
  obtain ⟨h1, hl1⟩ := linkDEs_of (l := dePointers r.de) C F.bal F.1 ht (dePointers_nodup r.de) (by
    intro q hq'
    obtain ⟨a, b⟩ := hq q hq'
    refine ⟨a, ?_, b, s1 q hq', fun _ => by rw [objOf_children]; simp⟩
    have := (List.getElem?_eq_some_iff.mp b).1
    rw [e1] at this
    simpa using this)
  obtain ⟨S1, B1, C1, _, _⟩ := linkDEs_ok C F.1 (dePointers_nodup r.de) hq hl1
  obtain ⟨h2, hl2⟩ := linkExtras_of (l := r.extras) C1 (B1 F.bal) S1.now ht s3 (by
    intro v hv
    refine ⟨s2 v hv, ?_⟩
    intro h9
    have hch : pos v ∈ (setAll es (dePointers r.de) (List.replicate 7 none)).filterMap id := by
      unfold Obj.children at h9
      simp only [List.mem_append] at h9
      have hc := objOf_children r
      unfold Obj.children at hc
      simp only [List.append_eq_nil_iff] at hc
      obtain ⟨⟨⟨⟨⟨⟨⟨_, c2⟩, c3⟩, c4⟩, c5⟩, c6⟩, c7⟩, c8⟩ := hc
      rw [c2, c3, c4, c5, c6, c7, c8, e1] at h9
      simpa using h9
    rw [setAll_eq, List.mem_filterMap] at hch
    obtain ⟨a, ha, h10⟩ := hch
    rw [List.mem_map] at ha
    obtain ⟨q, hq', rfl⟩ := ha
    unfold dePtr at h10
    split at h10
    · rename_i hpos
      simp only [id, Option.some.injEq] at h10
      refine s4 q ?_ v hv h10
      unfold dePointers
      rw [List.mem_filter]
      exact ⟨hq', by simpa using hpos.1⟩
    · cases h10)
  refine ⟨h2, ?_⟩
  unfold linkBase
  rw [if_neg hd]
  simp only [Option.bind_eq_bind, hl1, Option.bind_some, hl2, if_true]

/-! ### All entities -/

/-- Linked, with the pointers of the record. -/
def Linked (es : List REnt) (e : Nat) (r : REnt) (h : Heap) : Prop :=
  core h e = some (wanted es r []) ∧ (ListedOnce r → Bal e h) ∧ Typed es r ∧ Sound es e r

/-- How far an entity has come when the entities before position `k` have had their turn. -/
def At (es : List REnt) (k : Nat) (done : List Nat) (h : Heap) (x : Nat) (r : REnt) : Prop :=
  (x ∈ done ∧ Linked es x r h ∧ (x < k ∨ curveType (objOf r).etype))
    ∨ (x ∉ done ∧ k ≤ x ∧ (Fresh x r h ∨ (curveType (objOf r).etype ∧ ¬ Sound es x r ∧ ∃ o, core h x = some o)))

theorem bal_frame {c x : Nat} {h h' : Heap} {o o' : Obj} (S : Step c h h' o o') (hx : x ≠ c) (B : Bal x h) :
    Bal x h' := by
  intro ox h1 y
  rw [S.ne hx] at h1
  rw [S.others y x hx]
  exact B ox h1 y

theorem At.frame {c x k : Nat} {h h' : Heap} {o o' : Obj} {done done' : List Nat} {r : REnt} (S : Step c h h' o o')
    (hx : x ≠ c) (hd : done' = done ∨ done' = c :: done) (A : At es k done h x r) : At es k done' h' x r := by
  have hmem : x ∈ done' ↔ x ∈ done := by
    rcases hd with rfl | rfl
    · rfl
    · simp [hx]
  unfold At Linked Fresh at *
  rw [hmem, S.ne hx]
  rcases A with ⟨a, ⟨b, c, t⟩, d⟩ | ⟨a, b, c⟩
  · exact Or.inl ⟨a, ⟨b, fun hL => bal_frame S hx (c hL), t⟩, d⟩
  · refine Or.inr ⟨a, b, ?_⟩
    rcases c with ⟨c, d⟩ | c
    · exact Or.inl ⟨c, fun y => by rw [S.others y x hx]; exact d y⟩
    · exact Or.inr c

theorem dropDEs_idle {h : Heap} {e : Nat} {o : Obj} (ho : core h e = some o) (h0 : o.de[0]? = some none) :
    dropDEs h e [0] = some h := by
  obtain ⟨h1, _⟩ := of_core ho
  unfold dropDEs release
  simp only [h1, Obj.slot, h0, Option.join_some, Option.bind_eq_bind, Option.bind_some, dropDEs]

theorem curve_class_idle {h : Heap} {e : Nat} {r : REnt} (ht : curveType (objOf r).etype)
    (ho : core h e = some (wanted es r [])) : linkClass G es.length e r.body h = some (h, true) := by
  obtain ⟨d, b, xs, cs⟩ := r
  rw [objOf_etype] at ht
  unfold curveType at ht
  cases b
  case arc k => rw [linkClass, dropDEs_idle ho rfl]; rfl
  case conic k => rw [linkClass, dropDEs_idle ho rfl]; rfl
  case line k => rw [linkClass, dropDEs_idle ho rfl]; rfl
  case curve k => rw [linkClass]
  all_goals (exfalso; simp [Body.etype] at ht)

theorem curve_notComposite {r : REnt} (ht : curveType (objOf r).etype) : NotComposite r := by
  intro k hk
  rw [objOf_etype, hk] at ht
  unfold curveType at ht
  simp [Body.etype] at ht

theorem curve_class_true {h h' : Heap} {e : Nat} {r : REnt} {ok : Bool} (ht : curveType (objOf r).etype)
    (hl : linkClass G es.length e r.body h = some (h', ok)) : ok = true := by
  obtain ⟨d, b, xs, cs⟩ := r
  rw [objOf_etype] at ht
  unfold curveType at ht
  cases b
  case arc k => rw [linkClass] at hl; simp [Option.map_eq_some_iff] at hl; exact hl.2
  case conic k => rw [linkClass] at hl; simp [Option.map_eq_some_iff] at hl; exact hl.2
  case line k => rw [linkClass] at hl; simp [Option.map_eq_some_iff] at hl; exact hl.2
  case curve k => rw [linkClass] at hl; simp at hl; exact hl.2
  all_goals (exfalso; simp [Body.etype] at ht)

/-- Early linking of a curve. -/
theorem linkPlain_curve {h h' : Heap} {c k : Nat} {r : REnt} {done done' : List Nat} {ok : Bool} (C : Ctx es h)
    (hs : r.de.structure_ ≤ 0) (ht : curveType (objOf r).etype) (A : At es k done h c r)
    (hl : linkPlain G es.length c r h done = some (h', done', ok)) :
    (∃ o o', Step c h h' o o') ∧ Ctx es h' ∧ (done' = done ∨ done' = c :: done) ∧ At es k done' h' c r
      ∧ (ok = true → c ∈ done') := by
  unfold linkPlain at hl
  simp only [Option.bind_eq_bind, Option.bind_eq_some_iff] at hl
  obtain ⟨⟨h1, done1, ok1⟩, h2, hl⟩ := hl
  rcases A with ⟨a, b, d⟩ | ⟨a, b, d⟩
  · have : (h1, done1, ok1) = (h, done, true) := by
      unfold linkBase at h2
      rw [if_pos a] at h2
      exact (Option.some.inj h2).symm
    cases this
    simp only [if_true, Option.bind_eq_some_iff] at hl
    obtain ⟨⟨h3, ok3⟩, h4, hl⟩ := hl
    rw [curve_class_idle ht b.1] at h4
    simp only [Option.some.injEq, Prod.mk.injEq] at h4 hl
    obtain ⟨rfl, rfl⟩ := h4
    obtain ⟨rfl, rfl, rfl⟩ := hl
    exact ⟨⟨_, _, Step.refl b.1⟩, C, Or.inl rfl, Or.inl ⟨a, b, d⟩, fun _ => a⟩
  · cases ok1 with
    | false =>
      simp only [Bool.false_eq_true, if_false, Option.some.injEq, Prod.mk.injEq] at hl
      obtain ⟨rfl, rfl, rfl⟩ := hl
      have key : ∀ o, core h c = some o → ¬ Sound es c r → (∃ o o', Step c h h1 o o') ∧ Ctx es h1
          ∧ (done1 = done ∨ done1 = c :: done) ∧ At es k done1 h1 c r ∧ (false = true → c ∈ done1) := by
        intro o ho hns
        obtain ⟨⟨o', S, _, C'⟩, hd⟩ := linkBase_frame C hs ho h2
        have := hd rfl
        subst this
        exact ⟨⟨o, o', S⟩, C', Or.inl rfl, Or.inr ⟨a, b, Or.inr ⟨ht, hns, o', S.now⟩⟩, fun h => by cases h⟩
      rcases d with F | ⟨_, hns, o, ho⟩
      · refine key _ F.1 ?_
        intro hS
        obtain ⟨h5, h6⟩ := linkBase_of C hs F ht a hS
        rw [h2] at h6
        simp at h6
      · exact key o ho hns
    | true =>
      rcases d with F | ⟨_, hns, o, ho⟩
      · obtain ⟨⟨S, B, C1⟩, hd⟩ := linkBase_ok C hs F.1 a h2
        simp only [if_true, Option.bind_eq_some_iff] at hl
        obtain ⟨⟨h3, ok3⟩, h4, hl⟩ := hl
        simp only [Option.some.injEq, Prod.mk.injEq] at hl
        obtain ⟨rfl, rfl, rfl⟩ := hl
        have := curve_class_true ht h4
        subst this
        obtain ⟨S2, B2, C2, T2⟩ := linkClass_ok (curve_notComposite ht) C1 (B F.bal) S.now h4
        refine ⟨⟨_, _, S.trans S2⟩, C2, Or.inr hd, Or.inl ⟨by rw [hd]; simp, ⟨S2.now, fun hL => B2 hL (B F.bal), T2,
            linkBase_sound C hs F.1 a h2⟩,
          Or.inr ht⟩, fun _ => by rw [hd]; simp⟩
      · exact absurd (linkBase_sound C hs ho a h2) hns

theorem linkCurves_false {e : Nat} : ∀ {l : List Int} {h h' : Heap} {done done' : List Nat} {ok : Bool},
    linkCurves G es e l false h done = some (h', done', ok) → ok = false
  | [], h, h', done, done', ok, hl => by
    simp only [linkCurves, Option.some.injEq, Prod.mk.injEq] at hl
    exact hl.2.2.symm
  | v :: l, h, h', done, done', ok, hl => by
    unfold linkCurves at hl
    simp only [Option.bind_eq_bind, Option.bind_eq_some_iff] at hl
    obtain ⟨q, _, hl⟩ := hl
    cases q with
    | none => exact linkCurves_false hl
    | some c =>
      simp only [Option.bind_eq_some_iff] at hl
      obtain ⟨oc, _, hl⟩ := hl
      split at hl
      · rw [Option.bind_eq_some_iff] at hl
        obtain ⟨⟨h1, b, d⟩, _, hl⟩ := hl
        cases b with
        | false => exact linkCurves_false hl
        | true =>
          cases d with
          | true => exact linkCurves_false hl
          | false =>
            simp only [Option.bind_eq_some_iff] at hl
            obtain ⟨_, _, r, _, ⟨h3, d3, ok3⟩, _, hl⟩ := hl
            exact linkCurves_false hl
      · exact linkCurves_false hl

theorem linkCurves_ok {e k : Nat} (hstr : ∀ r ∈ es, r.de.structure_ ≤ 0) :
    ∀ {l : List Int} {h h' : Heap} {o : Obj} {L : List Nat} {done done' : List Nat},
    Ctx es h → Bal e h → core h e = some o → o.etype = 102 → o.kids = firsts L →
    o.own = [] → o.edges = [] → o.verts = [] → o.loops = [] → o.redges = [] →
    (∀ x r, x ≠ e → es[x]? = some r → At es k done h x r) →
    linkCurves G es e l true h done = some (h', done', true) →
    core h' e = some { o with kids := firsts (L ++ l.map pos) } ∧ Bal e h' ∧ Ctx es h'
      ∧ (∀ x r, x ≠ e → es[x]? = some r → At es k done' h' x r) ∧ (e ∈ done' ↔ e ∈ done)
      ∧ ∀ v ∈ l, Leads es simpleCurves v
  | [], h, h', o, L, done, done', C, B, ho, ht, hk, o1, o2, o3, o4, o5, A, hl => by
    simp only [linkCurves, Option.some.injEq, Prod.mk.injEq, and_true] at hl
    obtain ⟨rfl, rfl⟩ := hl
    refine ⟨?_, B, C, A, Iff.rfl, by simp⟩
    rw [List.map_nil, List.append_nil, ← hk]
    exact ho
  | v :: l, h, h', o, L, done, done', C, B, ho, ht, hk, o1, o2, o3, o4, o5, A, hl => by
    unfold linkCurves at hl
    simp only [Option.bind_eq_bind, Option.bind_eq_some_iff] at hl
    obtain ⟨q, hq, hl⟩ := hl
    cases q with
    | none => exact absurd (linkCurves_false hl) (by decide)
    | some c =>
      have hnn := findRange_nonneg hq
      obtain ⟨rfl, hlt⟩ := findRange_some hq
      simp only [Option.bind_eq_some_iff] at hl
      obtain ⟨oc, hoc, hl⟩ := hl
      have hcc := get_core hoc
      have hct := C.ty hcc
      simp only at hct
      split at hl
      · rename_i hcv
        simp only [Bool.and_eq_true, bne_iff_ne] at hcv
        have hcurve : curveType oc.etype := by
          have := curve_type hcv.1
          have := hcv.2
          unfold curveType
          omega
        have hlead : Leads es simpleCurves v := by
          refine ⟨hnn, hlt, ?_⟩
          rw [← hct]
          unfold curveType at hcurve
          simp only [simpleCurves, List.mem_cons, List.not_mem_nil, or_false]
          omega
        have hne : pos v ≠ e := by
          intro h9
          have h10 := C.ty ho
          rw [h9] at hct
          rw [ht] at h10
          exact hcv.2 (hct.trans h10.symm)
        have hkid : pos v ∈ o.children → pos v ∈ o.kids := by
          intro h9
          unfold Obj.children at h9
          rw [o1, o2, o3, o4, o5] at h9
          simp only [List.map_nil, List.filterMap_nil, List.flatMap_nil, List.append_nil, List.mem_append,
            List.mem_filterMap, id] at h9
          obtain ⟨t1, t2, _⟩ := curve_ok hcurve
          rw [hct] at t1 t2
          rcases h9 with (⟨a, ha, rfl⟩ | h9) | h9
          · exact absurd (C.deT e o ho _ ha) t1
          · exact absurd (C.exT e o ho _ h9) t2
          · exact h9
        rw [Option.bind_eq_some_iff] at hl
        obtain ⟨⟨h1, b, d⟩, ha, hl⟩ := hl
        cases b with
        | false => exact absurd (linkCurves_false hl) (by decide)
        | true =>
          cases d with
          | true =>
            simp only at hl
            obtain ⟨occ, hocc, h5 | h5 | h5⟩ := addRef_cases ha
            · exact absurd h5.2.1 (by decide)
            · obtain ⟨_, _, rfl, h6, _⟩ := h5
              have hin : pos v ∈ firsts L := by
                rw [← hk]
                refine hkid ?_
                rcases h6 with h6 | h6
                · exact B.mem ho h6
                · exact absurd h6 (C.noExtra ho (by rw [ht]; unfold extraType; omega) hocc)
              obtain ⟨a1, a2, a3, a4, a5, a6⟩ := linkCurves_ok hstr (L := L ++ [pos v]) C B ho ht (by
                rw [firsts_snoc, if_pos hin]; exact hk) o1 o2 o3 o4 o5 A hl
              refine ⟨?_, a2, a3, a4, a5, List.forall_mem_cons.mpr ⟨hlead, a6⟩⟩
              simpa using a1
            · exact absurd h5.1 (by decide)
          | false =>
            simp only [Option.bind_eq_some_iff] at hl
            obtain ⟨h2, he, r, hr, ⟨h3, done3, ok3⟩, hp, hl⟩ := hl
            simp only at hl
            obtain ⟨S, B1⟩ := add_then_store (kids_local (pos v)) rfl ho ha he
            have hnot : pos v ∉ firsts L := by
              rw [← hk]
              intro h9
              obtain ⟨occ, hocc, h5 | h5 | h5⟩ := addRef_cases ha
              · refine h5.2.2.2.2.1 (List.count_pos_iff.mp ?_)
                rw [← B o ho (pos v)]
                refine List.count_pos_iff.mpr ?_
                unfold Obj.children
                simp only [List.mem_append]
                exact Or.inl (Or.inl (Or.inl (Or.inl (Or.inr h9))))
              · exact absurd h5.2.1 (by decide)
              · exact absurd h5.1 (by decide)
            have C2 : Ctx es h2 := C.step' S rfl rfl rfl
            have Bal2 := B1 count_kids B
            have hrt : curveType (objOf r).etype := by
              obtain ⟨r', s1, s2, _⟩ := C.static _ _ hcc
              rw [hr, Option.some.injEq] at s1
              subst s1
              rw [← s2]
              exact hcurve
            obtain ⟨⟨oo, oo', S3⟩, C3, hd3, A3, _⟩ := linkPlain_curve (k := k) C2 (hstr r (List.mem_of_getElem? hr)) hrt
              ((A (pos v) r hne hr).frame S hne (Or.inl rfl)) hp
            have hok : (e ∈ done3 ↔ e ∈ done) := by
              rcases hd3 with rfl | rfl
              · rfl
              · simp [Ne.symm hne]
            obtain ⟨a1, a2, a3, a4, a5, a6⟩ := linkCurves_ok hstr (L := L ++ [pos v])
              (o := { o with kids := o.kids ++ [pos v] }) C3 (bal_frame S3 (Ne.symm hne) Bal2)
              (by rw [S3.ne (Ne.symm hne)]; exact S.now) ht
              (by rw [firsts_snoc, if_neg hnot, ← hk]) o1 o2 o3 o4 o5 (by
                intro x rx hx hrx
                by_cases hxc : x = pos v
                · subst hxc
                  rw [hr, Option.some.injEq] at hrx
                  subst hrx
                  exact A3
                · exact ((A x rx hx hrx).frame S hx (Or.inl rfl)).frame S3 hxc hd3) hl
            refine ⟨?_, a2, a3, a4, a5.trans hok, List.forall_mem_cons.mpr ⟨hlead, a6⟩⟩
            simpa using a1
      · exact absurd (linkCurves_false hl) (by decide)

/-- Everything before position `k` has had its turn. -/
def Inv (es : List REnt) (k : Nat) (done : List Nat) (h : Heap) : Prop :=
  Ctx es h ∧ ∀ x r, es[x]? = some r → At es k done h x r

theorem At.later {x k : Nat} {h : Heap} {done : List Nat} {r : REnt} (A : At es k done h x r) (hx : x ≠ k) :
    At es (k + 1) done h x r := by
  rcases A with ⟨a, b, c⟩ | ⟨a, b, c⟩
  · exact Or.inl ⟨a, b, c.imp_left (by omega)⟩
  · exact Or.inr ⟨a, by omega, c⟩

theorem linkPlain_ok {h h' : Heap} {k : Nat} {r : REnt} {done done' : List Nat}
    (hs : r.de.structure_ ≤ 0) (hr : es[k]? = some r) (hn : NotComposite r) (I : Inv es k done h)
    (hl : linkPlain G es.length k r h done = some (h', done', true)) : Inv es (k + 1) done' h' := by
  obtain ⟨C, A⟩ := I
  by_cases ht : curveType (objOf r).etype
  · obtain ⟨⟨o, o', S⟩, C', hd, A', hmem⟩ := linkPlain_curve C hs ht (A k r hr) hl
    refine ⟨C', ?_⟩
    intro x rx hrx
    by_cases hx : x = k
    · subst hx
      rw [hr, Option.some.injEq] at hrx
      subst hrx
      rcases A' with ⟨a, b, c⟩ | ⟨a, b, c⟩
      · exact Or.inl ⟨a, b, Or.inr ht⟩
      · exact absurd (hmem rfl) a
    · exact ((A x rx hrx).frame S hx hd).later hx
  · rcases A k r hr with ⟨_, _, c⟩ | ⟨a, _, F | c⟩
    · rcases c with c | c
      · omega
      · exact absurd c ht
    · unfold linkPlain at hl
      simp only [Option.bind_eq_bind, Option.bind_eq_some_iff] at hl
      obtain ⟨⟨h1, done1, ok1⟩, h2, hl⟩ := hl
      cases ok1 with
      | false => simp at hl
      | true =>
        simp only [if_true, Option.bind_eq_some_iff] at hl
        obtain ⟨⟨h3, ok3⟩, h4, hl⟩ := hl
        simp only [Option.some.injEq, Prod.mk.injEq] at hl
        obtain ⟨rfl, rfl, rfl⟩ := hl
        obtain ⟨⟨S, B, C1⟩, hd⟩ := linkBase_ok C hs F.1 a h2
        obtain ⟨S2, B2, C2, T2⟩ := linkClass_ok hn C1 (B F.bal) S.now h4
        have SS := S.trans S2
        refine ⟨C2, ?_⟩
        intro x rx hrx
        by_cases hx : x = k
        · subst hx
          rw [hr, Option.some.injEq] at hrx
          subst hrx
          exact Or.inl ⟨by rw [hd]; simp, ⟨SS.now, fun hL => B2 hL (B F.bal), T2, linkBase_sound C hs F.1 a h2⟩, Or.inl (by omega)⟩
        · exact ((A x rx hrx).frame SS hx (Or.inr hd)).later hx
    · exact absurd c.1 ht

theorem linkEnt_ok {h h' : Heap} {k : Nat} {done done' : List Nat} (hstr : ∀ r ∈ es, r.de.structure_ ≤ 0)
    (I : Inv es k done h) (hl : linkEnt G es k h done = some (h', done', true)) : Inv es (k + 1) done' h' := by
  unfold linkEnt at hl
  simp only [Option.bind_eq_bind, Option.bind_eq_some_iff] at hl
  obtain ⟨r, hr, hl⟩ := hl
  have hs := hstr r (List.mem_of_getElem? hr)
  by_cases hn : NotComposite r
  · refine linkPlain_ok (G := G) hs hr hn I ?_
    cases hb : r.body <;> rw [hb] at hl <;> first | exact hl | exact absurd hb (hn _)
  · unfold NotComposite at hn
    push Not at hn
    obtain ⟨cv, hb⟩ := hn
    rw [hb] at hl
    simp only [Option.bind_eq_some_iff] at hl
    obtain ⟨⟨h1, done1, ok1⟩, h2, hl⟩ := hl
    cases ok1 with
    | false => simp at hl
    | true =>
      simp only [if_true, Option.bind_eq_some_iff] at hl
      obtain ⟨h3, h4, ⟨h5, done5, ok5⟩, h6, hl⟩ := hl
      simp only [Option.some.injEq, Prod.mk.injEq, Bool.and_eq_true] at hl
      obtain ⟨rfl, rfl, rfl, _⟩ := hl
      obtain ⟨C, A⟩ := I
      have hty : (objOf r).etype = 102 := by rw [objOf_etype, hb]; rfl
      have hcv : ¬ curveType (objOf r).etype := by rw [hty]; unfold curveType; omega
      rcases A k r hr with ⟨_, _, c⟩ | ⟨a, _, F | c⟩
      · rcases c with c | c
        · omega
        · exact absurd c hcv
      · obtain ⟨⟨S, B, C1⟩, hd⟩ := linkBase_ok C hs F.1 a h2
        obtain ⟨S2, B2, C2⟩ := dropDEs_ok C1 (B F.bal) S.now h4
        have SS := S.trans S2
        have hsound := linkBase_sound C hs F.1 a h2
        obtain ⟨d, b, xs, cs⟩ := r
        simp only at hb
        subst hb
        obtain ⟨a1, a2, a3, a4, a5, a6⟩ := linkCurves_ok (k := k + 1) hstr (L := []) C2 B2 S2.now hty rfl rfl rfl rfl rfl rfl
          (fun x rx hx hrx => ((A x rx hrx).frame SS hx (Or.inr hd)).later hx) h6
        refine ⟨a3, ?_⟩
        intro x rx hrx
        by_cases hx : x = k
        · subst hx
          rw [hr, Option.some.injEq] at hrx
          subst hrx
          refine Or.inl ⟨a5.mpr (by rw [hd]; simp), ⟨?_, fun _ => a2, a6, hsound⟩, Or.inl (by omega)⟩
          exact a1
        · exact a4 x rx hx hrx
      · exact absurd c.1 hcv

theorem linkFrom_ok (hstr : ∀ r ∈ es, r.de.structure_ ≤ 0) : ∀ {m k : Nat} {h h' : Heap} {done : List Nat},
    Inv es k done h → linkFrom G es (List.range' k m) h done = some (h', true) → ∃ done', Inv es (k + m) done' h'
  | 0, k, h, h', done, I, hl => by
    simp only [List.range'_zero, linkFrom, Option.some.injEq, Prod.mk.injEq, and_true] at hl
    subst hl
    exact ⟨done, I⟩
  | m + 1, k, h, h', done, I, hl => by
    rw [List.range'_succ] at hl
    unfold linkFrom at hl
    simp only [Option.bind_eq_bind, Option.bind_eq_some_iff] at hl
    obtain ⟨⟨h1, done1, ok1⟩, h2, hl⟩ := hl
    cases ok1 with
    | false => simp at hl
    | true =>
      simp only at hl
      have I1 := linkEnt_ok hstr I h2
      obtain ⟨d, J⟩ := linkFrom_ok hstr I1 hl
      exact ⟨d, by rw [show k + (m + 1) = k + 1 + m by omega]; exact J⟩

theorem heapOf_inv : Inv es 0 [] (heapOf es) := by
  have hc : ∀ x o, core (heapOf es) x = some o → ∃ r, es[x]? = some r ∧ o = objOf r ∧ refsOf (heapOf es) x = [] := by
    intro x o h
    unfold core heapOf at h
    rw [Option.map_map, Option.map_eq_some_iff] at h
    obtain ⟨r, h1, h2⟩ := h
    have hr : (objOf r).refs = [] := by
      have : ∀ t, (newObj t).refs = [] := by
        intro t; unfold newObj; split_ifs <;> rfl
      exact this _
    refine ⟨r, h1, ?_, ?_⟩
    · rw [← h2]
      simp only [Function.comp_apply]
      rw [← hr]
    · simp [refsOf, heapOf, h1, hr]
  have hrefs : ∀ x, refsOf (heapOf es) x = [] := by
    intro x
    cases hx : es[x]? with
    | none => simp [refsOf, heapOf, hx]
    | some r =>
      have : core (heapOf es) x = some { objOf r with refs := [] } := by simp [core, heapOf, hx]
      exact (hc x _ this).choose_spec.2.2
  refine ⟨⟨?_, ?_, ?_, ?_, ?_, fun x => by rw [hrefs]; exact List.nodup_nil, ?_,
    fun x p hp => by rw [hrefs] at hp; cases hp⟩, ?_⟩
  · intro x o h
    obtain ⟨r, h1, rfl, _⟩ := hc x o h
    exact ⟨r, h1, rfl, rfl⟩
  · intro x hx
    exact ⟨{ objOf es[x] with refs := [] }, by simp [core, heapOf, List.getElem?_eq_getElem hx]⟩
  · intro x o _ _
    exact hrefs x
  · intro x o h c hm
    obtain ⟨r, _, rfl, _⟩ := hc x o h
    rw [(objOf_empty r).1] at hm
    simp at hm
  · intro x o h c hm
    obtain ⟨r, _, rfl, _⟩ := hc x o h
    rw [(objOf_empty r).2] at hm
    cases hm
  · intro x o r h hr
    obtain ⟨r', h1, rfl, _⟩ := hc x o h
    rw [hr, Option.some.injEq] at h1
    rw [h1]
  · intro x r hr
    refine Or.inr ⟨by simp, by omega, Or.inl ⟨?_, fun y => by rw [hrefs]; rfl⟩⟩
    have : core (heapOf es) x = some { objOf r with refs := [] } := by simp [core, heapOf, hr]
    obtain ⟨r', h1, h2, _⟩ := hc x _ this
    rw [hr, Option.some.injEq] at h1
    subst h1
    rw [this, h2]

/-- After successful linking every entity has the pointers of its record. -/
theorem linkAll_ok {h : Heap} (hstr : ∀ r ∈ es, r.de.structure_ ≤ 0) (hl : linkAll G es = some (h, true)) :
    Ctx es h ∧ ∀ x r, es[x]? = some r → Linked es x r h := by
  unfold linkAll at hl
  rw [List.range_eq_range'] at hl
  obtain ⟨d, C, A⟩ := linkFrom_ok hstr heapOf_inv hl
  refine ⟨C, ?_⟩
  intro x r hr
  rcases A x r hr with ⟨_, b, _⟩ | ⟨_, b, _⟩
  · exact b
  · have := (List.getElem?_eq_some_iff.mp hr).1
    omega

end Iges.Props.L
