import Verif.Lemmas.Link
/-
What the pieces of linking do when they succeed.
-/
namespace Iges.Props.L

open Iges.Graph Iges.Spec Iges.Link
open Iges.File (REnt Body)

/-- Types that directory entry pointers lead to. -/
def attrType (t : Nat) : Prop := t = 124 ∨ t = 304 ∨ t = 314 ∨ t = 402 ∨ t = 406 ∨ t = 410

/-- Types of optional entities. -/
def extraType (t : Nat) : Prop := t = 402 ∨ t = 406 ∨ t = 212 ∨ t = 312

/-- What holds for all entities at any time during linking. -/
structure Ctx (es : List REnt) (h : Heap) : Prop where
  static : ∀ x o, core h x = some o → ∃ r, es[x]? = some r ∧ o.etype = (objOf r).etype ∧ o.form = (objOf r).form
  all : ∀ x, x < es.length → ∃ o, core h x = some o
  null : ∀ x o, core h x = some o → o.etype = 0 → refsOf h x = []
  deT : ∀ x o, core h x = some o → ∀ c, some c ∈ o.de → attrType (typeAt es c)
  exT : ∀ x o, core h x = some o → ∀ c ∈ o.extras, extraType (typeAt es c)
  nodup : ∀ x, (refsOf h x).Nodup
  npts : ∀ x o r, core h x = some o → es[x]? = some r → o.npts = (objOf r).npts
  users : ∀ x p, p ∈ refsOf h x → p < es.length

theorem objOf_etype (r : REnt) : (objOf r).etype = r.body.etype.toNat := by
  obtain ⟨d, b, x, c⟩ := r
  cases b <;> rfl

theorem Ctx.ty {es h} (C : Ctx es h) {x : Nat} {o : Obj} (hx : core h x = some o) : o.etype = typeAt es x := by
  obtain ⟨r, h1, h2, _⟩ := C.static x o hx
  rw [h2, objOf_etype, typeAt, h1]
  rfl

theorem Ctx.lt {es h} (C : Ctx es h) {x : Nat} {o : Obj} (hx : core h x = some o) : x < es.length := by
  obtain ⟨r, h1, _⟩ := C.static x o hx
  exact (List.getElem?_eq_some_iff.mp h1).1

theorem get_core {h : Heap} {x : Nat} {o : Obj} (hx : get h x = some o) : core h x = some { o with refs := [] } :=
  core_some hx

theorem Ctx.step {es h h' e o o'} (C : Ctx es h) (S : Step e h h' o o') (hf : o'.form = o.form)
    (hd : ∀ c, some c ∈ o'.de → attrType (typeAt es c)) (hx : ∀ c ∈ o'.extras, extraType (typeAt es c))
    (hp : o'.npts = o.npts := by rfl) : Ctx es h' := by
  have key : ∀ x ox, core h' x = some ox → (x = e ∧ ox = o') ∨ (x ≠ e ∧ core h x = some ox) := by
    intro x ox h1
    by_cases hxe : x = e
    · subst hxe
      rw [S.now, Option.some.injEq] at h1
      exact Or.inl ⟨rfl, h1.symm⟩
    · rw [S.ne hxe] at h1
      exact Or.inr ⟨hxe, h1⟩
  refine ⟨?_, ?_, ?_, ?_, ?_, S.nodup C.nodup, ?_, ?_⟩
  · intro x ox h1
    rcases key x ox h1 with ⟨rfl, rfl⟩ | ⟨_, h2⟩
    · obtain ⟨r, a, b, c⟩ := C.static x o S.before
      exact ⟨r, a, S.etype.trans b, hf.trans c⟩
    · exact C.static x ox h2
  · intro x hx
    by_cases hxe : x = e
    · subst hxe; exact ⟨o', S.now⟩
    · rw [S.ne hxe]; exact C.all x hx
  · intro x ox h1 h0
    rcases key x ox h1 with ⟨rfl, rfl⟩ | ⟨_, h2⟩
    · have h3 : o.etype = 0 := S.etype.symm.trans h0
      exact S.null x o S.before h3 (C.null x o S.before h3)
    · exact S.null x ox h2 h0 (C.null x ox h2 h0)
  · intro x ox h1
    rcases key x ox h1 with ⟨rfl, rfl⟩ | ⟨_, h2⟩
    · exact hd
    · exact C.deT x ox h2
  · intro x ox h1
    rcases key x ox h1 with ⟨rfl, rfl⟩ | ⟨_, h2⟩
    · exact hx
    · exact C.exT x ox h2
  · intro x ox r h1 hr
    rcases key x ox h1 with ⟨rfl, rfl⟩ | ⟨_, h2⟩
    · exact hp.trans (C.npts x o r S.before hr)
    · exact C.npts x ox r h2 hr
  · intro x p hp
    by_cases hpe : p = e
    · rw [hpe]
      exact C.lt S.before
    · rw [← List.count_pos_iff, S.others x p hpe, List.count_pos_iff] at hp
      exact C.users x p hp

/-- A step that touches neither directory entry pointers nor optional pointers. -/
theorem Ctx.step' {es h h' e o o'} (C : Ctx es h) (S : Step e h h' o o') (hf : o'.form = o.form)
    (hd : o'.de = o.de) (hx : o'.extras = o.extras) (hp : o'.npts = o.npts := by rfl) : Ctx es h' :=
  C.step S hf (by rw [hd]; exact C.deT e o S.before) (by rw [hx]; exact C.exT e o S.before) hp

/-! ### Pointers of the directory entry -/

/-- The value a directory entry pointer gets. -/
def tgt (es : List REnt) (v : Int) : Option Nat := if typeAt es (pos v) = 0 then none else some (pos v)

theorem count_children_de {o : Obj} {s c : Nat} (hs : o.de[s]? = some none) (x : Nat) :
    (o.setSlot (.de s) (some c)).children.count x = o.children.count x + if x = c then 1 else 0 := by
  have hp := G.set_some_perm (c := c) hs
  have := hp.count_eq x
  unfold Obj.children Obj.setSlot
  simp only [List.count_append]
  rw [this, List.count_cons]
  by_cases hx : x = c
  · simp [hx]; omega
  · have : ¬ (c == x) = true := by simpa using fun h' => hx h'.symm
    simp [hx, this]

theorem goodTarget_attr {s : Nat} {o : Obj} (hs : s ≠ 0) (h0 : o.etype ≠ 0) (hg : goodTarget s o = true) :
    attrType o.etype := by
  unfold goodTarget at hg
  unfold attrType
  split at hg <;> simp at hg <;> omega

theorem set_none_self {l : List (Option Nat)} {s : Nat} (hs : l[s]? = some none) : l.set s none = l := by
  apply List.ext_getElem?
  intro j
  rw [List.getElem?_set]
  by_cases hj : s = j
  · subst hj
    rw [hs, if_pos rfl, if_pos (List.getElem?_eq_some_iff.mp hs).1]
  · rw [if_neg hj]

theorem linkDE_fine {es : List REnt} {h h' : Heap} {e s : Nat} {v : Int} {o : Obj} (C : Ctx es h)
    (ho : core h e = some o) (hs : o.de[s]? = some none) (h0 : s ≠ 0)
    (hl : linkDE h es.length e s v = some (h', .fine)) :
    Step e h h' o { o with de := o.de.set s (tgt es v) } ∧ (Bal e h → Bal e h') ∧ pos v < es.length
      ∧ (∀ c, tgt es v = some c → attrType (typeAt es c)) := by
  unfold linkDE at hl
  simp only [Option.bind_eq_bind] at hl
  split at hl
  · rename_i hn
    rw [Option.bind_eq_some_iff] at hl
    obtain ⟨oc, h1, hl⟩ := hl
    have hct := C.ty (get_core h1)
    simp only at hct
    split at hl
    · simp at hl
    · rename_i h4
      split at hl
      · cases hl
      · rename_i hce
        rw [Option.bind_eq_some_iff] at hl
        obtain ⟨h2, h3, hl⟩ := hl
        rw [Option.bind_eq_some_iff] at hl
        obtain ⟨⟨h5, b, d⟩, ha, hl⟩ := hl
        have hS := store_then_add (setSlot_local (.de s) (some (v / 2).toNat)) rfl ho h3 (c := (v / 2).toNat) (h2 := h5)
        cases b with
        | false =>
          simp only at hl
          rw [Option.bind_eq_some_iff] at hl
          obtain ⟨h6, h7, hl⟩ := hl
          simp only [Option.some.injEq, Prod.mk.injEq] at hl
          obtain ⟨rfl, hv⟩ := hl
          have h00 : oc.etype = 0 := by
            by_contra h'
            rw [if_neg h'] at hv; cases hv
          obtain ⟨occ, _, h8 | h8 | h8⟩ := addRef_cases ha
          · exact absurd h8.1 (by decide)
          · exact absurd h8.1 (by decide)
          · obtain ⟨_, _, rfl⟩ := h8
            have S1 := step_edit (setSlot_local _ _) h3 rfl ho
            have S2 := step_edit (setSlot_local (.de s) none) h7 rfl S1.now
            have ht : tgt es v = none := by
              unfold tgt; rw [if_pos]; rw [← h00, hct]; rfl
            have hobj : (o.setSlot (.de s) (some (v / 2).toNat)).setSlot (.de s) none
                = { o with de := o.de.set s (tgt es v) } := by
              rw [ht]
              simp only [Obj.setSlot, List.set_set]
            rw [hobj] at S2
            refine ⟨S1.trans S2, fun B => ?_, hn, ?_⟩
            · obtain ⟨_, r1⟩ := edit_core (setSlot_local _ _) h3 ho
              obtain ⟨_, r2⟩ := edit_core (setSlot_local _ _) h7 S1.now
              refine bal_same B ho S2.now (by rw [r2, r1]) ?_
              intro x
              rw [ht, set_none_self hs]
            · rw [ht]; intro c hc; cases hc
        | true =>
          cases d with
          | true =>
            simp only at hl
            rw [Option.bind_eq_some_iff] at hl
            obtain ⟨h6, h7, hl⟩ := hl
            simp at hl
          | false =>
            simp only at hl
            split at hl
            · rename_i hg
              simp only [Option.some.injEq, Prod.mk.injEq, and_true] at hl
              subst hl
              obtain ⟨S, B⟩ := hS ha
              have hoc0 : oc.etype ≠ 0 := by
                obtain ⟨occ, hocc, h8 | h8 | h8⟩ := addRef_cases ha
                · have := h8.2.2.2.2.2.2
                  obtain ⟨k1, _⟩ := edit_core (setSlot_local _ _) h3 ho
                  rw [k1, Function.update_of_ne hce, get_core h1] at hocc
                  cases hocc
                  exact this
                · exact absurd h8.2.1 (by decide)
                · exact absurd h8.1 (by decide)
              have ht : tgt es v = some (pos v) := by
                unfold tgt; rw [if_neg]; rw [hct] at hoc0; exact hoc0
              rw [ht]
              refine ⟨S, B (count_children_de hs), hn, ?_⟩
              intro c hc
              cases hc
              rw [← show oc.etype = typeAt es (pos v) from hct]
              exact goodTarget_attr h0 hoc0 hg
            · rw [Option.bind_eq_some_iff] at hl
              obtain ⟨h6, h7, hl⟩ := hl
              simp at hl
  · simp at hl

theorem linkDEs_false {n e : Nat} : ∀ {l : List (Nat × Int)} {h h' : Heap} {ok st : Bool},
    linkDEs n e l false h = some (h', ok, st) → ok = false
  | [], h, h', ok, st, hl => by
    simp only [linkDEs, Option.some.injEq, Prod.mk.injEq] at hl
    exact hl.2.1.symm
  | (s, v) :: l, h, h', ok, st, hl => by
    unfold linkDEs at hl
    simp only [Option.bind_eq_bind, Option.bind_eq_some_iff] at hl
    obtain ⟨⟨h1, vd⟩, _, hl⟩ := hl
    cases vd with
    | fine => exact linkDEs_false hl
    | bad => exact linkDEs_false hl
    | stop =>
      simp only [Option.some.injEq, Prod.mk.injEq] at hl
      exact hl.2.1.symm

/-- All directory entry pointers after success. -/
def setAll (es : List REnt) (l : List (Nat × Int)) (d : List (Option Nat)) : List (Option Nat) :=
  l.foldl (fun d q => d.set q.1 (tgt es q.2)) d

theorem linkDEs_ok {es : List REnt} {e : Nat} : ∀ {l : List (Nat × Int)} {h h' : Heap} {o : Obj} {st : Bool},
    Ctx es h → core h e = some o → (l.map Prod.fst).Nodup → (∀ q ∈ l, q.1 ≠ 0 ∧ o.de[q.1]? = some none) →
    linkDEs es.length e l true h = some (h', true, st) →
    Step e h h' o { o with de := setAll es l o.de } ∧ (Bal e h → Bal e h') ∧ Ctx es h' ∧ st = false
      ∧ ∀ q ∈ l, pos q.2 < es.length
  | [], h, h', o, st, C, ho, _, _, hl => by
    simp only [linkDEs, Option.some.injEq, Prod.mk.injEq, true_and] at hl
    obtain ⟨rfl, rfl⟩ := hl
    exact ⟨Step.refl ho, id, C, rfl, by simp⟩
  | (s, v) :: l, h, h', o, st, C, ho, hn, hq, hl => by
    unfold linkDEs at hl
    simp only [Option.bind_eq_bind, Option.bind_eq_some_iff] at hl
    obtain ⟨⟨h1, vd⟩, h2, hl⟩ := hl
    cases vd with
    | bad => exact absurd (linkDEs_false hl) (by decide)
    | stop => simp at hl
    | fine =>
      have hs := hq (s, v) (by simp)
      obtain ⟨S, B, hlt, hA⟩ := linkDE_fine C ho hs.2 hs.1 h2
      have hn' := List.nodup_cons.mp hn
      have C1 : Ctx es h1 := by
        refine C.step S rfl ?_ (C.exT e o ho)
        intro c hc
        simp only at hc
        rcases List.mem_or_eq_of_mem_set hc with h3 | h3
        · exact C.deT e o ho c h3
        · exact hA c h3.symm
      obtain ⟨S2, B2, C2, hst, hlt2⟩ := linkDEs_ok C1 S.now hn'.2 (by
        intro q hq'
        have h4 := hq q (by simp [hq'])
        refine ⟨h4.1, ?_⟩
        have : s ≠ q.1 := fun h5 => hn'.1 (List.mem_map.mpr ⟨q, hq', h5.symm⟩)
        simp only
        rw [List.getElem?_set_ne this]
        exact h4.2) hl
      refine ⟨S.trans S2, fun b => B2 (B b), C2, hst, ?_⟩
      intro q hq'
      rcases List.mem_cons.mp hq' with rfl | hq'
      · exact hlt
      · exact hlt2 q hq'

/-! ### Optional pointers -/

theorem count_extras {o : Obj} {c : Nat} (x : Nat) :
    ({ o with extras := o.extras ++ [c] } : Obj).children.count x = o.children.count x + if x = c then 1 else 0 := by
  unfold Obj.children
  simp only [List.count_append, List.count_singleton]
  by_cases hx : x = c
  · simp [hx]; omega
  · have : ¬ (c == x) = true := by simpa using fun h' => hx h'.symm
    simp [hx, this]

theorem extras_local (c : Nat) : Local fun o => { o with extras := o.extras ++ [c] } := fun _ _ => rfl

theorem linkExtra_ok {es : List REnt} {h h' : Heap} {e : Nat} {v : Int} {o : Obj} (C : Ctx es h)
    (h402 : ∀ r ∈ es, r.body.etype ≠ 402)
    (ho : core h e = some o) (hl : linkExtra h es.length e v = some (h', true)) :
    Step e h h' o { o with extras := o.extras ++ [pos v] } ∧ (Bal e h → Bal e h') ∧ Ctx es h' ∧ pos v < es.length := by
  unfold linkExtra at hl
  split at hl
  · rename_i hn
    simp only [Option.bind_eq_bind, Option.bind_eq_some_iff] at hl
    obtain ⟨oc, h1, hl⟩ := hl
    have hct := C.ty (get_core h1)
    have hC : ∀ S : Step e h h' o { o with extras := o.extras ++ [pos v] }, extraType oc.etype → Ctx es h' := by
      intro S ht
      refine C.step S rfl (C.deT e o ho) ?_
      intro c hc
      rcases List.mem_append.mp hc with hc | hc
      · exact C.exT e o ho c hc
      · rw [List.mem_singleton] at hc
        subst hc
        rw [show typeAt es (pos v) = oc.etype from hct.symm]
        exact ht
    split at hl
    · rename_i ht
      rw [Option.bind_eq_some_iff] at hl
      obtain ⟨⟨h2, b, d⟩, ha, hl⟩ := hl
      cases b with
      | false => simp at hl
      | true =>
        cases d with
        | true => simp at hl
        | false =>
          simp only [Option.bind_eq_some_iff] at hl
          obtain ⟨h3, h4, hl⟩ := hl
          simp only [Option.some.injEq, Prod.mk.injEq, and_true] at hl
          subst hl
          obtain ⟨S, B⟩ := add_then_store (extras_local _) rfl ho ha h4
          refine ⟨S, B count_extras, hC S ?_, hn.2⟩
          unfold extraType; tauto
    · split at hl
      · rename_i h5
        exfalso
        obtain ⟨r, a, b, _⟩ := C.static _ _ (get_core h1)
        have := h402 r (List.mem_of_getElem? a)
        simp only at b
        rw [objOf_etype, h5] at b
        omega
      · simp at hl
  · simp at hl

theorem linkExtras_false {n e : Nat} : ∀ {l : List Int} {h h' : Heap} {ok : Bool},
    linkExtras n e l false h = some (h', ok) → ok = false
  | [], h, h', ok, hl => by
    simp only [linkExtras, Option.some.injEq, Prod.mk.injEq] at hl
    exact hl.2.symm
  | v :: l, h, h', ok, hl => by
    unfold linkExtras at hl
    simp only [Option.bind_eq_bind, Option.bind_eq_some_iff, Bool.false_and] at hl
    obtain ⟨⟨h1, b⟩, _, hl⟩ := hl
    exact linkExtras_false hl

theorem linkExtras_ok {es : List REnt} {e : Nat} (h402 : ∀ r ∈ es, r.body.etype ≠ 402) :
    ∀ {l : List Int} {h h' : Heap} {o : Obj},
    Ctx es h → core h e = some o → linkExtras es.length e l true h = some (h', true) →
    Step e h h' o { o with extras := o.extras ++ l.map pos } ∧ (Bal e h → Bal e h') ∧ Ctx es h'
      ∧ ∀ v ∈ l, pos v < es.length
  | [], h, h', o, C, ho, hl => by
    simp only [linkExtras, Option.some.injEq, Prod.mk.injEq, and_true] at hl
    subst hl
    exact ⟨by simpa using Step.refl ho, id, C, by simp⟩
  | v :: l, h, h', o, C, ho, hl => by
    unfold linkExtras at hl
    simp only [Option.bind_eq_bind, Option.bind_eq_some_iff, Bool.true_and] at hl
    obtain ⟨⟨h1, b⟩, h2, hl⟩ := hl
    cases b with
    | false => exact absurd (linkExtras_false hl) (by decide)
    | true =>
      obtain ⟨S, B, C1, hlt⟩ := linkExtra_ok C h402 ho h2
      obtain ⟨S2, B2, C2, hlt2⟩ := linkExtras_ok h402 C1 S.now hl
      refine ⟨?_, fun b => B2 (B b), C2, ?_⟩
      · have := S.trans S2
        simpa using this
      · intro w hw
        rcases List.mem_cons.mp hw with rfl | hw
        · exact hlt
        · exact hlt2 w hw

end Iges.Props.L
