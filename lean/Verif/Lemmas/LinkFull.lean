import Verif.Lemmas.LinkClass
/-
Linking of one entity that succeeds gives it exactly the pointers its record asks for.
-/
namespace Iges.Props.L

open Iges.Graph Iges.Spec Iges.Link
open Iges.File (REnt Body)

theorem no402 (r : REnt) : r.body.etype ≠ 402 := by
  cases r.body <;> (intro h; cases h)

theorem dePtr_eq (es : List REnt) (v : Int) : dePtr es v = if 0 < v then tgt es v else none := by
  unfold dePtr tgt
  by_cases h : 0 < v
  · by_cases h2 : typeAt es (pos v) = 0 <;> simp [h, h2]
  · simp [h]

theorem setAll_eq (es : List REnt) (d : DE) :
    setAll es (dePointers d) (List.replicate 7 none) = (deNumbers d).map fun q => dePtr es q.2 := by
  unfold dePointers deNumbers
  simp only [List.map_cons, List.map_nil, dePtr_eq]
  generalize d.structure_ = a0
  generalize -d.lineFontPattern = a1
  generalize -d.level = a2
  generalize d.view = a3
  generalize d.transform = a4
  generalize d.labelAssoc = a5
  generalize -d.colorNum = a6
  have key : ∀ (s : Nat) (v : Int) (l : List (Nat × Int)) (dd : List (Option Nat)), dd[s]? = some none →
      setAll es (((s, v) :: l).filter fun q => 0 < q.2) dd
        = setAll es (l.filter fun q => 0 < q.2) (dd.set s (if 0 < v then tgt es v else none)) := by
    intro s v l dd hd
    by_cases h : 0 < v
    · simp [h, setAll]
    · simp [h, set_none_self hd]
  rw [key, key, key, key, key, key, key]
  all_goals rfl

theorem dePointers_nodup (d : DE) : ((dePointers d).map Prod.fst).Nodup := by
  have h1 : ((dePointers d).map Prod.fst).Sublist ((deNumbers d).map Prod.fst) :=
    List.Sublist.map _ List.filter_sublist
  exact h1.nodup (by unfold deNumbers; simp)

theorem dePointers_slot {d : DE} (hs : d.structure_ ≤ 0) {q : Nat × Int} (hq : q ∈ dePointers d) :
    q.1 ≠ 0 ∧ (List.replicate 7 (none : Option Nat))[q.1]? = some none := by
  unfold dePointers deNumbers at hq
  simp only [List.mem_filter, List.mem_cons, List.not_mem_nil, or_false, decide_eq_true_eq] at hq
  obtain ⟨h1, h2⟩ := hq
  rcases h1 with rfl | rfl | rfl | rfl | rfl | rfl | rfl
  · simp only at h2; omega
  all_goals exact ⟨by simp, rfl⟩

/-- An entity after the base class has linked it. -/
def baseObj (es : List REnt) (r : REnt) : Obj :=
  { objOf r with
    de := (deNumbers r.de).map fun q => dePtr es q.2
    extras := r.extras.map pos }

theorem objOf_empty (r : REnt) : (objOf r).de = List.replicate 7 none ∧ (objOf r).extras = [] := by
  obtain ⟨d, b, x, c⟩ := r
  cases b <;> exact ⟨rfl, rfl⟩

theorem linkBase_ok {es : List REnt} {h h' : Heap} {e : Nat} {r : REnt} {done done' : List Nat} (C : Ctx es h)
    (hs : r.de.structure_ ≤ 0) (ho : core h e = some (objOf r)) (hd : e ∉ done)
    (hl : linkBase es.length e r h done = some (h', done', true)) :
    BStep es e h h' (objOf r) (baseObj es r) ∧ done' = e :: done := by
  unfold linkBase at hl
  rw [if_neg hd] at hl
  simp only [Option.bind_eq_bind, Option.bind_eq_some_iff] at hl
  obtain ⟨⟨h1, ok, st⟩, h2, hl⟩ := hl
  cases st with
  | true => simp at hl
  | false =>
    simp only [Option.bind_eq_some_iff] at hl
    obtain ⟨⟨h3, ok2⟩, h4, hl⟩ := hl
    simp only [Option.some.injEq, Prod.mk.injEq] at hl
    obtain ⟨rfl, hdone, rfl⟩ := hl
    have hok : ok = true := by
      cases ok
      · exact absurd (linkExtras_false h4) (by decide)
      · rfl
    subst hok
    obtain ⟨e1, e2⟩ := objOf_empty r
    obtain ⟨S1, B1, C1, _, _⟩ := linkDEs_ok C ho (dePointers_nodup r.de) (by
      intro q hq
      rw [e1]
      exact dePointers_slot hs hq) h2
    obtain ⟨S2, B2, C2, _⟩ := linkExtras_ok (fun r _ => no402 r) C1 S1.now h4
    rw [e1, setAll_eq] at S1
    have hobj : ({ ({ objOf r with de := setAll es (dePointers r.de) (objOf r).de } : Obj) with
        extras := (objOf r).extras ++ r.extras.map pos } : Obj) = baseObj es r := by
      rw [e1, setAll_eq, e2]
      rfl
    rw [show ({ objOf r with de := (deNumbers r.de).map fun q => dePtr es q.2 } : Obj)
      = { objOf r with de := setAll es (dePointers r.de) (objOf r).de } by rw [e1, setAll_eq]] at S1
    have SS := S1.trans S2
    rw [hobj] at SS
    exact ⟨⟨SS, fun b => B2 (B1 b), C2⟩, by simpa using hdone.symm⟩

/-- What the class part does. -/
def Goal (es : List REnt) (e : Nat) (r : REnt) (h h' : Heap) : Prop :=
  Step e h h' (baseObj es r) (wanted es r []) ∧ (ListedOnce r → Bal e h → Bal e h') ∧ Ctx es h' ∧ Typed es r

theorem andThen_some {a : Option (Heap × Bool)} {f : Heap → Option (Heap × Bool)} {h' : Heap}
    (h : andThen a f = some (h', true)) : ∃ h1, a = some (h1, true) ∧ f h1 = some (h', true) := by
  unfold andThen at h
  simp only [Option.bind_eq_bind, Option.bind_eq_some_iff] at h
  obtain ⟨⟨h1, b⟩, h2, h⟩ := h
  cases b with
  | false => simp at h
  | true => exact ⟨h1, h2, h⟩

theorem map_pair {a : Option Heap} {h' : Heap} (h : a.map (fun x => (x, true)) = some (h', true)) : a = some h' := by
  rw [Option.map_eq_some_iff] at h
  obtain ⟨x, h1, h2⟩ := h
  simp only [Prod.mk.injEq, and_true] at h2
  rw [h1, h2]

/-- The types of what an entity points at before the class part. -/
theorem Ctx.soft {es h} (C : Ctx es h) {e : Nat} {o : Obj} (ho : core h e = some o)
    (h1 : o.own.filterMap id = []) (h2 : o.kids = []) (h3 : o.edges = []) (h4 : o.verts = []) (h5 : o.loops = [])
    (h6 : o.redges = []) {x : Nat} (hx : x ∈ o.children) : attrType (typeAt es x) ∨ extraType (typeAt es x) := by
  unfold Obj.children at hx
  rw [h1, h2, h3, h4, h5, h6] at hx
  simp only [List.map_nil, List.flatMap_nil, List.append_nil, List.mem_append, List.mem_filterMap, id] at hx
  rcases hx with ⟨a, ha, rfl⟩ | hx
  · exact Or.inl (C.deT e o ho x ha)
  · exact Or.inr (C.exT e o ho x hx)

theorem curve_type {o : Obj} (h : isCurveObj o = true) :
    o.etype = 100 ∨ o.etype = 102 ∨ o.etype = 104 ∨ o.etype = 110 ∨ o.etype = 126 := by
  unfold isCurveObj at h
  simpa using h

/-- A curve is not refused to a surface of revolution. -/
theorem curve_accepts {es : List REnt} {h h1 h2 : Heap} {e c : Nat} {o o' oc : Obj} {dd : Bool} (C : Ctx es h)
    (ho : core h e = some o) (ht : o.etype = 120) (ho' : o'.etype = 120)
    (hc : core h c = some oc) (hg : isCurveObj oc = true)
    (h3 : core h1 = Function.update (core h) e (some o')) : addRef h1 c e ≠ some (h2, false, dd) := by
  intro ha
  obtain ⟨oc', op, k1, k2, k3⟩ := addRef_refused ha
  have ht2 := curve_type hg
  have hce : c ≠ e := by
    rintro rfl
    rw [hc, Option.some.injEq] at ho
    rw [ho] at ht2
    omega
  rw [h3, Function.update_of_ne hce, hc, Option.some.injEq] at k1
  subst k1
  rw [h3, Function.update_self, Option.some.injEq] at k2
  subst k2
  rcases k3 with k | k | k | k | k | k | k | k
  · omega
  · omega
  · omega
  · omega
  · omega
  · omega
  · omega
  · have := C.deT c _ hc e k
    rw [← C.ty ho, ht] at this
    unfold attrType at this
    omega

theorem curve_leads {es : List REnt} {v : Int} (F : Found es isCurveObj v) : Leads es (102 :: simpleCurves) v :=
  F.leads fun o h => by
    have := curve_type h
    simp only [simpleCurves, List.mem_cons, List.not_mem_nil, or_false]
    omega

section Classes

variable {es : List REnt} {G : Geo} {e : Nat} {h h' : Heap}

/-- Classes whose part changes nothing. -/
theorem class_idle {r : REnt} (C : Ctx es h) (ho : core h e = some (baseObj es r))
    (hw : wanted es r [] = baseObj es r) (ht : Typed es r) : Goal es e r h h :=
  ⟨by rw [hw]; exact Step.refl ho, fun _ => id, C, ht⟩

/-- Classes whose part only gives pointers back. -/
theorem class_drop {r : REnt} {l : List Nat} (C : Ctx es h) (B : Bal e h) (ho : core h e = some (baseObj es r))
    (hw : wanted es r [] = { baseObj es r with de := l.foldl (fun d i => d.set i none) (baseObj es r).de })
    (hl : (dropDEs h e l).map (fun x => (x, true)) = some (h', true)) (ht : Typed es r) : Goal es e r h h' := by
  obtain ⟨S, B', C'⟩ := dropDEs_ok C B ho (map_pair hl)
  exact ⟨by rw [hw]; exact S, fun _ _ => B', C', ht⟩

theorem class_revolution {d : DE} {k : Revolution} {xs : List Int} {cs : List Str} (C : Ctx es h)
    (ho : core h e = some (baseObj es ⟨d, .revolution k, xs, cs⟩))
    (hl : linkClass G es.length e (.revolution k) h = some (h', true)) :
    Goal es e ⟨d, .revolution k, xs, cs⟩ h h' := by
  rw [linkClass] at hl
  obtain ⟨h1, hl1, hl2⟩ := andThen_some hl
  have hx : ¬ extraType 120 := by unfold extraType; omega
  have s1 : Step e h h1 (baseObj es ⟨d, .revolution k, xs, cs⟩)
      { baseObj es ⟨d, .revolution k, xs, cs⟩ with own := [ptr k.L, none] } ∧ (Bal e h → Bal e h1) ∧ Ctx es h1 := by
    split at hl1
    · rename_i h0
      simp only [Option.some.injEq, Prod.mk.injEq, and_true] at hl1
      subst hl1
      refine ⟨?_, id, C⟩
      rw [show ptr k.L = none by simp [ptr, h0]]
      exact Step.refl ho
    · rename_i h0
      obtain ⟨a, b, c, _⟩ := linkOwnAt_ok isFind_range C ho hx rfl (by
        intro _ oc hc hg g1 g2 dd hg1
        simp only [Bool.and_eq_true] at hg
        exact curve_accepts C ho rfl rfl hc hg.1 hg1) hl1
      refine ⟨?_, b (by intro h; cases h), c⟩
      rw [show ptr k.L = some (pos k.L) by simp [ptr, h0]]
      exact a
  have s2 : Step e h1 h' { baseObj es ⟨d, .revolution k, xs, cs⟩ with own := [ptr k.L, none] }
      { baseObj es ⟨d, .revolution k, xs, cs⟩ with own := [ptr k.L, ptr k.C] } ∧ (Bal e h1 → Bal e h')
      ∧ Ctx es h' := by
    split at hl2
    · rename_i h0
      simp only [Option.some.injEq, Prod.mk.injEq, and_true] at hl2
      subst hl2
      refine ⟨?_, id, s1.2.2⟩
      rw [show ptr k.C = none by simp [ptr, h0]]
      exact Step.refl s1.1.now
    · rename_i h0
      obtain ⟨a, b, c, _⟩ := linkOwnAt_ok isFind_range s1.2.2 s1.1.now hx rfl (by
        intro _ oc hc hg g1 g2 dd hg1
        exact curve_accepts s1.2.2 s1.1.now rfl rfl hc hg hg1) hl2
      refine ⟨?_, b (by intro h; cases h), c⟩
      rw [show ptr k.C = some (pos k.C) by simp [ptr, h0]]
      exact a
  refine ⟨s1.1.trans s2.1, fun _ b => s2.2.1 (s1.2.1 b), s2.2.2, fun h0 => ?_, fun h0 => ?_⟩
  · rw [if_neg h0] at hl1
    exact (linkOwnAt_at isFind_range C hl1).leads fun o ho => by simp at ho; simp [ho.2]
  · rw [if_neg h0] at hl2
    exact curve_leads (linkOwnAt_at isFind_range s1.2.2 hl2)

theorem ptr_ne {v : Int} (h : v ≠ 0) : ptr v = some (pos v) := by simp [ptr, h]
theorem ptr_zero {v : Int} (h : v = 0) : ptr v = none := by simp [ptr, h]

theorem class_tabCyl {d : DE} {k : TabCyl} {xs : List Int} {cs : List Str} (C : Ctx es h) (B : Bal e h)
    (ho : core h e = some (baseObj es ⟨d, .tabCyl k, xs, cs⟩))
    (hl : linkClass G es.length e (.tabCyl k) h = some (h', true)) :
    Goal es e ⟨d, .tabCyl k, xs, cs⟩ h h' := by
  rw [linkClass] at hl
  obtain ⟨h1, hl1, hl2⟩ := andThen_some hl
  obtain ⟨S, B1, C1⟩ := dropDEs_ok C B ho (map_pair hl1)
  split at hl2
  · rename_i h0
    simp only [Option.some.injEq, Prod.mk.injEq, and_true] at hl2
    subst hl2
    refine ⟨?_, fun _ _ => B1, C1, fun h => absurd h0 h⟩
    have : wanted es ⟨d, .tabCyl k, xs, cs⟩ [] = { baseObj es ⟨d, .tabCyl k, xs, cs⟩ with
        de := [0].foldl (fun d i => d.set i none) (baseObj es ⟨d, .tabCyl k, xs, cs⟩).de } := by
      unfold wanted wantOwn
      simp only [ptr_zero h0]
      rfl
    rw [this]
    exact S
  · rename_i h0
    have hx : ¬ extraType 122 := by unfold extraType; omega
    obtain ⟨a, b, c, oc, hoc, hg⟩ := linkOwnAt_ok isFind_odd C1 S.now hx rfl (by intro h; cases h) hl2
    have hS := S.trans a
    refine ⟨?_, fun _ _ => b ?_ B1, c, fun _ => curve_leads (linkOwnAt_at isFind_odd C1 hl2)⟩
    · have : wanted es ⟨d, .tabCyl k, xs, cs⟩ [] = { baseObj es ⟨d, .tabCyl k, xs, cs⟩ with
          de := [0].foldl (fun d i => d.set i none) (baseObj es ⟨d, .tabCyl k, xs, cs⟩).de
          own := (baseObj es ⟨d, .tabCyl k, xs, cs⟩).own.set 0 (some (pos k.DE)) } := by
        unfold wanted wantOwn
        simp only [ptr_ne h0]
        rfl
      rw [this]
      exact hS
    · intro _ hm
      have ht := C1.ty (get_core hoc)
      have := C1.soft S.now rfl rfl rfl rfl rfl rfl hm
      have hcv := curve_type hg
      simp only at ht
      rw [← ht] at this
      unfold attrType extraType at this
      omega

theorem class_onSurface {d : DE} {k : SurfCurve} {xs : List Int} {cs : List Str} (C : Ctx es h)
    (ho : core h e = some (baseObj es ⟨d, .onSurface k, xs, cs⟩))
    (hl : linkClass G es.length e (.onSurface k) h = some (h', true)) :
    Goal es e ⟨d, .onSurface k, xs, cs⟩ h h' := by
  rw [linkClass] at hl
  split at hl
  · simp at hl
  · rename_i h0
    have hx : ¬ extraType 142 := by unfold extraType; omega
    obtain ⟨h1, hl1, hl⟩ := andThen_some hl
    obtain ⟨h2, hl2, hl3⟩ := andThen_some hl
    obtain ⟨S1, B1, C1, _⟩ := linkOwnAt_ok isFind_range C ho hx rfl (by intro h; cases h) hl1
    have s2 : Step e h1 h2 { baseObj es ⟨d, .onSurface k, xs, cs⟩ with own := [some (pos k.SPTR), none, none] }
        { baseObj es ⟨d, .onSurface k, xs, cs⟩ with own := [some (pos k.SPTR), ptr k.BPTR, none] }
        ∧ (Bal e h1 → Bal e h2) ∧ Ctx es h2 := by
      split at hl2
      · rename_i hb
        simp only [Option.some.injEq, Prod.mk.injEq, and_true] at hl2
        subst hl2
        refine ⟨?_, id, C1⟩
        rw [ptr_zero hb]
        exact Step.refl S1.now
      · rename_i hb
        obtain ⟨a, b, c, _⟩ := linkOwnAt_ok isFind_range C1 S1.now hx rfl (by intro h; cases h) hl2
        refine ⟨?_, b (by intro h; cases h), c⟩
        rw [ptr_ne hb]
        exact a
    have s3 : Step e h2 h' { baseObj es ⟨d, .onSurface k, xs, cs⟩ with own := [some (pos k.SPTR), ptr k.BPTR, none] }
        { baseObj es ⟨d, .onSurface k, xs, cs⟩ with own := [some (pos k.SPTR), ptr k.BPTR, ptr k.CPTR] }
        ∧ (Bal e h2 → Bal e h') ∧ Ctx es h' := by
      split at hl3
      · rename_i hb
        simp only [Option.some.injEq, Prod.mk.injEq, and_true] at hl3
        subst hl3
        refine ⟨?_, id, s2.2.2⟩
        rw [ptr_zero hb]
        exact Step.refl s2.1.now
      · rename_i hb
        obtain ⟨a, b, c, _⟩ := linkOwnAt_ok isFind_range s2.2.2 s2.1.now hx rfl (by intro h; cases h) hl3
        refine ⟨?_, b (by intro h; cases h), c⟩
        rw [ptr_ne hb]
        exact a
    refine ⟨?_, fun _ b => s3.2.1 (s2.2.1 (B1 (by intro h; cases h) b)), s3.2.2,
      (linkOwnAt_at isFind_range C hl1).inFile, fun h5 => ?_, fun h5 => ?_⟩
    rotate_left
    · rw [if_neg h5] at hl2
      exact (linkOwnAt_at isFind_range C1 hl2).inFile
    · rw [if_neg h5] at hl3
      exact (linkOwnAt_at isFind_range s2.2.2 hl3).inFile
    have hS := (S1.trans s2.1).trans s3.1
    have : wanted es ⟨d, .onSurface k, xs, cs⟩ [] = { baseObj es ⟨d, .onSurface k, xs, cs⟩ with
        own := [some (pos k.SPTR), ptr k.BPTR, ptr k.CPTR] } := by
      unfold wanted wantOwn
      simp only [ptr_ne h0]
      rfl
    rw [this]
    exact hS

theorem class_trimmed {d : DE} {k : Trimmed} {xs : List Int} {cs : List Str} (C : Ctx es h)
    (ho : core h e = some (baseObj es ⟨d, .trimmed k, xs, cs⟩))
    (hl : linkClass G es.length e (.trimmed k) h = some (h', true)) :
    Goal es e ⟨d, .trimmed k, xs, cs⟩ h h' := by
  rw [linkClass] at hl
  split at hl
  · simp at hl
  · rename_i h0
    have hx : ¬ extraType 144 := by unfold extraType; omega
    obtain ⟨h1, hl1, hl⟩ := andThen_some hl
    split at hl
    · simp at hl
    · rename_i h2
      obtain ⟨h3, hl2, hl3⟩ := andThen_some hl
      obtain ⟨S1, B1, C1, _⟩ := linkOwnAt_ok isFind_range C ho hx rfl (by intro h; cases h) hl1
      obtain ⟨S2, B2, C2, _⟩ := linkOwnAt_ok isFind_range C1 S1.now hx rfl (by intro h; cases h) hl2
      obtain ⟨S3, B3, C3⟩ := linkKids_ok isFind_odd C2 S2.now hx hl3
      refine ⟨?_, fun _ b => B3 (by intro h; cases h) (B2 (by intro h; cases h) (B1 (by intro h; cases h) b)), C3,
        (linkOwnAt_at isFind_range C hl1).leads fun o ho => ?_, (linkOwnAt_at isFind_range C1 hl2).leads fun o ho => ?_,
        fun v hv => (linkKids_good isFind_odd C2 S2.now hx hl3 v hv).leads fun o ho => ?_⟩
      rotate_left
      · simpa [surface144] using ho
      · simpa using ho
      · simpa using ho
      have hS := (S1.trans S2).trans S3
      have : wanted es ⟨d, .trimmed k, xs, cs⟩ [] = { baseObj es ⟨d, .trimmed k, xs, cs⟩ with
          own := [some (pos k.PTS), some (pos k.PTO)], kids := k.PTI.map pos } := by
        unfold wanted wantOwn
        simp only [ptr_ne h0, ptr_ne h2]
        rfl
      rw [this]
      exact hS

theorem addStep {h1 : Heap} {o : Obj} {c : Nat} (ho : core h e = some o)
    (ha : addRef h c e = some (h1, true, false)) : Step e h h1 o o := by
  obtain ⟨oc, hoc, h5 | h5 | h5⟩ := addRef_cases ha
  · exact step_add ho h5.2.2.1 hoc h5.2.2.2.2.2.2 h5.2.2.2.2.1 h5.2.2.2.1
  · exact absurd h5.2.1 (by decide)
  · exact absurd h5.1 (by decide)

theorem class_extrusion {d : DE} {k : Extrusion} {xs : List Int} {cs : List Str} (C : Ctx es h) (B : Bal e h)
    (ho : core h e = some (baseObj es ⟨d, .extrusion k, xs, cs⟩))
    (hl : linkClass G es.length e (.extrusion k) h = some (h', true)) :
    Goal es e ⟨d, .extrusion k, xs, cs⟩ h h' := by
  rw [linkClass] at hl
  obtain ⟨h1, hl1, hl2⟩ := andThen_some hl
  obtain ⟨S, B1, C1⟩ := dropDEs_ok C B ho (map_pair hl1)
  split at hl2
  · simp at hl2
  · rename_i h0
    simp only [Option.bind_eq_bind, Option.bind_eq_some_iff] at hl2
    obtain ⟨q, hq, hl2⟩ := hl2
    cases q with
    | none => simp at hl2
    | some c =>
      have hnn := findRange_nonneg hq
      obtain ⟨rfl, _⟩ := findRange_some hq
      simp only [Option.bind_eq_some_iff] at hl2
      obtain ⟨⟨h3, b, dd⟩, ha, hl2⟩ := hl2
      cases b with
      | false => simp at hl2
      | true =>
        cases dd with
        | true => simp at hl2
        | false =>
          simp only [Option.bind_eq_some_iff] at hl2
          obtain ⟨oc, hoc, hl2⟩ := hl2
          split at hl2
          · rename_i hcv
            simp only [Option.bind_eq_some_iff, Option.some.injEq, Prod.mk.injEq] at hl2
            obtain ⟨h4, he, rfl, hcl⟩ := hl2
            obtain ⟨S2, B2⟩ := add_then_store (setSlot_local (.own 0) (some (pos k.PTR))) rfl S.now ha he
            have hS := S.trans S2
            refine ⟨?_, fun _ _ => B2 (count_children_own rfl) B1, C1.step' S2 rfl rfl rfl,
              curve_leads ((C1.step' (addStep S.now ha) rfl rfl rfl).found hnn hoc hcv)⟩
            have : wanted es ⟨d, .extrusion k, xs, cs⟩ [] = { baseObj es ⟨d, .extrusion k, xs, cs⟩ with
                de := [0].foldl (fun d i => d.set i none) (baseObj es ⟨d, .extrusion k, xs, cs⟩).de
                own := (baseObj es ⟨d, .extrusion k, xs, cs⟩).own.set 0 (some (pos k.PTR)) } := by
              unfold wanted wantOwn
              simp only [ptr_ne (show k.PTR ≠ 0 by omega)]
              rfl
            rw [this]
            exact hS
          · simp at hl2

theorem class_tree {d : DE} {k : List BNode} {xs : List Int} {cs : List Str} (C : Ctx es h) (B : Bal e h)
    (ho : core h e = some (baseObj es ⟨d, .tree k, xs, cs⟩))
    (hl : linkClass G es.length e (.tree k) h = some (h', true)) :
    Goal es e ⟨d, .tree k, xs, cs⟩ h h' := by
  rw [linkClass] at hl
  obtain ⟨h1, hl1, hl2⟩ := andThen_some hl
  obtain ⟨S, B1, C1⟩ := dropDEs_ok C B ho (map_pair hl1)
  obtain ⟨S2, B2, C2⟩ := linkArgs_ok C1 S.now hl2
  refine ⟨?_, fun _ _ => B2 B1, C2, fun v hv => (linkArgs_at C1 S.now hl2 v ?_).leads fun o ho => ?_⟩
  rotate_left
  · rw [List.mem_filterMap]
    exact ⟨_, hv, rfl⟩
  · simpa [operand180] using ho
  have hS := S.trans S2
  have hk : (k.filterMap fun | .op _ => none | .arg d => some d).map pos
      = k.filterMap fun
        | .op _ => none
        | .arg d => some (pos d) := by
    rw [List.map_filterMap]
    congr 1
    funext q
    cases q <;> rfl
  have : wanted es ⟨d, .tree k, xs, cs⟩ [] = { baseObj es ⟨d, .tree k, xs, cs⟩ with
      de := [0].foldl (fun d i => d.set i none) (baseObj es ⟨d, .tree k, xs, cs⟩).de
      kids := [] ++ (k.filterMap fun | .op _ => none | .arg d => some d).map pos } := by
    rw [hk]
    rfl
  rw [this]
  exact hS

theorem class_solid {d : DE} {k : Solid} {xs : List Int} {cs : List Str} (C : Ctx es h)
    (ho : core h e = some (baseObj es ⟨d, .solid k, xs, cs⟩))
    (hl : linkClass G es.length e (.solid k) h = some (h', true)) :
    Goal es e ⟨d, .solid k, xs, cs⟩ h h' := by
  rw [linkClass] at hl
  split at hl
  · simp at hl
  · rename_i h0
    obtain ⟨h1, hl1, hl2⟩ := andThen_some hl
    have hx : ¬ extraType 186 := by unfold extraType; omega
    obtain ⟨S1, B1, C1, oc, hoc, hg⟩ := linkOwnAt_ok isFind_range C ho hx rfl (by intro h; cases h) hl1
    obtain ⟨S2, B2, C2⟩ := linkKids_ok isFind_above C1 S1.now hx hl2
    have hgk := linkKids_good isFind_above C1 S1.now hx hl2
    have soft : ∀ x, typeAt es x = 514 → x ∉ (baseObj es ⟨d, .solid k, xs, cs⟩).children := by
      intro x ht hm
      have := C.soft ho rfl rfl rfl rfl rfl rfl hm
      rw [ht] at this
      unfold attrType extraType at this
      omega
    have ht : typeAt es (pos k.shell) = 514 := by
      have := C.ty (get_core hoc)
      rw [← this]
      simp only [Bool.and_eq_true, beq_iff_eq] at hg
      exact hg.1
    have hform : ∀ v, Found es (fun o => o.etype == 514 && o.form == 1) v → Leads es [514] v ∧ formAt es (pos v) = 1 := by
      intro v F
      refine ⟨F.leads fun o ho => ?_, ?_⟩
      · simp at ho
        simp [ho.1]
      · obtain ⟨_, oc, _, f2, f3⟩ := F
        simp at f3
        rw [← f2, f3.2]
    refine ⟨?_, fun hL b => B2 ?_ (B1 (fun _ => soft _ ht) b), C2, ?_⟩
    rotate_left 2
    · intro v hv
      rcases List.mem_cons.mp hv with rfl | hv
      · exact hform _ (linkOwnAt_at isFind_range C hl1)
      · exact hform _ (hgk v hv)
    · have hS := S1.trans S2
      have hk : (k.voids.map Prod.fst).map pos = k.voids.map fun v => pos v.1 := by
        rw [List.map_map]; rfl
      have : wanted es ⟨d, .solid k, xs, cs⟩ [] = { baseObj es ⟨d, .solid k, xs, cs⟩ with
          own := (baseObj es ⟨d, .solid k, xs, cs⟩).own.set 0 (some (pos k.shell))
          kids := [] ++ (k.voids.map Prod.fst).map pos } := by
        unfold wanted wantOwn
        rw [hk]
        simp only [ptr_ne (show k.shell ≠ 0 by omega)]
        rfl
      rw [this]
      exact hS
    · intro _
      have hL' : (pos k.shell :: k.voids.map fun v => pos v.1).Nodup := hL
      have hk : (k.voids.map Prod.fst).map pos = k.voids.map fun v => pos v.1 := by
        rw [List.map_map]; rfl
      rw [List.nodup_cons] at hL'
      refine ⟨by rw [hk]; exact hL'.2, ?_⟩
      intro v hv hm
      have htv : typeAt es (pos v) = 514 := by
        obtain ⟨_, oc, h5, _, h6⟩ := hgk v hv
        rw [← h5]
        simp only [Bool.and_eq_true, beq_iff_eq] at h6
        exact h6.1
      have hne : pos v ≠ pos k.shell := by
        intro h7
        refine hL'.1 ?_
        rw [← hk, ← h7]
        exact List.mem_map_of_mem hv
      have hcount := count_children_own (o := baseObj es ⟨d, .solid k, xs, cs⟩) (i := 0) (c := pos k.shell) rfl (pos v)
      rw [if_neg hne, Nat.add_zero] at hcount
      have h8 := List.count_pos_iff.mpr hm
      have h9 : List.count (pos v) ((baseObj es ⟨d, .solid k, xs, cs⟩).setSlot (.own 0) (some (pos k.shell))).children
          > 0 := h8
      rw [hcount] at h9
      exact soft _ htv (List.count_pos_iff.mp h9)

theorem class_subfigure {d : DE} {k : Subfigure} {xs : List Int} {cs : List Str} (C : Ctx es h)
    (ho : core h e = some (baseObj es ⟨d, .subfigure k, xs, cs⟩))
    (hl : linkClass G es.length e (.subfigure k) h = some (h', true)) :
    Goal es e ⟨d, .subfigure k, xs, cs⟩ h h' := by
  rw [linkClass] at hl
  have hx : ¬ extraType 308 := by unfold extraType; omega
  obtain ⟨S, B, C'⟩ := linkKids_ok isFind_odd C ho hx hl
  exact ⟨S, fun _ b => B (by intro h; cases h) b, C', fun v hv => (linkKids_good isFind_odd C ho hx hl v hv).inFile⟩

theorem class_inst {d : DE} {k : SubInstance} {xs : List Int} {cs : List Str} (C : Ctx es h) (B : Bal e h)
    (ho : core h e = some (baseObj es ⟨d, .inst k, xs, cs⟩))
    (hl : linkClass G es.length e (.inst k) h = some (h', true)) :
    Goal es e ⟨d, .inst k, xs, cs⟩ h h' := by
  rw [linkClass] at hl
  obtain ⟨h1, hl1, hl2⟩ := andThen_some hl
  obtain ⟨S, B1, C1⟩ := dropDEs_ok C B ho (map_pair hl1)
  split at hl2
  · rename_i h0
    simp only [Option.some.injEq, Prod.mk.injEq, and_true] at hl2
    subst hl2
    refine ⟨?_, fun _ _ => B1, C1, fun h => absurd h0 h⟩
    have : wanted es ⟨d, .inst k, xs, cs⟩ [] = { baseObj es ⟨d, .inst k, xs, cs⟩ with
        de := [0].foldl (fun d i => d.set i none) (baseObj es ⟨d, .inst k, xs, cs⟩).de } := by
      unfold wanted wantOwn
      simp only [ptr_zero h0]
      rfl
    rw [this]
    exact S
  · rename_i h0
    have hx : ¬ extraType 408 := by unfold extraType; omega
    obtain ⟨a, b, c, _⟩ := linkOwnAt_ok isFind_odd C1 S.now hx rfl (by intro h; cases h) hl2
    have hS := S.trans a
    refine ⟨?_, fun _ _ => b (by intro h; cases h) B1, c,
      fun _ => (linkOwnAt_at isFind_odd C1 hl2).leads fun o ho => by simpa using ho⟩
    have : wanted es ⟨d, .inst k, xs, cs⟩ [] = { baseObj es ⟨d, .inst k, xs, cs⟩ with
        de := [0].foldl (fun d i => d.set i none) (baseObj es ⟨d, .inst k, xs, cs⟩).de
        own := (baseObj es ⟨d, .inst k, xs, cs⟩).own.set 0 (some (pos k.DE)) } := by
      unfold wanted wantOwn
      simp only [ptr_ne h0]
      rfl
    rw [this]
    exact hS

theorem class_edges {d : DE} {k : List Iges.Edge} {xs : List Int} {cs : List Str} (C : Ctx es h)
    (ho : core h e = some (baseObj es ⟨d, .edges k, xs, cs⟩))
    (hl : linkClass G es.length e (.edges k) h = some (h', true)) :
    Goal es e ⟨d, .edges k, xs, cs⟩ h h' := by
  rw [linkClass] at hl
  obtain ⟨S, B, C'⟩ := linkEdges_ok (L := []) C ho rfl hl
  exact ⟨S, fun _ => B, C', linkEdges_at C ho hl⟩

theorem class_loop {d : DE} {k : List LoopEdge} {xs : List Int} {cs : List Str} (C : Ctx es h)
    (ho : core h e = some (baseObj es ⟨d, .loop k, xs, cs⟩))
    (hl : linkClass G es.length e (.loop k) h = some (h', true)) :
    Goal es e ⟨d, .loop k, xs, cs⟩ h h' := by
  rw [linkClass] at hl
  obtain ⟨S, B, C'⟩ := linkLoops_ok (L := []) C ho rfl hl
  exact ⟨S, fun _ => B, C', linkLoops_at hl⟩

theorem class_face {d : DE} {k : Face} {xs : List Int} {cs : List Str} (C : Ctx es h)
    (ho : core h e = some (baseObj es ⟨d, .face k, xs, cs⟩))
    (hl : linkClass G es.length e (.face k) h = some (h', true)) :
    Goal es e ⟨d, .face k, xs, cs⟩ h h' := by
  rw [linkClass] at hl
  split at hl
  · simp at hl
  · rename_i h0
    obtain ⟨h1, hl1, hl2⟩ := andThen_some hl
    have hx : ¬ extraType 510 := by unfold extraType; omega
    obtain ⟨S1, B1, C1, oc, hoc, hg⟩ := linkOwnAt_ok isFind_range C ho hx rfl (by intro h; cases h) hl1
    obtain ⟨S2, B2, C2⟩ := linkKids_ok isFind_above C1 S1.now hx hl2
    have hgk := linkKids_good isFind_above C1 S1.now hx hl2
    have soft : ∀ x, ¬ attrType (typeAt es x) → ¬ extraType (typeAt es x) →
        x ∉ (baseObj es ⟨d, .face k, xs, cs⟩).children := by
      intro x ht ht' hm
      rcases C.soft ho rfl rfl rfl rfl rfl rfl hm with h' | h'
      · exact ht h'
      · exact ht' h'
    have ht : typeAt es (pos k.surf) ∈ [114, 118, 120, 122, 128, 140, 190, 192, 194, 196, 198] := by
      have := C.ty (get_core hoc)
      rw [← this]
      unfold surface510 at hg
      simp only [Bool.or_eq_true, Bool.and_eq_true, beq_iff_eq, decide_eq_true_eq, List.mem_cons, List.not_mem_nil,
        or_false] at hg ⊢
      omega
    refine ⟨?_, fun hL b => B2 ?_ (B1 (fun _ => soft _ ?_ ?_) b), C2, ?_⟩
    rotate_left 4
    · have F := linkOwnAt_at isFind_range C hl1
      exact ⟨⟨F.inFile.1, F.inFile.2, ht⟩, fun v hv => (hgk v hv).leads fun o ho => by simpa using ho⟩
    · have hS := S1.trans S2
      have : wanted es ⟨d, .face k, xs, cs⟩ [] = { baseObj es ⟨d, .face k, xs, cs⟩ with
          own := (baseObj es ⟨d, .face k, xs, cs⟩).own.set 0 (some (pos k.surf))
          kids := [] ++ k.loops.map pos } := by
        unfold wanted wantOwn
        simp only [ptr_ne (show k.surf ≠ 0 by omega)]
        rfl
      rw [this]
      exact hS
    · intro _
      refine ⟨hL, ?_⟩
      intro v hv hm
      have htv : typeAt es (pos v) = 508 := by
        obtain ⟨_, oc, h5, _, h6⟩ := hgk v hv
        rw [← h5]
        simpa using h6
      have hne : pos v ≠ pos k.surf := by
        intro h7
        rw [← h7, htv] at ht
        simp at ht
      have hcount := count_children_own (o := baseObj es ⟨d, .face k, xs, cs⟩) (i := 0) (c := pos k.surf) rfl (pos v)
      rw [if_neg hne, Nat.add_zero] at hcount
      have h9 : List.count (pos v) ((baseObj es ⟨d, .face k, xs, cs⟩).setSlot (.own 0) (some (pos k.surf))).children
          > 0 := List.count_pos_iff.mpr hm
      rw [hcount] at h9
      refine soft _ ?_ ?_ (List.count_pos_iff.mp h9)
      · rw [htv]; unfold attrType; omega
      · rw [htv]; unfold extraType; omega
    · unfold attrType
      intro h5
      rcases h5 with h5 | h5 | h5 | h5 | h5 | h5 <;> rw [h5] at ht <;> simp at ht
    · unfold extraType
      intro h5
      rcases h5 with h5 | h5 | h5 | h5 <;> rw [h5] at ht <;> simp at ht

theorem class_shell {d : DE} {k : List (Int × Bool)} {xs : List Int} {cs : List Str} (C : Ctx es h)
    (ho : core h e = some (baseObj es ⟨d, .shell k, xs, cs⟩))
    (hl : linkClass G es.length e (.shell k) h = some (h', true)) :
    Goal es e ⟨d, .shell k, xs, cs⟩ h h' := by
  rw [linkClass] at hl
  split at hl
  · simp at hl
  · have hx : ¬ extraType 514 := by unfold extraType; omega
    obtain ⟨S, B, C'⟩ := linkKids_ok isFind_above C ho hx hl
    have hgk := linkKids_good isFind_above C ho hx hl
    have hk : (k.map Prod.fst).map pos = k.map fun v => pos v.1 := by
      rw [List.map_map]; rfl
    refine ⟨?_, fun hL b => B ?_ b, C', fun v hv => (hgk v hv).leads fun o ho => by simpa using ho⟩
    · have : wanted es ⟨d, .shell k, xs, cs⟩ [] = { baseObj es ⟨d, .shell k, xs, cs⟩ with
          kids := [] ++ (k.map Prod.fst).map pos } := by
        rw [hk]
        rfl
      rw [this]
      exact S
    · intro _
      refine ⟨by rw [hk]; exact hL, ?_⟩
      intro v hv hm
      have htv : typeAt es (pos v) = 510 := by
        obtain ⟨_, oc, h5, _, h6⟩ := hgk v hv
        rw [← h5]
        simpa using h6
      have := C.soft ho rfl rfl rfl rfl rfl rfl hm
      rw [htv] at this
      unfold attrType extraType at this
      omega

/-- A composite curve is linked elsewhere. -/
def NotComposite (r : REnt) : Prop := ∀ k, r.body ≠ .composite k

theorem linkClass_ok {r : REnt} (hr : NotComposite r) (C : Ctx es h) (B : Bal e h)
    (ho : core h e = some (baseObj es r)) (hl : linkClass G es.length e r.body h = some (h', true)) :
    Goal es e r h h' := by
  obtain ⟨d, b, xs, cs⟩ := r
  have idle : linkClass G es.length e b h = some (h, true) → h' = h := by
    intro h1
    simp only at hl
    rw [hl] at h1
    simpa using h1
  cases b with
  | arc k => exact class_drop C B ho rfl hl trivial
  | composite k => exact absurd rfl (hr k)
  | conic k => exact class_drop C B ho rfl hl trivial
  | line k => exact class_drop C B ho rfl hl trivial
  | revolution k => exact class_revolution C ho hl
  | tabCyl k => exact class_tabCyl C B ho hl
  | tx k => exact class_drop C B ho rfl hl trivial
  | curve k => rw [idle rfl]; exact class_idle C ho rfl trivial
  | surf k => rw [idle rfl]; exact class_idle C ho rfl trivial
  | onSurface k => exact class_onSurface C ho hl
  | trimmed k => exact class_trimmed C ho hl
  | cylinder k => exact class_drop C B ho rfl hl trivial
  | extrusion k => exact class_extrusion C B ho hl
  | tree k => exact class_tree C B ho hl
  | solid k => exact class_solid C ho hl
  | subfigure k => exact class_subfigure C ho hl
  | colour k => exact class_drop C B ho rfl hl trivial
  | name k => exact class_drop C B ho rfl hl trivial
  | inst k => exact class_inst C B ho hl
  | vertices k => rw [idle rfl]; exact class_idle C ho rfl trivial
  | edges k => exact class_edges C ho hl
  | loop k => exact class_loop C ho hl
  | face k => exact class_face C ho hl
  | shell k => exact class_shell C ho hl
  | null k => rw [idle rfl]; exact class_idle C ho rfl trivial

end Classes

end Iges.Props.L
