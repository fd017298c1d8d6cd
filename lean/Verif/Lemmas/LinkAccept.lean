import Verif.Spec.Accept
/-
Linking succeeds for acceptable files.
-/
namespace Iges.Props.A

open Iges.Graph Iges.Link Iges.Spec
open Iges.File (REnt Body)

/-- Everything an entity of the file refers to. -/
def tg (es : List REnt) (i : Nat) : List Nat := (es[i]?.map (targets es)).getD []

/-- Everything an entity mentions. -/
def mentions (o : Obj) : List Nat := o.children ++ o.loops.map Prod.fst

def points (r : REnt) : Nat :=
  match r.body with
  | .vertices k => k.length
  | _ => 0

/-- What an entity mentions with a count. -/
def counted (o : Obj) : List Nat := o.verts.map Prod.fst ++ o.redges.map Prod.fst ++ o.loops.flatMap Prod.snd

/-- The entities of the file are there; `D i c` bounds who is registered as user `i` of `c`; what an entity mentions is
what its record refers to. -/
structure Ok (es : List REnt) (D : Nat → Nat → Prop) (h : Heap) : Prop where
  obj : ∀ i, (h i).map (fun o => (o.etype, o.form, o.npts)) = es[i]?.map (fun r => (r.body.etype.toNat, r.de.form, points r))
  use : ∀ i c o, h c = some o → i ∈ o.refs → D i c
  ch : ∀ c o, h c = some o → ∀ x ∈ mentions o, x ∈ tg es c
  slot : ∀ i o s c, h i = some o → o.slot (.de s) = some c → ∃ r, es[i]? = some r ∧ wantsSlot r.body s = true
  reg : ∀ i o, h i = some o → ∀ x ∈ counted o, D i x

/-- `e` may also be a user of the entities of `L`. -/
def more (D : Nat → Nat → Prop) (e : Nat) (L : List Nat) : Nat → Nat → Prop := fun i c => D i c ∨ (i = e ∧ c ∈ L)

variable {es : List REnt} {h : Heap} {D : Nat → Nat → Prop}

theorem Ok.mono (F : Ok es D h) {D' : Nat → Nat → Prop} (hD : ∀ i c, D i c → D' i c) : Ok es D' h :=
  ⟨F.obj, fun i c o h1 h2 => hD _ _ (F.use i c o h1 h2), F.ch, F.slot, fun i o h1 x h2 => hD _ _ (F.reg i o h1 x h2)⟩

theorem Ok.get (F : Ok es D h) {i : Nat} (hi : i < es.length) : ∃ o, h i = some o := by
  have := F.obj i
  rw [List.getElem?_eq_getElem hi] at this
  cases hh : h i with
  | none => rw [hh] at this; cases this
  | some o => exact ⟨o, rfl⟩

theorem Ok.etype (F : Ok es D h) {i : Nat} {o : Obj} (ho : h i = some o) : o.etype = typeAt es i := by
  have := F.obj i
  rw [ho] at this
  unfold typeAt
  cases hr : es[i]? with
  | none => rw [hr] at this; cases this
  | some r => rw [hr] at this; simpa using congrArg (Option.map Prod.fst) this

theorem Ok.form (F : Ok es D h) {i : Nat} {o : Obj} (ho : h i = some o) : o.form = formAt es i := by
  have := F.obj i
  rw [ho] at this
  unfold formAt
  cases hr : es[i]? with
  | none => rw [hr] at this; cases this
  | some r => rw [hr] at this; simpa using congrArg (Option.map (fun q => q.2.1)) this

theorem Ok.npts (F : Ok es D h) {i : Nat} {o : Obj} (ho : h i = some o) : o.npts = pointsAt es i := by
  have := F.obj i
  rw [ho] at this
  unfold pointsAt
  cases hr : es[i]? with
  | none => rw [hr] at this; cases this
  | some r =>
    rw [hr] at this
    have h2 := congrArg (Option.map (fun q => q.2.2)) this
    simp only [Option.map_some, Option.some.injEq] at h2
    rw [h2]
    obtain ⟨d, b, x, c⟩ := r
    cases b <;> rfl

theorem Ok.put (F : Ok es D h) {i : Nat} {o o' : Obj} (ho : h i = some o)
    (h1 : o'.etype = o.etype ∧ o'.form = o.form ∧ o'.npts = o.npts) (h2 : ∀ x ∈ o'.refs, D x i)
    (h3 : ∀ x ∈ mentions o', x ∈ tg es i)
    (h4 : ∀ s c, o'.slot (.de s) = some c → ∃ r, es[i]? = some r ∧ wantsSlot r.body s = true) (h5 : ∀ x ∈ counted o', D i x) :
    Ok es D (h.put i o') := by
  constructor
  · intro j
    by_cases hj : j = i
    · subst hj
      rw [← F.obj j, ho]
      simp [Heap.put, h1]
    · simp only [Heap.put, if_neg hj]
      exact F.obj j
  · intro x c p hp hx
    by_cases hj : c = i
    · subst hj
      simp only [Heap.put, if_true, Option.some.injEq] at hp
      subst hp
      exact h2 x hx
    · simp only [Heap.put, if_neg hj] at hp
      exact F.use _ _ _ hp hx
  · intro c p hp
    by_cases hj : c = i
    · subst hj
      simp only [Heap.put, if_true, Option.some.injEq] at hp
      subst hp
      exact h3
    · simp only [Heap.put, if_neg hj] at hp
      exact F.ch _ _ hp
  · intro j p s c hp hs
    by_cases hj : j = i
    · subst hj
      simp only [Heap.put, if_true, Option.some.injEq] at hp
      subst hp
      exact h4 s c hs
    · simp only [Heap.put, if_neg hj] at hp
      exact F.slot _ _ _ _ hp hs
  · intro c p hp
    by_cases hj : c = i
    · subst hj
      simp only [Heap.put, if_true, Option.some.injEq] at hp
      subst hp
      exact h5
    · simp only [Heap.put, if_neg hj] at hp
      exact F.reg _ _ hp

/-- A change of what an entity mentions, except in the directory entry. -/
theorem Ok.change (F : Ok es D h) {i : Nat} {o o' : Obj} (ho : h i = some o)
    (h1 : o'.etype = o.etype ∧ o'.form = o.form ∧ o'.npts = o.npts) (h2 : o'.refs = o.refs) (h4 : o'.de = o.de)
    (h3 : ∀ x ∈ mentions o', x ∈ tg es i) (h5 : ∀ x ∈ counted o', D i x) : Ok es D (h.put i o') := by
  refine F.put ho h1 (fun x hx => F.use x i o ho (h2 ▸ hx)) h3 ?_ h5
  intro s c hs
  refine F.slot i o s c ho ?_
  simpa [Obj.slot, h4] using hs

theorem Ok.edit (_F : Ok es D h) {e : Nat} {o : Obj} (ho : h e = some o) (f : Obj → Obj) :
    Link.edit h e f = some (h.put e (f o)) := by simp [Link.edit, ho]

/-- No two entities refer to each other. -/
def Apart (es : List REnt) : Prop := ∀ i j, j ∈ tg es i → i ∉ tg es j

/-- Registration succeeds. -/
theorem Ok.addRef (F : Ok es D h) (ap : Apart es) {c e : Nat} (hc : c < es.length) (he : e < es.length)
    (hce : c ∈ tg es e) (ht : typeAt es c ≠ 0) (h102 : typeAt es e = 102 → typeAt es c ≠ 102) :
    ∃ h' d, Graph.addRef h c e = some (h', true, d) ∧ Ok es (more D e [c]) h' ∧ (¬ D e c → d = false) ∧
      (∀ i o, h i = some o → ∃ o', h' i = some o' ∧ o' = { o with refs := o'.refs }) := by
  obtain ⟨o, ho⟩ := F.get hc
  obtain ⟨p, hp⟩ := F.get he
  have hne := ap e c hce
  have ec : c ≠ e := by
    rintro rfl
    exact hne hce
  have hm : e ∉ mentions o := fun hx => hne (F.ch c o ho e hx)
  simp only [mentions, Obj.children, List.mem_append, not_or] at hm
  obtain ⟨⟨⟨⟨⟨⟨⟨⟨m1, m2⟩, m3⟩, m4⟩, m5⟩, m6⟩, m7⟩, m8⟩, m9⟩ := hm
  have n1 : some e ∉ o.de := fun hx => m1 (List.mem_filterMap.mpr ⟨_, hx, rfl⟩)
  have n3 : some e ∉ o.own := fun hx => m3 (List.mem_filterMap.mpr ⟨_, hx, rfl⟩)
  unfold Graph.addRef
  rw [ho, hp]
  dsimp only
  have t1 := F.etype ho
  have t2 := F.etype hp
  rw [if_neg (by rw [t1]; exact ht), if_neg (by rw [t1, t2]; exact fun hh => h102 hh.2 hh.1), if_neg (fun hh => n3 hh.2),
    if_neg (fun hh => m4 hh.2), if_neg (fun hh => ec hh.2.symm), if_neg (fun hh => m5 hh.2),
    if_neg (fun hh => hh.2.elim m9 m7), if_neg n1]
  have self : ∀ i o, h i = some o → ∃ o', h i = some o' ∧ o' = { o with refs := o'.refs } := fun i o hi => ⟨o, hi, rfl⟩
  split
  · rename_i hr
    exact ⟨h, true, rfl, F.mono fun _ _ => .inl, fun hd => absurd (F.use _ _ _ ho hr) hd, self⟩
  refine ⟨_, false, rfl, ?_, fun _ => rfl, ?_⟩
  · refine (F.mono (D' := more D e [c]) fun _ _ => .inl).put ho ⟨rfl, rfl, rfl⟩ ?_ (fun x hx => F.ch c o ho x hx)
      (fun s x hx => F.slot c o s x ho hx) (fun x hx => .inl (F.reg c o ho x hx))
    intro x hx
    simp only [List.mem_append, List.mem_singleton] at hx
    rcases hx with hx | rfl
    · exact .inl (F.use _ _ _ ho hx)
    · exact .inr ⟨rfl, by simp⟩
  · intro i q hq
    by_cases hi : i = c
    · subst hi
      rw [ho] at hq
      cases hq
      exact ⟨{ o with refs := o.refs ++ [e] }, by simp [Heap.put], rfl⟩
    · exact ⟨q, by simp [Heap.put, hi, hq], rfl⟩

theorem mem_mentions {o : Obj} {x : Nat} : x ∈ mentions o ↔ some x ∈ o.de ∨ x ∈ o.extras ∨ some x ∈ o.own ∨ x ∈ o.kids ∨
    x ∈ o.edges.map Graph.Edge.curv ∨ x ∈ o.verts.map Prod.fst ∨ x ∈ o.loops.flatMap Prod.snd ∨ x ∈ o.redges.map Prod.fst ∨
    x ∈ o.loops.map Prod.fst := by
  simp only [mentions, Obj.children, List.mem_append, List.mem_filterMap, id, exists_eq_right, or_assoc]

theorem mem_set {l : List (Option Nat)} {i : Nat} {v : Option Nat} {x : Nat} (hx : some x ∈ l.set i v) : some x ∈ l ∨ v = some x := by
  rcases List.mem_or_eq_of_mem_set hx with h | h
  · exact .inl h
  · exact .inr h.symm

theorem setOwn_mentions {o : Obj} {i x : Nat} {v : Option Nat} (hx : x ∈ mentions (o.setSlot (.own i) v)) : x ∈ mentions o ∨ v = some x := by
  rw [mem_mentions] at hx ⊢
  simp only [Obj.setSlot] at hx
  rcases hx with h | h | h | h | h
  · exact .inl (.inl h)
  · exact .inl (.inr (.inl h))
  · rcases mem_set h with h | h
    · exact .inl (.inr (.inr (.inl h)))
    · exact .inr h
  · exact .inl (.inr (.inr (.inr (.inl h))))
  · exact .inl (.inr (.inr (.inr (.inr h))))

theorem setDE_mentions {o : Obj} {i x : Nat} {v : Option Nat} (hx : x ∈ mentions (o.setSlot (.de i) v)) : x ∈ mentions o ∨ v = some x := by
  rw [mem_mentions] at hx ⊢
  simp only [Obj.setSlot] at hx
  rcases hx with h | h
  · rcases mem_set h with h | h
    · exact .inl (.inl h)
    · exact .inr h
  · exact .inl (.inr h)

/-! ### The base class -/

theorem Ok.setDE (F : Ok es D h) {e : Nat} {o : Obj} (ho : h e = some o) (s : Nat) (v : Option Nat)
    (hv : ∀ c, v = some c → c ∈ tg es e ∧ ∃ r, es[e]? = some r ∧ wantsSlot r.body s = true) :
    Ok es D (h.put e (o.setSlot (.de s) v)) := by
  refine F.put ho ⟨rfl, rfl, rfl⟩ (fun x hx => F.use x e o ho hx) ?_ ?_ (F.reg e o ho)
  · intro x hx
    rcases setDE_mentions hx with h1 | h1
    · exact F.ch e o ho x h1
    · exact (hv x h1).1
  · intro s' c hs
    simp only [Obj.slot, Obj.setSlot, List.getElem?_set] at hs
    split at hs
    · rename_i hss
      subst hss
      split at hs
      · exact (hv c (by simpa using hs)).2
      · cases hs
    · exact F.slot e o s' c ho (by simpa [Obj.slot] using hs)

theorem Ok.dropDEs (F : Ok es D h) {e : Nat} (he : e < es.length) : ∀ (l : List Nat), (∀ s ∈ l, wantsSlot es[e].body s = false) →
    Link.dropDEs h e l = some h
  | [], _ => rfl
  | s :: l, hl => by
    obtain ⟨o, ho⟩ := F.get he
    have : o.slot (.de s) = none := by
      cases hs : o.slot (.de s) with
      | none => rfl
      | some c =>
        obtain ⟨r, hr, hw⟩ := F.slot e o s c ho hs
        rw [List.getElem?_eq_getElem he] at hr
        cases hr
        rw [hl s List.mem_cons_self] at hw
        cases hw
    unfold Link.dropDEs Graph.release
    rw [ho]
    dsimp only
    rw [this]
    exact Ok.dropDEs F he l fun s hs => hl s (List.mem_cons_of_mem _ hs)

/-- A pointer of the directory entry that is acceptable. -/
def GoodDE (es : List REnt) (e : Nat) (q : Nat × Int) : Prop :=
  (∃ r, es[e]? = some r ∧ wantsSlot r.body q.1 = true) ∧ pos q.2 < es.length ∧ pos q.2 ≠ e ∧ DeTarget es q.1 (pos q.2) ∧
    (typeAt es (pos q.2) ≠ 0 → pos q.2 ∈ tg es e)

theorem Ok.linkDE (F : Ok es D h) (ap : Apart es) {e : Nat} (he : e < es.length) {s : Nat} {v : Int} (hg : GoodDE es e (s, v))
    (hD : typeAt es (pos v) ≠ 0 → ¬ D e (pos v)) :
    ∃ h', linkDE h es.length e s v = some (h', .fine) ∧ Ok es (more D e (if typeAt es (pos v) = 0 then [] else [pos v])) h' := by
  obtain ⟨hw, hlt, hne, hdt, hmem⟩ := hg
  dsimp only at hlt hne hdt hmem hw
  obtain ⟨oc, hoc⟩ := F.get hlt
  obtain ⟨o, ho⟩ := F.get he
  have tc := F.etype hoc
  unfold Link.linkDE
  simp only [Link.get]
  rw [show (v / 2).toNat = pos v from rfl, if_pos hlt, hoc]
  simp only [Option.bind_eq_bind, Option.bind_some]
  unfold DeTarget at hdt
  rw [if_neg (by
    rintro ⟨h4, h5⟩
    rw [if_pos h4] at hdt
    exact h5 (tc.trans hdt)), if_neg hne, F.edit ho]
  simp only [Option.bind_some]
  by_cases h0 : typeAt es (pos v) = 0
  · have hoc1 : (h.put e (o.setSlot (.de s) (some (pos v)))) (pos v) = some oc := by
      simp [Heap.put, hne, hoc]
    have : Graph.addRef (h.put e (o.setSlot (.de s) (some (pos v)))) (pos v) e = some (h.put e (o.setSlot (.de s) (some (pos v))), false, false) := by
      unfold Graph.addRef
      rw [hoc1]
      simp [Heap.put, tc.trans h0]
    rw [this]
    simp only [Option.bind_some]
    have e2 : Link.edit (h.put e (o.setSlot (.de s) (some (pos v)))) e (·.setSlot (.de s) none) =
        some (h.put e (o.setSlot (.de s) none)) := by
      simp only [Link.edit, Heap.put, if_true, Option.map_some, Option.some.injEq]
      funext j
      by_cases hj : j = e
      · simp [Heap.put, hj, Obj.setSlot]
      · simp [Heap.put, hj]
    rw [e2]
    simp only [Option.bind_some, tc.trans h0, if_true, h0]
    exact ⟨_, rfl, (F.setDE ho s none (by simp)).mono fun _ _ => .inl⟩
  · have F1 := F.setDE ho s (some (pos v)) (by rintro c hc; cases hc; exact ⟨hmem h0, hw⟩)
    have h102 : typeAt es e = 102 → typeAt es (pos v) ≠ 102 := by
      intro _ hx
      rw [hx] at hdt
      split at hdt <;> simp at hdt
    obtain ⟨h2, d, h3, F2, h4, _⟩ := F1.addRef ap hlt he (hmem h0) h0 h102
    have := h4 (hD h0)
    subst this
    rw [h3]
    simp only [Option.bind_some]
    have hgood : goodTarget s oc = true := by
      unfold goodTarget
      have fc := F.form hoc
      split at hdt
      · rename_i hs
        subst hs
        simp [tc, hdt]
      · rcases hdt with h5 | ⟨rfl, h5, h6⟩ | ⟨rfl, h5⟩
        · exact absurd h5 h0
        · simp [tc, fc, h5, h6]
        · simp [tc, h5]
    rw [if_pos hgood, if_neg h0]
    exact ⟨_, rfl, F2⟩

/-- The entities of known type behind pointers of the directory entry. -/
def known (es : List REnt) (l : List (Nat × Int)) : List Nat := (l.map fun q => pos q.2).filter fun c => typeAt es c ≠ 0

theorem Ok.linkDEs (ap : Apart es) {e : Nat} (he : e < es.length) : ∀ (l : List (Nat × Int)) {h : Heap} {D : Nat → Nat → Prop}, Ok es D h →
    (∀ q ∈ l, GoodDE es e q) → (known es l).Nodup → (∀ c ∈ known es l, ¬ D e c) →
    ∃ h', linkDEs es.length e l true h = some (h', true, false) ∧ Ok es (more D e (known es l)) h'
  | [], h, D, F, _, _, _ => ⟨h, rfl, F.mono fun _ _ => .inl⟩
  | (s, v) :: l, h, D, F, hg, hn, hd => by
    have hk : known es ((s, v) :: l) = (if typeAt es (pos v) = 0 then [] else [pos v]) ++ known es l := by
      simp only [known, List.map_cons, List.filter_cons]
      by_cases h0 : typeAt es (pos v) = 0 <;> simp [h0]
    obtain ⟨h1, h2, F1⟩ := F.linkDE ap he (hg _ List.mem_cons_self) (fun h0 => hd _ (by rw [hk]; simp [h0]))
    unfold Link.linkDEs
    simp only [h2, Option.bind_eq_bind, Option.bind_some]
    rw [hk] at hn hd
    rw [List.nodup_append] at hn
    obtain ⟨h3, h4, F2⟩ := Ok.linkDEs ap he l F1 (fun q hq => hg q (List.mem_cons_of_mem _ hq)) hn.2.1 (by
      rintro c hc (hh | ⟨_, hh⟩)
      · exact hd c (by simp [hc]) hh
      · exact hn.2.2 c hh c hc rfl)
    refine ⟨h3, h4, F2.mono ?_⟩
    rintro i c ((hh | ⟨h5, h6⟩) | ⟨h5, h6⟩)
    · exact .inl hh
    · exact .inr ⟨h5, by rw [hk]; simp [h6]⟩
    · exact .inr ⟨h5, by rw [hk]; simp [h6]⟩

theorem Ok.setExtras (F : Ok es D h) {e c : Nat} {o : Obj} (ho : h e = some o) (hc : c ∈ tg es e) :
    Ok es D (h.put e { o with extras := o.extras ++ [c] }) := by
  refine F.change ho ⟨rfl, rfl, rfl⟩ rfl rfl ?_ (F.reg e o ho)
  intro x hx
  rw [mem_mentions] at hx
  have := F.ch e o ho x
  rw [mem_mentions] at this
  simp only [List.mem_append, List.mem_singleton] at hx
  by_cases hxc : x = c
  · exact hxc ▸ hc
  · exact this (by tauto)

theorem Ok.linkExtras (ap : Apart es) {e : Nat} (he : e < es.length) : ∀ (l : List Int) {h : Heap} {D : Nat → Nat → Prop}, Ok es D h →
    (∀ v ∈ l, Leads es [406] v ∧ pos v ∈ tg es e) → (l.map pos).Nodup → (∀ c ∈ l.map pos, ¬ D e c) →
    ∃ h', linkExtras es.length e l true h = some (h', true) ∧ Ok es (more D e (l.map pos)) h'
  | [], h, D, F, _, _, _ => ⟨h, rfl, F.mono fun _ _ => .inl⟩
  | v :: l, h, D, F, hg, hn, hd => by
    obtain ⟨⟨g1, g2, g3⟩, g4⟩ := hg v List.mem_cons_self
    simp only [List.mem_singleton] at g3
    obtain ⟨oc, hoc⟩ := F.get g2
    have tc := (F.etype hoc).trans g3
    obtain ⟨h1, d, h2, F1, h3, _⟩ := F.addRef ap g2 he g4 (by simp [g3]) (by simp [g3])
    have := h3 (hd _ (by simp))
    subst this
    obtain ⟨o, ho⟩ := F1.get he
    have step : linkExtra h es.length e v = some (h1.put e { o with extras := o.extras ++ [pos v] }, true) := by
      unfold Link.linkExtra
      rw [if_pos ⟨by omega, g2⟩]
      simp only [Link.get]
      rw [show (v / 2).toNat = pos v from rfl, hoc]
      simp only [Option.bind_eq_bind, Option.bind_some, tc, true_or, if_true, h2, F1.edit ho]
    unfold Link.linkExtras
    simp only [step, Option.bind_eq_bind, Option.bind_some, Bool.and_true]
    simp only [List.map_cons, List.nodup_cons] at hn
    obtain ⟨h5, h6, F2⟩ := Ok.linkExtras ap he l (F1.setExtras ho g4) (fun q hq => hg q (List.mem_cons_of_mem _ hq)) hn.2 (by
      rintro c hc (hh | ⟨_, hh⟩)
      · exact hd c (by simp only [List.map_cons, List.mem_cons]; exact .inr hc) hh
      · simp only [List.mem_singleton] at hh
        subst hh
        exact hn.1 hc)
    refine ⟨h5, h6, F2.mono ?_⟩
    rintro i c ((hh | ⟨h7, h8⟩) | ⟨h7, h8⟩)
    · exact .inl hh
    · simp only [List.mem_singleton] at h8
      exact .inr ⟨h7, by simp [h8]⟩
    · exact .inr ⟨h7, by simp only [List.map_cons, List.mem_cons]; exact .inr h8⟩

/-- What the base class refers to. -/
def base (es : List REnt) (r : REnt) : List Nat := (wantDE es r).filterMap id ++ r.extras.map pos

theorem wantDE_known {r : REnt} (hw : ∀ q ∈ deNumbers r.de, 0 < q.2 → wantsSlot r.body q.1 = true) :
    (wantDE es r).filterMap id = known es (dePointers r.de) := by
  unfold wantDE dePointers known
  generalize deNumbers r.de = l at hw ⊢
  induction l with
  | nil => rfl
  | cons q l ih =>
    have ih := ih fun q hq => hw q (List.mem_cons_of_mem _ hq)
    have hq := hw q List.mem_cons_self
    rw [List.map_cons, List.filterMap_cons]
    by_cases h0 : 0 < q.2
    · rw [List.filter_cons_of_pos (by simpa using h0), List.map_cons]
      by_cases h1 : typeAt es (pos q.2) = 0
      · rw [List.filter_cons_of_neg (by simp [h1]), ← ih]
        simp [hq h0, dePtr, h0, h1]
      · rw [List.filter_cons_of_pos (by simp [h1]), ← ih]
        simp [hq h0, dePtr, h0, h1]
    · rw [List.filter_cons_of_neg (by simpa using h0), ← ih]
      simp [dePtr, h0]

/-- The position of an entity whose base part is acceptable. -/
structure GoodBase (es : List REnt) (e : Nat) (r : REnt) : Prop where
  at_ : es[e]? = some r
  de : ∀ q ∈ deNumbers r.de, 0 < q.2 →
    wantsSlot r.body q.1 = true ∧ pos q.2 < es.length ∧ pos q.2 ≠ e ∧ DeTarget es q.1 (pos q.2)
  extras : ∀ v ∈ r.extras, Leads es [406] v
  once : (targets es r).Nodup

theorem tg_at {e : Nat} {r : REnt} (hr : es[e]? = some r) : tg es e = targets es r := by simp [tg, hr]

theorem base_sub {r : REnt} {x : Nat} (hx : x ∈ base es r) : x ∈ targets es r := by
  unfold targets
  unfold base at hx
  simp only [List.append_assoc]
  rw [← List.append_assoc]
  exact List.mem_append_left _ hx

theorem GoodBase.lt {e : Nat} {r : REnt} (g : GoodBase es e r) : e < es.length := (List.getElem?_eq_some_iff.mp g.at_).1

theorem Ok.linkBase (F : Ok es D h) (ap : Apart es) {e : Nat} {r : REnt} (g : GoodBase es e r) (done : List Nat) (hd : e ∉ done)
    (hD : ∀ c, ¬ D e c) :
    ∃ h', linkBase es.length e r h done = some (h', e :: done, true) ∧ Ok es (more D e (base es r)) h' := by
  have he := g.lt
  have hk := wantDE_known (es := es) fun q hq h0 => (g.de q hq h0).1
  have hb : (base es r).Nodup := by
    have := g.once
    unfold targets at this
    simp only [List.append_assoc] at this
    rw [← List.append_assoc] at this
    exact (List.nodup_append.mp this).1
  unfold base at hb ⊢
  rw [hk] at hb ⊢
  rw [List.nodup_append] at hb
  obtain ⟨h1, h2, F1⟩ := Ok.linkDEs ap he (dePointers r.de) F (by
    intro q hq
    simp only [dePointers, List.mem_filter, decide_eq_true_eq] at hq
    obtain ⟨g1, g2, g3, g4⟩ := g.de q hq.1 hq.2
    refine ⟨⟨r, g.at_, g1⟩, g2, g3, g4, fun h0 => ?_⟩
    rw [tg_at g.at_]
    apply base_sub
    unfold base
    rw [hk, List.mem_append]
    left
    simp only [known, List.mem_filter, List.mem_map]
    exact ⟨⟨q, by simp [dePointers, hq], rfl⟩, by simpa using h0⟩) hb.1 (fun c _ => hD c)
  obtain ⟨h3, h4, F2⟩ := Ok.linkExtras ap he r.extras F1 (fun v hv => ⟨g.extras v hv, by
    rw [tg_at g.at_]
    apply base_sub
    unfold base
    exact List.mem_append_right _ (List.mem_map_of_mem hv)⟩) hb.2.1 (by
    rintro c hc (hh | ⟨_, hh⟩)
    · exact hD c hh
    · exact hb.2.2 c hh c hc rfl)
  refine ⟨h3, ?_, F2.mono ?_⟩
  · unfold Link.linkBase
    rw [if_neg hd]
    simp only [h2, Option.bind_eq_bind, Option.bind_some, h4, if_true]
  · rintro i c ((hh | ⟨h5, h6⟩) | ⟨h5, h6⟩)
    · exact .inl hh
    · exact .inr ⟨h5, List.mem_append_left _ h6⟩
    · exact .inr ⟨h5, List.mem_append_right _ h6⟩

/-! ### Pieces of the classes -/

/-- Linking goes on, with `e` as user of the entities of `L`. -/
def Goes (es : List REnt) (D : Nat → Nat → Prop) (e : Nat) (L : List Nat) (x : Option (Heap × Bool)) : Prop :=
  ∃ h', x = some (h', true) ∧ Ok es (more D e L) h'

theorem Goes.here (F : Ok es D h) (e : Nat) (L : List Nat) : Goes es D e L (some (h, true)) := ⟨h, rfl, F.mono fun _ _ => .inl⟩

theorem Goes.mono {e : Nat} {L L' : List Nat} {x : Option (Heap × Bool)} (g : Goes es D e L x) (hL : ∀ c ∈ L, c ∈ L') : Goes es D e L' x := by
  obtain ⟨h', h1, F⟩ := g
  refine ⟨h', h1, F.mono ?_⟩
  rintro i c (hh | ⟨h5, h6⟩)
  · exact .inl hh
  · exact .inr ⟨h5, hL c h6⟩

theorem Goes.andThen {e : Nat} {L M : List Nat} {x : Option (Heap × Bool)} (g : Goes es D e L x) {f : Heap → Option (Heap × Bool)}
    (hf : ∀ h, Ok es (more D e L) h → Goes es (more D e L) e M (f h)) : Goes es D e (L ++ M) (Link.andThen x f) := by
  obtain ⟨h, rfl, F⟩ := g
  obtain ⟨h1, h2, F1⟩ := hf h F
  refine ⟨h1, by simpa [Link.andThen] using h2, F1.mono ?_⟩
  rintro i c ((hh | ⟨h5, h6⟩) | ⟨h5, h6⟩)
  · exact .inl hh
  · exact .inr ⟨h5, List.mem_append_left _ h6⟩
  · exact .inr ⟨h5, List.mem_append_right _ h6⟩

theorem finds_range {v : Int} (h0 : 0 ≤ v) (hv : pos v < es.length) : findRange es.length v = some (some (pos v)) := by
  unfold findRange
  rw [if_pos ⟨by omega, hv⟩]
  rfl

theorem finds_above {v : Int} (h0 : 0 ≤ v) (hv : pos v < es.length) : findAbove es.length v = some (some (pos v)) := by
  unfold findAbove
  rw [if_neg (by omega), finds_range h0 hv]

theorem finds_odd (hs : es.length ≤ 4999999) {v : Int} (h0 : 0 < v) (h1 : v % 2 = 1) (hv : pos v < es.length) :
    findOdd es.length v = some (some (pos v)) := by
  unfold findOdd
  have := hv
  unfold pos at this
  rw [if_neg (by omega), finds_range (by omega) hv]

theorem Ok.linkOwnAt (F : Ok es D h) (ap : Apart es) {e : Nat} (he : e < es.length) (h102 : typeAt es e ≠ 102) {find : Find} {v : Int}
    (hf : find v = some (some (pos v))) (hv : pos v < es.length) (ht : typeAt es (pos v) ≠ 0) (hm : pos v ∈ tg es e)
    (hD : ¬ D e (pos v)) {good : Obj → Bool} (hg : ∀ o, h (pos v) = some o → good o = true) (i : Nat) (b : Bool) (d : OnDup) :
    Goes es D e [pos v] (linkOwnAt find good h e i v b d) := by
  obtain ⟨oc, hoc⟩ := F.get hv
  obtain ⟨o, ho⟩ := F.get he
  unfold Link.linkOwnAt
  simp only [hf, Option.bind_eq_bind, Option.bind_some, Link.get, hoc, hg oc hoc, if_true]
  unfold Link.linkOwn
  simp only [F.edit ho, Option.bind_eq_bind, Option.bind_some]
  have F1 : Ok es D (h.put e (o.setSlot (.own i) (some (pos v)))) := by
    refine F.change ho ⟨rfl, rfl, rfl⟩ rfl rfl ?_ (F.reg e o ho)
    intro x hx
    rcases setOwn_mentions hx with h1 | h1
    · exact F.ch e o ho x h1
    · cases h1
      exact hm
  obtain ⟨h2, d', h3, F2, h4, _⟩ := F1.addRef ap hv he hm ht (fun h => absurd h h102)
  have := h4 hD
  subst this
  simp only [h3, Option.bind_some]
  exact ⟨_, rfl, F2⟩

theorem Ok.addKid (F : Ok es D h) {e c : Nat} {o : Obj} (ho : h e = some o) (hc : c ∈ tg es e) :
    Ok es D (h.put e { o with kids := o.kids ++ [c] }) := by
  refine F.change ho ⟨rfl, rfl, rfl⟩ rfl rfl ?_ (F.reg e o ho)
  intro x hx
  rw [mem_mentions] at hx
  have := F.ch e o ho x
  rw [mem_mentions] at this
  simp only [List.mem_append, List.mem_singleton] at hx
  by_cases hxc : x = c
  · exact hxc ▸ hc
  · exact this (by tauto)

theorem Ok.linkKids (ap : Apart es) {e : Nat} (he : e < es.length) (h102 : typeAt es e ≠ 102) {find : Find} {good : Obj → Bool} (b : Bool) :
    ∀ (l : List Int) {h : Heap} {D : Nat → Nat → Prop}, Ok es D h →
    (∀ v ∈ l, find v = some (some (pos v)) ∧ pos v < es.length ∧ typeAt es (pos v) ≠ 0 ∧ pos v ∈ tg es e ∧
      ∀ o : Obj, o.etype = typeAt es (pos v) → o.form = formAt es (pos v) → good o = true) →
    (l.map pos).Nodup → (∀ c ∈ l.map pos, ¬ D e c) → Goes es D e (l.map pos) (linkKids find good b e l h)
  | [], h, D, F, _, _, _ => Goes.here F _ _
  | v :: l, h, D, F, hl, hn, hd => by
    obtain ⟨g1, g2, g3, g4, g5⟩ := hl v List.mem_cons_self
    obtain ⟨oc, hoc⟩ := F.get g2
    obtain ⟨h2, d', h3, F2, h4, _⟩ := F.addRef ap g2 he g4 g3 (fun h => absurd h h102)
    have := h4 (hd _ (by simp))
    subst this
    obtain ⟨o, ho⟩ := F2.get he
    have step : linkKid h e (pos v) b = some (h2.put e { o with kids := o.kids ++ [pos v] }, true) := by
      unfold Link.linkKid
      simp only [h3, Option.bind_eq_bind, Option.bind_some, Bool.false_and, F2.edit ho]
      rfl
    unfold Link.linkKids
    simp only [g1, Option.bind_eq_bind, Option.bind_some, Link.get, hoc, g5 oc (F.etype hoc) (F.form hoc), if_true, step]
    simp only [List.map_cons, List.nodup_cons] at hn
    obtain ⟨h5, h6, F3⟩ := Ok.linkKids ap he h102 b l (F2.addKid ho g4) (fun v hv => hl v (List.mem_cons_of_mem _ hv)) hn.2 (by
      rintro c hc (hh | ⟨_, hh⟩)
      · exact hd c (by simp only [List.map_cons, List.mem_cons]; exact .inr hc) hh
      · simp only [List.mem_singleton] at hh
        subst hh
        exact hn.1 hc)
    refine ⟨h5, h6, F3.mono ?_⟩
    rintro i c ((hh | ⟨h7, h8⟩) | ⟨h7, h8⟩)
    · exact .inl hh
    · simp only [List.mem_singleton] at h8
      exact .inr ⟨h7, by simp [h8]⟩
    · exact .inr ⟨h7, by simp only [List.map_cons, List.mem_cons]; exact .inr h8⟩

theorem Ok.linkArgs (ap : Apart es) {e : Nat} (he : e < es.length) (h102 : typeAt es e ≠ 102) :
    ∀ (l : List Int) {h : Heap} {D : Nat → Nat → Prop}, Ok es D h →
    (∀ v ∈ l, 0 ≤ v ∧ pos v < es.length ∧ typeAt es (pos v) ≠ 0 ∧ pos v ∈ tg es e ∧ operand180 (typeAt es (pos v)) = true) →
    (l.map pos).Nodup → (∀ c ∈ l.map pos, ¬ D e c) → Goes es D e (l.map pos) (linkArgs es.length e l h)
  | [], h, D, F, _, _, _ => Goes.here F _ _
  | v :: l, h, D, F, hl, hn, hd => by
    obtain ⟨g1, g2, g3, g4, g5⟩ := hl v List.mem_cons_self
    obtain ⟨oc, hoc⟩ := F.get g2
    obtain ⟨o, ho⟩ := F.get he
    have F1 := F.addKid ho g4
    obtain ⟨h2, d', h3, F2, h4, _⟩ := F1.addRef ap g2 he g4 g3 (fun h => absurd h h102)
    have := h4 (hd _ (by simp))
    subst this
    unfold Link.linkArgs
    simp only [finds_range g1 g2, Option.bind_eq_bind, Option.bind_some, Link.get, hoc, F.etype hoc, g5, if_true, F.edit ho, h3]
    simp only [List.map_cons, List.nodup_cons] at hn
    obtain ⟨h5, h6, F3⟩ := Ok.linkArgs ap he h102 l F2 (fun v hv => hl v (List.mem_cons_of_mem _ hv)) hn.2 (by
      rintro c hc (hh | ⟨_, hh⟩)
      · exact hd c (by simp only [List.map_cons, List.mem_cons]; exact .inr hc) hh
      · simp only [List.mem_singleton] at hh
        subst hh
        exact hn.1 hc)
    refine ⟨h5, h6, F3.mono ?_⟩
    rintro i c ((hh | ⟨h7, h8⟩) | ⟨h7, h8⟩)
    · exact .inl hh
    · simp only [List.mem_singleton] at h8
      exact .inr ⟨h7, by simp [h8]⟩
    · exact .inr ⟨h7, by simp only [List.map_cons, List.mem_cons]; exact .inr h8⟩

/-! ### Edge lists -/

theorem Ok.addVertexList (F : Ok es D h) (ap : Apart es) {e v : Nat} (he : e < es.length) (hv : v < es.length) (ht : typeAt es v ≠ 0)
    (h102 : typeAt es e ≠ 102) (hm : v ∈ tg es e) {A : List Nat} (hA : v ∉ A) {o : Obj} (ho : h e = some o)
    (hD : ∀ c, D e c → c ∈ A ∨ c ∈ o.verts.map Prod.fst) :
    ∃ h' o', Graph.addVertexList h e (some v) = some (h', true) ∧ Ok es (more D e [v]) h' ∧ h' e = some o' ∧
      v ∈ o'.verts.map Prod.fst ∧ (∀ c ∈ o.verts.map Prod.fst, c ∈ o'.verts.map Prod.fst) ∧
      (∀ c ∈ o'.verts.map Prod.fst, c = v ∨ c ∈ o.verts.map Prod.fst) := by
  unfold Graph.addVertexList
  rw [ho]
  dsimp only
  split
  · rename_i hmem
    have hmap : (o.verts.map (fun q => if q.1 = v then (q.1, q.2 + 1) else q)).map Prod.fst = o.verts.map Prod.fst := by
      rw [List.map_map]
      congr 1
      funext q
      simp only [Function.comp]
      split <;> rfl
    refine ⟨_, { o with verts := o.verts.map (fun q => if q.1 = v then (q.1, q.2 + 1) else q) }, rfl, ?_, by simp [Heap.put], ?_, ?_, ?_⟩
    · refine (F.mono (D' := more D e [v]) fun _ _ => .inl).change ho ⟨rfl, rfl, rfl⟩ rfl rfl ?_ (by
        intro x hx
        refine .inl (F.reg e o ho x ?_)
        simp only [counted, hmap] at hx
        exact hx)
      intro x hx
      refine F.ch e o ho x ?_
      rw [mem_mentions] at hx ⊢
      rw [hmap] at hx
      exact hx
    · rw [hmap]
      exact hmem
    · intro c hc
      rw [hmap]
      exact hc
    · intro c hc
      rw [hmap] at hc
      exact .inr hc
  · rename_i hmem
    have hDv : ¬ D e v := fun hh => (hD v hh).elim hA hmem
    obtain ⟨h2, d', h3, F2, h4, h5⟩ := F.addRef ap hv he hm ht (fun h => absurd h h102)
    have := h4 hDv
    subst this
    rw [h3]
    obtain ⟨o1, ho1, hoo⟩ := h5 e o ho
    have hv1 : o1.verts = o.verts := by rw [hoo]
    simp only [and_self, if_true, ho1]
    refine ⟨_, { o1 with verts := o1.verts ++ [(v, 1)] }, rfl, ?_, by simp [Heap.put], by simp, ?_, ?_⟩
    · refine F2.change ho1 ⟨rfl, rfl, rfl⟩ rfl rfl ?_ (by
        intro x hx
        have := F2.reg e o1 ho1 x
        simp only [counted, List.map_append, List.mem_append, List.map_cons, List.map_nil, List.mem_singleton] at hx this
        by_cases hxv : x = v
        · exact .inr ⟨rfl, by simp [hxv]⟩
        · exact this (by tauto))
      intro x hx
      rw [mem_mentions] at hx
      have := F2.ch e o1 ho1 x
      rw [mem_mentions] at this
      simp only [List.map_append, List.mem_append, List.map_cons, List.map_nil, List.mem_singleton] at hx
      by_cases hxc : x = v
      · exact hxc ▸ hm
      · exact this (by tauto)
    · intro c hc
      simp only [List.map_append, List.mem_append, hv1]
      exact .inl hc
    · intro c hc
      simp only [List.map_append, List.mem_append, hv1, List.map_cons, List.map_nil, List.mem_singleton] at hc
      exact hc.symm

theorem edges_mentions {o : Obj} {q : Graph.Edge} {x : Nat} (hx : x ∈ mentions { o with edges := o.edges ++ [q] }) :
    x ∈ mentions o ∨ x = q.curv := by
  rw [mem_mentions] at hx ⊢
  simp only [List.map_append, List.mem_append, List.map_cons, List.map_nil, List.mem_singleton] at hx
  tauto

theorem Ok.AddEdge (F : Ok es D h) (ap : Apart es) {e c s t : Nat} (he : e < es.length) (h102 : typeAt es e ≠ 102)
    (hc : c < es.length) (hs : s < es.length) (ht : t < es.length) (mc : c ∈ tg es e) (ms : s ∈ tg es e) (mt : t ∈ tg es e)
    (tc : typeAt es c ∈ [100, 102, 104, 110, 126]) (ts : typeAt es s = 502) (tt : typeAt es t = 502) {sv tv : Int}
    (hsv : 1 ≤ sv ∧ sv ≤ pointsAt es s) (htv : 1 ≤ tv ∧ tv ≤ pointsAt es t) {A : List Nat} (hcA : c ∉ A)
    (hsA : s ∉ c :: A) (htA : t ∉ c :: A) {o : Obj} (ho : h e = some o) (hcv : c ∉ o.verts.map Prod.fst)
    (hD : ∀ x, D e x → x ∈ A ∨ x ∈ o.verts.map Prod.fst) :
    ∃ h' o', Graph.AddEdge h e (some c) (some s) sv (some t) tv = some (h', true) ∧ Ok es (more D e [c, s, t]) h' ∧ h' e = some o' ∧
      (∀ x, more D e [c, s, t] e x → x ∈ c :: A ∨ x ∈ o'.verts.map Prod.fst) ∧ (∀ x ∈ o'.verts.map Prod.fst, x ∈ s :: t :: o.verts.map Prod.fst) := by
  obtain ⟨oc, hoc⟩ := F.get hc
  have ec := F.etype hoc
  have tc0 : typeAt es c ≠ 0 := by
    intro h0
    simp [h0] at tc
  have hcurve : curve504 oc = true := by
    unfold curve504
    rw [ec]
    simp only [List.mem_cons, List.not_mem_nil, or_false] at tc
    rcases tc with h | h | h | h | h <;> simp [h]
  obtain ⟨h1, d, r1, F1, d1, k1⟩ := F.addRef ap hc he mc tc0 (fun h => absurd h h102)
  have := d1 (fun hh => (hD c hh).elim hcA hcv)
  subst this
  obtain ⟨o1, ho1, hoo⟩ := k1 e o ho
  have hv1 : o1.verts = o.verts := by rw [hoo]
  obtain ⟨h2, o2, r2, F2, ho2, in2, up2, down2⟩ := F1.addVertexList ap he hs (by simp [ts]) h102 ms (A := c :: A) hsA ho1 (by
    rintro x (hh | ⟨_, hh⟩)
    · rcases hD x hh with h | h
      · exact .inl (List.mem_cons_of_mem _ h)
      · exact .inr (hv1 ▸ h)
    · exact .inl (by simp only [List.mem_singleton] at hh; simp [hh]))
  obtain ⟨h3, o3, r3, F3, ho3, in3, up3, down3⟩ := F2.addVertexList ap he ht (by simp [tt]) h102 mt (A := c :: A) htA ho2 (by
    rintro x ((hh | ⟨_, hh⟩) | ⟨_, hh⟩)
    · rcases hD x hh with h | h
      · exact .inl (List.mem_cons_of_mem _ h)
      · exact .inr (up2 x (hv1 ▸ h))
    · exact .inl (by simp only [List.mem_singleton] at hh; simp [hh])
    · simp only [List.mem_singleton] at hh
      exact .inr (hh ▸ in2))
  obtain ⟨os, hos⟩ := F3.get hs
  obtain ⟨ot, hot⟩ := F3.get ht
  have ns := F3.npts hos
  have nt := F3.npts hot
  unfold Graph.AddEdge
  simp only [hoc, hcurve, r1, r2, r3, hos, hot, Bool.true_eq_false, Bool.false_eq_true, or_self, if_false]
  rw [if_neg (by omega), ho3]
  refine ⟨_, { o3 with edges := o3.edges ++ [⟨c, s, sv, t, tv⟩] }, rfl, ?_, by simp [Heap.put], ?_, ?_⟩
  · have hmono : ∀ i x, more (more (more D e [c]) e [s]) e [t] i x → more D e [c, s, t] i x := by
      rintro i x (((hh | ⟨h5, h6⟩) | ⟨h5, h6⟩) | ⟨h5, h6⟩)
      · exact .inl hh
      all_goals simp only [List.mem_singleton] at h6
      all_goals exact .inr ⟨h5, by simp [h6]⟩
    refine (F3.mono hmono).change ho3 ⟨rfl, rfl, rfl⟩ rfl rfl ?_ (fun x hx => hmono _ _ (F3.reg e o3 ho3 x hx))
    · intro x hx
      rcases edges_mentions hx with h | rfl
      · exact F3.ch e o3 ho3 x h
      · exact mc
  · rintro x (hh | ⟨_, hh⟩)
    · rcases hD x hh with h | h
      · exact .inl (List.mem_cons_of_mem _ h)
      · exact .inr (up3 x (up2 x (hv1 ▸ h)))
    · simp only [List.mem_cons, List.not_mem_nil, or_false] at hh
      rcases hh with rfl | rfl | rfl
      · exact .inl List.mem_cons_self
      · exact .inr (up3 _ in2)
      · exact .inr in3
  · intro x hx
    rcases down3 x hx with rfl | h
    · simp
    · rcases down2 x h with rfl | h
      · simp
      · rw [hv1] at h
        simp only [List.mem_cons]
        exact .inr (.inr h)

theorem Ok.linkEdges (ap : Apart es) {e : Nat} (he : e < es.length) (h102 : typeAt es e ≠ 102) {V : List Nat} :
    ∀ (l : List Iges.Edge) {h : Heap} {D : Nat → Nat → Prop} {A : List Nat} {o : Obj}, Ok es D h → h e = some o →
    (∀ q ∈ l, Leads es [502] q.svp ∧ Leads es [502] q.tvp ∧ Leads es [100, 102, 104, 110, 126] q.curv
      ∧ 1 ≤ q.sv ∧ q.sv ≤ pointsAt es (pos q.svp) ∧ 1 ≤ q.tv ∧ q.tv ≤ pointsAt es (pos q.tvp)) →
    (∀ q ∈ l, pos q.svp ∈ V ∧ pos q.tvp ∈ V ∧ pos q.curv ∈ tg es e) → (∀ x ∈ V, x ∈ tg es e) →
    (l.map fun q => pos q.curv).Nodup → (∀ q ∈ l, pos q.curv ∉ A ∧ pos q.curv ∉ V) → (∀ x ∈ A, x ∉ V) →
    (∀ x ∈ o.verts.map Prod.fst, x ∈ V ∨ x ∈ A) → (∀ x, D e x → x ∈ A ∨ x ∈ o.verts.map Prod.fst) →
    ∃ h', linkEdges es.length e l h = some (h', true) ∧ Ok es (more D e ((l.map fun q => pos q.curv) ++ V)) h'
  | [], h, D, A, o, F, ho, _, _, _, _, _, _, _, _ => ⟨h, rfl, F.mono fun _ _ => .inl⟩
  | q :: l, h, D, A, o, F, ho, hl, hm, hV, hn, hc, hA, hv, hD => by
    obtain ⟨⟨s0, s1, s2⟩, ⟨t0, t1, t2⟩, ⟨c0, c1, c2⟩, n1, n2, n3, n4⟩ := hl q List.mem_cons_self
    obtain ⟨ms, mt, mc⟩ := hm q List.mem_cons_self
    obtain ⟨qa, qv⟩ := hc q List.mem_cons_self
    simp only [List.mem_singleton] at s2 t2
    have hsA : pos q.svp ∉ pos q.curv :: A := by
      intro hh
      rcases List.mem_cons.mp hh with h | h
      · exact qv (h ▸ ms)
      · exact hA _ h ms
    have htA : pos q.tvp ∉ pos q.curv :: A := by
      intro hh
      rcases List.mem_cons.mp hh with h | h
      · exact qv (h ▸ mt)
      · exact hA _ h mt
    obtain ⟨h1, o1, r1, F1, ho1, D1, V1⟩ := F.AddEdge ap he h102 c1 s1 t1 mc (hV _ ms) (hV _ mt) c2 s2 t2 ⟨n1, n2⟩ ⟨n3, n4⟩ qa
      hsA htA ho (fun hh => (hv _ hh).elim qv qa) hD
    obtain ⟨os, hos⟩ := F.get s1
    obtain ⟨ot, hot⟩ := F.get t1
    simp only [List.map_cons, List.nodup_cons, List.mem_map, not_exists, not_and] at hn
    obtain ⟨h2, r2, F2⟩ := Ok.linkEdges ap he h102 l (A := pos q.curv :: A) F1 ho1 (fun q hq => hl q (List.mem_cons_of_mem _ hq))
      (fun q hq => hm q (List.mem_cons_of_mem _ hq)) hV hn.2 (by
        intro p hp
        obtain ⟨a, b⟩ := hc p (List.mem_cons_of_mem _ hp)
        refine ⟨?_, b⟩
        intro hh
        rcases List.mem_cons.mp hh with h | h
        · exact hn.1 p hp h
        · exact a h) (by
        intro x hx
        rcases List.mem_cons.mp hx with rfl | h
        · exact qv
        · exact hA x h) (by
        intro x hx
        have := V1 x hx
        simp only [List.mem_cons] at this
        rcases this with rfl | rfl | h
        · exact .inl ms
        · exact .inl mt
        · exact (hv x h).imp id (List.mem_cons_of_mem _)) D1
    refine ⟨h2, ?_, F2.mono ?_⟩
    · unfold Link.linkEdges
      simp only [finds_range c0 c1, finds_range s0 s1, finds_range t0 t1, Option.bind_eq_bind, Option.bind_some, Link.get, hos, hot,
        F.etype hos, F.etype hot, s2, t2, ne_eq, not_true_eq_false, or_self, if_false, r1]
      exact r2
    · rintro i x ((hh | ⟨h5, h6⟩) | ⟨h5, h6⟩)
      · exact .inl hh
      · simp only [List.mem_cons, List.not_mem_nil, or_false] at h6
        refine .inr ⟨h5, ?_⟩
        rcases h6 with rfl | rfl | rfl
        · simp
        · exact List.mem_append_right _ ms
        · exact List.mem_append_right _ mt
      · refine .inr ⟨h5, ?_⟩
        rcases List.mem_append.mp h6 with h | h
        · exact List.mem_append_left _ (List.mem_cons_of_mem _ h)
        · exact List.mem_append_right _ h

/-! ### Loops -/

theorem Ok.addLoopEdge (F : Ok es D h) (ap : Apart es) {e v : Nat} (he : e < es.length) (hv : v < es.length) (ht : typeAt es v ≠ 0)
    (h102 : typeAt es e ≠ 102) (hm : v ∈ tg es e) {A : List Nat} (hA : v ∉ A) {o : Obj} (ho : h e = some o)
    (hD : ∀ c, D e c → c ∈ A ∨ c ∈ o.redges.map Prod.fst) :
    ∃ h' o', Link.addLoopEdge h e v = some (h', true) ∧ Ok es (more D e [v]) h' ∧ h' e = some o' ∧ o'.loops = o.loops ∧
      v ∈ o'.redges.map Prod.fst ∧ (∀ c ∈ o.redges.map Prod.fst, c ∈ o'.redges.map Prod.fst) ∧
      (∀ c ∈ o'.redges.map Prod.fst, c = v ∨ c ∈ o.redges.map Prod.fst) := by
  unfold Link.addLoopEdge
  simp only [Link.get, ho, Option.bind_eq_bind, Option.bind_some]
  split
  · rename_i hmem
    have hmap : (o.redges.map (fun q => if q.1 = v then (q.1, q.2 + 1) else q)).map Prod.fst = o.redges.map Prod.fst := by
      rw [List.map_map]
      congr 1
      funext q
      simp only [Function.comp]
      split <;> rfl
    simp only [F.edit ho, Option.bind_some]
    refine ⟨_, { o with redges := o.redges.map (fun q => if q.1 = v then (q.1, q.2 + 1) else q) }, rfl, ?_, by simp [Heap.put], rfl, ?_, ?_, ?_⟩
    · refine (F.mono (D' := more D e [v]) fun _ _ => .inl).change ho ⟨rfl, rfl, rfl⟩ rfl rfl ?_ (by
        intro x hx
        refine .inl (F.reg e o ho x ?_)
        simp only [counted, hmap] at hx
        exact hx)
      intro x hx
      refine F.ch e o ho x ?_
      rw [mem_mentions] at hx ⊢
      rw [hmap] at hx
      exact hx
    · rw [hmap]
      exact hmem
    · intro c hc
      rw [hmap]
      exact hc
    · intro c hc
      rw [hmap] at hc
      exact .inr hc
  · rename_i hmem
    have hDv : ¬ D e v := fun hh => (hD v hh).elim hA hmem
    obtain ⟨h2, d', h3, F2, h4, h5⟩ := F.addRef ap hv he hm ht (fun h => absurd h h102)
    have := h4 hDv
    subst this
    obtain ⟨o1, ho1, hoo⟩ := h5 e o ho
    have hv1 : o1.redges = o.redges := by rw [hoo]
    simp only [h3, Option.bind_some, F2.edit ho1]
    refine ⟨_, { o1 with redges := o1.redges ++ [(v, 1)] }, rfl, ?_, by simp [Heap.put], by rw [hoo], by simp, ?_, ?_⟩
    · refine F2.change ho1 ⟨rfl, rfl, rfl⟩ rfl rfl ?_ (by
        intro x hx
        have := F2.reg e o1 ho1 x
        simp only [counted, List.map_append, List.mem_append, List.map_cons, List.map_nil, List.mem_singleton] at hx this
        by_cases hxv : x = v
        · exact .inr ⟨rfl, by simp [hxv]⟩
        · exact this (by tauto))
      intro x hx
      rw [mem_mentions] at hx
      have := F2.ch e o1 ho1 x
      rw [mem_mentions] at this
      simp only [List.map_append, List.mem_append, List.map_cons, List.map_nil, List.mem_singleton] at hx
      by_cases hxc : x = v
      · exact hxc ▸ hm
      · exact this (by tauto)
    · intro c hc
      simp only [List.map_append, List.mem_append, hv1]
      exact .inl hc
    · intro c hc
      simp only [List.map_append, List.mem_append, hv1, List.map_cons, List.map_nil, List.mem_singleton] at hc
      exact hc.symm

theorem Ok.addPCurves (ap : Apart es) {e : Nat} (he : e < es.length) (h102 : typeAt es e ≠ 102) : ∀ (l seen : List Nat) {h : Heap}
    {D : Nat → Nat → Prop} {o : Obj}, Ok es D h → h e = some o → (∀ c ∈ l, c < es.length ∧ typeAt es c ≠ 0 ∧ c ∈ tg es e) → l.Nodup →
    (∀ c ∈ l, ¬ D e c ∧ c ∉ o.loops.flatMap Prod.snd) →
    ∃ h' o', Link.addPCurves e seen l h = some (h', true) ∧ Ok es (more D e l) h' ∧ h' e = some o' ∧ o' = { o with refs := o'.refs }
  | [], seen, h, D, o, F, ho, _, _, _ => ⟨h, o, rfl, F.mono fun _ _ => .inl, ho, rfl⟩
  | c :: l, seen, h, D, o, F, ho, hl, hn, hd => by
    obtain ⟨l1, l2, l3⟩ := hl c List.mem_cons_self
    obtain ⟨d1, d2⟩ := hd c List.mem_cons_self
    obtain ⟨h2, d', h3, F2, h4, h5⟩ := F.addRef ap l1 he l3 l2 (fun h => absurd h h102)
    have := h4 d1
    subst this
    obtain ⟨o1, ho1, hoo⟩ := h5 e o ho
    rw [List.nodup_cons] at hn
    obtain ⟨h6, o2, h7, F3, ho2, hoo2⟩ := Ok.addPCurves ap he h102 l (c :: seen) F2 ho1 (fun x hx => hl x (List.mem_cons_of_mem _ hx)) hn.2 (by
      intro x hx
      obtain ⟨a, b⟩ := hd x (List.mem_cons_of_mem _ hx)
      refine ⟨?_, by rw [hoo]; exact b⟩
      rintro (hh | ⟨_, hh⟩)
      · exact a hh
      · simp only [List.mem_singleton] at hh
        exact hn.1 (hh ▸ hx))
    refine ⟨h6, o2, ?_, F3.mono ?_, ho2, ?_⟩
    · unfold Link.addPCurves
      simp only [Link.get, ho, Option.bind_eq_bind, Option.bind_some, d2, if_false, h3]
      exact h7
    · rintro i x ((hh | ⟨h5, h6⟩) | ⟨h5, h6⟩)
      · exact .inl hh
      · simp only [List.mem_singleton] at h6
        exact .inr ⟨h5, by simp [h6]⟩
      · exact .inr ⟨h5, List.mem_cons_of_mem _ h6⟩
    · rw [hoo2, hoo]

theorem findAll_pos : ∀ (l : List Int), (∀ v ∈ l, InFile es v) → findAll es.length l = some (l.map pos)
  | [], _ => rfl
  | v :: l, h => by
    obtain ⟨h0, h1⟩ := h v List.mem_cons_self
    unfold findAll
    rw [finds_range h0 h1]
    simp [findAll_pos l fun v hv => h v (List.mem_cons_of_mem _ hv)]

/-- The parameter curves of an edge of a loop. -/
def pcs (q : LoopEdge) : List Nat := q.pcurves.map fun c => pos c.2

theorem loops_mentions {o : Obj} {c : Nat} {l : List Nat} {x : Nat} (hx : x ∈ mentions { o with loops := o.loops ++ [(c, l)] }) :
    x ∈ mentions o ∨ x = c ∨ x ∈ l := by
  rw [mem_mentions] at hx ⊢
  simp only [List.map_append, List.mem_append, List.map_cons, List.map_nil, List.mem_singleton, List.flatMap_append,
    List.flatMap_cons, List.flatMap_nil, List.append_nil] at hx
  tauto

theorem Ok.linkLoops (ap : Apart es) {e : Nat} (he : e < es.length) (h102 : typeAt es e ≠ 102) {V : List Nat} :
    ∀ (l : List LoopEdge) {h : Heap} {D : Nat → Nat → Prop} {A : List Nat} {o : Obj}, Ok es D h → h e = some o →
    (∀ q ∈ l, InFile es q.data ∧ ∀ c ∈ q.pcurves, InFile es c.2) →
    (∀ q ∈ l, pos q.data ∈ V ∧ ∀ c ∈ pcs q, c ∈ tg es e ∧ typeAt es c ≠ 0) → (∀ x ∈ V, x ∈ tg es e ∧ typeAt es x ≠ 0) →
    (l.flatMap pcs).Nodup → (∀ c ∈ l.flatMap pcs, c ∉ A ∧ c ∉ V) → (∀ x ∈ A, x ∉ V) → (∀ x ∈ o.loops.flatMap Prod.snd, x ∈ A) →
    (∀ x ∈ o.redges.map Prod.fst, x ∈ V ∨ x ∈ A) → (∀ x, D e x → x ∈ A ∨ x ∈ o.redges.map Prod.fst) →
    ∃ h', linkLoops es.length e l h = some (h', true) ∧ Ok es (more D e (l.flatMap pcs ++ V)) h'
  | [], h, D, A, o, F, ho, _, _, _, _, _, _, _, _, _ => ⟨h, rfl, F.mono fun _ _ => .inl⟩
  | q :: l, h, D, A, o, F, ho, hl, hm, hV, hn, hc, hA, hL, hv, hD => by
    obtain ⟨⟨c0, c1⟩, c2⟩ := hl q List.mem_cons_self
    obtain ⟨m1, m2⟩ := hm q List.mem_cons_self
    obtain ⟨h1, o1, r1, F1, ho1, lo1, in1, up1, down1⟩ := F.addLoopEdge ap he c1 (hV _ m1).2 h102 (hV _ m1).1 (A := A)
      (fun hh => hA _ hh m1) ho hD
    rw [List.flatMap_cons, List.nodup_append] at hn
    have hlt : ∀ c ∈ pcs q, c < es.length := by
      intro c hcq
      simp only [pcs, List.mem_map] at hcq
      obtain ⟨p, hp, rfl⟩ := hcq
      exact (c2 p hp).2
    obtain ⟨h2, o2, r2, F2, ho2, oo2⟩ := Ok.addPCurves ap he h102 (pcs q) [] F1 ho1 (fun c hcq => ⟨hlt c hcq, (m2 c hcq).2, (m2 c hcq).1⟩)
      hn.1 (by
        intro c hcq
        obtain ⟨a, b⟩ := hc c (by rw [List.flatMap_cons]; exact List.mem_append_left _ hcq)
        refine ⟨?_, by rw [lo1]; exact fun hh => a (hL c hh)⟩
        rintro (hh | ⟨_, hh⟩)
        · rcases hD c hh with h | h
          · exact a h
          · exact (hv c h).elim b a
        · simp only [List.mem_singleton] at hh
          exact b (hh ▸ m1))
    have hl2 : o2.loops = o.loops := by rw [oo2, ← lo1]
    have hr2 : o2.redges = o1.redges := by rw [oo2]
    have F3 : Ok es (more (more D e [pos q.data]) e (pcs q)) (h2.put e { o2 with loops := o2.loops ++ [(pos q.data, pcs q)] }) := by
      refine F2.change ho2 ⟨rfl, rfl, rfl⟩ rfl rfl ?_ (by
        intro x hx
        have := F2.reg e o2 ho2 x
        simp only [counted, List.mem_append, List.flatMap_append, List.flatMap_cons, List.flatMap_nil, List.append_nil] at hx this
        by_cases hxp : x ∈ pcs q
        · exact .inr ⟨rfl, hxp⟩
        · exact this (by clear F2 F1 F hl hm hV hn hc hA hL hv hD; tauto))
      intro x hx
      rcases loops_mentions hx with h | h | h
      · exact F2.ch e o2 ho2 x h
      · exact h ▸ (hV _ m1).1
      · exact (m2 x h).1
    obtain ⟨h3, r3, F4⟩ := Ok.linkLoops ap he h102 l (A := pcs q ++ A) F3 (o := { o2 with loops := o2.loops ++ [(pos q.data, pcs q)] })
      (by simp [Heap.put]) (fun q hq => hl q (List.mem_cons_of_mem _ hq)) (fun q hq => hm q (List.mem_cons_of_mem _ hq)) hV hn.2.1 (by
        intro c hcl
        obtain ⟨a, b⟩ := hc c (by rw [List.flatMap_cons]; exact List.mem_append_right _ hcl)
        refine ⟨?_, b⟩
        intro hh
        rcases List.mem_append.mp hh with h | h
        · exact hn.2.2 c h c hcl rfl
        · exact a h) (by
        intro x hx
        rcases List.mem_append.mp hx with h | h
        · exact (hc x (by rw [List.flatMap_cons]; exact List.mem_append_left _ h)).2
        · exact hA x h) (by
        intro x hx
        simp only [List.flatMap_append, List.flatMap_cons, List.flatMap_nil, List.append_nil, List.mem_append] at hx
        rcases hx with h | h
        · exact List.mem_append_right _ (hL x (hl2 ▸ h))
        · exact List.mem_append_left _ h) (by
        intro x hx
        dsimp only at hx
        rw [hr2] at hx
        rcases down1 x hx with rfl | h
        · exact .inl m1
        · exact (hv x h).imp id (List.mem_append_right _)) (by
        dsimp only
        rw [hr2]
        rintro x ((hh | ⟨_, hh⟩) | ⟨_, hh⟩)
        · rcases hD x hh with h | h
          · exact .inl (List.mem_append_right _ h)
          · exact .inr (up1 x h)
        · simp only [List.mem_singleton] at hh
          exact .inr (hh ▸ in1)
        · exact .inl (List.mem_append_left _ hh))
    have hfa : findAll es.length (q.pcurves.map Prod.snd) = some (pcs q) := by
      rw [findAll_pos]
      · simp [pcs]
      · intro v hv
        obtain ⟨p, hp, rfl⟩ := List.mem_map.mp hv
        exact c2 p hp
    refine ⟨h3, ?_, F4.mono ?_⟩
    · unfold Link.linkLoops
      simp only [finds_range c0 c1, hfa, Option.bind_eq_bind, Option.bind_some, r1, r2, F2.edit ho2]
      exact r3
    · rintro i x (((hh | ⟨h5, h6⟩) | ⟨h5, h6⟩) | ⟨h5, h6⟩)
      · exact .inl hh
      · simp only [List.mem_singleton] at h6
        exact .inr ⟨h5, List.mem_append_right _ (h6 ▸ m1)⟩
      · exact .inr ⟨h5, List.mem_append_left _ (by rw [List.flatMap_cons]; exact List.mem_append_left _ h6)⟩
      · refine .inr ⟨h5, ?_⟩
        rcases List.mem_append.mp h6 with h | h
        · exact List.mem_append_left _ (by rw [List.flatMap_cons]; exact List.mem_append_right _ h)
        · exact List.mem_append_right _ h

end Iges.Props.A
