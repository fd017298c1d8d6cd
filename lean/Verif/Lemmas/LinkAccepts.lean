import Verif.Lemmas.LinkAccept
/-
Linking succeeds for acceptable files: the classes and the loop over all entities.
-/
namespace Iges.Props.A

open Iges.Graph Iges.Link Iges.Spec
open Iges.File (REnt Body)

variable {es : List REnt} {h : Heap} {D : Nat → Nat → Prop}

/-- What a class refers to. -/
def rest (b : Body) : List Nat :=
  (wantOwn b).filterMap id ++ (wantKids b ++ ((wantEdges b).map (·.curv) ++ ((wantVerts b).map Prod.fst
    ++ ((wantLoops b).flatMap Prod.snd ++ (wantRedges b).map Prod.fst))))

theorem targets_eq (r : REnt) : targets es r = base es r ++ rest r.body := by
  simp only [targets, base, rest, List.append_assoc]

theorem mem_tally {l : List Nat} {x : Nat} (hx : x ∈ l) : x ∈ (tally l).map Prod.fst := by
  have key : ∀ (l acc : List Nat), (x ∈ acc ∨ x ∈ l) → x ∈ l.foldl (fun l x => if x ∈ l then l else l ++ [x]) acc := by
    intro l
    induction l with
    | nil => intro acc h; simpa using h
    | cons y l ih =>
      intro acc h
      rw [List.foldl_cons]
      apply ih
      rcases h with h | h
      · left
        split
        · exact h
        · exact List.mem_append_left _ h
      · rcases List.mem_cons.mp h with rfl | h
        · left
          split
          · assumption
          · simp
        · exact .inr h
  simp only [tally, List.map_map, List.mem_map, Function.comp]
  exact ⟨x, key l [] (.inr hx), rfl⟩

/-- Facts about one entity. -/
structure Ent (G : Geo) (es : List REnt) (e : Nat) (r : REnt) : Prop where
  at_ : es[e]? = some r
  ok : Acceptable G es

theorem Ent.mem {G : Geo} {e : Nat} {r : REnt} (E : Ent G es e r) : r ∈ es := List.mem_of_getElem? E.at_

theorem Ent.lt {G : Geo} {e : Nat} {r : REnt} (E : Ent G es e r) : e < es.length := (List.getElem?_eq_some_iff.mp E.at_).1

theorem Ent.good {G : Geo} {e : Nat} {r : REnt} (E : Ent G es e r) : GoodBase es e r :=
  ⟨E.at_, E.ok.de e r E.at_, E.ok.extras r E.mem, E.ok.once r E.mem⟩

theorem apart_of {G : Geo} (A : Acceptable G es) : Apart es := by
  intro i j hj hi
  unfold tg at hi hj
  cases h1 : es[i]? with
  | none => simp [h1] at hj
  | some r =>
    cases h2 : es[j]? with
    | none => simp [h2] at hi
    | some q =>
      simp only [h1, h2, Option.map_some, Option.getD_some] at hi hj
      exact A.apart i j r q h1 h2 hj hi

theorem Ent.nodup {G : Geo} {e : Nat} {r : REnt} (E : Ent G es e r) : (rest r.body).Nodup := by
  have := E.ok.once r E.mem
  rw [targets_eq, List.nodup_append] at this
  exact this.2.1

theorem Ent.fresh {G : Geo} {e : Nat} {r : REnt} (E : Ent G es e r) (hD : ∀ c, D e c → c ∈ base es r) {c : Nat} (hc : c ∈ rest r.body) :
    ¬ D e c ∧ c ∈ tg es e ∧ typeAt es c ≠ 0 := by
  have := E.ok.once r E.mem
  rw [targets_eq, List.nodup_append] at this
  have hm : c ∈ targets es r := by
    rw [targets_eq]
    exact List.mem_append_right _ hc
  exact ⟨fun hh => this.2.2 c (hD c hh) c hc rfl, by rw [tg_at E.at_]; exact hm, E.ok.known r E.mem c hm⟩

/-- Linking of the class part goes on. -/
def Went (es : List REnt) (D : Nat → Nat → Prop) (e : Nat) (x : Option (Heap × Bool)) : Prop := ∃ L, Goes es D e L x

theorem Ent.drop {G : Geo} {e : Nat} {r : REnt} (E : Ent G es e r) (F : Ok es D h) (l : List Nat) (hl : ∀ s ∈ l, wantsSlot r.body s = false) :
    (Link.dropDEs h e l).map (·, true) = some (h, true) := by
  have : es[e]'E.lt = r := (List.getElem?_eq_some_iff.mp E.at_).2
  rw [F.dropDEs E.lt l (by rw [this]; exact hl)]
  rfl

theorem andThen_true (h : Heap) (f : Heap → Option (Heap × Bool)) : Link.andThen (some (h, true)) f = f h := rfl

theorem typeAt_mem (i : Nat) : typeAt es i ∈ [0, 100, 102, 104, 110, 120, 122, 124, 126, 128, 142, 144, 154, 164, 180, 186,
    308, 314, 406, 408, 502, 504, 508, 510, 514] := by
  unfold typeAt
  cases es[i]? with
  | none => simp
  | some r => cases hb : r.body <;> simp [hb, Body.etype]

theorem Ok.linkClass (G : Geo) {e : Nat} {r : REnt} (E : Ent G es e r) (F : Ok es D h) (hcomp : ∀ k, r.body ≠ .composite k)
    (hD : ∀ c, D e c → c ∈ base es r) : Went es D e (Link.linkClass G es.length e r.body h) := by
  have ap := apart_of E.ok
  have he := E.lt
  have hs := E.ok.size
  have ty := E.ok.typed r E.mem
  have od := E.ok.odd r E.mem
  have nd := E.nodup
  have fr := fun c hc => E.fresh (D := D) hD (c := c) hc
  have dr := fun l hl => E.drop F l hl
  have h102 : typeAt es e ≠ 102 := by
    unfold typeAt
    rw [E.at_]
    cases hb : r.body <;> simp [hb, Body.etype] at hcomp ⊢
  have wrap : ∀ {L x}, Goes es D e L x → Went es D e x := fun g => ⟨_, g⟩
  unfold Typed at ty
  cases hb : r.body with
  | arc _ => rw [hb] at dr; unfold Link.linkClass; rw [dr [0] (by simp [wantsSlot])]; exact wrap (Goes.here F e [])
  | conic _ => rw [hb] at dr; unfold Link.linkClass; rw [dr [0] (by simp [wantsSlot])]; exact wrap (Goes.here F e [])
  | line _ => rw [hb] at dr; unfold Link.linkClass; rw [dr [0] (by simp [wantsSlot])]; exact wrap (Goes.here F e [])
  | cylinder _ => rw [hb] at dr; unfold Link.linkClass; rw [dr [0] (by simp [wantsSlot])]; exact wrap (Goes.here F e [])
  | composite k => exact absurd hb (hcomp k)
  | curve _ => exact wrap (Goes.here F e [])
  | surf _ => exact wrap (Goes.here F e [])
  | vertices _ => exact wrap (Goes.here F e [])
  | null _ => exact wrap (Goes.here F e [])
  | tx _ => rw [hb] at dr; unfold Link.linkClass; dsimp only; rw [dr _ (by simp [wantsSlot])]; exact wrap (Goes.here F e [])
  | colour _ => rw [hb] at dr; unfold Link.linkClass; dsimp only; rw [dr _ (by simp [wantsSlot])]; exact wrap (Goes.here F e [])
  | name _ => rw [hb] at dr; unfold Link.linkClass; dsimp only; rw [dr _ (by simp [wantsSlot])]; exact wrap (Goes.here F e [])
  | revolution k =>
    rw [hb] at ty fr nd
    simp only at ty
    simp only [rest, wantOwn, wantKids, wantEdges, wantVerts, wantLoops, wantRedges, List.map_nil, List.flatMap_nil, List.append_nil] at fr nd
    unfold Link.linkClass
    dsimp only
    have g1 : Goes es D e (if k.L = 0 then [] else [pos k.L]) (if k.L = 0 then some (h, true)
        else Link.linkOwnAt (findRange es.length) (fun o => isCurveObj o && o.etype == 110) h e 0 k.L true .clear) := by
      split
      · exact Goes.here F e _
      · rename_i h0
        obtain ⟨l1, l2, l3⟩ := ty.1 h0
        obtain ⟨f1, f2, f3⟩ := fr (pos k.L) (by simp [ptr, h0])
        refine F.linkOwnAt ap he h102 (finds_range l1 l2) l2 f3 f2 f1 ?_ _ _ _
        intro o ho
        simp only [List.mem_singleton] at l3
        simp [isCurveObj, F.etype ho, l3]
    refine ⟨_, Goes.andThen (M := [pos k.C]) g1 fun h1 F1 => ?_⟩
    by_cases h0 : k.C = 0
    · rw [if_pos h0]
      exact Goes.here F1 e _
    · rw [if_neg h0]
      obtain ⟨l1, l2, l3⟩ := ty.2 h0
      obtain ⟨f1, f2, f3⟩ := fr (pos k.C) (by simp [ptr, h0])
      refine F1.linkOwnAt ap he h102 (finds_range l1 l2) l2 f3 f2 ?_ ?_ _ _ _
      · rintro (hh | ⟨_, hh⟩)
        · exact f1 hh
        · split at hh
          · cases hh
          · rename_i hL
            simp only [List.mem_singleton] at hh
            simp [ptr, h0, hL, hh] at nd
      · intro o ho
        simp only [simpleCurves, List.mem_cons, List.not_mem_nil, or_false] at l3
        rcases l3 with h | h | h | h | h <;> simp [isCurveObj, F1.etype ho, h]
  | tabCyl k =>
    rw [hb] at dr ty fr od
    simp only at ty
    simp only [rest, wantOwn, wantKids, wantEdges, wantVerts, wantLoops, wantRedges, List.map_nil, List.flatMap_nil, List.append_nil] at fr
    unfold Link.linkClass
    dsimp only
    rw [dr [0] (by simp [wantsSlot]), andThen_true]
    split
    · exact wrap (Goes.here F e [])
    · rename_i h0
      obtain ⟨l1, l2, l3⟩ := ty h0
      obtain ⟨f1, f2, f3⟩ := fr (pos k.DE) (by simp [ptr, h0])
      obtain ⟨o1, o2⟩ := od k.DE (by simp [required, h0])
      refine wrap (F.linkOwnAt ap he h102 (finds_odd hs o1 o2 l2) l2 f3 f2 f1 ?_ _ _ _)
      intro o ho
      simp only [simpleCurves, List.mem_cons, List.not_mem_nil, or_false] at l3
      rcases l3 with h | h | h | h | h <;> simp [isCurveObj, F.etype ho, h]
  | onSurface k =>
    rw [hb] at ty fr nd od
    simp only at ty
    simp only [rest, wantOwn, wantKids, wantEdges, wantVerts, wantLoops, wantRedges, List.map_nil, List.flatMap_nil, List.append_nil] at fr nd
    obtain ⟨⟨s1, s2⟩, tb, tc⟩ := ty
    have s0 : k.SPTR ≠ 0 := by
      have := (od k.SPTR (by simp [required])).1
      omega
    unfold Link.linkClass
    dsimp only
    rw [if_neg s0]
    obtain ⟨f1, f2, f3⟩ := fr (pos k.SPTR) (by simp [ptr, s0])
    refine ⟨_, Goes.andThen (F.linkOwnAt ap he h102 (finds_range s1 s2) s2 f3 f2 f1 (fun _ _ => rfl) _ _ _) fun h1 F1 =>
      Goes.andThen (L := if k.BPTR = 0 then [] else [pos k.BPTR]) (M := [pos k.CPTR]) ?_ fun h2 F2 => ?_⟩
    · split
      · exact Goes.here F1 e _
      · rename_i h0
        obtain ⟨l1, l2⟩ := tb h0
        obtain ⟨f1, f2, f3⟩ := fr (pos k.BPTR) (by simp [ptr, h0])
        refine F1.linkOwnAt ap he h102 (finds_range l1 l2) l2 f3 f2 ?_ (fun _ _ => rfl) _ _ _
        rintro (hh | ⟨_, hh⟩)
        · exact f1 hh
        · simp only [List.mem_singleton] at hh
          simp [ptr, s0, h0, hh] at nd
    · by_cases h0 : k.CPTR = 0
      · rw [if_pos h0]
        exact Goes.here F2 e _
      · rw [if_neg h0]
        obtain ⟨l1, l2⟩ := tc h0
        obtain ⟨f1, f2, f3⟩ := fr (pos k.CPTR) (by simp [ptr, h0])
        refine F2.linkOwnAt ap he h102 (finds_range l1 l2) l2 f3 f2 ?_ (fun _ _ => rfl) _ _ _
        rintro ((hh | ⟨_, hh⟩) | ⟨_, hh⟩)
        · exact f1 hh
        · simp only [List.mem_singleton] at hh
          simp [ptr, s0, h0, hh] at nd
        · split at hh
          · cases hh
          · rename_i hB
            simp only [List.mem_singleton] at hh
            simp [ptr, s0, hB, h0, hh] at nd
  | trimmed k =>
    rw [hb] at ty fr nd od
    simp only at ty
    obtain ⟨⟨s1, s2, s3⟩, ⟨o1, o2, o3⟩, ti⟩ := ty
    have s0 : k.PTS ≠ 0 := by
      have := (od k.PTS (by simp [required])).1
      omega
    have o0 : k.PTO ≠ 0 := by
      have := (od k.PTO (by simp [required])).1
      omega
    simp only [rest, wantOwn, wantKids, wantEdges, wantVerts, wantLoops, wantRedges, List.map_nil, List.flatMap_nil, List.append_nil,
      ptr, s0, o0, if_false, List.filterMap_cons, List.filterMap_nil, id, List.cons_append, List.nil_append, List.nodup_cons, List.mem_cons, not_or] at fr nd
    unfold Link.linkClass
    dsimp only
    simp only [if_neg s0, if_neg o0]
    obtain ⟨f1, f2, f3⟩ := fr (pos k.PTS) (.inl rfl)
    obtain ⟨q1, q2, q3⟩ := fr (pos k.PTO) (.inr (.inl rfl))
    simp only [List.mem_singleton] at o3
    refine ⟨_, Goes.andThen (F.linkOwnAt ap he h102 (finds_range s1 s2) s2 f3 f2 f1 ?_ _ _ _) fun h1 F1 =>
      Goes.andThen (M := k.PTI.map pos) (F1.linkOwnAt ap he h102 (finds_range o1 o2) o2 q3 q2 ?_ ?_ _ _ _) fun h2 F2 => ?_⟩
    · intro o ho
      rw [F.etype ho]
      simp only [List.mem_cons, List.not_mem_nil, or_false] at s3
      rcases s3 with h | h | h | h | h | h | h | h | h | h | h | h | h | h <;> rw [h] <;> rfl
    · rintro (hh | ⟨_, hh⟩)
      · exact q1 hh
      · simp only [List.mem_singleton] at hh
        exact nd.1.1 hh.symm
    · intro o ho
      simp [F1.etype ho, o3]
    · refine Ok.linkKids ap he h102 _ k.PTI F2 ?_ nd.2.2 ?_
      · intro v hv
        obtain ⟨l1, l2, l3⟩ := ti v hv
        obtain ⟨p1, p2⟩ := od v (by simp [required, hv])
        obtain ⟨g1, g2, g3⟩ := fr (pos v) (.inr (.inr (List.mem_map_of_mem hv)))
        refine ⟨finds_odd hs p1 p2 l2, l2, g3, g2, ?_⟩
        intro o ho _
        simp only [List.mem_singleton] at l3
        simp [ho, l3]
      · rintro c hc ((hh | ⟨_, hh⟩) | ⟨_, hh⟩)
        · exact (fr c (.inr (.inr hc))).1 hh
        · simp only [List.mem_singleton] at hh
          exact nd.1.2 (hh ▸ hc)
        · simp only [List.mem_singleton] at hh
          exact nd.2.1 (hh ▸ hc)
  | extrusion k =>
    rw [hb] at dr ty fr od
    simp only at ty
    obtain ⟨l1, l2, l3⟩ := ty
    have p0 := (od k.PTR (by simp [required])).1
    simp only [rest, wantOwn, wantKids, wantEdges, wantVerts, wantLoops, wantRedges, List.map_nil, List.flatMap_nil, List.append_nil] at fr
    unfold Link.linkClass
    dsimp only
    rw [dr [0] (by simp [wantsSlot]), andThen_true, if_neg (by omega)]
    obtain ⟨f1, f2, f3⟩ := fr (pos k.PTR) (by simp [ptr, show k.PTR ≠ 0 by omega])
    obtain ⟨h2, d', h3, F2, h4, _⟩ := F.addRef ap l2 he f2 f3 (fun h => absurd h h102)
    have := h4 f1
    subst this
    obtain ⟨oc, hoc⟩ := F2.get l2
    obtain ⟨o, ho⟩ := F2.get he
    have hcurve : isCurveObj oc = true := by
      simp only [simpleCurves, List.mem_cons, List.not_mem_nil, or_false] at l3
      rcases l3 with h | h | h | h | h <;> simp [isCurveObj, F2.etype hoc, h]
    simp only [finds_range l1 l2, Option.bind_eq_bind, Option.bind_some, h3, Link.get, hoc, hcurve, if_true, F2.edit ho,
      E.ok.closed r E.mem k hb]
    refine wrap (L := [pos k.PTR]) ⟨_, rfl, F2.change ho ⟨rfl, rfl, rfl⟩ rfl rfl ?_ (F2.reg e o ho)⟩
    intro x hx
    rcases setOwn_mentions hx with h1 | h1
    · exact F2.ch e o ho x h1
    · cases h1
      exact f2
  | tree k =>
    rw [hb] at dr ty fr nd
    simp only at ty
    have hk : ∀ f : BNode → Option Int, (∀ q, f q = match q with | .op _ => none | .arg d => some d) →
        (k.filterMap f).map pos = wantKids (.tree k) := by
      intro f hf
      simp only [wantKids, List.map_filterMap]
      congr 1
      funext q
      rw [hf]
      cases q <;> rfl
    simp only [rest, wantOwn, wantEdges, wantVerts, wantLoops, wantRedges, List.map_nil, List.flatMap_nil, List.append_nil,
      List.filterMap_nil, List.nil_append] at fr nd
    unfold Link.linkClass
    dsimp only
    rw [dr [0] (by simp [wantsSlot]), andThen_true]
    refine wrap (Ok.linkArgs ap he h102 _ F ?_ (by rw [hk]; exacts [nd, fun _ => rfl])
      (by rw [hk]; exacts [fun c hc => (fr c hc).1, fun _ => rfl]))
    intro v hv
    obtain ⟨f1, f2, f3⟩ := fr (pos v) (by rw [← hk _ ?_]; exacts [List.mem_map_of_mem hv, fun _ => rfl])
    rw [List.mem_filterMap] at hv
    obtain ⟨q, hq, hqv⟩ := hv
    cases q with
    | op _ => cases hqv
    | arg d =>
      cases hqv
      obtain ⟨l1, l2, l3⟩ := ty v hq
      refine ⟨l1, l2, f3, f2, ?_⟩
      simp only [List.mem_cons, List.not_mem_nil, or_false] at l3
      rcases l3 with h | h | h | h | h | h | h | h | h | h | h | h <;> rw [h] <;> rfl
  | solid k =>
    rw [hb] at ty fr nd od
    simp only at ty
    have s0 := (od k.shell (by simp [required])).1
    obtain ⟨⟨s1, s2, s3⟩, s4⟩ := ty k.shell List.mem_cons_self
    simp only [List.mem_singleton] at s3
    have hk : (k.voids.map Prod.fst).map pos = k.voids.map fun v => pos v.1 := by simp
    simp only [rest, wantOwn, wantKids, wantEdges, wantVerts, wantLoops, wantRedges, List.map_nil, List.flatMap_nil, List.append_nil,
      ptr, show k.shell ≠ 0 by omega, if_false, List.filterMap_cons, List.filterMap_nil, id, List.cons_append, List.nil_append, List.nodup_cons,
      List.mem_cons, ← hk] at fr nd
    unfold Link.linkClass
    dsimp only
    rw [if_neg (by omega)]
    obtain ⟨f1, f2, f3⟩ := fr (pos k.shell) (.inl rfl)
    refine ⟨_, Goes.andThen (M := (k.voids.map Prod.fst).map pos) (F.linkOwnAt ap he h102 (finds_range s1 s2) s2 f3 f2 f1 ?_ _ _ _) fun h1 F1 => ?_⟩
    · intro o ho
      simp [F.etype ho, F.form ho, s3, s4]
    · refine Ok.linkKids ap he h102 _ _ F1 ?_ nd.2 ?_
      · intro v hv
        obtain ⟨⟨l1, l2, l3⟩, l4⟩ := ty v (List.mem_cons_of_mem _ hv)
        obtain ⟨g1, g2, g3⟩ := fr (pos v) (.inr (List.mem_map_of_mem hv))
        refine ⟨finds_above l1 l2, l2, g3, g2, ?_⟩
        intro o ho hf
        simp only [List.mem_singleton] at l3
        simp [ho, hf, l3, l4]
      · rintro c hc (hh | ⟨_, hh⟩)
        · exact (fr c (.inr hc)).1 hh
        · simp only [List.mem_singleton] at hh
          exact nd.1 (hh ▸ hc)
  | subfigure k =>
    rw [hb] at ty fr nd od
    simp only at ty
    simp only [rest, wantOwn, wantKids, wantEdges, wantVerts, wantLoops, wantRedges, List.map_nil, List.flatMap_nil, List.append_nil,
      List.filterMap_nil, List.nil_append] at fr nd
    refine wrap (Ok.linkKids ap he h102 _ _ F ?_ nd fun c hc => (fr c hc).1)
    intro v hv
    obtain ⟨l1, l2⟩ := ty v hv
    obtain ⟨p1, p2⟩ := od v (by simp [required, hv])
    obtain ⟨g1, g2, g3⟩ := fr (pos v) (List.mem_map_of_mem hv)
    exact ⟨finds_odd hs p1 p2 l2, l2, g3, g2, fun _ _ _ => rfl⟩
  | inst k =>
    rw [hb] at dr ty fr od
    simp only at ty
    simp only [rest, wantOwn, wantKids, wantEdges, wantVerts, wantLoops, wantRedges, List.map_nil, List.flatMap_nil, List.append_nil] at fr
    unfold Link.linkClass
    dsimp only
    rw [dr [0] (by simp [wantsSlot]), andThen_true]
    split
    · exact wrap (Goes.here F e [])
    · rename_i h0
      obtain ⟨l1, l2, l3⟩ := ty h0
      obtain ⟨f1, f2, f3⟩ := fr (pos k.DE) (by simp [ptr, h0])
      obtain ⟨o1, o2⟩ := od k.DE (by simp [required, h0])
      refine wrap (F.linkOwnAt ap he h102 (finds_odd hs o1 o2 l2) l2 f3 f2 f1 ?_ _ _ _)
      intro o ho
      simp only [List.mem_singleton] at l3
      simp [F.etype ho, l3]
  | edges k =>
    rw [hb] at ty fr nd
    simp only at ty
    obtain ⟨o, ho⟩ := F.get he
    have hcur : (wantEdges (.edges k)).map (·.curv) = k.map fun q => pos q.curv := by simp [wantEdges]
    simp only [rest, wantOwn, wantKids, wantLoops, wantRedges, List.map_nil, List.flatMap_nil, List.append_nil, List.filterMap_nil,
      List.nil_append, hcur, List.nodup_append, List.mem_append] at fr nd
    have hv : ∀ q ∈ k, pos q.svp ∈ (wantVerts (.edges k)).map Prod.fst ∧ pos q.tvp ∈ (wantVerts (.edges k)).map Prod.fst := by
      intro q hq
      constructor <;> apply mem_tally <;> simp only [List.mem_flatMap] <;> exact ⟨q, hq, by simp⟩
    have hc : ∀ q ∈ k, pos q.curv ∈ k.map fun q => pos q.curv := fun q hq => List.mem_map_of_mem hq
    have hreg : ∀ x ∈ o.verts.map Prod.fst, x ∈ base es r := fun x hx => hD x (F.reg e o ho x (by
      simp only [counted, List.mem_append]
      exact .inl (.inl hx)))
    have hnb : ∀ x, x ∈ (k.map fun q => pos q.curv) ∨ x ∈ (wantVerts (.edges k)).map Prod.fst → x ∉ base es r := by
      intro x hx hbx
      have := E.ok.once r E.mem
      rw [targets_eq, hb, List.nodup_append] at this
      refine this.2.2 x hbx x ?_ rfl
      simp only [rest, wantOwn, wantKids, wantLoops, wantRedges, List.map_nil, List.flatMap_nil, List.append_nil, List.filterMap_nil,
        List.nil_append, hcur, List.mem_append]
      exact hx
    refine wrap (Ok.linkEdges ap he h102 (V := (wantVerts (.edges k)).map Prod.fst) k (A := base es r) F ho ?_ ?_ ?_ nd.1 ?_ ?_
      (fun x hx => .inr (hreg x hx)) (fun x hx => .inl (hD x hx)))
    · intro q hq
      obtain ⟨a, b, ⟨c1, c2, c3⟩, d⟩ := ty q hq
      refine ⟨a, b, ⟨c1, c2, ?_⟩, d⟩
      have := typeAt_mem (es := es) (pos q.curv)
      simp only [simpleCurves, List.mem_cons, List.not_mem_nil, or_false, List.cons_append, List.nil_append] at c3 this ⊢
      omega
    · intro q hq
      exact ⟨(hv q hq).1, (hv q hq).2, (fr _ (.inl (hc q hq))).2.1⟩
    · intro x hx
      exact (fr x (.inr hx)).2.1
    · intro q hq
      exact ⟨hnb _ (.inl (hc q hq)), fun hh => nd.2.2 _ (hc q hq) _ hh rfl⟩
    · intro x hx hxv
      exact hnb x (.inr hxv) hx
  | loop k =>
    rw [hb] at ty fr nd
    simp only at ty
    obtain ⟨o, ho⟩ := F.get he
    have hcur : (wantLoops (.loop k)).flatMap Prod.snd = k.flatMap pcs := by
      simp only [wantLoops, List.flatMap_map]
      rfl
    simp only [rest, wantOwn, wantKids, wantEdges, wantVerts, List.map_nil, List.filterMap_nil, List.nil_append, hcur,
      List.nodup_append, List.mem_append] at fr nd
    have hv : ∀ q ∈ k, pos q.data ∈ (wantRedges (.loop k)).map Prod.fst := by
      intro q hq
      apply mem_tally
      exact List.mem_map_of_mem hq
    have hc : ∀ q ∈ k, ∀ c ∈ pcs q, c ∈ k.flatMap pcs := fun q hq c hcq => List.mem_flatMap.mpr ⟨q, hq, hcq⟩
    have hreg : ∀ x ∈ counted o, x ∈ base es r := fun x hx => hD x (F.reg e o ho x hx)
    have hnb : ∀ x, x ∈ k.flatMap pcs ∨ x ∈ (wantRedges (.loop k)).map Prod.fst → x ∉ base es r := by
      intro x hx hbx
      have := E.ok.once r E.mem
      rw [targets_eq, hb, List.nodup_append] at this
      refine this.2.2 x hbx x ?_ rfl
      simp only [rest, wantOwn, wantKids, wantEdges, wantVerts, List.map_nil, List.filterMap_nil, List.nil_append, hcur, List.mem_append]
      exact hx
    refine wrap (Ok.linkLoops ap he h102 (V := (wantRedges (.loop k)).map Prod.fst) k (A := base es r) F ho ty ?_ ?_ nd.1 ?_ ?_ ?_ ?_
      (fun x hx => .inl (hD x hx)))
    · intro q hq
      exact ⟨hv q hq, fun c hcq => (fr c (.inl (hc q hq c hcq))).2⟩
    · intro x hx
      exact (fr x (.inr hx)).2
    · intro c hcq
      exact ⟨hnb _ (.inl hcq), fun hh => nd.2.2 _ hcq _ hh rfl⟩
    · intro x hx hxv
      exact hnb x (.inr hxv) hx
    · intro x hx
      exact hreg x (by simp only [counted, List.mem_append]; exact .inr hx)
    · intro x hx
      exact .inr (hreg x (by simp only [counted, List.mem_append]; exact .inl (.inr hx)))
  | face k =>
    rw [hb] at ty fr nd od
    simp only at ty
    obtain ⟨⟨s1, s2, s3⟩, tl⟩ := ty
    have s0 := (od k.surf (by simp [required])).1
    simp only [rest, wantOwn, wantKids, wantEdges, wantVerts, wantLoops, wantRedges, List.map_nil, List.flatMap_nil, List.append_nil,
      ptr, show k.surf ≠ 0 by omega, if_false, List.filterMap_cons, List.filterMap_nil, id, List.cons_append, List.nil_append, List.nodup_cons,
      List.mem_cons] at fr nd
    unfold Link.linkClass
    dsimp only
    rw [if_neg (by omega)]
    obtain ⟨f1, f2, f3⟩ := fr (pos k.surf) (.inl rfl)
    refine ⟨_, Goes.andThen (M := k.loops.map pos) (F.linkOwnAt ap he h102 (finds_range s1 s2) s2 f3 f2 f1 ?_ _ _ _) fun h1 F1 => ?_⟩
    · intro o ho
      have := typeAt_mem (es := es) (pos k.surf)
      unfold surface510
      rw [F.etype ho]
      simp only [List.mem_cons, List.not_mem_nil, or_false] at s3 this
      rcases s3 with h | h | h | h | h | h | h | h | h | h | h <;> first | (rw [h]; rfl) | omega
    · refine Ok.linkKids ap he h102 _ _ F1 ?_ nd.2 ?_
      · intro v hv
        obtain ⟨l1, l2, l3⟩ := tl v hv
        obtain ⟨g1, g2, g3⟩ := fr (pos v) (.inr (List.mem_map_of_mem hv))
        refine ⟨finds_above l1 l2, l2, g3, g2, ?_⟩
        intro o ho _
        simp only [List.mem_singleton] at l3
        simp [ho, l3]
      · rintro c hc (hh | ⟨_, hh⟩)
        · exact (fr c (.inr hc)).1 hh
        · simp only [List.mem_singleton] at hh
          exact nd.1 (hh ▸ hc)
  | shell k =>
    rw [hb] at ty fr nd
    simp only at ty
    have hk : (k.map Prod.fst).map pos = k.map fun v => pos v.1 := by simp
    simp only [rest, wantOwn, wantKids, wantEdges, wantVerts, wantLoops, wantRedges, List.map_nil, List.flatMap_nil, List.append_nil,
      List.filterMap_nil, List.nil_append, ← hk] at fr nd
    unfold Link.linkClass
    dsimp only
    rw [if_neg (fun h0 => E.ok.faces r E.mem (by rw [hb, h0]))]
    refine wrap (Ok.linkKids ap he h102 _ _ F ?_ nd fun c hc => (fr c hc).1)
    intro v hv
    obtain ⟨l1, l2, l3⟩ := ty v hv
    obtain ⟨g1, g2, g3⟩ := fr (pos v) (List.mem_map_of_mem hv)
    refine ⟨finds_above l1 l2, l2, g3, g2, ?_⟩
    intro o ho _
    simp only [List.mem_singleton] at l3
    simp [ho, l3]

/-! ### All entities -/

theorem Ok.linkPlain (G : Geo) {e : Nat} {r : REnt} (E : Ent G es e r) (F : Ok es D h) (hcomp : ∀ k, r.body ≠ .composite k) (done : List Nat)
    (hd : e ∉ done) (hD : ∀ c, ¬ D e c) :
    ∃ h' L, Link.linkPlain G es.length e r h done = some (h', e :: done, true) ∧ Ok es (more D e L) h' := by
  obtain ⟨h1, r1, F1⟩ := F.linkBase (apart_of E.ok) E.good done hd hD
  obtain ⟨L, h2, r2, F2⟩ := Ok.linkClass G E F1 hcomp (by
    rintro c (hh | ⟨_, hh⟩)
    · exact absurd hh (hD c)
    · exact hh)
  refine ⟨h2, base es r ++ L, ?_, F2.mono ?_⟩
  · unfold Link.linkPlain
    simp only [r1, Option.bind_eq_bind, Option.bind_some, if_true, r2]
  · rintro i x ((hh | ⟨h5, h6⟩) | ⟨h5, h6⟩)
    · exact .inl hh
    · exact .inr ⟨h5, List.mem_append_left _ h6⟩
    · exact .inr ⟨h5, List.mem_append_right _ h6⟩

/-- Curves that a composite curve takes. -/
def Simple (r : REnt) : Prop := r.body.etype.toNat ∈ simpleCurves

theorem Ok.again (G : Geo) {e : Nat} {r : REnt} (E : Ent G es e r) (F : Ok es D h) (hs : Simple r) (done : List Nat) (hd : e ∈ done) :
    Link.linkPlain G es.length e r h done = some (h, done, true) := by
  unfold Link.linkPlain Link.linkBase
  rw [if_pos hd]
  simp only [Option.bind_eq_bind, Option.bind_some, if_true]
  have dr := fun l hl => E.drop F l hl
  unfold Simple simpleCurves at hs
  cases hb : r.body <;> simp [hb, Body.etype] at hs <;> rw [hb] at dr <;> unfold Link.linkClass
  · rw [dr [0] (by simp [wantsSlot])]; rfl
  · rw [dr [0] (by simp [wantsSlot])]; rfl
  · rw [dr [0] (by simp [wantsSlot])]; rfl
  · rfl

/-- Entities whose base part has not been linked are no users. -/
def Idle (es : List REnt) (D : Nat → Nat → Prop) (done : List Nat) : Prop := ∀ i, i < es.length → i ∉ done → ∀ c, ¬ D i c

/-- New members of `done` are simple curves. -/
def Grown (es : List REnt) (done done' : List Nat) : Prop :=
  (∀ i ∈ done, i ∈ done') ∧ ∀ i ∈ done', i ∈ done ∨ ∃ r, es[i]? = some r ∧ Simple r

theorem Ok.linkCurves (G : Geo) (A : Acceptable G es) {e : Nat} (he : e < es.length) : ∀ (l : List Int) {h : Heap} {D : Nat → Nat → Prop}
    {done : List Nat}, Ok es D h → Idle es D done → e ∈ done → (∀ v ∈ l, Leads es simpleCurves v ∧ pos v ∈ tg es e) →
    ∃ h' D' done', Link.linkCurves G es e l true h done = some (h', done', true) ∧ Ok es D' h' ∧ Idle es D' done' ∧ Grown es done done'
  | [], h, D, done, F, hi, _, _ => ⟨h, D, done, rfl, F, hi, fun _ => id, fun _ => .inl⟩
  | v :: l, h, D, done, F, hi, hd, hl => by
    obtain ⟨⟨l1, l2, l3⟩, l4⟩ := hl v List.mem_cons_self
    have hl' := fun v hv => hl v (List.mem_cons_of_mem _ hv)
    obtain ⟨oc, hoc⟩ := F.get l2
    have hcurve : (isCurveObj oc && oc.etype != 102) = true := by
      simp only [simpleCurves, List.mem_cons, List.not_mem_nil, or_false] at l3
      rcases l3 with h | h | h | h <;> simp [isCurveObj, F.etype hoc, h]
    have t0 : typeAt es (pos v) ≠ 0 ∧ typeAt es (pos v) ≠ 102 := by
      constructor <;> intro h0 <;> simp [simpleCurves, h0] at l3
    obtain ⟨h1, d, r1, F1, _, _⟩ := F.addRef (apart_of A) l2 he l4 t0.1 (fun _ => t0.2)
    have hi1 : Idle es (more D e [pos v]) done := by
      rintro i hi' hnd c (hh | ⟨rfl, _⟩)
      · exact hi i hi' hnd c hh
      · exact hnd hd
    unfold Link.linkCurves
    simp only [finds_range l1 l2, Option.bind_eq_bind, Option.bind_some, Link.get, hoc, hcurve, if_true, r1]
    cases d with
    | true => exact Ok.linkCurves G A he l F1 hi1 hd hl'
    | false =>
      obtain ⟨o, ho⟩ := F1.get he
      have F2 := F1.addKid ho l4
      have hr : es[pos v]? = some es[pos v] := List.getElem?_eq_getElem l2
      have E : Ent G es (pos v) es[pos v] := ⟨hr, A⟩
      have hsim : Simple es[pos v] := by
        unfold Simple
        unfold typeAt at l3
        rw [hr] at l3
        exact l3
      have hcomp : ∀ k, es[pos v].body ≠ .composite k := by
        intro k hk
        unfold Simple at hsim
        rw [hk] at hsim
        simp [Body.etype, simpleCurves] at hsim
      simp only [F1.edit ho, Option.bind_some, hr]
      by_cases hvd : pos v ∈ done
      · simp only [Ok.again G E F2 hsim done hvd, Option.bind_some]
        exact Ok.linkCurves G A he l F2 hi1 hd hl'
      · obtain ⟨h3, L, r3, F3⟩ := Ok.linkPlain G E F2 hcomp done hvd (hi1 _ l2 hvd)
        simp only [r3, Option.bind_some]
        obtain ⟨h4, D', done', r4, F4, hi4, g1, g2⟩ := Ok.linkCurves G A he l F3 (done := pos v :: done) (by
          rintro i hi' hnd c (hh | ⟨rfl, _⟩)
          · exact hi1 i hi' (fun hx => hnd (List.mem_cons_of_mem _ hx)) c hh
          · exact hnd List.mem_cons_self) (List.mem_cons_of_mem _ hd) hl'
        refine ⟨h4, D', done', r4, F4, hi4, fun i hx => g1 i (List.mem_cons_of_mem _ hx), ?_⟩
        intro i hx
        rcases g2 i hx with h | h
        · rcases List.mem_cons.mp h with rfl | h
          · exact .inr ⟨_, hr, hsim⟩
          · exact .inl h
        · exact .inr h

theorem firsts_mem {l : List Nat} {x : Nat} (hx : x ∈ l) : x ∈ firsts l := by
  have := mem_tally hx
  simp only [tally, List.map_map, List.mem_map, Function.comp] at this
  obtain ⟨y, hy, rfl⟩ := this
  exact hy

theorem Ok.linkEnt (G : Geo) (A : Acceptable G es) {e : Nat} (he : e < es.length) {done : List Nat} (F : Ok es D h) (hi : Idle es D done)
    (hd : e ∈ done → ∃ r, es[e]? = some r ∧ Simple r) :
    ∃ h' D' done', Link.linkEnt G es e h done = some (h', done', true) ∧ Ok es D' h' ∧ Idle es D' done' ∧
      (∀ i ∈ done', i = e ∨ i ∈ done ∨ ∃ r, es[i]? = some r ∧ Simple r) := by
  have hr : es[e]? = some es[e] := List.getElem?_eq_getElem he
  have E : Ent G es e es[e] := ⟨hr, A⟩
  unfold Link.linkEnt
  simp only [hr, Option.bind_eq_bind, Option.bind_some]
  split
  · rename_i k hk
    have hnd : e ∉ done := by
      intro hh
      obtain ⟨r, h1, h2⟩ := hd hh
      rw [hr] at h1
      cases h1
      unfold Simple at h2
      rw [hk] at h2
      simp [Body.etype, simpleCurves] at h2
    obtain ⟨h1, r1, F1⟩ := F.linkBase (apart_of A) E.good done hnd (hi e he hnd)
    have hdrop : Link.dropDEs h1 e [0] = some h1 := F1.dropDEs he [0] (by simp [hk, wantsSlot])
    have ty := A.typed es[e] E.mem
    unfold Typed at ty
    rw [hk] at ty
    simp only at ty
    obtain ⟨h2, D', done', r2, F2, hi2, g1, g2⟩ := Ok.linkCurves G A he k F1 (done := e :: done) (by
        rintro i hi' hnd' c (hh | ⟨rfl, _⟩)
        · exact hi i hi' (fun hx => hnd' (List.mem_cons_of_mem _ hx)) c hh
        · exact hnd' List.mem_cons_self) List.mem_cons_self (by
        intro v hv
        refine ⟨ty v hv, ?_⟩
        rw [tg_at hr, targets_eq]
        apply List.mem_append_right
        simp only [rest, hk, wantKids, wantOwn, List.filterMap_nil, List.nil_append, List.mem_append]
        exact .inl (firsts_mem (List.mem_map_of_mem hv)))
    simp only [r1, Option.bind_some, if_true, hdrop, r2, A.points e _ k hr hk, Bool.and_true]
    refine ⟨h2, D', done', rfl, F2, hi2, ?_⟩
    intro i hx
    rcases g2 i hx with h | h
    · rcases List.mem_cons.mp h with h | h
      · exact .inl h
      · exact .inr (.inl h)
    · exact .inr (.inr h)
  · rename_i hk
    by_cases hnd : e ∈ done
    · obtain ⟨r, h1, h2⟩ := hd hnd
      rw [hr] at h1
      cases h1
      exact ⟨h, D, done, Ok.again G E F h2 done hnd, F, hi, fun i hx => .inr (.inl hx)⟩
    · obtain ⟨h3, L, r3, F3⟩ := Ok.linkPlain G E F (fun k hh => hk k hh) done hnd (hi e he hnd)
      refine ⟨h3, _, _, r3, F3, ?_, ?_⟩
      · rintro i hi' hnd' c (hh | ⟨rfl, _⟩)
        · exact hi i hi' (fun hx => hnd' (List.mem_cons_of_mem _ hx)) c hh
        · exact hnd' List.mem_cons_self
      · intro i hx
        rcases List.mem_cons.mp hx with h | h
        · exact .inl h
        · exact .inr (.inl h)

theorem Ok.linkFrom (G : Geo) (A : Acceptable G es) : ∀ (l : List Nat) {h : Heap} {D : Nat → Nat → Prop} {done : List Nat}, Ok es D h →
    Idle es D done → (∀ e ∈ l, e < es.length) → l.Nodup → (∀ e ∈ l, e ∈ done → ∃ r, es[e]? = some r ∧ Simple r) →
    ∃ h', Link.linkFrom G es l h done = some (h', true)
  | [], h, D, done, _, _, _, _, _ => ⟨h, rfl⟩
  | e :: l, h, D, done, F, hi, hl, hn, hd => by
    obtain ⟨h1, D', done', r1, F1, hi1, g⟩ := Ok.linkEnt G A (hl e List.mem_cons_self) F hi (hd e List.mem_cons_self)
    rw [List.nodup_cons] at hn
    unfold Link.linkFrom
    simp only [r1, Option.bind_eq_bind, Option.bind_some]
    refine Ok.linkFrom G A l F1 hi1 (fun x hx => hl x (List.mem_cons_of_mem _ hx)) hn.2 ?_
    intro x hx hxd
    rcases g x hxd with rfl | h | h
    · exact absurd hx hn.1
    · exact hd x (List.mem_cons_of_mem _ hx) h
    · exact h

theorem ok_heapOf (es : List REnt) : Ok es (fun _ _ => False) (heapOf es) := by
  have hde : ∀ r : REnt, (objOf r).refs = [] ∧ mentions (objOf r) = [] ∧ counted (objOf r) = [] ∧ (objOf r).de = List.replicate 7 none ∧
      (objOf r).etype = r.body.etype.toNat ∧ (objOf r).form = r.de.form ∧ (objOf r).npts = points r := by
    intro r
    have blank : ∀ t, (newObj t).refs = [] ∧ mentions (newObj t) = [] ∧ counted (newObj t) = [] ∧ (newObj t).de = List.replicate 7 none := by
      intro t
      unfold newObj
      repeat' split
      all_goals exact ⟨rfl, rfl, rfl, rfl⟩
    obtain ⟨b1, b2, b3, b4⟩ := blank r.body.etype.toNat
    refine ⟨b1, b2, b3, b4, ?_, rfl, rfl⟩
    show (newObj r.body.etype.toNat).etype = _
    cases r.body <;> simp [newObj, Body.etype]
  have get : ∀ {i o}, heapOf es i = some o → ∃ r, es[i]? = some r ∧ o = objOf r := by
    intro i o ho
    unfold heapOf at ho
    rw [Option.map_eq_some_iff] at ho
    obtain ⟨r, h1, h2⟩ := ho
    exact ⟨r, h1, h2.symm⟩
  constructor
  · intro i
    unfold heapOf
    rw [Option.map_map]
    congr 1
    funext r
    simp [(hde r).2.2.2.2]
  · intro i c o ho hx
    obtain ⟨r, _, rfl⟩ := get ho
    simp [(hde r).1] at hx
  · intro c o ho x hx
    obtain ⟨r, _, rfl⟩ := get ho
    simp [(hde r).2.1] at hx
  · intro i o s c ho hx
    obtain ⟨r, _, rfl⟩ := get ho
    simp only [Obj.slot, (hde r).2.2.2.1, List.getElem?_replicate] at hx
    split at hx <;> cases hx
  · intro i o ho x hx
    obtain ⟨r, _, rfl⟩ := get ho
    simp [(hde r).2.2.1] at hx

/-- Acceptable files are linked successfully. -/
theorem linkAll_accepts (G : Geo) (A : Acceptable G es) : ∃ h, linkAll G es = some (h, true) := by
  unfold linkAll
  exact Ok.linkFrom G A _ (ok_heapOf es) (fun _ _ _ _ hh => hh) (fun e he => List.mem_range.mp he) List.nodup_range (by simp)

end Iges.Props.A
