import Verif.Props.GraphAdd

/-!
C20, C21, C41: the entity graph after any careful program.
-/

namespace Iges.Props.G

open Iges.Graph Iges.Spec

theorem ObjOk.congr {ty ty' pend x o} (H : ObjOk ty pend x o) (hx : ty' x = ty x)
    (hc : ∀ c ∈ o.children, ty' c = ty c) : ObjOk ty' pend x o := by
  refine ⟨H.type.trans hx.symm, H.no402, H.refsNd, H.chNd, H.noSelf, H.null, ?_, H.noEdge, H.noLoop,
    H.noKids, ?_, H.counts, H.deLen, H.ownLen⟩
  · intro h
    obtain ⟨a, b, c⟩ := H.t124 h
    refine ⟨a, b, fun y hy => ⟨(c y hy).1, ?_⟩⟩
    rw [hc y, (c y hy).2]
    unfold Obj.children
    simp only [List.mem_append]
    tauto
  · refine ⟨fun v hv => ?_, fun q hq => ?_⟩
    · rw [hc v, H.t504.1 v hv]
      unfold Obj.children
      simp only [List.mem_append]
      tauto
    · rw [hc q.curv]
      · exact H.t504.2 q hq
      · have := List.mem_map_of_mem (f := Edge.curv) hq
        unfold Obj.children
        simp only [List.mem_append]
        tauto

theorem newObj_props (t : Nat) : (newObj t).refs = [] ∧ (newObj t).children = []
    ∧ (newObj t).de = List.replicate 7 none ∧ (newObj t).extras = [] ∧ (newObj t).kids = []
    ∧ (newObj t).edges = [] ∧ (newObj t).verts = [] ∧ (newObj t).loops = []
    ∧ (newObj t).redges = [] ∧ (newObj t).own.length = ownSize (newObj t).etype
    ∧ (newObj t).etype ≠ 402 := by
  unfold newObj
  split
  · rename_i h
    simp only [List.mem_cons, List.not_mem_nil, or_false] at h
    rcases h with h | h | h | h | h | h | h | h | h | h | h <;> subst h <;> decide
  · split
    · rename_i h; rcases h with h | h <;> subst h <;> decide
    · split
      · rename_i h; rcases h with h | h | h | h <;> subst h <;> decide
      · split
        · rename_i h; subst h; decide
        · split
          · rename_i h; subst h; decide
          · split
            · rename_i h; rcases h with h | h | h <;> subst h <;> decide
            · split
              · rename_i h; subst h; decide
              · split
                · rename_i h; subst h; decide
                · decide

theorem newObj_ok {ty : Nat → Nat} {i t : Nat} (h : ty i = (newObj t).etype) :
    ObjOk ty [] i (newObj t) := by
  obtain ⟨a, b, c, d, e, f, g, k, l, m, n⟩ := newObj_props t
  refine ⟨h.symm, n, by rw [a]; simp, by rw [b]; simp, by rw [b]; simp, fun _ => ⟨a, b⟩, ?_,
    fun _ => ⟨f, g⟩, ⟨k, l⟩, fun _ => e, ?_, ?_, by rw [c]; rfl, m⟩
  · intro _
    refine ⟨d, e, ?_⟩
    rw [c]
    intro y hy
    simp at hy
  · rw [f, g]; simp
  · rw [f, g]
    refine ⟨by simp, by simp, by simp, by simp⟩

theorem new_ok {ty h} (G : Good ty h) {i : Nat} (hi : h i = none) (t : Nat) :
    ∃ ty', Good ty' (h.put i (newObj t)) := by
  refine ⟨Function.update ty i (newObj t).etype, ?_, ?_⟩
  · refine Loc.put ?_ (newObj_ok (by simp))
    intro x o hx
    have hxi : x ≠ i := by rintro rfl; rw [hi] at hx; cases hx
    refine (G.loc x o hx).congr (by simp [hxi]) ?_
    intro c hc
    obtain ⟨oc, h1, _⟩ := G.live hx hc
    have : c ≠ i := by rintro rfl; rw [hi] at h1; cases h1
    simp [this]
  · intro p c
    rw [Ch_put, Us_put, (newObj_props t).1, (newObj_props t).2.1, G.sym]
    simp only [List.not_mem_nil, and_false, false_or]
    constructor
    · rintro ⟨h1, h2⟩
      refine ⟨?_, h2⟩
      rintro rfl
      obtain ⟨o, h3, _⟩ := h2
      rw [hi] at h3; cases h3
    · rintro ⟨h1, h2⟩
      refine ⟨?_, h2⟩
      rintro rfl
      obtain ⟨o, h3, _⟩ := (G.sym p c).mpr h2
      rw [hi] at h3; cases h3

theorem slotDe {o : Obj} {i : Nat} (h : i < 7) : SlotIn o (.de i) := h

theorem rel_map {ty h} (G : Good ty h) {e : Nat} {o : Obj} (he : h e = some o) {s : Slot}
    (hs : SlotIn o s) (b : Bool) :
    ∃ h' b', (release h e s).map (·, b) = some (h', b') ∧ Fine ty h h' := by
  obtain ⟨h1, a, F, _⟩ := release_ok G he hs
  exact ⟨h1, b, by rw [a]; rfl, F⟩

theorem ownIn {o : Obj} {t i : Nat} (h : o.etype = t) (hi : i < ownSize t) :
    SlotIn o (.own i) := by
  simp only [SlotIn, h]; exact hi

theorem isCurve_ne {t : Nat} (h : isCurve t) :
    t ≠ 120 ∧ t ≠ 122 ∧ t ≠ 164 := by
  rcases h with h | h | h | h | h <;> omega

theorem surface144_ne {t : Nat} (h : surface144 t = true) : t ≠ 144 := by
  rintro rfl; revert h; decide

/-- Every legal and careful call other than creation and deletion is defined, and keeps the graph
in order. -/
theorem call_ok {ty h} (G : Good ty h) {c : Call} (hl : Legal h c) (hc : Careful h c)
    (hn : ∀ i t, c ≠ .new i t) (hd : ∀ e, c ≠ .del e) :
    ∃ h' b, step h c = some (h', b) ∧ Fine ty h h' := by
  cases c with
  | new i t => exact absurd rfl (hn i t)
  | del e => exact absurd rfl (hd e)
  | setTransform e t =>
    obtain ⟨⟨o, he, _⟩, ht⟩ := hl
    simp only [step, SetTransform, he]
    split
    · exact ⟨h, true, rfl, G.fine⟩
    · split
      · exact ⟨h, false, rfl, G.fine⟩
      · rename_i h1 h2
        cases t with
        | none => exact rel_map G he (slotDe (by decide)) true
        | some x =>
          obtain ⟨ox, hx, _⟩ := ht x rfl
          simp only [hx]
          split
          · rename_i h124
            refine setBefore_ok G he hx ⟨slotDe (by decide), by tauto, fun _ => ⟨rfl, ?_⟩⟩
              (fun _ => Or.inl ⟨4, rfl⟩) false
            rw [← (G.loc x ox hx).type, h124]
          · exact rel_map G he (slotDe (by decide)) false
  | setColor e t =>
    obtain ⟨⟨o, he, _⟩, ht⟩ := hl
    simp only [step, SetColor, he]
    split
    · exact ⟨h, true, rfl, G.fine⟩
    · split
      · exact ⟨h, false, rfl, G.fine⟩
      · rename_i h1 h2
        cases t with
        | none => exact rel_map G he (slotDe (by decide)) true
        | some x =>
          obtain ⟨ox, hx, _⟩ := ht x rfl
          simp only [hx]
          split
          · rename_i h314
            refine setAfter_ok G he hx ?_ ⟨slotDe (by decide), by tauto, fun h => by tauto⟩ false
            rintro rfl
            rw [he] at hx; cases hx; exact h1 h314
          · exact rel_map G he (slotDe (by decide)) false
  | addOptional e x =>
    obtain ⟨⟨o, he, _⟩, ⟨ox, hx, _⟩⟩ := hl
    exact addOptional_ok G he hx hc.1 (hc.2 o he)
  | addSegment e x k =>
    obtain ⟨⟨o, he, h102⟩, ha⟩ := hl
    simp only [step, AddSegment, he]
    cases x with
    | none => exact ⟨h, false, rfl, G.fine⟩
    | some x =>
      obtain ⟨ox, hx, hcv⟩ := ha x rfl
      simp only [hx]
      split
      · exact ⟨h, false, rfl, G.fine⟩
      · split
        · exact ⟨h, false, rfl, G.fine⟩
        · rename_i h1 _
          refine addKid_ok G he hx ?_ (by omega) true true
          rintro rfl
          rw [he] at hx; cases hx; exact h1 h102
  | setL e x =>
    obtain ⟨⟨o, he, h120⟩, ha⟩ := hl
    simp only [step, SetL]
    cases x with
    | none => exact ⟨h, false, rfl, G.fine⟩
    | some x =>
      obtain ⟨ox, hx, hcv⟩ := ha x rfl
      simp only [hx]
      split
      · refine setAfter_ok G he hx ?_ ⟨ownIn h120 (by decide), by omega, fun h => by omega⟩ true
        rintro rfl
        rw [he] at hx; cases hx; omega
      · exact ⟨h, false, rfl, G.fine⟩
  | setC e x =>
    obtain ⟨⟨o, he, h120⟩, ha⟩ := hl
    simp only [step, SetC]
    cases x with
    | none => exact ⟨h, false, rfl, G.fine⟩
    | some x =>
      obtain ⟨ox, hx, hcv⟩ := ha x rfl
      refine setAfter_ok G he hx ?_ ⟨ownIn h120 (by decide), by omega, fun h => by omega⟩ true
      rintro rfl
      rw [he] at hx; cases hx; exact (isCurve_ne hcv).1 h120
  | setDE122 e x =>
    obtain ⟨⟨o, he, h122⟩, ha, hx0⟩ := hl
    simp only [step, SetDE122]
    cases x with
    | none => exact absurd rfl hx0
    | some x =>
      obtain ⟨ox, hx, hcv⟩ := ha x rfl
      refine setAfter_ok G he hx ?_ ⟨ownIn h122 (by decide), by omega, fun h => by omega⟩ true
      rintro rfl
      rw [he] at hx; cases hx; exact (isCurve_ne hcv).2.1 h122
  | set142 e i x =>
    obtain ⟨⟨o, he, h142⟩, hi, ha⟩ := hl
    simp only [step, Set142]
    have hin : i < ownSize 142 := by simpa [ownSize] using hi
    cases x with
    | none => exact rel_map G he (ownIn h142 hin) true
    | some x =>
      obtain ⟨ox, hx, _⟩ := ha x rfl
      exact setBefore_ok G he hx ⟨ownIn h142 hin, by omega, fun h => by omega⟩
        (fun _ => Or.inr h142) true
  | setPTS e x =>
    obtain ⟨⟨o, he, h144⟩, ha⟩ := hl
    simp only [step, SetPTS]
    cases x with
    | none => exact rel_map G he (ownIn h144 (by decide)) true
    | some x =>
      obtain ⟨ox, hx, _⟩ := ha x rfl
      simp only [hx]
      split
      · rename_i hsf
        refine setBefore_ok G he hx ⟨ownIn h144 (by decide), by omega, fun h => by omega⟩ ?_ true
        rintro rfl
        rw [he] at hx; cases hx
        exact absurd h144 (surface144_ne hsf)
      · exact rel_map G he (ownIn h144 (by decide)) false
  | setPTO e x =>
    obtain ⟨⟨o, he, h144⟩, ha⟩ := hl
    simp only [step, SetPTO]
    cases x with
    | none => exact rel_map G he (ownIn h144 (by decide)) true
    | some x =>
      obtain ⟨ox, hx, h142⟩ := ha x rfl
      refine setBefore_ok G he hx ⟨ownIn h144 (by decide), by omega, fun h => by omega⟩ ?_ true
      rintro rfl
      rw [he] at hx; cases hx; omega
  | addPTI e x =>
    obtain ⟨⟨o, he, h144⟩, ha⟩ := hl
    simp only [step, AddPTI, he]
    cases x with
    | none => exact ⟨h, false, rfl, G.fine⟩
    | some x =>
      obtain ⟨ox, hx, h142⟩ := ha x rfl
      simp only
      split
      · exact ⟨h, true, rfl, G.fine⟩
      · refine addKid_ok G he hx ?_ (by omega) true false
        rintro rfl
        rw [he] at hx; cases hx; omega
  | delPTI e x =>
    obtain ⟨⟨o, he, h144⟩, _⟩ := hl
    simp only [step, delKid, he]
    rw [if_neg (hc o he)]
    exact ⟨h, false, rfl, G.fine⟩
  | setClosedCurve e x k =>
    obtain ⟨⟨o, he, h164⟩, ha⟩ := hl
    simp only [step, SetClosedCurve]
    cases x with
    | none => exact ⟨h, false, rfl, G.fine⟩
    | some x =>
      obtain ⟨ox, hx, hcv⟩ := ha x rfl
      simp only
      split
      · refine setBefore_ok G he hx ⟨ownIn h164 (by decide), by omega, fun h => by omega⟩ ?_ true
        rintro rfl
        rw [he] at hx; cases hx
        exact absurd h164 (isCurve_ne hcv).2.2
      · exact ⟨h, false, rfl, G.fine⟩
  | addArg e x =>
    obtain ⟨⟨o, he, h180⟩, ha, hx0⟩ := hl
    simp only [step, AddArg]
    cases x with
    | none => exact absurd rfl hx0
    | some x =>
      obtain ⟨ox, hx, _⟩ := ha x rfl
      simp only [hx]
      split
      · refine addKid_ok G he hx ?_ (by omega) false false
        rintro rfl
        exact hc rfl
      · exact ⟨h, false, rfl, G.fine⟩
  | clearNodes e =>
    obtain ⟨o, he, _⟩ := hl
    obtain ⟨h', a, F⟩ := clearNodes_ok G he
    exact ⟨h', true, by simp [step, a], F⟩
  | addDE e x =>
    obtain ⟨⟨o, he, h308⟩, ha⟩ := hl
    simp only [step, AddDE, he]
    cases x with
    | none => exact ⟨h, false, rfl, G.fine⟩
    | some x =>
      obtain ⟨ox, hx, _⟩ := ha x rfl
      simp only
      split
      · exact ⟨h, false, rfl, G.fine⟩
      · split
        · exact ⟨h, true, rfl, G.fine⟩
        · refine addKid_ok G he hx ?_ (by omega) true false
          rintro rfl
          exact hc rfl
  | delDE e x =>
    obtain ⟨⟨o, he, _⟩, _⟩ := hl
    simp only [step, delKid, he]
    rw [if_neg (hc o he)]
    exact ⟨h, false, rfl, G.fine⟩
  | setDE408 e x =>
    obtain ⟨⟨o, he, h408⟩, ha⟩ := hl
    simp only [step, SetDE408]
    cases x with
    | none => exact rel_map G he (ownIn h408 (by decide)) true
    | some x =>
      obtain ⟨ox, hx, h308⟩ := ha x rfl
      simp only [hx, if_pos h308]
      refine setBefore_ok G he hx ⟨ownIn h408 (by decide), by omega, fun h => by omega⟩ ?_ false
      rintro rfl
      rw [he] at hx; cases hx; omega
  | addEdge e x s sv t tv =>
    obtain ⟨⟨o, he, h504⟩, ha, hs, ht⟩ := hl
    refine addEdge_ok G he h504 ?_ hs ht sv tv
    intro y hy
    obtain ⟨oy, h1, _⟩ := ha y hy
    exact ⟨oy, h1⟩
  | setSurface e x =>
    obtain ⟨⟨o, he, _⟩, _⟩ := hl
    have hx : x = none := hc
    subst hx
    simp only [step, SetSurface, he]
    exact ⟨h, false, rfl, G.fine⟩
  | addBound e x =>
    obtain ⟨⟨o, he, _⟩, _⟩ := hl
    have hx : x = none := hc
    subst hx
    simp only [step, AddBound, he]
    exact ⟨h, false, rfl, G.fine⟩
  | addVertex e =>
    obtain ⟨o, he, h502⟩ := hl
    simp only [step, he, Option.map_some]
    exact ⟨_, true, rfl, G.put he rfl rfl ((G.loc e o he).npts _)⟩

/-- Every legal and careful call is defined, and keeps the graph in order. -/
theorem step_ok {ty h} (G : Good ty h) {c : Call} (hl : Legal h c) (hc : Careful h c) :
    ∃ ty' h' b, step h c = some (h', b) ∧ Good ty' h' := by
  by_cases hn : ∃ i t, c = .new i t
  · obtain ⟨i, t, rfl⟩ := hn
    obtain ⟨ty', G'⟩ := new_ok G hl t
    exact ⟨ty', _, true, rfl, G'⟩
  · by_cases hd : ∃ e, c = .del e
    · obtain ⟨e, rfl⟩ := hd
      obtain ⟨o, he, _⟩ := hl
      obtain ⟨h', a, b, d, _⟩ := destroy_ok G.loc G.sym he hc
      exact ⟨ty, h', true, by simp [step, a], b, d⟩
    · obtain ⟨h', b, h1, F⟩ := call_ok G hl hc (fun i t h => hn ⟨i, t, h⟩) (fun e h => hd ⟨e, h⟩)
      exact ⟨ty, h', b, h1, F.1⟩

theorem runFrom_ok : ∀ (l : List Call) (ty : Nat → Nat) (h : Heap), Good ty h → CarefulRun h l →
    ∃ ty' h', runFrom h l = some h' ∧ Good ty' h'
  | [], ty, h, G, _ => ⟨ty, h, rfl, G⟩
  | c :: l, ty, h, G, hr => by
    obtain ⟨ty', h', b, h1, G'⟩ := step_ok G hr.1 hr.2.1
    obtain ⟨ty'', h'', h2, G''⟩ := runFrom_ok l ty' h' G' (hr.2.2 h' b h1)
    exact ⟨ty'', h'', by rw [runFrom, h1]; exact h2, G''⟩

theorem good_empty : Good (fun _ => 0) emptyHeap := by
  refine ⟨fun x o h => ?_, fun p c => ?_⟩
  · cases h
  · constructor
    · rintro ⟨o, h, _⟩; cases h
    · rintro ⟨o, h, _⟩; cases h

theorem Good.symmetric {ty h} (G : Good ty h) : Symmetric h := by
  classical
  intro p c
  have hs := G.sym p c
  unfold uses listed
  have h1 : ∀ o, h p = some o → o.children.count c = if Ch h p c then 1 else 0 := by
    intro o ho
    have hnd := (G.loc p o ho).chNd
    by_cases hm : c ∈ o.children
    · rw [if_pos ⟨o, ho, hm⟩, List.count_eq_one_of_mem hnd hm]
    · rw [if_neg (by rw [Ch_of ho]; exact hm), List.count_eq_zero.mpr hm]
  have h2 : ∀ o, h c = some o → o.refs.count p = if Us h c p then 1 else 0 := by
    intro o ho
    have hnd := (G.loc c o ho).refsNd
    by_cases hm : p ∈ o.refs
    · rw [if_pos ⟨o, ho, hm⟩, List.count_eq_one_of_mem hnd hm]
    · rw [if_neg (by rw [Us_of ho]; exact hm), List.count_eq_zero.mpr hm]
  cases hp : h p with
  | none =>
    have : ¬ Us h c p := by rw [← hs]; rintro ⟨o, ho, _⟩; rw [hp] at ho; cases ho
    cases hc : h c with
    | none => rfl
    | some oc => simp only; rw [h2 oc hc, if_neg this]
  | some op =>
    simp only
    rw [h1 op hp]
    cases hc : h c with
    | none =>
      have : ¬ Ch h p c := by rw [hs]; rintro ⟨o, ho, _⟩; rw [hc] at ho; cases ho
      rw [if_neg this]
    | some oc =>
      simp only
      rw [h2 oc hc]
      by_cases hu : Us h c p
      · rw [if_pos hu, if_pos (hs.mpr hu)]
      · rw [if_neg hu, if_neg (fun h => hu (hs.mp h))]

end Iges.Props.G

namespace Iges.Props

open Iges.Graph Iges.Spec Iges.Props.G

/-- A state that a careful program reaches. -/
def Reached (h : Heap) : Prop := ∃ l, CarefulRun emptyHeap l ∧ run l = some h

theorem Reached.good {h : Heap} (H : Reached h) : ∃ ty, Good ty h := by
  obtain ⟨l, h1, h2⟩ := H
  obtain ⟨ty, h', h3, G⟩ := runFrom_ok l _ _ good_empty h1
  unfold run at h2
  rw [h3] at h2
  cases h2
  exact ⟨ty, G⟩

/-- **C20** (partial).  A program of any length that makes only legal and careful calls never
meets undefined behaviour, and afterwards pointers and lists of users agree: entity `p` stands in
the list of users of `c` exactly as often as `p` points at `c`, and deleted entities are neither
pointed at nor listed.

Missing for the full property: the calls excluded by `Careful`, for which it is false
(`Verif/Props/GraphBugs.lean`), and the classes with no pointer-setting call in this model (508
loops, 514 shells and 186 solids, whose own pointer calls are not modelled). -/
theorem C20_references_symmetric_partial (l : List Call) (hl : CarefulRun emptyHeap l) :
    ∃ h, run l = some h ∧ Symmetric h := by
  obtain ⟨ty, h, h1, G⟩ := runFrom_ok l _ _ good_empty hl
  exact ⟨h, h1, G.symmetric⟩

/-- **C21** (partial).  Deleting an entity of a reached state is defined; afterwards it is gone,
no entity points at it and no entity lists it as a user; all others survive with their type,
nobody gains a pointer, and every pointer between two survivors stays, except in composite curves
(102) and edge lists (504), which may also drop siblings of the deleted entity.  Pointers and
lists of users still agree.

Missing for the full property: deletions excluded by `Careful` (operand of a boolean tree with
further operands, vertex list in use), for which it is false; validity flags are treated
separately (C22). -/
theorem C21_delete_leaves_nothing_partial (h : Heap) (hr : Reached h) (e : Nat)
    (hl : Legal h (.del e)) (hc : Careful h (.del e)) :
    ∃ h', destroy h e = some h' ∧ h' e = none
      ∧ (∀ p, uses h' p e = 0) ∧ (∀ c, listed h' c e = 0) ∧ Symmetric h'
      ∧ (∀ x o, x ≠ e → h x = some o → ∃ o', h' x = some o' ∧ o'.etype = o.etype)
      ∧ (∀ p c, uses h' p c ≤ uses h p c)
      ∧ (∀ p o c, h p = some o → o.etype ≠ 102 → o.etype ≠ 504 → p ≠ e → c ≠ e →
          uses h' p c = uses h p c) := by
  obtain ⟨ty, G⟩ := hr.good
  obtain ⟨o, he, _⟩ := hl
  obtain ⟨h', h1, h2, h3, h4, F⟩ := destroy_ok G.loc G.sym he hc
  have G' : Good ty h' := ⟨h2, h3⟩
  have S' := G'.symmetric
  have hz : ∀ c, listed h' c e = 0 := by
    intro c
    rw [← S' e c]
    unfold uses
    rw [h4]
  have one : ∀ {k : Heap}, Good ty k → ∀ p c, uses k p c = 1 ∧ Ch k p c ∨ uses k p c = 0 ∧ ¬ Ch k p c := by
    intro k Gk p c
    unfold uses
    cases hp : k p with
    | none =>
      right
      exact ⟨rfl, by rintro ⟨o, ho, _⟩; rw [hp] at ho; cases ho⟩
    | some op =>
      simp only
      by_cases hm : c ∈ op.children
      · left; exact ⟨List.count_eq_one_of_mem (Gk.loc p op hp).chNd hm, ⟨op, hp, hm⟩⟩
      · right; exact ⟨List.count_eq_zero.mpr hm, by rw [Ch_of hp]; exact hm⟩
  refine ⟨h', h1, h4, ?_, hz, S', ?_, ?_, ?_⟩
  · intro p
    rw [S' p e]
    unfold listed
    rw [h4]
  · intro x ox hx hox
    have := F.types x hx
    rw [hox] at this
    cases hh : h' x with
    | none => rw [hh] at this; cases this
    | some o' => rw [hh] at this; exact ⟨o', rfl, by simpa using this⟩
  · intro p c
    rcases one G' p c with ⟨a, b⟩ | ⟨a, b⟩
    · rcases one G p c with ⟨a', b'⟩ | ⟨a', b'⟩
      · omega
      · exact absurd (F.ch p c b) b'
    · omega
  · intro p op c hp t1 t2 hpe hce
    have ht : ty p = op.etype := ((G.loc p op hp).type).symm
    rcases one G' p c with ⟨a, b⟩ | ⟨a, b⟩
    · rcases one G p c with ⟨a', b'⟩ | ⟨a', b'⟩
      · omega
      · exact absurd (F.ch p c b) b'
    · rcases one G p c with ⟨a', b'⟩ | ⟨a', b'⟩
      · exact absurd (F.keep p c (by omega) (by omega) hpe hce b') b
      · omega

/-- **C41** (partial).  In every reached state, an edge list is registered as a user of a vertex
list exactly if one of its edges uses that vertex list as start or end; the registration is
single, the vertex list is alive and of type 502, and the stored counter equals the number of
uses.

Missing for the full property: states reached by the calls `Careful` excludes, in particular the
deletion of a vertex list in use, which is undefined behaviour. -/
theorem C41_vertex_list_shared_partial (h : Heap) (hr : Reached h) (e : Nat) (o : Obj)
    (he : h e = some o) (h504 : o.etype = 504) (v : Nat) :
    (0 < edgeUses o.edges v ↔ v ∈ o.verts.map Prod.fst)
      ∧ (0 < edgeUses o.edges v →
          listed h v e = 1 ∧ (∃ ov, h v = some ov ∧ ov.etype = 502)
          ∧ ∃ n, (v, n) ∈ o.verts ∧ n = (edgeUses o.edges v : Int))
      ∧ (∀ ov, h v = some ov → ov.etype = 502 → some v ∉ o.de → v ∉ o.extras →
          edgeUses o.edges v = 0 → listed h v e = 0) := by
  obtain ⟨ty, G⟩ := hr.good
  have H := G.loc e o he
  have key : 0 < edgeUses o.edges v ↔ v ∈ o.verts.map Prod.fst := by
    constructor
    · intro h0
      by_contra hn
      rw [edgeUses_zero H.counts hn] at h0
      exact absurd h0 (by omega)
    · intro hm
      obtain ⟨q, hq, rfl⟩ := List.mem_map.mp hm
      have h1 := H.counts.cnt q hq
      have h2 := H.counts.pos q hq
      simp only [List.count_nil] at h1
      omega
  have hch : v ∈ o.verts.map Prod.fst → v ∈ o.children := by
    intro hv
    rw [children_eq H.noLoop.1 H.noLoop.2]
    exact List.mem_append_right _ hv
  refine ⟨key, ?_, ?_⟩
  · intro h0
    have hm := key.mp h0
    obtain ⟨ov, h1, _, _⟩ := G.live he (hch hm)
    refine ⟨?_, ⟨ov, h1, ?_⟩, ?_⟩
    · rw [← G.symmetric e v]
      unfold uses
      rw [he]
      exact List.count_eq_one_of_mem H.chNd (hch hm)
    · rw [(G.loc v ov h1).type]; exact H.t504.1 v hm
    · obtain ⟨q, hq, rfl⟩ := List.mem_map.mp hm
      refine ⟨q.2, hq, ?_⟩
      have := H.counts.cnt q hq
      simpa using this
  · intro ov hv h502 hde hex h0
    rw [← G.symmetric e v]
    unfold uses
    rw [he]
    refine List.count_eq_zero.mpr ?_
    rw [children_eq H.noLoop.1 H.noLoop.2]
    have hown : o.own = [] := by
      have := H.ownLen
      rw [h504] at this
      simpa [ownSize] using this
    have hkids := H.noKids (Or.inl h504)
    have hcurv : v ∉ o.edges.map Edge.curv := by
      intro hm
      obtain ⟨q, hq, hqv⟩ := List.mem_map.mp hm
      apply H.t504.2 q hq
      rw [hqv, ← (G.loc v ov hv).type, h502]
    have hvs : v ∉ o.verts.map Prod.fst := by rw [← key]; omega
    simp only [hown, hkids, List.mem_append, not_or, List.filterMap_nil, List.not_mem_nil,
      not_false_eq_true, and_true]
    refine ⟨⟨⟨?_, hex⟩, hcurv⟩, hvs⟩
    simpa using hde

/-! ### A program that meets the hypotheses -/

theorem CarefulRun.cons {h : Heap} {c : Call} {l : List Call} (hl : Legal h c) (hc : Careful h c)
    {h1 : Heap} {b1 : Bool} (hs : step h c = some (h1, b1)) (hr : CarefulRun h1 l) :
    CarefulRun h (c :: l) := by
  refine ⟨hl, hc, fun h' b h2 => ?_⟩
  rw [hs] at h2
  cases h2
  exact hr

/-- An edge list with a line between two points of one vertex list; the line has a transform,
which is deleted. -/
def sampleProgram : List Call :=
  [.new 1 504, .new 2 502, .new 3 110, .new 4 124, .addVertex 2, .addVertex 2,
   .addEdge 1 (some 3) (some 2) 1 (some 2) 2, .setTransform 3 (some 4), .del 4]

/-- The sample program is careful. -/
theorem sampleProgram_careful : CarefulRun emptyHeap sampleProgram := by
  unfold sampleProgram
  refine CarefulRun.cons rfl trivial rfl ?_
  refine CarefulRun.cons rfl trivial rfl ?_
  refine CarefulRun.cons rfl trivial rfl ?_
  refine CarefulRun.cons rfl trivial rfl ?_
  refine CarefulRun.cons ⟨_, rfl, rfl⟩ trivial rfl ?_
  refine CarefulRun.cons ⟨_, rfl, rfl⟩ trivial rfl ?_
  refine CarefulRun.cons ⟨⟨_, rfl, rfl⟩, ?_, ?_, ?_⟩ trivial rfl ?_
  · rintro x h; cases h; exact ⟨_, rfl, trivial⟩
  · rintro x h; cases h; exact ⟨_, rfl, rfl⟩
  · rintro x h; cases h; exact ⟨_, rfl, rfl⟩
  refine CarefulRun.cons ⟨⟨_, rfl, trivial⟩, ?_⟩ trivial rfl ?_
  · rintro x h; cases h; exact ⟨_, rfl, trivial⟩
  refine CarefulRun.cons ⟨_, rfl, trivial⟩ ?_ rfl trivial
  intro p o hp
  by_cases h1 : p = 1
  · subst h1; cases hp; decide
  by_cases h2 : p = 2
  · subst h2; cases hp; decide
  by_cases h3 : p = 3
  · subst h3; cases hp; decide
  by_cases h4 : p = 4
  · subst h4; cases hp; decide
  · exfalso
    have : (none : Option Obj) = some o := by
      rw [← hp]
      simp [Heap.put, h1, h2, h3, h4, emptyHeap]
    cases this

/-- The hypotheses of C20 hold of a program that connects and deletes. -/
example : ∃ h, run sampleProgram = some h ∧ Symmetric h :=
  C20_references_symmetric_partial _ sampleProgram_careful

/-- The state it reaches: the edge list uses the line and the vertex list (twice, registered
once), the transform is gone. -/
example : (run sampleProgram).map (fun h => [uses h 1 3, uses h 1 2, listed h 2 1, uses h 3 4])
    = some [1, 1, 1, 0] := by decide +kernel
example : (run sampleProgram).map (fun h => (h 1).map Obj.verts)
    = some (some [(2, 2)]) := by decide +kernel

/-- The hypotheses of C21 and C41 hold of that state. -/
example : ∃ h, Reached h ∧ Legal h (.del 3) ∧ Careful h (.del 3)
    ∧ ∃ o, h 1 = some o ∧ o.etype = 504 ∧ 0 < edgeUses o.edges 2 := by
  refine ⟨_, ⟨sampleProgram, sampleProgram_careful, rfl⟩, ⟨_, rfl, trivial⟩, ?_, _, rfl, rfl,
    by decide⟩
  intro p o hp
  by_cases h1 : p = 1
  · subst h1; cases hp; decide
  by_cases h2 : p = 2
  · subst h2; cases hp; decide
  by_cases h3 : p = 3
  · subst h3; cases hp; decide
  by_cases h4 : p = 4
  · subst h4; cases hp
  · exfalso
    have : (none : Option Obj) = some o := by
      rw [← hp]
      simp [Heap.put, Heap.free, h1, h2, h3, h4, emptyHeap]
    cases this

end Iges.Props
