import Verif.Props.GraphInv
import Verif.Props.GraphDel
import Verif.Model.Lists

/-!
No call creates or destroys an entity, except the constructor and the destructor.
-/

namespace Iges.Props.Live

open Iges.Graph Iges.Props.G

/-- The same entities are alive. -/
def Same (h h' : Heap) : Prop := ∀ x, (h' x).isSome = (h x).isSome

theorem Same.refl (h : Heap) : Same h h := fun _ => rfl

theorem Same.trans {h h' h'' : Heap} (a : Same h h') (b : Same h' h'') : Same h h'' :=
  fun x => (b x).trans (a x)

theorem Same.put {h h' : Heap} (a : Same h h') {i : Nat} {o : Obj} (hi : h' i = some o) (o' : Obj) :
    Same h (h'.put i o') := by
  intro x
  by_cases hx : x = i
  · subst hx
    rw [put_self, ← a x, hi]; rfl
  · rw [put_ne _ _ hx]; exact a x

theorem addRef_same {h : Heap} {c p : Nat} {h' : Heap} {b d : Bool}
    (H : addRef h c p = some (h', b, d)) : Same h h' := by
  unfold addRef at H
  split at H
  · cases H
  · rename_i o ho
    split at H
    · cases H
    · rename_i po hp
      repeat' split at H
      all_goals
        simp only [Option.some.injEq, Prod.mk.injEq] at H
        obtain ⟨rfl, -, -⟩ := H
      all_goals first
        | exact Same.refl _
        | exact (Same.refl _).put ho _

theorem delRefNested_same {h : Heap} {c p : Nat} {h' : Heap}
    (H : delRefNested h c p = some h') : Same h h' := by
  unfold delRefNested at H
  split at H
  · cases H
  · rename_i o ho
    repeat' split at H
    all_goals first
      | cases H; done
      | (cases H; exact Same.refl _)
      | (cases H; exact (Same.refl _).put ho _)

theorem delRef_same {h : Heap} {c p : Nat} {h' : Heap} {b : Bool}
    (H : delRef h c p = some (h', b)) : Same h h' := by
  unfold delRef at H
  split at H
  · cases H
  · rename_i o ho
    split at H
    · cases H; exact Same.refl _
    · split at H
      · cases H; exact (Same.refl _).put ho _
      · split at H
        · cases H; exact Same.refl _
        · split at H
          · split at H
            · cases H
            · rename_i ox hox
              split at H
              · cases H
              · rename_i h1 hh
                have S : Same h h1 := by
                  split at hh
                  · cases hh; exact Same.refl _
                  · exact delRefNested_same hh
                split at H
                · cases H
                · rename_i o' ho'
                  cases H; exact S.put ho' _
          · cases H

theorem delRefs_same : ∀ (l : List Nat) {h : Heap} {p : Nat} {h' : Heap},
    delRefs h l p = some h' → Same h h'
  | [], h, p, h', H => by
    simp only [delRefs, Option.some.injEq] at H
    subst H; exact Same.refl _
  | c :: l, h, p, h', H => by
    unfold delRefs at H
    split at H
    · cases H
    · rename_i h1 b h2
      exact (delRef_same h2).trans (delRefs_same l H)

theorem delVertexList_same {h : Heap} {e v : Nat} {h' : Heap}
    (H : delVertexList h e v = some h') : Same h h' := by
  unfold delVertexList at H
  split at H
  · cases H
  · rename_i o ho
    split at H
    · cases H; exact Same.refl _
    · split at H
      · split at H
        · cases H
        · rename_i h1 b h2
          split at H
          · cases H
          · rename_i o' ho'
            cases H
            exact (delRef_same h2).put ho' _
      · cases H; exact (Same.refl _).put ho _

theorem unlink_same {h : Heap} {p c ct : Nat} {h' : Heap} {b : Bool}
    (H : unlink h p c ct = some (h', b)) : Same h h' := by
  unfold unlink at H
  split at H
  · cases H
  · rename_i o ho
    split at H
    · repeat' split at H
      all_goals first
        | (cases H; exact Same.refl _)
        | (cases H; exact (Same.refl _).put ho _)
    · split at H
      · cases H; exact Same.refl _
      · split at H
        · cases H; exact (Same.refl _).put ho _
        · split at H
          · split at H
            · split at H
              · split at H
                · cases H
                · rename_i h1 hh
                  split at H
                  · cases H
                  · rename_i o' ho'
                    cases H
                    exact (((Same.refl _).put ho _).trans (delRefs_same _ hh)).put ho' _
              · cases H; exact (Same.refl _).put ho _
            · cases H; exact Same.refl _
          · split at H
            · split at H
              · cases H; exact (Same.refl _).put ho _
              · cases H; exact Same.refl _
            · split at H
              · split at H
                · split at H
                  · cases H
                  · cases H; exact Same.refl _
                · split at H
                  · cases H; exact Same.refl _
                  · split at H
                    · cases H
                    · rename_i h1 hh1
                      split at H
                      · cases H
                      · rename_i h2 hh2
                        split at H
                        · cases H
                        · rename_i o2 ho2
                          cases H
                          exact ((delVertexList_same hh1).trans (delVertexList_same hh2)).put ho2 _
              · split at H
                · split at H
                  · cases H
                  · cases H; exact Same.refl _
                · split at H
                  · cases H; exact (Same.refl _).put ho _
                  · split at H
                    · cases H; exact (Same.refl _).put ho _
                    · cases H; exact Same.refl _

theorem unlinkAll_same : ∀ (l : List Nat) {h : Heap} {c ct : Nat} {h' : Heap},
    unlinkAll h l c ct = some h' → Same h h'
  | [], h, c, ct, h', H => by
    simp only [unlinkAll, Option.some.injEq] at H
    subst H; exact Same.refl _
  | p :: l, h, c, ct, h', H => by
    unfold unlinkAll at H
    split at H
    · cases H
    · rename_i h1 b h2
      exact (unlink_same h2).trans (unlinkAll_same l H)

theorem dropExtras_same : ∀ (l : List Nat) {h : Heap} {e et : Nat} {h' : Heap},
    dropExtras h l e et = some h' → Same h h'
  | [], h, e, et, h', H => by
    simp only [dropExtras, Option.some.injEq] at H
    subst H; exact Same.refl _
  | x :: l, h, e, et, h', H => by
    unfold dropExtras at H
    split at H
    · cases H
    · rename_i ox hox
      split at H
      · cases H
      · rename_i h1 hh
        have S : Same h h1 := by
          split at hh
          · cases hu : unlink h x e et with
            | none => rw [hu] at hh; cases hh
            | some r =>
              rw [hu] at hh; cases hh
              exact unlink_same (b := r.2) hu
          · cases hu : delRef h x e with
            | none => rw [hu] at hh; cases hh
            | some r =>
              rw [hu] at hh; cases hh
              exact delRef_same (b := r.2) hu
        exact S.trans (dropExtras_same l H)

theorem unlinkFold_same : ∀ (l : List Nat) {h : Heap} {e ct : Nat} {h' : Heap},
    l.foldlM (fun h c => (unlink h c e ct).map Prod.fst) h = some h' → Same h h'
  | [], h, e, ct, h', H => by
    simp only [List.foldlM_nil, Option.pure_def, Option.some.injEq] at H
    subst H; exact Same.refl _
  | x :: l, h, e, ct, h', H => by
    simp only [List.foldlM_cons, Option.bind_eq_bind] at H
    cases hu : unlink h x e ct with
    | none => rw [hu] at H; cases H
    | some r =>
      rw [hu] at H
      exact (unlink_same (b := r.2) hu).trans (unlinkFold_same l H)

theorem ownDtor_same {h : Heap} {e : Nat} {h' : Heap} (H : ownDtor h e = some h') : Same h h' := by
  unfold ownDtor at H
  split at H
  · cases H
  · split at H
    · exact unlinkFold_same _ H
    · exact delRefs_same _ H

/-- The destructor destroys the entity, and no other. -/
theorem destroy_live {h : Heap} {e : Nat} {h' : Heap} (H : destroy h e = some h') :
    (h e).isSome = true ∧ h' e = none ∧ ∀ x, x ≠ e → (h' x).isSome = (h x).isSome := by
  unfold destroy at H
  split at H
  · cases H
  · rename_i h1 hh1
    split at H
    · cases H
    · rename_i o ho
      split at H
      · cases H
      · rename_i h2 hh2
        split at H
        · cases H
        · rename_i h3 hh3
          have S1 := ownDtor_same hh1
          have S2 : Same (h1.free e) h' :=
            ((unlinkAll_same _ hh2).trans (dropExtras_same _ hh3)).trans (delRefs_same _ H)
          refine ⟨?_, ?_, ?_⟩
          · rw [← S1 e, ho]; rfl
          · have := S2 e
            rw [free_self] at this
            cases hx : h' e with
            | none => rfl
            | some y => rw [hx] at this; cases this
          · intro x hx
            rw [S2 x, free_ne _ hx, S1 x]

theorem release_same {h : Heap} {e : Nat} {s : Slot} {h' : Heap} (H : release h e s = some h') :
    Same h h' := by
  unfold release at H
  split at H
  · cases H
  · rename_i o ho
    split at H
    · cases H; exact Same.refl _
    · split at H
      · cases H
      · rename_i h1 b hh
        split at H
        · cases H
        · rename_i o' ho'
          cases H
          exact (delRef_same hh).put ho' _

theorem releaseMap_same {h : Heap} {e : Nat} {s : Slot} {a : Bool} {h' : Heap} {b : Bool}
    (H : (release h e s).map (·, a) = some (h', b)) : Same h h' := by
  cases hr : release h e s with
  | none => rw [hr] at H; cases H
  | some r => rw [hr] at H; cases H; exact release_same hr

theorem setDep_same (h : Heap) (c : Nat) : Same h (setDep h c) := by
  unfold setDep
  split
  · exact Same.refl _
  · rename_i o ho
    split
    · exact Same.refl _
    · exact (Same.refl _).put ho _

theorem depIf_same (h : Heap) (c : Nat) (d : Bool) : Same h (if d = true then setDep h c else h) := by
  cases d
  · exact Same.refl _
  · exact setDep_same h c

theorem setAfter_same {h : Heap} {e c : Nat} {s : Slot} {d : Bool} {h' : Heap} {b : Bool}
    (H : setAfter h e s c d = some (h', b)) : Same h h' := by
  unfold setAfter at H
  split at H
  · cases H
  · rename_i h1 hh1
    split at H
    · cases H
    · rename_i h2 ok dup hh2
      have S := (release_same hh1).trans (addRef_same hh2)
      split at H
      · split at H
        · cases H
        · rename_i o ho
          cases H
          exact (S.put ho _).trans (depIf_same _ _ _)
      · cases H; exact S

theorem setBefore_same {h : Heap} {e c : Nat} {s : Slot} {d : Bool} {h' : Heap} {b : Bool}
    (H : setBefore h e s c d = some (h', b)) : Same h h' := by
  unfold setBefore at H
  split at H
  · cases H
  · rename_i h1 hh1
    split at H
    · cases H
    · rename_i o1 ho1
      split at H
      · cases H
      · rename_i h2 ok dup hh2
        have S := ((release_same hh1).put ho1 _).trans (addRef_same hh2)
        split at H
        · cases H; exact S.trans (depIf_same _ _ _)
        · split at H
          · cases H
          · rename_i o ho
            cases H
            exact S.put ho _

theorem addKid_same {h : Heap} {e c : Nat} {d q : Bool} {h' : Heap} {b : Bool}
    (H : addKid h e c d q = some (h', b)) : Same h h' := by
  unfold addKid at H
  split at H
  · cases H
  · rename_i h1 ok dup hh
    have S := addRef_same hh
    split at H
    · split at H
      · cases H; exact S
      · have S2 := S.trans (depIf_same h1 c d)
        simp only at H
        generalize (if d = true then setDep h1 c else h1) = h2 at H S2
        split at H
        · cases H
        · rename_i o ho
          cases H
          exact S2.put ho _
    · cases H; exact S

theorem addVertexList_same {h : Heap} {e : Nat} {v : Option Nat} {h' : Heap} {b : Bool}
    (H : addVertexList h e v = some (h', b)) : Same h h' := by
  unfold addVertexList at H
  split at H
  · cases H
  · cases H; exact Same.refl _
  · rename_i o v ho
    split at H
    · cases H; exact (Same.refl _).put ho _
    · split at H
      · cases H
      · rename_i h1 ok dup hh
        have S := addRef_same hh
        split at H
        · split at H
          · cases H
          · rename_i o1 ho1
            cases H
            exact S.put ho1 _
        · cases H; exact S

theorem addEdge_same {h : Heap} {e : Nat} {c s t : Option Nat} {sv tv : Int} {h' : Heap} {b : Bool}
    (H : AddEdge h e c s sv t tv = some (h', b)) : Same h h' := by
  unfold AddEdge at H
  split at H
  · cases H; exact Same.refl _
  · rename_i c
    split at H
    · cases H
    · rename_i oc hoc
      split at H
      · cases H; exact Same.refl _
      · split at H
        · cases H
        · rename_i h1 ok dup hh1
          have S1 := addRef_same hh1
          split at H
          · cases H; exact S1
          · split at H
            · cases H
            · rename_i h2 hh2
              have S2 := S1.trans (addVertexList_same hh2)
              cases hd : delRef h2 c e with
              | none => rw [hd] at H; cases H
              | some r =>
                rw [hd] at H; cases H
                exact S2.trans (delRef_same (b := r.2) hd)
            · rename_i h2 hh2
              have S2 := S1.trans (addVertexList_same hh2)
              split at H
              · cases H
              · rename_i h3 hh3
                have S3 := S2.trans (addVertexList_same hh3)
                split at H
                · cases H
                · rename_i h4 b4 hh4
                  have S4 := S3.trans (delRef_same hh4)
                  cases s with
                  | none => cases H; exact S4
                  | some s =>
                    simp only [Option.elim] at H
                    cases hd : delVertexList h4 e s with
                    | none => rw [hd] at H; cases H
                    | some r =>
                      rw [hd] at H; cases H
                      exact S4.trans (delVertexList_same hd)
              · rename_i h3 hh3
                have S3 := S2.trans (addVertexList_same hh3)
                split at H
                · rename_i s t
                  split at H
                  · split at H
                    · split at H
                      · cases H
                      · rename_i h4 b4 hh4
                        have S4 := S3.trans (delRef_same hh4)
                        split at H
                        · cases H
                        · rename_i h5 hh5
                          have S5 := S4.trans (delVertexList_same hh5)
                          cases hd : delVertexList h5 e t with
                          | none => rw [hd] at H; cases H
                          | some r =>
                            rw [hd] at H; cases H
                            exact S5.trans (delVertexList_same hd)
                    · split at H
                      · cases H
                      · rename_i o ho
                        cases H
                        exact S3.put ho _
                  · cases H
                · cases H

theorem clearNodes_same {h : Heap} {e : Nat} {h' : Heap} (H : ClearNodes h e = some h') :
    Same h h' := by
  unfold ClearNodes at H
  split at H
  · cases H
  · split at H
    · cases H
    · rename_i h1 hh
      split at H
      · cases H
      · rename_i o1 ho1
        cases H
        exact (delRefs_same _ hh).put ho1 _

/-- No call but constructor and destructor creates or destroys an entity. -/
theorem step_same {h : Heap} {c : Call} (hn : ∀ i t, c ≠ .new i t) (hd : ∀ e, c ≠ .del e)
    {h' : Heap} {b : Bool} (H : Graph.step h c = some (h', b)) : Same h h' := by
  cases c with
  | new i t => exact absurd rfl (hn i t)
  | del e => exact absurd rfl (hd e)
  | setTransform e t =>
    simp only [Graph.step] at H
    unfold SetTransform at H
    repeat' split at H
    all_goals first
      | (cases H; done)
      | (cases H; exact Same.refl _)
      | exact releaseMap_same H
      | exact setBefore_same H
  | setColor e t =>
    simp only [Graph.step] at H
    unfold SetColor at H
    repeat' split at H
    all_goals first
      | (cases H; done)
      | (cases H; exact Same.refl _)
      | exact releaseMap_same H
      | exact setAfter_same H
  | addOptional e c =>
    simp only [Graph.step] at H
    unfold AddOptionalEntity at H
    split at H
    · cases H
    · rename_i o ho
      split at H
      · cases H
      · split at H
        · split at H
          · cases H
          · rename_i o1 ho1
            cases H; exact (Same.refl _).put ho _
        · split at H
          · split at H
            · cases H
            · rename_i h1 ok dup hh
              have S := addRef_same hh
              split at H
              · split at H
                · cases H
                · rename_i o1 ho1
                  cases H; exact S.put ho1 _
              · cases H; exact S
          · cases H; exact Same.refl _
  | addSegment e c k =>
    simp only [Graph.step] at H
    unfold AddSegment at H
    repeat' split at H
    all_goals first
      | (cases H; done)
      | (cases H; exact Same.refl _)
      | exact addKid_same H
  | setL e c =>
    simp only [Graph.step] at H
    unfold SetL at H
    repeat' split at H
    all_goals first
      | (cases H; done)
      | (cases H; exact Same.refl _)
      | exact setAfter_same H
  | setC e c =>
    simp only [Graph.step] at H
    unfold SetC at H
    repeat' split at H
    all_goals first
      | (cases H; done)
      | (cases H; exact Same.refl _)
      | exact setAfter_same H
  | setDE122 e c =>
    simp only [Graph.step] at H
    unfold SetDE122 at H
    repeat' split at H
    all_goals first
      | (cases H; done)
      | (cases H; exact Same.refl _)
      | exact setAfter_same H
  | set142 e i c =>
    simp only [Graph.step] at H
    unfold Set142 at H
    repeat' split at H
    all_goals first
      | exact releaseMap_same H
      | exact setBefore_same H
  | setPTS e c =>
    simp only [Graph.step] at H
    unfold SetPTS at H
    repeat' split at H
    all_goals first
      | (cases H; done)
      | exact releaseMap_same H
      | exact setBefore_same H
  | setPTO e c =>
    simp only [Graph.step] at H
    unfold SetPTO at H
    repeat' split at H
    all_goals first
      | exact releaseMap_same H
      | exact setBefore_same H
  | addPTI e c =>
    simp only [Graph.step] at H
    unfold AddPTI at H
    repeat' split at H
    all_goals first
      | (cases H; done)
      | (cases H; exact Same.refl _)
      | exact addKid_same H
  | delPTI e c =>
    simp only [Graph.step] at H
    unfold delKid at H
    split at H
    · cases H
    · rename_i o ho
      split at H
      · cases H; exact (Same.refl _).put ho _
      · cases H; exact Same.refl _
  | setClosedCurve e c k =>
    simp only [Graph.step] at H
    unfold SetClosedCurve at H
    repeat' split at H
    all_goals first
      | (cases H; done)
      | (cases H; exact Same.refl _)
      | exact setBefore_same H
  | addArg e c =>
    simp only [Graph.step] at H
    unfold AddArg at H
    repeat' split at H
    all_goals first
      | (cases H; done)
      | (cases H; exact Same.refl _)
      | exact addKid_same H
  | clearNodes e =>
    simp only [Graph.step] at H
    cases hr : ClearNodes h e with
    | none => rw [hr] at H; cases H
    | some r => rw [hr] at H; cases H; exact clearNodes_same hr
  | addDE e c =>
    simp only [Graph.step] at H
    unfold AddDE at H
    repeat' split at H
    all_goals first
      | (cases H; done)
      | (cases H; exact Same.refl _)
      | exact addKid_same H
  | delDE e c =>
    simp only [Graph.step] at H
    unfold delKid at H
    split at H
    · cases H
    · rename_i o ho
      split at H
      · cases H; exact (Same.refl _).put ho _
      · cases H; exact Same.refl _
  | setDE408 e c =>
    simp only [Graph.step] at H
    unfold SetDE408 at H
    repeat' split at H
    all_goals first
      | (cases H; done)
      | exact releaseMap_same H
      | exact setBefore_same H
  | addEdge e c s sv t tv => exact addEdge_same H
  | setSurface e c =>
    simp only [Graph.step] at H
    unfold SetSurface at H
    split at H
    · cases H
    · cases H; exact Same.refl _
    · rename_i o c ho
      cases H; exact (Same.refl _).put ho _
  | addBound e c =>
    simp only [Graph.step] at H
    unfold AddBound at H
    split at H
    · cases H
    · cases H; exact Same.refl _
    · rename_i o c ho
      cases H; exact (Same.refl _).put ho _
  | addVertex e =>
    simp only [Graph.step] at H
    cases ho : h e with
    | none => rw [ho] at H; cases H
    | some o => rw [ho] at H; cases H; exact (Same.refl _).put ho _

end Iges.Props.Live
