import Verif.Props.Graph
import Verif.Props.Live

/-!
Deleting an entity that nobody uses.
-/

namespace Iges.Props.G

open Iges.Graph Iges.Spec

theorem eraseRefs_apply (h : Heap) (S : List Nat) (p x : Nat) :
    eraseRefs h S p x = if x ∈ S then (h x).map (fun o => { o with refs := o.refs.erase p }) else h x :=
  rfl

/-- An entity without users is deleted without trouble: its children lose it as a user, nothing
else changes. -/
theorem destroy_unused {ty h} (G : Good ty h) {e : Nat} {o : Obj} (he : h e = some o)
    (hr : o.refs = []) :
    ∃ h', destroy h e = some h' ∧ Good ty h' ∧ h' e = none
      ∧ ∀ x, x ≠ e → h' x = (h x).map (fun ox => { ox with refs := ox.refs.erase e }) := by
  have hno : ∀ p op, h p = some op → e ∉ op.children := by
    intro p op hp hc
    obtain ⟨o', h1, h2⟩ := (G.sym p e).mp ⟨op, hp, hc⟩
    rw [he] at h1; cases h1
    rw [hr] at h2; cases h2
  have hD : DelOk h e := by
    intro p op hp
    have := hno p op hp
    simp only [Obj.children, List.mem_append, not_or] at this
    exact ⟨fun h => absurd h.2 (by tauto), by tauto⟩
  have H := G.loc e o he
  have hL := H.noLoop.1
  have hR := H.noLoop.2
  set own := o.own.filterMap id ++ o.kids ++ o.edges.map Edge.curv ++ o.verts.map Prod.fst with hown
  have hperm : o.children.Perm (own ++ (o.extras ++ o.de.filterMap id)) := by
    rw [children_eq hL hR, hown]
    generalize o.own.filterMap id = X1
    generalize o.de.filterMap id = X2
    rw [List.perm_iff_count]
    intro a
    simp only [List.count_append]
    omega
  have hnd := hperm.nodup_iff.mp H.chNd
  obtain ⟨hn1, hn23, hd1⟩ := List.nodup_append.mp hnd
  obtain ⟨hn2, hn3, hd2⟩ := List.nodup_append.mp hn23
  have hsub1 : ∀ c ∈ own, c ∈ o.children := fun c hc =>
    hperm.symm.subset (List.mem_append_left _ hc)
  have heown : e ∉ own := fun h => H.noSelf (hsub1 e h)
  have hlive : ∀ c ∈ o.children, ∃ oc, h c = some oc ∧ oc.etype ≠ 0 ∧ e ∈ oc.refs := by
    intro c hc
    obtain ⟨oc, h1, h2⟩ := (G.sym e c).mp ⟨o, he, hc⟩
    refine ⟨oc, h1, ?_, h2⟩
    intro h0
    rw [((G.loc c oc h1).null h0).1] at h2
    cases h2
  have hdtor : ownDtor h e = some (eraseRefs h own e) := by
    unfold ownDtor
    rw [he]
    simp only
    split
    · rename_i t508
      have a1 : o.own = [] := List.eq_nil_of_length_eq_zero (by rw [H.ownLen, t508]; rfl)
      have a2 := H.noKids (Or.inr t508)
      have a3 := H.noEdge (by rw [t508]; decide)
      rw [hL, hR, hown, a1, a2, a3.1, a3.2]
      simp [eraseRefs_nil]
    · exact delRefs_eq (fun c hc => hlive c (hsub1 c hc)) hn1
  have H0 : Half ty (h.free e) e [] (own ++ (o.extras ++ o.de.filterMap id)) := by
    refine ⟨G.loc.free e, free_self h e, ?_, ?_, ?_⟩
    · intro p c hp hc
      rw [Ch_free, Us_free, G.sym p c]
      simp [hp, hc]
    · intro p
      rw [Ch_free, G.sym p e, Us_of he, hr]
      simp
    · intro c
      rw [Us_free, ← G.sym e c, Ch_of he, hperm.mem_iff]
      constructor
      · exact fun h => h.2
      · intro h1
        refine ⟨?_, h1⟩
        rintro rfl
        exact H.noSelf (hperm.symm.subset h1)
  obtain ⟨H1, F1⟩ := H0.drop (S := own) (C' := o.extras ++ o.de.filterMap id)
    (fun c => by simp only [List.mem_append])
    (fun c hc hc2 => hd1 c hc c hc2 rfl)
  have hx := dropExtras_eq (et := o.etype) o.extras _ [] (o.de.filterMap id) H1 hn2
    (fun c hc hc2 => hd2 c hc c hc2 rfl)
  obtain ⟨H3, F3⟩ := H1.drop (S := o.extras) (C' := o.de.filterMap id)
    (fun c => by simp only [List.mem_append])
    (fun c hc hc2 => hd2 c hc c hc2 rfl)
  have hlast := delRefs_eq (S := o.de.filterMap id) (p := e)
    (h := eraseRefs (eraseRefs (h.free e) own e) o.extras e) (fun c hc => H3.live hc) hn3
  have heq : destroy h e = some (eraseRefs (eraseRefs (eraseRefs (h.free e) own e) o.extras e)
      (o.de.filterMap id) e) := by
    unfold destroy
    rw [hdtor]
    simp only
    rw [eraseRefs_not_mem heown, he]
    simp only
    rw [free_eraseRefs, hr, unlinkAll]
    simp only
    rw [hx]
    exact hlast
  obtain ⟨h', g1, g2, g3, g4, _⟩ := destroy_ok G.loc G.sym he hD
  refine ⟨h', g1, ⟨g2, g3⟩, g4, ?_⟩
  rw [heq] at g1
  cases g1
  intro x hx'
  simp only [eraseRefs_apply, free_ne _ hx']
  cases hh : h x with
  | none => simp
  | some ox =>
    have hnd' := (G.loc x ox hh).refsNd
    have hee : (ox.refs.erase e).erase e = ox.refs.erase e :=
      List.erase_of_not_mem (fun hm => (hnd'.mem_erase_iff.mp hm).1 rfl)
    by_cases hch : x ∈ o.children
    · have := hperm.subset hch
      simp only [List.mem_append] at this
      by_cases a1 : x ∈ own <;> by_cases a2 : x ∈ o.extras <;> by_cases a3 : x ∈ o.de.filterMap id <;>
        simp only [a1, a2, a3, if_true, if_false, Option.map_some, hee]
      exact absurd this (by tauto)
    · have hne : e ∉ ox.refs := by
        intro hm
        exact hch ((Ch_of he x).mp ((G.sym e x).mpr ⟨ox, hh, hm⟩))
      have a0 : ∀ {S : List Nat}, (∀ c ∈ S, c ∈ o.children) → x ∉ S := fun hS h => hch (hS x h)
      rw [if_neg (a0 (fun c hc => hperm.symm.subset
          (List.mem_append_right _ (List.mem_append_right _ hc)))),
        if_neg (a0 (fun c hc => hperm.symm.subset (by simp [hc]))), if_neg (a0 hsub1),
        Option.map_some, List.erase_of_not_mem hne]

end Iges.Props.G
