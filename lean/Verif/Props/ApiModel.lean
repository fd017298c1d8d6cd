import Verif.Spec.ApiModel
import Mathlib.Tactic.FinCases
import Mathlib.Order.Basic
/-
C91: the entities that a model lists exist, whatever is done through the handle and the wrappers.
-/
namespace Iges.Props.ApiModel
open Iges.Api Iges.Api.Spec

namespace Lists

theorem ent_of {s : State} {e t : ℕ} (h : s.ents[e]? = some (some t)) : s.ent e = some t := by simp [State.ent, h]
theorem hand_of {s : State} {h : ℕ} {w : Handle} (hh : s.hands[h]? = some (some w)) : s.hand h = some w := by simp [State.hand, hh]

theorem ent_get {s : State} {e t : ℕ} (h : s.ent e = some t) : s.ents[e]? = some (some t) := by
  unfold State.ent at h
  cases hr : s.ents[e]? with
  | none => rw [hr] at h; cases h
  | some x => rw [hr] at h; simpa using h

theorem hand_get {s : State} {h : ℕ} {w : Handle} (hh : s.hand h = some w) : s.hands[h]? = some (some w) := by
  unfold State.hand at hh
  cases hr : s.hands[h]? with
  | none => rw [hr] at hh; cases hh
  | some x => rw [hr] at hh; simpa using hh

theorem raw_get {s : State} {w : Handle} {e : ℕ} (h : s.raw w = some e) : w.entity = some e ∧ ∃ t, s.ents[e]? = some (some t) := by
  unfold State.raw at h
  rw [Option.filter_eq_some_iff] at h
  obtain ⟨t, ht⟩ := Option.isSome_iff_exists.1 h.2
  exact ⟨h.1, t, ent_get ht⟩

theorem lt_of {s : State} {e t : ℕ} (h : s.ents[e]? = some (some t)) : e < s.ents.length := (List.getElem?_eq_some_iff.1 h).1

theorem append_old {l : List (Option ℕ)} {x : Option ℕ} {e t : ℕ} (h : l[e]? = some (some t)) : (l ++ [x])[e]? = some (some t) := by
  rw [List.getElem?_append_left (List.getElem?_eq_some_iff.1 h).1]; exact h

/-- A new entity is listed. -/
theorem make_sound {s : State} (h : Sound s) (ty : ℕ) : Sound (s.make ty) := by
  refine ⟨fun e he => ?_, ?_⟩
  · rcases List.mem_append.1 he with he | he
    · obtain ⟨t, ht⟩ := h.alive e he; exact ⟨t, append_old ht⟩
    · rw [List.mem_singleton.1 he]
      exact ⟨ty, by simp [State.make]⟩
  · show (s.list ++ [s.ents.length]).Nodup
    rw [List.nodup_append]
    refine ⟨h.once, List.nodup_singleton _, fun a ha b hb hab => ?_⟩
    obtain ⟨t, ht⟩ := h.alive a ha
    have := lt_of ht
    rw [hab, List.mem_singleton.1 hb] at this
    omega

theorem kill_some {s : State} {e t : ℕ} (h : s.ents[e]? = some (some t)) : s.kill e = some { s with ents := s.ents.set e none } := by
  rw [State.kill, ent_of h]; rfl

theorem killAll_some {l : List ℕ} {s : State} (hn : l.Nodup) (hl : ∀ e ∈ l, ∃ t, s.ents[e]? = some (some t)) :
    ∃ s', s.killAll l = some s' ∧ s'.list = s.list ∧ s'.model = s.model ∧ s'.hands = s.hands ∧ s'.ents.length = s.ents.length ∧
      (∀ e, e ∉ l → s'.ents[e]? = s.ents[e]?) ∧ ∀ e ∈ l, s'.ents[e]? = some none := by
  induction l generalizing s with
  | nil => exact ⟨s, rfl, rfl, rfl, rfl, rfl, fun _ _ => rfl, fun e he => by cases he⟩
  | cons r rs ih =>
    obtain ⟨t, ht⟩ := hl r List.mem_cons_self
    have hnr := List.nodup_cons.1 hn
    obtain ⟨s2, h1, h2, h3, h4, h5, h6, h7⟩ := ih (s := { s with ents := s.ents.set r none }) hnr.2 (fun q hq => by
      obtain ⟨t', ht'⟩ := hl q (List.mem_cons_of_mem _ hq)
      refine ⟨t', ?_⟩
      show (s.ents.set r none)[q]? = _
      rw [List.getElem?_set_ne (i := r) (j := q) (by rintro rfl; exact hnr.1 hq)]
      exact ht')
    refine ⟨s2, ?_, h2, h3, h4, h5.trans (by simp), fun q hq => ?_, fun q hq => ?_⟩
    · simp only [State.killAll, kill_some ht, Option.bind_some, h1]
    · rw [h6 q (fun h => hq (List.mem_cons_of_mem _ h))]
      show (s.ents.set r none)[q]? = _
      rw [List.getElem?_set_ne (i := r) (j := q) (by rintro rfl; exact hq List.mem_cons_self)]
    · by_cases hqr : q ∈ rs
      · exact h7 q hqr
      · rcases List.mem_cons.1 hq with rfl | h
        · rw [h6 q hqr]
          show (s.ents.set q none)[q]? = _
          rw [List.getElem?_set_self (lt_of ht)]
        · exact absurd h hqr

/-- A deleted entity on the list makes deleting the list undefined. -/
theorem killAll_none {l : List ℕ} {s : State} {e : ℕ} (he : e ∈ l) (hd : s.ent e = none) : s.killAll l = none := by
  induction l generalizing s with
  | nil => cases he
  | cons r rs ih =>
    simp only [State.killAll]
    cases hk : s.kill r with
    | none => rfl
    | some s' =>
      obtain ⟨t, ht, e'⟩ := Option.map_eq_some_iff.1 hk
      subst e'
      simp only [Option.bind_some]
      refine ih ?_ ?_
      · rcases List.mem_cons.1 he with rfl | h
        · rw [hd] at ht; cases ht
        · exact h
      · unfold State.ent at hd ⊢
        show ((s.ents.set r none)[e]?).getD none = none
        rw [List.getElem?_set]
        split
        · split <;> rfl
        · exact hd

theorem clear_none {s : State} (hm : s.model = true) {e : ℕ} (he : e ∈ s.list) (hd : s.ent e = none) :
    s.step .clear = none ∧ s.step .killModel = none := by
  constructor
  · simp only [State.step, hm, Bool.true_eq_false, if_false, killAll_none he hd, Option.map_none]
  · simp only [State.step, hm, Bool.true_eq_false, if_false, killAll_none he hd, Option.map_none]

theorem erase_sound {s : State} (h : Sound s) (e : ℕ) (x : Option ℕ) :
    Sound { s with list := s.list.erase e, ents := s.ents.set e x } := by
  refine ⟨fun q hq => ?_, h.once.erase _⟩
  have hne : q ≠ e := by rintro rfl; exact h.once.not_mem_erase hq
  obtain ⟨t, ht⟩ := h.alive q (List.mem_of_mem_erase hq)
  exact ⟨t, by show (s.ents.set e x)[q]? = _; rw [List.getElem?_set_ne (fun h => hne h.symm)]; exact ht⟩

theorem sound_congr {s s' : State} (hl : s'.list = s.list) (he : ∀ e ∈ s.list, ∀ t, s.ents[e]? = some (some t) → ∃ t', s'.ents[e]? = some (some t'))
    (h : Sound s) : Sound s' := by
  refine ⟨fun e hm => ?_, hl ▸ h.once⟩
  rw [hl] at hm
  obtain ⟨t, ht⟩ := h.alive e hm
  exact he e hm t ht

theorem add_safe {s : State} (h : Sound s) (o : Option ℕ) (ho : ∀ e, o = some e → ∃ t, s.ents[e]? = some (some t)) :
    ∃ s' a, s.add o = some (s', a) ∧ Sound s' := by
  cases o with
  | none => exact ⟨s, false, rfl, h⟩
  | some e =>
    simp only [State.add]
    split
    · exact ⟨s, true, rfl, h⟩
    rename_i hne
    obtain ⟨t, ht⟩ := ho e rfl
    rw [ent_of ht]
    refine ⟨{ s with list := s.list ++ [e] }, true, rfl, fun q hq => ?_, ?_⟩
    · rcases List.mem_append.1 hq with hq | hq
      · exact h.alive q hq
      · rw [List.mem_singleton.1 hq]; exact ⟨t, ht⟩
    · show (s.list ++ [e]).Nodup
      rw [List.nodup_append]
      exact ⟨h.once, List.nodup_singleton _, fun a ha b hb hab => hne (by rw [← List.mem_singleton.1 hb, ← hab]; exact ha)⟩

theorem del_safe {s : State} (h : Sound s) (o : Option ℕ) : ∃ s' a, s.del o = some (s', a) ∧ Sound s' := by
  cases o with
  | none => exact ⟨s, false, rfl, h⟩
  | some e =>
    simp only [State.del]
    split
    · rename_i hm
      obtain ⟨t, ht⟩ := h.alive e hm
      rw [kill_some ht]
      exact ⟨_, _, rfl, erase_sound h e none⟩
    · exact ⟨s, false, rfl, h⟩

theorem unlink_safe {s : State} (h : Sound s) (o : Option ℕ) : Sound (s.unlink o).1 := by
  cases o with
  | none => exact h
  | some e =>
    simp only [State.unlink]
    split
    · exact ⟨fun q hq => h.alive q (List.mem_of_mem_erase hq), h.once.erase _⟩
    · exact h

theorem raw_alive {s : State} {w : Handle} : ∀ e, s.raw w = some e → ∃ t, s.ents[e]? = some (some t) := fun _ h => (raw_get h).2

/-- A careful call is defined and leaves the list in order. -/
theorem step_safe {s : State} {c : Call} (h : Sound s) (hc : Careful s c) : ∃ s' a, s.step c = some (s', a) ∧ Sound s' := by
  cases c with
  | newApi ty old =>
    obtain ⟨ht, ho⟩ := hc
    simp only [State.step]
    split
    · exact ⟨_, _, rfl, h⟩
    cases old with
    | none =>
      exact ⟨_, _, rfl, sound_congr (s := (s.make ty).make ty) rfl (fun e _ t h => ⟨t, h⟩) (make_sound (make_sound h ty) ty)⟩
    | some o =>
      obtain ⟨w, hw⟩ := ho o rfl
      simp only [hand_of hw, Option.map_some]
      have h0 : Sound { s with hands := s.hands.set o none } := sound_congr (s := s) rfl (fun e _ t h => ⟨t, h⟩) h
      exact ⟨_, _, rfl, sound_congr (s := ({ s with hands := s.hands.set o none }.make ty).make ty) rfl (fun e _ t h => ⟨t, h⟩)
        (make_sound (make_sound h0 ty) ty)⟩
  | newIges ty => exact absurd hc id
  | addHandle q =>
    obtain ⟨w, hw⟩ := hc
    simp only [State.step, hand_of hw, Option.bind_some]
    split
    · exact ⟨_, _, rfl, h⟩
    · exact add_safe h _ raw_alive
  | addRaw e =>
    simp only [State.step]
    split
    · exact ⟨_, _, rfl, h⟩
    · exact add_safe h _ (fun q hq => by cases hq; exact hc)
  | delHandle q =>
    obtain ⟨w, hw⟩ := hc
    simp only [State.step, hand_of hw, Option.bind_some]
    split
    · exact ⟨_, _, rfl, h⟩
    · exact del_safe h _
  | delRaw e =>
    simp only [State.step]
    split
    · exact ⟨_, _, rfl, h⟩
    · exact del_safe h _
  | unlinkHandle q =>
    obtain ⟨w, hw⟩ := hc
    simp only [State.step, hand_of hw, Option.map_some]
    split
    · exact ⟨_, _, rfl, h⟩
    · exact ⟨_, _, rfl, unlink_safe h _⟩
  | unlinkRaw e =>
    simp only [State.step]
    split
    · exact ⟨_, _, rfl, h⟩
    · exact ⟨(s.unlink (some e)).1, (s.unlink (some e)).2, rfl, unlink_safe h _⟩
  | clear =>
    simp only [State.step]
    split
    · exact ⟨_, _, rfl, h⟩
    · obtain ⟨s', h1, -⟩ := killAll_some h.once h.alive
      rw [h1]
      exact ⟨_, _, rfl, ⟨fun e he => absurd he List.not_mem_nil, List.nodup_nil⟩⟩
  | killModel =>
    have hm : s.model = true := hc
    obtain ⟨s', h1, -⟩ := killAll_some h.once h.alive
    refine ⟨{ s' with list := [], model := false }, true, ?_, ⟨fun e he => absurd he List.not_mem_nil, List.nodup_nil⟩⟩
    simp only [State.step, hm, Bool.true_eq_false, if_false, h1, Option.map_some]
  | newHandle ty parent create =>
    simp only [State.step]
    split
    · exact ⟨_, _, rfl, sound_congr (s := s) rfl (fun e _ t h => ⟨t, h⟩) h⟩
    rename_i hcr
    split
    · exact ⟨_, _, rfl, sound_congr (s := s) rfl (fun e _ t h => ⟨t, append_old h⟩) h⟩
    rename_i hp
    rw [if_neg (by rw [hc (by simpa using hp) (by simpa using hcr)]; simp)]
    exact ⟨_, _, rfl, sound_congr (s := s.make ty) rfl (fun e _ t h => ⟨t, h⟩) (make_sound h ty)⟩
  | newEntity q =>
    obtain ⟨w, hw⟩ := hc
    simp only [State.step, hand_of hw, Option.map_some]
    split
    · exact ⟨_, _, rfl, sound_congr (s := s.make w.ty) rfl (fun e _ t h => ⟨t, h⟩) (make_sound h _)⟩
    · exact ⟨_, _, rfl, sound_congr (s := s) rfl (fun e _ t h => ⟨t, append_old h⟩) h⟩
  | delEntity q =>
    obtain ⟨⟨w, hw⟩, hr⟩ := hc
    simp only [State.step, hand_of hw, Option.bind_some]
    split
    · exact ⟨_, _, rfl, sound_congr (s := s) rfl (fun e _ t h => ⟨t, h⟩) h⟩
    · rename_i e he
      obtain ⟨h1, t, ht⟩ := raw_get he
      rw [kill_some ht]
      refine ⟨_, _, rfl, sound_congr (s := s) rfl (fun q' hq t' ht' => ⟨t', ?_⟩) h⟩
      show (s.ents.set e none)[q']? = _
      rw [List.getElem?_set_ne (i := e) (j := q') (by rintro rfl; exact hr _ ⟨w, hw, h1, t, ht⟩ hq)]
      exact ht'
  | detach q =>
    obtain ⟨w, hw⟩ := hc
    simp only [State.step, hand_of hw, Option.map_some]
    exact ⟨_, _, rfl, sound_congr (s := s) rfl (fun e _ t h => ⟨t, h⟩) h⟩
  | attach q e =>
    obtain ⟨⟨w, hw⟩, t, ht⟩ := hc
    simp only [State.step, hand_of hw, Option.bind_some, ent_of ht, Option.map_some]
    split
    · exact ⟨_, _, rfl, h⟩
    · exact ⟨_, _, rfl, sound_congr (s := s) rfl (fun e _ t h => ⟨t, h⟩) h⟩
  | killHandle q =>
    obtain ⟨w, hw⟩ := hc
    simp only [State.step, hand_of hw, Option.map_some]
    exact ⟨_, _, rfl, sound_congr (s := s) rfl (fun e _ t h => ⟨t, h⟩) h⟩

end Lists
open Lists

/-- **C91_partial** (the list of a model stays in order): a careful program, whatever and however often it calls, is defined, and after it
every entity that the model lists exists and is listed once.  The calls that are not careful break this: `C91_unsupported`,
`C91_wrapper_deletes`, `C91_new_entity_undefined`. -/
theorem C91_partial (calls : List Call) (hc : CarefulRun start calls) : ∃ s, start.run calls = some s ∧ Sound s := by
  have key : ∀ (calls : List Call) (s : State), Sound s → CarefulRun s calls → ∃ s', s.run calls = some s' ∧ Sound s' := by
    intro calls
    induction calls with
    | nil => exact fun s h _ => ⟨s, rfl, h⟩
    | cons c cs ih =>
      intro s h hc
      obtain ⟨s1, a, h1, h2⟩ := step_safe h hc.1
      simp only [State.run, h1]
      exact ih s1 h2 (hc.2 s1 a h1)
  exact key calls _ ⟨fun e he => absurd he List.not_mem_nil, List.nodup_nil⟩ hc

/-- **C91_clear**: clearing such a model destroys exactly the entities that it lists. -/
theorem C91_clear (s : State) (h : Sound s) (hm : s.model = true) : ∃ s', s.step .clear = some (s', true) ∧ s'.list = [] ∧
    (∀ e ∈ s.list, s'.ents[e]? = some none) ∧ (∀ e, e ∉ s.list → s'.ents[e]? = s.ents[e]?) ∧ s'.hands = s.hands := by
  obtain ⟨s', h1, h2, h3, h4, h5, h6, h7⟩ := killAll_some h.once h.alive
  refine ⟨{ s' with list := [] }, ?_, rfl, h7, h6, h4⟩
  simp only [State.step, hm, Bool.true_eq_false, if_false, h1, Option.map_some]

/-- **C91_deleted**: `DelEntity` with a wrapper destroys the entity of the wrapper and takes it off the list; all others stay, and no wrapper
refers to it any more. -/
theorem C91_deleted (s : State) (hm : s.model = true) (q e : ℕ) (hr : RefersTo s q e) (hl : e ∈ s.list) :
    ∃ s', s.step (.delHandle q) = some (s', true) ∧ s'.list = s.list.erase e ∧ s'.ents = s.ents.set e none ∧ s'.hands = s.hands ∧
      ∀ q', ¬ RefersTo s' q' e := by
  obtain ⟨w, hw, he, t, ht⟩ := hr
  have hraw : s.raw w = some e := by
    unfold State.raw
    rw [he, Option.filter_eq_some_iff]
    exact ⟨rfl, by rw [ent_of ht]; rfl⟩
  refine ⟨{ s with ents := s.ents.set e none, list := s.list.erase e }, ?_, rfl, rfl, rfl, ?_⟩
  · simp only [State.step, hand_of hw, Option.bind_some, hm, Bool.true_eq_false, if_false, hraw, State.del, hl, if_true, kill_some ht,
      Option.map_some]
  · rintro q' ⟨_, _, _, t', ht'⟩
    change (s.ents.set e none)[e]? = _ at ht'
    rw [List.getElem?_set_self (lt_of ht)] at ht'
    cases ht'

/-- **C91_unlinked**: `UnlinkEntity` takes the entity off the list and leaves it alone; `AddEntity` brings it back at the end. -/
theorem C91_unlinked (s : State) (h : Sound s) (hm : s.model = true) (q e : ℕ) (hr : RefersTo s q e) (hl : e ∈ s.list) :
    s.step (.unlinkHandle q) = some ({ s with list := s.list.erase e }, true) ∧
    ({ s with list := s.list.erase e } : State).step (.addHandle q) = some ({ s with list := s.list.erase e ++ [e] }, true) := by
  obtain ⟨w, hw, he, t, ht⟩ := hr
  have hraw : s.raw w = some e := by
    unfold State.raw
    rw [he, Option.filter_eq_some_iff]
    exact ⟨rfl, by rw [ent_of ht]; rfl⟩
  constructor
  · simp only [State.step, hand_of hw, Option.map_some, hm, Bool.true_eq_false, if_false, hraw, State.unlink, hl, if_true]
  · have h1 : ({ s with list := s.list.erase e } : State).hand q = some w := hand_of hw
    have h2 : ({ s with list := s.list.erase e } : State).raw w = some e := hraw
    have h3 : ({ s with list := s.list.erase e } : State).ent e = some t := ent_of ht
    simp only [State.step, h1, Option.bind_some]
    rw [if_neg (by rw [hm]; simp), h2]
    simp only [State.add]
    rw [if_neg h.once.not_mem_erase, h3]
    rfl

/-- A line, a circle and a wrapper of its own. -/
def ex_calls : List Call := [.newApi 110 none, .newHandle 100 true true, .newEntity 1, .newHandle 124 false true, .addHandle 2]

example : ∃ s, start.run ex_calls = some s ∧ Sound s ∧ s.list = [0, 1, 2, 3, 4] ∧ RefersTo s 1 3 ∧ 3 ∈ s.list :=
  ⟨_, rfl, ⟨fun e he => by
    have : e ∈ [0, 1, 2, 3, 4] := he
    fin_cases this <;> exact ⟨_, rfl⟩, by decide⟩, by decide, ⟨_, rfl, rfl, _, rfl⟩, by decide⟩

example : CarefulRun start [.newApi 110 none, .newHandle 100 true true, .delHandle 1, .delEntity 1, .newApi 314 (some 1), .clear, .killModel] := by
  refine ⟨⟨by decide, fun _ h => by cases h⟩, fun _ _ h => ?_⟩; cases h
  refine ⟨fun _ _ => rfl, fun _ _ h => ?_⟩; cases h
  refine ⟨⟨_, rfl⟩, fun _ _ h => ?_⟩; cases h
  refine ⟨⟨⟨_, rfl⟩, fun e => ?_⟩, fun _ _ h => ?_⟩
  · rintro ⟨w, h1, h2, t, h3⟩
    cases h1; cases h2; cases h3
  cases h
  refine ⟨⟨by decide, fun _ h => by cases h; exact ⟨_, rfl⟩⟩, fun _ _ h => ?_⟩; cases h
  refine ⟨trivial, fun _ _ h => ?_⟩; cases h
  exact ⟨rfl, fun _ _ _ => trivial⟩

namespace Reached

/-- Wrappers refer to numbers that have been given out. -/
def Given (s : State) : Prop := ∀ (h : ℕ) (w : Handle) (e : ℕ), s.hands[h]? = some (some w) → w.entity = some e → e < s.ents.length

theorem given_set {s : State} {q : ℕ} {x : Option Handle} {en : List (Option ℕ)} {l : List ℕ} (hs : Given s) (hl : s.ents.length ≤ en.length)
    (hx : ∀ w e, x = some w → w.entity = some e → e < en.length) : Given { s with hands := s.hands.set q x, ents := en, list := l } := by
  intro h w e hh he
  change (s.hands.set q x)[h]? = _ at hh
  rw [List.getElem?_set] at hh
  split at hh
  · split at hh
    · cases hh; exact hx w e rfl he
    · cases hh
  · exact lt_of_lt_of_le (hs h w e hh he) hl

theorem given_append {s : State} {x : Handle} {en : List (Option ℕ)} {l : List ℕ} {m : Bool} (hs : Given s) (hl : s.ents.length ≤ en.length)
    (hx : ∀ e, x.entity = some e → e < en.length) : Given ⟨en, l, m, s.hands ++ [some x]⟩ := by
  intro h w e hh he
  change (s.hands ++ [some x])[h]? = _ at hh
  by_cases hlt : h < s.hands.length
  · rw [List.getElem?_append_left hlt] at hh
    exact lt_of_lt_of_le (hs h w e hh he) hl
  · rw [List.getElem?_append_right (by omega)] at hh
    cases hk : h - s.hands.length with
    | zero => rw [hk] at hh; cases hh; exact hx e he
    | succ n => rw [hk] at hh; simp at hh

theorem given_congr {s s' : State} (hs : Given s) (hh : s'.hands = s.hands) (hl : s.ents.length ≤ s'.ents.length) : Given s' :=
  fun h w e h1 h2 => lt_of_lt_of_le (hs h w e (hh ▸ h1) h2) hl

theorem kill_keeps {s s' : State} {e : ℕ} (h : s.kill e = some s') : s'.hands = s.hands ∧ s'.ents.length = s.ents.length := by
  obtain ⟨t, -, rfl⟩ := Option.map_eq_some_iff.1 h
  exact ⟨rfl, by simp⟩

theorem killAll_keeps {l : List ℕ} {s s' : State} (h : s.killAll l = some s') : s'.hands = s.hands ∧ s'.ents.length = s.ents.length := by
  induction l generalizing s with
  | nil => cases h; exact ⟨rfl, rfl⟩
  | cons r rs ih =>
    obtain ⟨s1, h1, h2⟩ := Option.bind_eq_some_iff.1 h
    have h3 := kill_keeps h1
    have h4 := ih h2
    exact ⟨h4.1.trans h3.1, h4.2.trans h3.2⟩

theorem add_keeps {s s' : State} {o : Option ℕ} {a : Bool} (h : s.add o = some (s', a)) : s'.hands = s.hands ∧ s'.ents = s.ents := by
  cases o with
  | none => cases h; exact ⟨rfl, rfl⟩
  | some e =>
    simp only [State.add] at h
    split at h
    · cases h; exact ⟨rfl, rfl⟩
    · obtain ⟨t, -, e⟩ := Option.map_eq_some_iff.1 h
      cases e; exact ⟨rfl, rfl⟩

theorem del_keeps {s s' : State} {o : Option ℕ} {a : Bool} (h : s.del o = some (s', a)) :
    s'.hands = s.hands ∧ s'.ents.length = s.ents.length := by
  cases o with
  | none => cases h; exact ⟨rfl, rfl⟩
  | some e =>
    simp only [State.del] at h
    split at h
    · obtain ⟨t, hk, e⟩ := Option.map_eq_some_iff.1 h
      cases e
      have := kill_keeps hk
      exact ⟨this.1, this.2⟩
    · cases h; exact ⟨rfl, rfl⟩

theorem unlink_keeps (s : State) (o : Option ℕ) : (s.unlink o).1.hands = s.hands ∧ (s.unlink o).1.ents = s.ents := by
  cases o with
  | none => exact ⟨rfl, rfl⟩
  | some e =>
    simp only [State.unlink]
    split <;> exact ⟨rfl, rfl⟩

theorem step_given {s s' : State} {c : Call} {a : Bool} (h : s.step c = some (s', a)) (hs : Given s) : Given s' := by
  cases c with
  | newApi ty old =>
    simp only [State.step] at h
    split at h
    · cases h; exact hs
    split at h
    · cases h
    rename_i s0 h0
    have hs0 : Given s0 := by
      cases old with
      | none => cases h0; exact hs
      | some o =>
        obtain ⟨w, hw, e⟩ := Option.map_eq_some_iff.1 h0
        subst e
        exact given_set hs (le_refl _) (fun w e h => by cases h)
    split at h
    · cases h
      refine given_append (s := s0) hs0 (en := s0.ents ++ [some ty] ++ [some ty]) (by simp) (fun e he => ?_)
      cases he; simp
    · obtain ⟨s2, hk, e⟩ := Option.map_eq_some_iff.1 h
      cases e
      have := kill_keeps hk
      exact given_congr hs0 this.1 (by rw [this.2]; simp [State.make])
  | newIges ty =>
    simp only [State.step] at h
    split at h
    · cases h; exact hs
    · cases h
  | addHandle q =>
    obtain ⟨w, hw, h⟩ := Option.bind_eq_some_iff.1 h
    split at h
    · cases h; exact hs
    · have := add_keeps h
      exact given_congr hs this.1 (by rw [this.2])
  | addRaw e =>
    simp only [State.step] at h
    split at h
    · cases h; exact hs
    · have := add_keeps h
      exact given_congr hs this.1 (by rw [this.2])
  | delHandle q =>
    obtain ⟨w, hw, h⟩ := Option.bind_eq_some_iff.1 h
    split at h
    · cases h; exact hs
    · have := del_keeps h
      exact given_congr hs this.1 (by rw [this.2])
  | delRaw e =>
    simp only [State.step] at h
    split at h
    · cases h; exact hs
    · have := del_keeps h
      exact given_congr hs this.1 (by rw [this.2])
  | unlinkHandle q =>
    obtain ⟨w, hw, h⟩ := Option.map_eq_some_iff.1 h
    split at h
    · cases h; exact hs
    · have := unlink_keeps s (s.raw w)
      rw [h] at this
      exact given_congr hs this.1 (by rw [this.2])
  | unlinkRaw e =>
    simp only [State.step] at h
    split at h
    · cases h; exact hs
    · have := unlink_keeps s (some e)
      rw [Option.some.inj h] at this
      exact given_congr hs this.1 (by rw [this.2])
  | clear =>
    simp only [State.step] at h
    split at h
    · cases h; exact hs
    · obtain ⟨s1, hk, e⟩ := Option.map_eq_some_iff.1 h
      cases e
      have := killAll_keeps hk
      exact given_congr hs this.1 (le_of_eq this.2.symm)
  | killModel =>
    simp only [State.step] at h
    split at h
    · cases h
    · obtain ⟨s1, hk, e⟩ := Option.map_eq_some_iff.1 h
      cases e
      have := killAll_keeps hk
      exact given_congr hs this.1 (le_of_eq this.2.symm)
  | newHandle ty parent create =>
    simp only [State.step] at h
    split at h
    · cases h
      exact given_append hs (le_refl _) (fun e he => by cases he)
    split at h
    · cases h
      exact given_append hs (en := s.ents ++ [some ty]) (by simp) (fun e he => by cases he; simp)
    split at h
    · cases h
    · cases h
      exact given_append hs (en := s.ents ++ [some ty]) (by simp) (fun e he => by cases he; simp)
  | newEntity q =>
    obtain ⟨w, hw, h⟩ := Option.map_eq_some_iff.1 h
    split at h
    · cases h
      exact given_set (s := s) hs (en := s.ents ++ [some w.ty]) (by simp) (fun w' e he h => by cases he; cases h; simp)
    · cases h
      exact given_set (s := s) hs (en := s.ents ++ [some w.ty]) (by simp) (fun w' e he h => by cases he; cases h; simp)
  | delEntity q =>
    obtain ⟨w, hw, h⟩ := Option.bind_eq_some_iff.1 h
    split at h
    · cases h
      exact given_set hs (le_refl _) (fun w' e he h => by cases he; cases h)
    · obtain ⟨s1, hk, e⟩ := Option.map_eq_some_iff.1 h
      cases e
      have := kill_keeps hk
      intro h' w' e' h1 h2
      rw [show ({ s1 with hands := s.hands.set q (some { w with entity := none }) } : State).ents.length = s.ents.length from this.2]
      exact given_set (s := s) (q := q) (x := some { w with entity := none }) (en := s.ents) (l := s.list) hs (le_refl _)
        (fun w' e he h => by cases he; cases h) h' w' e' h1 h2
  | detach q =>
    obtain ⟨w, hw, h⟩ := Option.map_eq_some_iff.1 h
    cases h
    exact given_set hs (le_refl _) (fun w' e he h => by cases he; cases h)
  | attach q e =>
    obtain ⟨w, hw, h⟩ := Option.bind_eq_some_iff.1 h
    obtain ⟨t, ht, h⟩ := Option.map_eq_some_iff.1 h
    split at h
    · cases h; exact hs
    · cases h
      exact given_set hs (le_refl _) (fun w' e he h => by cases he; cases h; exact lt_of (ent_get ht))
  | killHandle q =>
    obtain ⟨w, hw, h⟩ := Option.map_eq_some_iff.1 h
    cases h
    exact given_set hs (le_refl _) (fun w' e he h => by cases he)

theorem run_given {calls : List Call} {s s' : State} (h : s.run calls = some s') (hs : Given s) : Given s' := by
  induction calls generalizing s with
  | nil => cases h; exact hs
  | cons c cs ih =>
    unfold State.run at h
    split at h
    · cases h
    · rename_i s1 a h1
      exact ih h (step_given h1 hs)

end Reached
open Reached

/-- **C91_new** (what `NewAPIEntity` makes, and what it makes too much): after any program, `NewAPIEntity` with a type that it knows gives a
wrapper of an entity of that type that the model lists; but the model lists one more entity of the type, to which no wrapper refers: the
constructor of the wrapper has made it.  Everything else is as before. -/
theorem C91_new (calls : List Call) (s : State) (hr : start.run calls = some s) (hm : s.model = true) (ty : ℕ) (ht : ty ∈ apiTypes) :
    ∃ s', s.step (.newApi ty none) = some (s', true) ∧ RefersTo s' s.hands.length s.ents.length ∧
      s'.list = s.list ++ [s.ents.length, s.ents.length + 1] ∧ s'.ents = s.ents ++ [some ty, some ty] ∧
      (∀ q, ¬ RefersTo s' q (s.ents.length + 1)) ∧ ∀ q e, q < s.hands.length → (RefersTo s' q e ↔ RefersTo s q e) := by
  have hg : Given s := run_given hr fun h w e hh => by simp [start] at hh
  refine ⟨{ s with ents := s.ents ++ [some ty, some ty], list := s.list ++ [s.ents.length, s.ents.length + 1],
                   hands := s.hands ++ [some ⟨ty, some s.ents.length, true⟩] }, ?_, ?_, rfl, rfl, ?_, ?_⟩
  · simp only [State.step, hm, Bool.true_eq_false, if_false, ht, if_true, State.make, List.append_assoc, List.length_append,
      List.length_singleton, List.singleton_append]
  · exact ⟨⟨ty, some s.ents.length, true⟩, by simp, rfl, ty, by simp⟩
  · rintro q ⟨w, hw, he, -⟩
    change (s.hands ++ [some _])[q]? = _ at hw
    by_cases hlt : q < s.hands.length
    · rw [List.getElem?_append_left hlt] at hw
      have := hg q w _ hw he
      omega
    · rw [List.getElem?_append_right (by omega)] at hw
      cases hk : q - s.hands.length with
      | zero =>
        rw [hk] at hw; cases hw
        have := Option.some.inj he
        omega
      | succ n => rw [hk] at hw; simp at hw
  · intro q e hq
    constructor
    · rintro ⟨w, hw, he, t, h⟩
      change (s.hands ++ [some _])[q]? = _ at hw
      rw [List.getElem?_append_left hq] at hw
      change (s.ents ++ [some ty, some ty])[e]? = _ at h
      rw [List.getElem?_append_left (hg q w e hw he)] at h
      exact ⟨w, hw, he, t, h⟩
    · rintro ⟨w, hw, he, t, h⟩
      refine ⟨w, ?_, he, t, ?_⟩
      · show (s.hands ++ [some _])[q]? = _
        rw [List.getElem?_append_left hq]; exact hw
      · show (s.ents ++ [some ty, some ty])[e]? = _
        rw [List.getElem?_append_left (lt_of h)]; exact h

example : ∃ s, start.run ex_calls = some s ∧ s.model = true ∧ 314 ∈ apiTypes := ⟨_, rfl, rfl, by decide⟩

/-- **C91_twice**: a program that asks for `n` lines gets a model of `2 n` lines. -/
theorem C91_twice (n : ℕ) : ∃ s, start.run (List.replicate n (.newApi 110 none)) = some s ∧ s.list.length = 2 * n := by
  have key : ∀ (n : ℕ) (s : State), s.model = true → ∃ s', s.run (List.replicate n (.newApi 110 none)) = some s' ∧
      s'.list.length = s.list.length + 2 * n := by
    intro n
    induction n with
    | zero => exact fun s _ => ⟨s, rfl, rfl⟩
    | succ n ih =>
      intro s hm
      obtain ⟨s1, a, h1, h2, h3⟩ : ∃ s1 a, s.step (.newApi 110 none) = some (s1, a) ∧ s1.model = true ∧
          s1.list.length = s.list.length + 2 :=
        ⟨{ (s.make 110).make 110 with hands := s.hands ++ [some ⟨110, some s.ents.length, true⟩] }, true,
          by simp only [State.step, hm, Bool.true_eq_false, if_false, show 110 ∈ apiTypes from by decide, if_true]; rfl, hm,
          by simp [State.make]⟩
      obtain ⟨s2, h4, h5⟩ := ih s1 h2
      refine ⟨s2, ?_, by omega⟩
      simp only [List.replicate_succ, State.run, h1]
      exact h4
  obtain ⟨s, h1, h2⟩ := key n start rfl
  exact ⟨s, h1, by rw [h2]; simp [start]⟩

/-- **C91_unsupported** (a type the interface does not know): in every state, `NewAPIEntity` answers "no" but leaves a pointer to the
deleted entity on the list of the model; clearing or destroying the model is undefined from then on. -/
theorem C91_unsupported (s : State) (hm : s.model = true) (ty : ℕ) (ht : ty ∉ apiTypes) :
    ∃ s', s.step (.newApi ty none) = some (s', false) ∧ ¬ Sound s' ∧ s'.step .clear = none ∧ s'.step .killModel = none := by
  have hk : (s.make ty).kill s.ents.length = some { s.make ty with ents := (s.ents ++ [some ty]).set s.ents.length none } :=
    kill_some (t := ty) (by simp [State.make])
  have hmem : s.ents.length ∈ (s.make ty).list := by simp [State.make]
  have hdead : ({ s.make ty with ents := (s.ents ++ [some ty]).set s.ents.length none } : State).ent s.ents.length = none := by
    simp [State.ent]
  refine ⟨{ s.make ty with ents := (s.ents ++ [some ty]).set s.ents.length none }, ?_, ?_, ?_⟩
  · simp only [State.step, hm, Bool.true_eq_false, if_false, ht, hk, Option.map_some]
  · intro h
    obtain ⟨t, h⟩ := h.alive s.ents.length hmem
    simp at h
  · exact clear_none hm hmem hdead

example : start.model = true ∧ 406 ∉ apiTypes ∧ 154 ∉ apiTypes := by decide

/-- **C91_wrapper_deletes**: `DelEntity` of a wrapper destroys its entity but leaves the pointer on the list of the model; clearing or
destroying the model is undefined from then on. -/
theorem C91_wrapper_deletes (s : State) (hm : s.model = true) (q e : ℕ) (hr : RefersTo s q e) (hl : e ∈ s.list) :
    ∃ s', s.step (.delEntity q) = some (s', true) ∧ ¬ Sound s' ∧ s'.step .clear = none ∧ s'.step .killModel = none := by
  obtain ⟨w, hw, he, t, ht⟩ := hr
  have hraw : s.raw w = some e := by
    unfold State.raw
    rw [he, Option.filter_eq_some_iff]
    exact ⟨rfl, by rw [ent_of ht]; rfl⟩
  have hdead : ({ s with ents := s.ents.set e none, hands := s.hands.set q (some { w with entity := none }) } : State).ent e = none := by
    simp [State.ent, List.getElem?_set_self (lt_of ht)]
  refine ⟨{ s with ents := s.ents.set e none, hands := s.hands.set q (some { w with entity := none }) }, ?_, ?_, ?_⟩
  · simp only [State.step, hand_of hw, Option.bind_some, hraw, kill_some ht, Option.map_some]
  · intro h
    obtain ⟨t, h⟩ := h.alive e hl
    change (s.ents.set e none)[e]? = _ at h
    rw [List.getElem?_set_self (lt_of ht)] at h
    cases h
  · exact clear_none hm hl hdead

example : ∃ s, start.run [.newHandle 110 true true] = some s ∧ s.model = true ∧ RefersTo s 0 0 ∧ 0 ∈ s.list :=
  ⟨_, rfl, rfl, ⟨_, rfl, rfl, _, rfl⟩, by decide⟩

/-- **C91_new_entity_undefined**: `NewIGESEntity` drops the pointer it was given and writes through null, for every type and in every
state. -/
theorem C91_new_entity_undefined (s : State) (hm : s.model = true) (ty : ℕ) : s.step (.newIges ty) = none := by
  simp only [State.step, hm, Bool.true_eq_false, if_false]

/-- **C91_refused**: without a model every call of the handle is refused and changes nothing. -/
theorem C91_refused (s : State) (hm : s.model = false) :
    (∀ ty old, s.step (.newApi ty old) = some (s, false)) ∧ (∀ ty, s.step (.newIges ty) = some (s, false)) ∧
    (∀ e, s.step (.addRaw e) = some (s, false)) ∧ (∀ e, s.step (.delRaw e) = some (s, false)) ∧
    (∀ e, s.step (.unlinkRaw e) = some (s, false)) ∧ s.step .clear = some (s, false) ∧
    ∀ q w, s.hands[q]? = some (some w) → s.step (.addHandle q) = some (s, false) ∧ s.step (.delHandle q) = some (s, false) ∧
      s.step (.unlinkHandle q) = some (s, false) := by
  refine ⟨fun ty old => ?_, fun ty => ?_, fun e => ?_, fun e => ?_, fun e => ?_, ?_, fun q w hw => ⟨?_, ?_, ?_⟩⟩
  all_goals simp only [State.step, hm, if_true]
  all_goals simp only [hand_of hw, Option.bind_some, Option.map_some]

example : ∃ s, start.run [.newHandle 110 true true, .killModel] = some s ∧ s.model = false := ⟨_, rfl, rfl⟩

/-- **C91_types**: the types that `NewAPIEntity` knows. -/
theorem C91_types (ty : ℕ) : ty ∈ apiTypes ↔ ty = 100 ∨ ty = 102 ∨ ty = 104 ∨ ty = 110 ∨ ty = 120 ∨ ty = 122 ∨ ty = 124 ∨ ty = 126 ∨
    ty = 128 ∨ ty = 142 ∨ ty = 144 ∨ ty = 308 ∨ ty = 314 ∨ ty = 408 := by simp [apiTypes]

/-- **C91_not_listed**: deleting or unlinking an entity that the model does not list is refused, adding one that it lists is answered with
"yes"; neither changes anything. -/
theorem C91_not_listed (s : State) (hm : s.model = true) (e : ℕ) :
    (e ∉ s.list → s.step (.delRaw e) = some (s, false) ∧ s.step (.unlinkRaw e) = some (s, false)) ∧
    (e ∈ s.list → s.step (.addRaw e) = some (s, true)) := by
  refine ⟨fun h => ⟨?_, ?_⟩, fun h => ?_⟩
  · simp only [State.step, hm, Bool.true_eq_false, if_false, State.del, h]
  · simp only [State.step, hm, Bool.true_eq_false, if_false, State.unlink, h]
  · simp only [State.step, hm, Bool.true_eq_false, if_false, State.add, h, if_true]

/-- **C91_attach**: a wrapper accepts an entity if and only if it has the type of the wrapper; then it refers to this entity and to no
other.  The entities and the model are left alone. -/
theorem C91_attach (s : State) (q e t : ℕ) (w : Handle) (hw : s.hands[q]? = some (some w)) (ht : s.ents[e]? = some (some t)) :
    (w.ty ≠ t → s.step (.attach q e) = some (s, false)) ∧
    (w.ty = t → ∃ s', s.step (.attach q e) = some (s', true) ∧ s'.ents = s.ents ∧ s'.list = s.list ∧ s'.model = s.model ∧
      (∀ e', RefersTo s' q e' ↔ e' = e) ∧ ∀ q' e', q' ≠ q → (RefersTo s' q' e' ↔ RefersTo s q' e')) := by
  refine ⟨fun h => ?_, fun h => ?_⟩
  · simp only [State.step, hand_of hw, Option.bind_some, ent_of ht, Option.map_some, if_pos h]
  · have hq : q < s.hands.length := (List.getElem?_eq_some_iff.1 hw).1
    refine ⟨{ s with hands := s.hands.set q (some { w with entity := some e }) }, ?_, rfl, rfl, rfl, fun e' => ⟨?_, ?_⟩, fun q' e' hne => ?_⟩
    · simp only [State.step, hand_of hw, Option.bind_some, ent_of ht, Option.map_some, if_neg (not_not.2 h)]
    · rintro ⟨w', h1, h2, -⟩
      change (s.hands.set q _)[q]? = _ at h1
      rw [List.getElem?_set_self hq] at h1
      cases h1; cases h2; rfl
    · rintro rfl
      refine ⟨{ w with entity := some e' }, ?_, rfl, t, ht⟩
      show (s.hands.set q _)[q]? = _
      rw [List.getElem?_set_self hq]
    · unfold RefersTo
      show (∃ w', (s.hands.set q _)[q']? = some (some w') ∧ _) ↔ _
      rw [List.getElem?_set_ne (fun h => hne h.symm)]

example : ∃ s, start.run [.newHandle 110 true true, .newHandle 110 false false, .newHandle 100 true true] = some s ∧
    s.hands[1]? = some (some ⟨110, none, false⟩) ∧ s.ents[0]? = some (some 110) ∧ s.ents[1]? = some (some 100) ∧ 7 ∉ s.list ∧ s.model = true :=
  ⟨_, rfl, rfl, rfl, rfl, by decide, rfl⟩

end Iges.Props.ApiModel
