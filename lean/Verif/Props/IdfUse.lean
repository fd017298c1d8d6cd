import Verif.Spec.IdfUse
import Mathlib.Tactic.Linarith
import Mathlib.Data.List.Nodup
/-
C90: the library file holds the parts that are in use.
-/
namespace Iges.Props.IdfUse
open Iges.Idf Iges.Idf.Use Iges.Idf.Use.Spec

namespace Count

/-- The count of a part, zero for a part that does not exist. -/
def cnt (w : World) (o : ℕ) : ℕ := (w.parts[o]?).getD 0

theorem cnt_inc (w : World) (q : Option ℕ) (hq : w.known q = true) (o : ℕ) :
    cnt (w.inc q) o = cnt w o + (if q = some o then 1 else 0) := by
  cases q with
  | none => simp [World.inc, cnt]
  | some p =>
    have hp : p < w.parts.length := by simpa [World.known] using hq
    simp only [World.inc, cnt, List.getElem?_modify]
    by_cases h : p = o
    · subst h; simp [hp]
    · simp [h]

theorem cnt_dec (w : World) (q : Option ℕ) (o : ℕ) :
    cnt (w.dec q) o = cnt w o - (if q = some o then 1 else 0) := by
  cases q with
  | none => simp [World.dec, cnt]
  | some p =>
    simp only [World.dec, cnt, List.getElem?_modify]
    by_cases h : p = o
    · subst h
      cases w.parts[p]? <;> simp
    · simp [h]

theorem known_dec (w : World) (q o : Option ℕ) : (w.dec q).known o = w.known o := by
  cases q with
  | none => rfl
  | some p => cases o <;> simp [World.dec, World.known]

theorem inc_recs (w : World) (q : Option ℕ) : (w.inc q).recs = w.recs := by cases q <;> rfl
theorem dec_recs (w : World) (q : Option ℕ) : (w.dec q).recs = w.recs := by cases q <;> rfl
theorem inc_comps (w : World) (q : Option ℕ) : (w.inc q).comps = w.comps := by cases q <;> rfl
theorem dec_comps (w : World) (q : Option ℕ) : (w.dec q).comps = w.comps := by cases q <;> rfl

theorem rec_get {w : World} {r : ℕ} {d : Rec} (h : w.rec? r = some d) : w.recs[r]? = some (some d) := by
  unfold World.rec? at h
  cases hr : w.recs[r]? with
  | none => rw [hr] at h; cases h
  | some x => rw [hr] at h; simpa using h

theorem cmp_get {w : World} {r : ℕ} {d : Cmp} (h : w.cmp? r = some d) : w.comps[r]? = some (some d) := by
  unfold World.cmp? at h
  cases hr : w.comps[r]? with
  | none => rw [hr] at h; cases h
  | some x => rw [hr] at h; simpa using h

/-- The number of users after a record has been replaced. -/
theorem users_set (l : List (Option Rec)) (r : ℕ) (d : Rec) (h : l[r]? = some (some d)) (x : Option Rec) (o : ℕ) :
    (l.set r x).countP (refersTo o) + (if d.part = some o then 1 else 0) =
      l.countP (refersTo o) + (if refersTo o x = true then 1 else 0) := by
  obtain ⟨hl, he⟩ := List.getElem?_eq_some_iff.1 h
  rw [List.countP_set hl, he]
  have : (if d.part = some o then 1 else 0) ≤ l.countP (refersTo o) := by
    split
    · rename_i hd
      exact List.countP_pos_iff.2 ⟨_, List.mem_of_getElem? h, by simpa [refersTo] using hd⟩
    · omega
  have e : (if refersTo o (some d) = true then 1 else 0) = if d.part = some o then 1 else 0 := by simp [refersTo]
  rw [e]
  omega

variable {R : ℕ → ℕ → Prop}

/-- The relation between counts and users. -/
def Inv (R : ℕ → ℕ → Prop) (w : World) : Prop := ∀ o, R (cnt w o) (users w o)

theorem kill_inv (hd : ∀ a b, R a (b + 1) → R (a - 1) b) {w w' : World} {r : ℕ} (h : w.kill r = some w') (hi : Inv R w) :
    Inv R w' := by
  obtain ⟨d, h1, rfl⟩ := Option.map_eq_some_iff.1 h
  intro o
  have hs := users_set w.recs r d (rec_get h1) none o
  have hc : cnt { w.dec d.part with recs := w.recs.set r none } o = cnt w o - (if d.part = some o then 1 else 0) := cnt_dec w d.part o
  rw [hc]
  have h0 := hi o
  unfold users at h0 ⊢
  simp only [refersTo, Bool.false_eq_true, if_false, Nat.add_zero] at hs
  show R _ ((w.recs.set r none).countP (refersTo o))
  rw [← hs] at h0
  by_cases hp : d.part = some o
  · rw [if_pos hp] at h0 ⊢; exact hd _ _ h0
  · rw [if_neg hp] at h0 ⊢; exact h0

theorem killAll_inv (hd : ∀ a b, R a (b + 1) → R (a - 1) b) {l : List ℕ} {w w' : World} (h : w.killAll l = some w')
    (hi : Inv R w) : Inv R w' := by
  induction l generalizing w with
  | nil => cases h; exact hi
  | cons r rs ih =>
    obtain ⟨w1, h1, h2⟩ := Option.bind_eq_some_iff.1 h
    exact ih h2 (kill_inv hd h1 hi)

theorem inv_congr {w w' : World} (hp : w'.parts = w.parts) (hr : w'.recs = w.recs) (hi : Inv R w) : Inv R w' := by
  intro o
  have := hi o
  unfold cnt users at *
  rw [hp, hr]; exact this

theorem new_inv (hu : ∀ a b, R a b → R (a + 1) (b + 1)) {w : World} {c o : Option ℕ} (hk : w.known o = true) (hi : Inv R w)
    (cs : List (Option Cmp)) : Inv R { w.inc o with recs := w.recs ++ [some ⟨c, o⟩], comps := cs } := by
  intro q
  have h0 := hi q
  have hc : cnt { w.inc o with recs := w.recs ++ [some ⟨c, o⟩], comps := cs } q = cnt w q + (if o = some q then 1 else 0) :=
    cnt_inc w o hk q
  rw [hc]
  unfold users at h0 ⊢
  simp only [List.countP_append, List.countP_singleton, refersTo, decide_eq_true_eq]
  split
  · exact hu _ _ h0
  · simpa using h0

/-- Every call keeps the relation. -/
theorem step_inv (hu : ∀ a b, R a b → R (a + 1) (b + 1)) (hd : ∀ a b, R a (b + 1) → R (a - 1) b)
    {w w' : World} {call : Call} {a : Bool} (h : w.step call = some (w', a))
    (hat : ∀ c o, call = .newRecAt c o → o = none ∨ ∀ a b, R a b → R a (b + 1))
    (hcl : ∀ o, call = .clearPart o → ∀ a b, R a b → R 0 b) (hi : Inv R w) : Inv R w' := by
  cases call with
  | newPart =>
    cases h
    intro o
    have h0 := hi o
    have : cnt { w with parts := w.parts ++ [0] } o = cnt w o := by
      unfold cnt
      by_cases ho : o < w.parts.length
      · simp [List.getElem?_append_left ho]
      · rw [List.getElem?_append_right (by omega), List.getElem?_eq_none (l := w.parts) (by omega)]
        cases o - w.parts.length <;> simp
    rw [this]; exact h0
  | newComp p => cases h; exact inv_congr rfl rfl hi
  | newRec =>
    cases h
    intro o
    have h0 := hi o
    unfold users at h0 ⊢
    simp only [List.countP_append, List.countP_singleton, refersTo]
    simpa [cnt] using h0
  | newRecFor c o =>
    simp only [World.step] at h
    split at h
    · rename_i hk
      cases h
      have := new_inv (c := c) hu hk hi w.comps
      rw [← inc_comps w o] at this
      exact this
    · cases h
  | newRecAt c o =>
    simp only [World.step] at h
    split at h
    · cases h
      intro q
      have h0 := hi q
      unfold users at h0 ⊢
      simp only [List.countP_append, List.countP_singleton, refersTo, decide_eq_true_eq]
      rcases hat c o rfl with rfl | hf
      · simpa [cnt] using h0
      · split
        · exact hf _ _ h0
        · simpa [cnt] using h0
    · cases h
  | setParent r c =>
    obtain ⟨d, h1, e⟩ := Option.map_eq_some_iff.1 h
    cases e
    intro o
    have h0 := hi o
    have hs := users_set w.recs r d (rec_get h1) (some { d with parent := c }) o
    simp only [refersTo, decide_eq_true_eq] at hs
    have : (w.recs.set r (some { d with parent := c })).countP (refersTo o) = w.recs.countP (refersTo o) := by
      omega
    unfold users at h0 ⊢
    simp only [this]
    exact h0
  | setOutline r o =>
    simp only [World.step] at h
    split at h
    · cases h
    rename_i d hr
    split at h
    · cases h; exact hi
    split at h
    · cases h
    split at h
    · cases h; exact hi
    split at h
    · rename_i hk
      cases h
      intro q
      have h0 := hi q
      have hs := users_set w.recs r d (rec_get hr) (some { d with part := o }) q
      simp only [refersTo, decide_eq_true_eq] at hs
      have hc : cnt { (w.dec d.part).inc o with recs := w.recs.set r (some { d with part := o }) } q =
          cnt w q - (if d.part = some q then 1 else 0) + (if o = some q then 1 else 0) := by
        have h1 := cnt_inc (w.dec d.part) o (by rw [known_dec]; exact hk) q
        rw [cnt_dec] at h1
        exact h1
      rw [hc]
      have hp : (if d.part = some q then 1 else 0) ≤ w.recs.countP (refersTo q) := by
        split
        · rename_i hd
          exact List.countP_pos_iff.2 ⟨_, List.mem_of_getElem? (rec_get hr), by simpa [refersTo] using hd⟩
        · omega
      show R _ ((w.recs.set r (some { d with part := o })).countP (refersTo q))
      have hn : (w.recs.set r (some { d with part := o })).countP (refersTo q) =
          w.recs.countP (refersTo q) - (if d.part = some q then 1 else 0) + (if o = some q then 1 else 0) := by
        omega
      rw [hn]
      change R (cnt w q) (w.recs.countP (refersTo q)) at h0
      have h2 : R (cnt w q - (if d.part = some q then 1 else 0)) (w.recs.countP (refersTo q) - (if d.part = some q then 1 else 0)) := by
        split
        · rename_i hdq
          rw [if_pos hdq] at hp
          obtain ⟨n, hn⟩ : ∃ n, w.recs.countP (refersTo q) = n + 1 := ⟨_, (Nat.succ_pred_eq_of_pos hp).symm⟩
          rw [hn] at h0 ⊢
          exact hd _ _ h0
        · exact h0
      by_cases hq : o = some q
      · rw [if_pos hq]; exact hu _ _ h2
      · rw [if_neg hq]; exact h2
    · cases h
  | addRec c r =>
    obtain ⟨cc, h1, e⟩ := Option.map_eq_some_iff.1 h
    cases e
    exact inv_congr rfl rfl hi
  | delRec c r =>
    simp only [World.step] at h
    split at h
    · cases h
    split at h
    · cases h; exact hi
    · obtain ⟨w1, h1, e⟩ := Option.map_eq_some_iff.1 h
      cases e
      exact inv_congr (w := w1) rfl rfl (kill_inv hd h1 hi)
  | delRecAt c k =>
    simp only [World.step] at h
    split at h
    · cases h
    split at h
    · cases h; exact hi
    split at h
    · cases h; exact hi
    · obtain ⟨w1, h1, e⟩ := Option.map_eq_some_iff.1 h
      cases e
      exact inv_congr (w := w1) rfl rfl (kill_inv hd h1 hi)
  | destroyRec r =>
    obtain ⟨w1, h1, e⟩ := Option.map_eq_some_iff.1 h
    cases e
    exact kill_inv hd h1 hi
  | destroyComp c =>
    simp only [World.step] at h
    split at h
    · cases h
    · obtain ⟨w1, h1, e⟩ := Option.map_eq_some_iff.1 h
      cases e
      exact inv_congr (w := w1) rfl rfl (killAll_inv hd h1 hi)
  | read c o =>
    simp only [World.step] at h
    split at h
    · cases h
    split at h
    · rename_i hk
      cases h
      exact new_inv hu hk hi _
    · cases h
  | clearPart o =>
    cases h
    intro q
    have h0 := hi q
    have : cnt { w with parts := w.parts.set o 0 } q = if o = q then 0 else cnt w q := by
      unfold cnt
      simp only [List.getElem?_set]
      split
      · split <;> simp
      · rfl
    rw [this]
    split
    · exact hcl o rfl _ _ h0
    · exact h0

theorem run_inv (hu : ∀ a b, R a b → R (a + 1) (b + 1)) (hd : ∀ a b, R a (b + 1) → R (a - 1) b)
    {calls : List Call} {w w' : World} (h : w.run calls = some w')
    (hat : ∀ c o, .newRecAt c o ∈ calls → o = none ∨ ∀ a b, R a b → R a (b + 1))
    (hcl : ∀ o, .clearPart o ∈ calls → ∀ a b, R a b → R 0 b) (hi : Inv R w) : Inv R w' := by
  induction calls generalizing w with
  | nil => cases h; exact hi
  | cons call cs ih =>
    unfold World.run at h
    split at h
    · cases h
    rename_i w1 a hs
    exact ih h (fun c o hm => hat c o (List.mem_cons_of_mem _ hm)) (fun o hm => hcl o (List.mem_cons_of_mem _ hm))
      (step_inv hu hd hs (fun c o e => hat c o (e ▸ List.mem_cons_self)) (fun o e => hcl o (e ▸ List.mem_cons_self)) hi)

theorem users_pos (w : World) (o : ℕ) : 0 < users w o ↔ InUse w o := by
  unfold users InUse
  rw [List.countP_pos_iff]
  constructor
  · rintro ⟨x, hx, hr⟩
    obtain ⟨r, h⟩ := List.mem_iff_getElem?.1 hx
    cases x with
    | none => cases hr
    | some d => exact ⟨r, d, h, by simpa [refersTo] using hr⟩
  · rintro ⟨r, d, h, hp⟩
    exact ⟨some d, List.mem_of_getElem? h, by simpa [refersTo] using hp⟩

theorem written_iff (w : World) (o : ℕ) : w.written o = true ↔ 0 < cnt w o := by
  unfold World.written cnt
  cases w.parts[o]? with
  | none => simp
  | some n => simp [Nat.pos_iff_ne_zero]

theorem empty_inv (cad : Cad) (h0 : R 0 0) : Inv R (empty cad) := fun o => by simpa [cnt, users, empty] using h0

end Count
open Count

/-- **C90_unused** (a part that nothing refers to is not written): whatever calls a program has made, in any number and order, a part
that is written to the library file is referred to by a record that exists. -/
theorem C90_unused (cad : Cad) (calls : List Call) (w : World) (hr : (empty cad).run calls = some w) (o : ℕ)
    (hw : w.written o = true) : InUse w o := by
  have hi : Inv (fun a b => a ≤ b) w := run_inv (R := fun a b => a ≤ b) (fun _ _ h => Nat.add_le_add_right h 1) (fun a b h => by omega) hr
    (fun c o _ => .inr fun a b h => Nat.le_succ_of_le h) (fun o _ a b _ => Nat.zero_le b) (empty_inv cad (Nat.le_refl 0))
  exact (users_pos w o).1 (Nat.lt_of_lt_of_le ((written_iff w o).1 hw) (hi o))

/-- **C90_partial** (a part is written exactly if a record refers to it): for every history of calls in which no record is made by the
constructor that takes offsets together with a part, and no part is cleared.  Without these conditions parts in use are lost
(`C90_offsets_lost`, `C90_cleared_lost`). -/
theorem C90_partial (cad : Cad) (calls : List Call) (hc : ∀ c ∈ calls, Counted c) (w : World)
    (hr : (empty cad).run calls = some w) (o : ℕ) : w.written o = true ↔ InUse w o := by
  have hi : Inv (fun a b => a = b) w := run_inv (R := fun a b => a = b) (fun _ _ h => congrArg (· + 1) h) (fun a b h => by omega) hr
    (fun c o hm => .inl (hc _ hm)) (fun o hm => absurd (hc _ hm) id) (empty_inv cad rfl)
  rw [← users_pos, ← hi o, written_iff]

/-- Two components share a part, one of them gives it up for another part and the other one is deleted. -/
def ex_calls : List Call :=
  [.newPart, .newPart, .newComp (some .placed), .newComp (some .ecad), .read 0 (some 0), .newRecFor (some 1) (some 0), .addRec 1 1,
    .setOutline 0 (some 1), .destroyComp 1]

example : (∀ c ∈ ex_calls, Counted c) ∧ ∃ w, (empty .elec).run ex_calls = some w ∧ w.written 0 = false ∧ w.written 1 = true :=
  ⟨by simp [ex_calls, Counted], _, rfl, by decide, by decide⟩

/-- **C90_offsets_lost**: the constructor that takes the offsets does not tell the part about its new user, so that the part is not written
although a component on the board uses it; and if there is a second user, deleting one of them is enough to lose the part for the
other one. -/
theorem C90_offsets_lost :
    (∃ w, (empty .elec).run [.newPart, .newComp (some .placed), .newRecAt (some 0) (some 0), .addRec 0 0] = some w ∧
      InUse w 0 ∧ w.written 0 = false) ∧
    ∃ w, (empty .elec).run [.newPart, .newComp (some .placed), .read 0 (some 0), .newRecAt (some 0) (some 0), .addRec 0 1, .delRec 0 1] =
      some w ∧ InUse w 0 ∧ w.written 0 = false :=
  ⟨⟨_, rfl, ⟨0, _, rfl, rfl⟩, by decide⟩, ⟨_, rfl, ⟨0, _, rfl, rfl⟩, by decide⟩⟩

/-- **C90_cleared_lost**: clearing a part to fill it anew forgets its users, it is not written any more. -/
theorem C90_cleared_lost : ∃ w, (empty .elec).run [.newPart, .newComp (some .placed), .read 0 (some 0), .clearPart 0] = some w ∧
    InUse w 0 ∧ w.written 0 = false :=
  ⟨_, rfl, ⟨0, _, rfl, rfl⟩, by decide⟩

namespace Safe

/-- Every component lists records that exist, none twice, and no two components list the same. -/
structure Own (w : World) : Prop where
  live : ∀ (i : ℕ) (cc : Cmp), w.comps[i]? = some (some cc) → ∀ r ∈ cc.recs, ∃ d, w.recs[r]? = some (some d)
  nodup : ∀ (i : ℕ) (cc : Cmp), w.comps[i]? = some (some cc) → cc.recs.Nodup
  apart : ∀ (i j : ℕ) (ci cj : Cmp), w.comps[i]? = some (some ci) → w.comps[j]? = some (some cj) → i ≠ j →
    ∀ r ∈ ci.recs, r ∉ cj.recs

theorem rec_of {w : World} {r : ℕ} {d : Rec} (h : w.recs[r]? = some (some d)) : w.rec? r = some d := by simp [World.rec?, h]
theorem cmp_of {w : World} {r : ℕ} {d : Cmp} (h : w.comps[r]? = some (some d)) : w.cmp? r = some d := by simp [World.cmp?, h]

theorem kill_some {w : World} {r : ℕ} {d : Rec} (h : w.recs[r]? = some (some d)) :
    ∃ w', w.kill r = some w' ∧ w'.recs = w.recs.set r none ∧ w'.comps = w.comps :=
  ⟨{ w.dec d.part with recs := w.recs.set r none }, by rw [World.kill, rec_of h]; rfl, rfl, dec_comps w _⟩

theorem killAll_some {l : List ℕ} {w : World} (hn : l.Nodup) (hl : ∀ r ∈ l, ∃ d, w.recs[r]? = some (some d)) :
    ∃ w', w.killAll l = some w' ∧ w'.comps = w.comps ∧ ∀ r, r ∉ l → w'.recs[r]? = w.recs[r]? := by
  induction l generalizing w with
  | nil => exact ⟨w, rfl, rfl, fun _ _ => rfl⟩
  | cons r rs ih =>
    obtain ⟨d, hd⟩ := hl r List.mem_cons_self
    obtain ⟨w1, h1, h2, h3⟩ := kill_some hd
    have hnr := List.nodup_cons.1 hn
    obtain ⟨w2, h4, h5, h6⟩ := ih (w := w1) hnr.2 (fun q hq => by
      obtain ⟨e, he⟩ := hl q (List.mem_cons_of_mem _ hq)
      refine ⟨e, ?_⟩
      rw [h2, List.getElem?_set_ne (i := r) (j := q) (by rintro rfl; exact hnr.1 hq)]
      exact he)
    refine ⟨w2, ?_, h5.trans h3, fun q hq => ?_⟩
    · simp only [World.killAll, h1, Option.bind_some, h4]
    · rw [h6 q (fun h => hq (List.mem_cons_of_mem _ h)), h2, List.getElem?_set_ne (i := r) (j := q) (by rintro rfl; exact hq List.mem_cons_self)]

theorem known_of {w : World} {o : Option ℕ} (h : ∀ p, o = some p → p < w.parts.length) : w.known o = true := by
  cases o with
  | none => rfl
  | some p => simpa [World.known] using h p rfl

/-- The records grow or are replaced by records. -/
theorem own_recs {w w' : World} (hc : w'.comps = w.comps)
    (hr : ∀ (r : ℕ) (d : Rec), w.recs[r]? = some (some d) → ∃ d', w'.recs[r]? = some (some d')) (h : Own w) : Own w' := by
  refine ⟨fun i cc hi r hm => ?_, fun i cc hi => h.nodup i cc (hc ▸ hi), fun i j ci cj hi hj => h.apart i j ci cj (hc ▸ hi) (hc ▸ hj)⟩
  obtain ⟨d, hd⟩ := h.live i cc (hc ▸ hi) r hm
  exact hr r d hd

theorem append_get {l : List (Option Rec)} {x : Option Rec} {r : ℕ} {d : Rec} (h : l[r]? = some (some d)) :
    (l ++ [x])[r]? = some (some d) := by
  rw [List.getElem?_append_left (List.getElem?_eq_some_iff.1 h).1]; exact h

theorem set_cmp {l : List (Option Cmp)} {c i : ℕ} {x : Option Cmp} {ci : Cmp} (h : (l.set c x)[i]? = some (some ci)) :
    (i = c ∧ x = some ci) ∨ (i ≠ c ∧ l[i]? = some (some ci)) := by
  rw [List.getElem?_set] at h
  split at h
  · rename_i e
    split at h
    · cases h; exact .inl ⟨e.symm, rfl⟩
    · cases h
  · rename_i e
    exact .inr ⟨fun h => e h.symm, h⟩

/-- A component loses records, and these are the ones that go. -/
theorem own_less {w w' : World} {c : ℕ} {cc : Cmp} {x : Option Cmp} (hcc : w.comps[c]? = some (some cc)) (gone : List ℕ)
    (hg : ∀ r ∈ gone, r ∈ cc.recs) (hx : ∀ y, x = some y → List.Sublist y.recs cc.recs ∧ ∀ r ∈ y.recs, r ∉ gone)
    (hc : w'.comps = w.comps.set c x) (hr : ∀ r, r ∉ gone → w'.recs[r]? = w.recs[r]?) (h : Own w) : Own w' := by
  refine ⟨fun i ci hi r hm => ?_, fun i ci hi => ?_, fun i j ci cj hi hj hij r hm => ?_⟩
  · rw [hc] at hi
    rcases set_cmp hi with ⟨rfl, e⟩ | ⟨hne, hi⟩
    · obtain ⟨h1, h2⟩ := hx _ e
      rw [hr r (h2 r hm)]
      exact h.live i cc hcc r (h1.subset hm)
    · rw [hr r (fun hm' => h.apart i c ci cc hi hcc hne r hm (hg r hm'))]
      exact h.live i ci hi r hm
  · rw [hc] at hi
    rcases set_cmp hi with ⟨rfl, e⟩ | ⟨hne, hi⟩
    · exact (h.nodup i cc hcc).sublist (hx _ e).1
    · exact h.nodup i ci hi
  · rw [hc] at hi hj
    rcases set_cmp hi with ⟨e1, e⟩ | ⟨hne, hi⟩ <;> rcases set_cmp hj with ⟨e2, e'⟩ | ⟨hne', hj⟩
    · exact absurd (e1.trans e2.symm) hij
    · exact h.apart c j cc cj hcc hj (fun h => hne' h.symm) r ((hx _ e).1.subset hm)
    · exact fun hm' => h.apart i c ci cc hi hcc hne r hm ((hx _ e').1.subset hm')
    · exact h.apart i j ci cj hi hj hij r hm

/-- A component gets a record that no component lists. -/
theorem own_more {w w' : World} {c : ℕ} {cc : Cmp} (hcc : w.comps[c]? = some (some cc)) (r : ℕ) {d : Rec}
    (hd : w'.recs[r]? = some (some d)) (hfree : ∀ (i : ℕ) (ci : Cmp), w.comps[i]? = some (some ci) → r ∉ ci.recs)
    (hc : w'.comps = w.comps.set c (some { cc with recs := cc.recs ++ [r] }))
    (hr : ∀ (r : ℕ) (d : Rec), w.recs[r]? = some (some d) → ∃ d', w'.recs[r]? = some (some d')) (h : Own w) : Own w' := by
  refine ⟨fun i ci hi q hm => ?_, fun i ci hi => ?_, fun i j ci cj hi hj hij q hm => ?_⟩
  · rw [hc] at hi
    rcases set_cmp hi with ⟨rfl, e⟩ | ⟨hne, hi⟩
    · cases e
      rcases List.mem_append.1 hm with hm | hm
      · obtain ⟨e, he⟩ := h.live i cc hcc q hm; exact hr q e he
      · rw [List.mem_singleton.1 hm]; exact ⟨d, hd⟩
    · obtain ⟨e, he⟩ := h.live i ci hi q hm; exact hr q e he
  · rw [hc] at hi
    rcases set_cmp hi with ⟨rfl, e⟩ | ⟨hne, hi⟩
    · cases e
      have := h.nodup i cc hcc
      simpa [List.nodup_append, this] using fun a ha (e : a = r) => hfree i cc hcc (e ▸ ha)
    · exact h.nodup i ci hi
  · rw [hc] at hi hj
    rcases set_cmp hi with ⟨e1, e⟩ | ⟨hne, hi⟩ <;> rcases set_cmp hj with ⟨e2, e'⟩ | ⟨hne', hj⟩
    · exact absurd (e1.trans e2.symm) hij
    · cases e
      rcases List.mem_append.1 hm with hm | hm
      · exact h.apart c j cc cj hcc hj (fun h => hne' h.symm) q hm
      · rw [List.mem_singleton.1 hm]; exact hfree j cj hj
    · cases e'
      intro hm'
      rcases List.mem_append.1 hm' with hm' | hm'
      · exact h.apart i c ci cc hi hcc hne q hm hm'
      · rw [List.mem_singleton.1 hm'] at hm; exact hfree i ci hi hm
    · exact h.apart i j ci cj hi hj hij q hm

/-- A careful call is defined and leaves the lists in order. -/
theorem step_safe {w : World} {call : Call} (h : Own w) (hc : Careful w call) : ∃ w' a, w.step call = some (w', a) ∧ Own w' := by
  cases call with
  | newPart => exact ⟨_, _, rfl, own_recs (w := w) rfl (fun r d h => ⟨d, h⟩) h⟩
  | newComp p =>
    refine ⟨_, _, rfl, ?_⟩
    have hg : ∀ (i : ℕ) (ci : Cmp), (w.comps ++ [some ⟨p, []⟩])[i]? = some (some ci) → ci.recs = [] ∨ w.comps[i]? = some (some ci) := by
      intro i ci hi
      by_cases hl : i < w.comps.length
      · rw [List.getElem?_append_left hl] at hi; exact .inr hi
      · rw [List.getElem?_append_right (by omega)] at hi
        cases hk : i - w.comps.length with
        | zero => rw [hk] at hi; cases hi; exact .inl rfl
        | succ n => rw [hk] at hi; simp at hi
    refine ⟨fun i ci hi r hm => ?_, fun i ci hi => ?_, fun i j ci cj hi hj hij r hm => ?_⟩
    · rcases hg i ci hi with e | hi
      · rw [e] at hm; cases hm
      · exact h.live i ci hi r hm
    · rcases hg i ci hi with e | hi
      · rw [e]; exact List.nodup_nil
      · exact h.nodup i ci hi
    · rcases hg i ci hi with e | hi
      · rw [e] at hm; cases hm
      · rcases hg j cj hj with e | hj
        · rw [e]; exact List.not_mem_nil
        · exact h.apart i j ci cj hi hj hij r hm
  | newRec => exact ⟨_, _, rfl, own_recs (w := w) rfl (fun r d h => ⟨d, append_get h⟩) h⟩
  | newRecFor c o =>
    refine ⟨{ w.inc o with recs := w.recs ++ [some ⟨c, o⟩] }, true, by simp only [World.step, known_of hc.1, if_true], own_recs (w := w) (inc_comps w o) (fun r d h => ⟨d, append_get h⟩) h⟩
  | newRecAt c o =>
    refine ⟨{ w with recs := w.recs ++ [some ⟨c, o⟩] }, true, by simp only [World.step, known_of hc.1, if_true], own_recs (w := w) rfl (fun r d h => ⟨d, append_get h⟩) h⟩
  | setParent r c => exact absurd hc id
  | setOutline r o =>
    obtain ⟨⟨d, hd, hp⟩, ho⟩ := hc
    simp only [World.step, rec_of hd]
    split
    · exact ⟨_, _, rfl, h⟩
    rename_i c hdc
    obtain ⟨cc, hcc⟩ := hp c hdc
    simp only [cmp_of hcc]
    split
    · exact ⟨_, _, rfl, h⟩
    rw [if_pos (known_of ho)]
    refine ⟨_, _, rfl, own_recs (w := w) (by rw [inc_comps, dec_comps]) (fun q e he => ?_) h⟩
    show ∃ d', (w.recs.set r _)[q]? = _
    rw [List.getElem?_set]
    split
    · rename_i hrq
      rw [if_pos (by rw [hrq]; exact (List.getElem?_eq_some_iff.1 he).1)]
      exact ⟨_, rfl⟩
    · exact ⟨e, he⟩
  | addRec c r =>
    obtain ⟨⟨cc, hcc⟩, ⟨d, hd, -⟩, hf⟩ := hc
    refine ⟨{ w with comps := w.comps.set c (some { cc with recs := cc.recs ++ [r] }) }, true,
      by rw [World.step, cmp_of hcc]; rfl, own_more (w := w) hcc r hd hf rfl (fun q e he => ⟨e, he⟩) h⟩
  | delRec c r =>
    obtain ⟨cc, hcc⟩ := hc
    simp only [World.step, cmp_of hcc]
    split
    · exact ⟨_, _, rfl, h⟩
    rename_i hn
    have hm : r ∈ cc.recs := not_not.1 fun h => hn (.inr h)
    obtain ⟨d, hd⟩ := h.live c cc hcc r hm
    obtain ⟨w1, h1, h2, h3⟩ := kill_some hd
    rw [h1]
    refine ⟨_, _, rfl, own_less (w := w) hcc [r] (fun q hq => List.mem_singleton.1 hq ▸ hm) ?_ rfl ?_ h⟩
    · rintro y e
      cases e
      refine ⟨List.erase_sublist, fun q hq hq' => ?_⟩
      rw [List.mem_singleton.1 hq'] at hq
      exact (h.nodup c cc hcc).not_mem_erase hq
    · intro q hq
      show w1.recs[q]? = _
      rw [h2, List.getElem?_set_ne (i := r) (j := q) (by rintro rfl; exact hq (List.mem_singleton_self _))]
  | delRecAt c k =>
    obtain ⟨cc, hcc⟩ := hc
    simp only [World.step, cmp_of hcc]
    split
    · exact ⟨_, _, rfl, h⟩
    split
    · exact ⟨_, _, rfl, h⟩
    rename_i r hk
    have hm : r ∈ cc.recs := List.mem_of_getElem? hk
    obtain ⟨d, hd⟩ := h.live c cc hcc r hm
    obtain ⟨w1, h1, h2, h3⟩ := kill_some hd
    rw [h1]
    refine ⟨_, _, rfl, own_less (w := w) hcc [r] (fun q hq => List.mem_singleton.1 hq ▸ hm) ?_ rfl ?_ h⟩
    · rintro y e
      cases e
      refine ⟨List.eraseIdx_sublist _ _, fun q hq hq' => ?_⟩
      rw [List.mem_singleton.1 hq'] at hq
      have hn := h.nodup c cc hcc
      obtain ⟨hl, he⟩ := List.getElem?_eq_some_iff.1 hk
      rw [List.mem_eraseIdx_iff_getElem] at hq
      obtain ⟨i, hil, hne, hq⟩ := hq
      exact hne ((List.nodup_iff_injective_get.1 hn |> fun hinj => congrArg Fin.val (@hinj ⟨i, hil⟩ ⟨k, hl⟩ (hq.trans he.symm))))
    · intro q hq
      show w1.recs[q]? = _
      rw [h2, List.getElem?_set_ne (i := r) (j := q) (by rintro rfl; exact hq (List.mem_singleton_self _))]
  | destroyRec r =>
    obtain ⟨⟨d, hd⟩, hf⟩ := hc
    obtain ⟨w1, h1, h2, h3⟩ := kill_some hd
    refine ⟨w1, true, by simp only [World.step, h1, Option.map_some], ?_⟩
    refine ⟨fun i ci hi q hm => ?_, fun i ci hi => h.nodup i ci (h3 ▸ hi), fun i j ci cj hi hj => h.apart i j ci cj (h3 ▸ hi) (h3 ▸ hj)⟩
    rw [h3] at hi
    rw [h2, List.getElem?_set_ne (i := r) (j := q) (by rintro rfl; exact hf i ci hi hm)]
    exact h.live i ci hi q hm
  | destroyComp c =>
    obtain ⟨cc, hcc⟩ := hc
    obtain ⟨w1, h1, h2, h3⟩ := killAll_some (h.nodup c cc hcc) (h.live c cc hcc)
    refine ⟨{ w1 with comps := w.comps.set c none }, true, by simp only [World.step, cmp_of hcc, h1, Option.map_some], ?_⟩
    exact own_less (w := w) hcc cc.recs (fun _ h => h) (fun y e => by cases e) rfl (fun q hq => h3 q hq) h
  | read c o =>
    obtain ⟨⟨cc, hcc⟩, ho⟩ := hc
    refine ⟨{ w.inc o with recs := w.recs ++ [some ⟨some c, o⟩],
                           comps := w.comps.set c (some { cc with recs := cc.recs ++ [w.recs.length] }) }, true,
      by simp only [World.step, cmp_of hcc, known_of ho, if_true], ?_⟩
    refine own_more (w := w) hcc w.recs.length (d := ⟨some c, o⟩) ?_ ?_ rfl (fun q e he => ⟨e, append_get he⟩) h
    · show (w.recs ++ [some ⟨some c, o⟩])[w.recs.length]? = _
      simp
    · intro i ci hi hm
      obtain ⟨d, hd⟩ := h.live i ci hi _ hm
      have := (List.getElem?_eq_some_iff.1 hd).1
      omega
  | clearPart o => exact ⟨_, _, rfl, own_recs (w := w) rfl (fun r d h => ⟨d, h⟩) h⟩

end Safe
open Safe

/-- **C90_defined** (no record is deleted twice): a program that uses pointers to objects that exist, gives a record to its component once
and deletes it through that component never runs into undefined behaviour, whatever it does otherwise. -/
theorem C90_defined (cad : Cad) (calls : List Call) (hc : CarefulRun (empty cad) calls) : ∃ w, (empty cad).run calls = some w := by
  have key : ∀ (calls : List Call) (w : World), Own w → CarefulRun w calls → ∃ w', w.run calls = some w' := by
    intro calls
    induction calls with
    | nil => exact fun w _ _ => ⟨w, rfl⟩
    | cons c cs ih =>
      intro w h hc
      obtain ⟨w1, a, h1, h2⟩ := step_safe h hc.1
      simp only [World.run, h1]
      exact ih w1 h2 (hc.2 w1 a h1)
  exact key calls _ ⟨fun i cc hi => by simp [empty] at hi, fun i cc hi => by simp [empty] at hi,
    fun i j ci cj hi => by simp [empty] at hi⟩ hc

example : CarefulRun (empty .elec) [.newPart, .newComp none, .newRecFor (some 0) (some 0), .addRec 0 0, .delRecAt 0 0] := by
  refine ⟨trivial, fun _ _ h => ?_⟩; cases h
  refine ⟨trivial, fun _ _ h => ?_⟩; cases h
  refine ⟨⟨fun p h => by cases h; decide, fun i h => by cases h; exact ⟨_, rfl⟩⟩, fun _ _ h => ?_⟩; cases h
  refine ⟨⟨⟨_, rfl⟩, ⟨_, rfl, rfl⟩, fun i cc h hm => ?_⟩, fun _ _ h => ?_⟩
  · match i, h with
    | 0, h => cases h; cases hm
  · cases h
    exact ⟨⟨_, rfl⟩, fun _ _ _ => trivial⟩

/-- **C90_shared_record**: a record that was given to two components is deleted twice. -/
theorem C90_shared_record : ∃ (calls : List Call) (w : World), (empty .elec).run calls = some w ∧
    w.run [.destroyComp 0] ≠ none ∧ w.run [.destroyComp 1] ≠ none ∧ w.run [.destroyComp 0, .destroyComp 1] = none :=
  ⟨[.newPart, .newComp none, .newComp none, .newRecFor (some 0) (some 0), .addRec 0 0, .addRec 1 0], _, rfl,
    by decide, by decide, by decide⟩

/-- **C90_refused**: the parts of a component that belongs to the other kind of system can neither be exchanged nor taken away. -/
theorem C90_refused (w : World) (c : ℕ) (cc : Cmp) (hc : w.comps[c]? = some (some cc))
    (hf : (cc.placement = some .mcad ∧ w.cad = .elec) ∨ (cc.placement = some .ecad ∧ w.cad = .mech)) :
    (∀ (r : ℕ) (d : Rec) (o : Option ℕ), w.recs[r]? = some (some d) → d.parent = some c → w.step (.setOutline r o) = some (w, false)) ∧
    (∀ r, w.step (.delRec c r) = some (w, false)) ∧ ∀ k, w.step (.delRecAt c k) = some (w, false) := by
  have h1 : ownRecord w.cad cc.placement = false := by rcases hf with ⟨h, e⟩ | ⟨h, e⟩ <;> rw [h, e] <;> rfl
  have h2 : ownComponent w.cad cc.placement = false := by rcases hf with ⟨h, e⟩ | ⟨h, e⟩ <;> rw [h, e] <;> rfl
  refine ⟨fun r d o hd hp => ?_, fun r => ?_, fun k => ?_⟩
  · simp only [World.step, rec_of hd, hp, cmp_of hc, h1, if_true]
  · simp only [World.step, cmp_of hc, h2, true_or, if_true]
  · simp only [World.step, cmp_of hc, h2, if_true]

example : ∃ w, (empty .elec).run [.newPart, .newPart, .newComp (some .mcad), .read 0 (some 0)] = some w ∧
    w.comps[0]? = some (some ⟨some .mcad, [0]⟩) ∧ w.recs[0]? = some (some ⟨some 0, some 0⟩) ∧
    w.step (.setOutline 0 (some 1)) = some (w, false) :=
  ⟨_, rfl, rfl, rfl, by decide⟩

/-- **C90_exchanged**: otherwise the record refers to the new part afterwards, and a record is deleted as asked. -/
theorem C90_exchanged (w : World) (c : ℕ) (cc : Cmp) (hc : w.comps[c]? = some (some cc))
    (hf : (cc.placement = some .mcad ∧ w.cad = .mech) ∨ (cc.placement = some .ecad ∧ w.cad = .elec) ∨ cc.placement = some .placed ∨
      cc.placement = some .unplaced) :
    (∀ (r : ℕ) (d : Rec) (o : ℕ), w.recs[r]? = some (some d) → d.parent = some c → o < w.parts.length →
      ∃ w', w.step (.setOutline r (some o)) = some (w', true) ∧ w'.recs = w.recs.set r (some ⟨some c, some o⟩) ∧ w'.comps = w.comps) ∧
    ∀ (k r : ℕ) (d : Rec), cc.recs[k]? = some r → w.recs[r]? = some (some d) →
      ∃ w', w.step (.delRecAt c k) = some (w', true) ∧ w'.recs = w.recs.set r none ∧
        w'.comps = w.comps.set c (some { cc with recs := cc.recs.eraseIdx k }) := by
  have h1 : ownRecord w.cad cc.placement = true := by
    rcases hf with ⟨h, e⟩ | ⟨h, e⟩ | h | h <;> rw [h] <;> first | rfl | (rw [e]; rfl)
  have h2 : ownComponent w.cad cc.placement = true := by
    rcases hf with ⟨h, e⟩ | ⟨h, e⟩ | h | h <;> rw [h] <;> first | rfl | (rw [e]; rfl)
  refine ⟨fun r d o hd hp ho => ?_, fun k r d hk hd => ?_⟩
  · refine ⟨{ (w.dec d.part).inc (some o) with recs := w.recs.set r (some { d with part := some o }) }, ?_, ?_, ?_⟩
    · simp only [World.step, rec_of hd, hp, cmp_of hc, h1, Bool.true_eq_false, if_false]
      rw [if_pos (known_of fun p e => by cases e; exact ho)]
    · rw [← hp]
    · rw [inc_comps, dec_comps]
  · obtain ⟨w1, h3, h4, h5⟩ := kill_some hd
    refine ⟨{ w1 with comps := w.comps.set c (some { cc with recs := cc.recs.eraseIdx k }) }, ?_, h4, rfl⟩
    simp only [World.step, cmp_of hc, h2, Bool.true_eq_false, if_false, hk, h3, Option.map_some]

namespace Board

/-- Every record is on the list of a component. -/
def Attached (w : World) : Prop :=
  ∀ (r : ℕ) (d : Rec), w.recs[r]? = some (some d) → ∃ (i : ℕ) (cc : Cmp), w.comps[i]? = some (some cc) ∧ r ∈ cc.recs

theorem kill_get {w w' : World} {r : ℕ} (h : w.kill r = some w') : w'.recs = w.recs.set r none := by
  obtain ⟨d, h1, rfl⟩ := Option.map_eq_some_iff.1 h
  rfl

theorem kill_live {w w' : World} {r q : ℕ} {d : Rec} (h : w.kill r = some w') (hq : w'.recs[q]? = some (some d)) :
    q ≠ r ∧ w.recs[q]? = some (some d) := by
  rw [kill_get h, List.getElem?_set] at hq
  split at hq
  · split at hq <;> cases hq
  · rename_i hne
    exact ⟨fun e => hne e.symm, hq⟩

theorem killAll_live {l : List ℕ} {w w' : World} {q : ℕ} {d : Rec} (h : w.killAll l = some w') (hq : w'.recs[q]? = some (some d)) :
    q ∉ l ∧ w.recs[q]? = some (some d) := by
  induction l generalizing w with
  | nil => cases h; exact ⟨List.not_mem_nil, hq⟩
  | cons r rs ih =>
    obtain ⟨w1, h1, h2⟩ := Option.bind_eq_some_iff.1 h
    obtain ⟨h3, h4⟩ := ih h2
    obtain ⟨h5, h6⟩ := kill_live h1 h4
    exact ⟨by rw [List.mem_cons]; rintro (h | h); exacts [h5 h, h3 h], h6⟩

/-- A component is replaced. -/
theorem put {l : List (Option Cmp)} {c : ℕ} {cc : Cmp} (hc : l[c]? = some (some cc)) (x : Option Cmp) {q : ℕ}
    (hx : q ∈ cc.recs → ∃ y, x = some y ∧ q ∈ y.recs)
    (h : ∃ (i : ℕ) (ci : Cmp), l[i]? = some (some ci) ∧ q ∈ ci.recs) : ∃ (i : ℕ) (ci : Cmp), (l.set c x)[i]? = some (some ci) ∧ q ∈ ci.recs := by
  obtain ⟨i, ci, h1, h2⟩ := h
  by_cases hi : c = i
  · subst hi
    rw [hc] at h1; cases h1
    obtain ⟨y, rfl, hy⟩ := hx h2
    exact ⟨c, y, by rw [List.getElem?_set_self (List.getElem?_eq_some_iff.1 hc).1], hy⟩
  · exact ⟨i, ci, by rw [List.getElem?_set_ne hi]; exact h1, h2⟩

theorem step_attached {w w' : World} {call : Call} {a : Bool} (h : w.step call = some (w', a)) (hc : Simple call) (hi : Attached w) :
    Attached w' := by
  cases call with
  | newPart => cases h; exact hi
  | newComp p =>
    cases h
    intro r d hr
    obtain ⟨i, cc, h1, h2⟩ := hi r d hr
    exact ⟨i, cc, by rw [List.getElem?_append_left (List.getElem?_eq_some_iff.1 h1).1]; exact h1, h2⟩
  | newRec => exact absurd hc id
  | newRecFor c o => exact absurd hc id
  | newRecAt c o => exact absurd hc id
  | setParent r c => exact absurd hc id
  | addRec c r => exact absurd hc id
  | destroyRec r => exact absurd hc id
  | clearPart o => exact absurd hc id
  | setOutline r o =>
    simp only [World.step] at h
    split at h
    · cases h
    rename_i d hr
    split at h
    · cases h; exact hi
    split at h
    · cases h
    split at h
    · cases h; exact hi
    split at h
    · cases h
      intro q e he
      have hcs : ((w.dec d.part).inc o).comps = w.comps := by rw [inc_comps, dec_comps]
      show ∃ i cc, ((w.dec d.part).inc o).comps[i]? = _ ∧ _
      rw [hcs]
      change (w.recs.set r _)[q]? = _ at he
      rw [List.getElem?_set] at he
      split at he
      · rename_i e'
        exact hi q d (e' ▸ rec_get hr)
      · exact hi q e he
    · cases h
  | delRec c r =>
    simp only [World.step] at h
    split at h
    · cases h
    rename_i cc hcc
    split at h
    · cases h; exact hi
    · obtain ⟨w1, h1, e⟩ := Option.map_eq_some_iff.1 h
      cases e
      intro q e he
      obtain ⟨hne, hq⟩ := kill_live h1 he
      exact put (cmp_get hcc) _ (fun hm => ⟨_, rfl, (List.mem_erase_of_ne hne).2 hm⟩) (hi q e hq)
  | delRecAt c k =>
    simp only [World.step] at h
    split at h
    · cases h
    rename_i cc hcc
    split at h
    · cases h; exact hi
    split at h
    · cases h; exact hi
    · rename_i r hk
      obtain ⟨w1, h1, e⟩ := Option.map_eq_some_iff.1 h
      cases e
      intro q e he
      obtain ⟨hne, hq⟩ := kill_live h1 he
      refine put (cmp_get hcc) _ (fun hm => ⟨_, rfl, ?_⟩) (hi q e hq)
      rw [List.mem_eraseIdx_iff_getElem?]
      obtain ⟨i, hi⟩ := List.mem_iff_getElem?.1 hm
      exact ⟨i, fun e => hne (by rw [e, hk] at hi; exact (Option.some.inj hi).symm), hi⟩
  | destroyComp c =>
    simp only [World.step] at h
    split at h
    · cases h
    · rename_i cc hcc
      obtain ⟨w1, h1, e⟩ := Option.map_eq_some_iff.1 h
      cases e
      intro q e he
      obtain ⟨hne, hq⟩ := killAll_live h1 he
      exact put (cmp_get hcc) _ (fun hm => absurd hm hne) (hi q e hq)
  | read c o =>
    simp only [World.step] at h
    split at h
    · cases h
    rename_i cc hcc
    split at h
    · cases h
      intro q e he
      change (w.recs ++ [_])[q]? = _ at he
      by_cases hq : q < w.recs.length
      · rw [List.getElem?_append_left hq] at he
        exact put (cmp_get hcc) _ (fun hm => ⟨_, rfl, List.mem_append_left _ hm⟩) (hi q e he)
      · have hql : q = w.recs.length := by
          have := (List.getElem?_eq_some_iff.1 he).1
          simp at this; omega
        refine ⟨c, _, by rw [List.getElem?_set_self (List.getElem?_eq_some_iff.1 (cmp_get hcc)).1], ?_⟩
        simp [hql]
    · cases h

end Board
open Board

/-- **C90_board** (the library file holds the parts of the board): for every history in which boards are read, components and their
records are deleted and records are given other parts, a part is written exactly if a component of the board has a record that refers to
it. -/
theorem C90_board (cad : Cad) (calls : List Call) (hc : ∀ c ∈ calls, Simple c) (w : World) (hr : (empty cad).run calls = some w)
    (o : ℕ) : w.written o = true ↔ OnBoard w o := by
  have ha : Attached w := by
    have key : ∀ (calls : List Call) (w w' : World), (∀ c ∈ calls, Simple c) → w.run calls = some w' → Attached w → Attached w' := by
      intro calls
      induction calls with
      | nil => intro w w' _ h ha; cases h; exact ha
      | cons c cs ih =>
        intro w w' hc h ha
        unfold World.run at h
        split at h
        · cases h
        rename_i w1 a hs
        exact ih w1 w' (fun c h => hc c (List.mem_cons_of_mem _ h)) h (step_attached hs (hc c List.mem_cons_self) ha)
    exact key calls _ w hc hr fun r d h => by simp [empty] at h
  rw [C90_partial cad calls (fun c hm => by have := hc c hm; cases c <;> trivial) w hr o]
  constructor
  · rintro ⟨r, d, h1, h2⟩
    obtain ⟨i, cc, h3, h4⟩ := ha r d h1
    exact ⟨i, cc, r, d, h3, h4, h1, h2⟩
  · rintro ⟨i, cc, r, d, -, -, h1, h2⟩
    exact ⟨r, d, h1, h2⟩

example : ∃ w, (empty .elec).run [.newPart, .newPart, .newComp none, .newComp (some .placed), .read 0 (some 0), .read 1 (some 0),
    .read 1 (some 1), .delRecAt 1 1, .destroyComp 0] = some w ∧ OnBoard w 0 ∧ w.written 1 = false :=
  ⟨_, rfl, ⟨1, _, 1, _, rfl, by decide, rfl, rfl⟩, by decide⟩

end Iges.Props.IdfUse
