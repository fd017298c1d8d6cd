import Verif.Spec.IdfOwner
/-
C77: what belongs to the other kind of system.
-/
namespace Iges.Props.IdfOwner
open Iges.Idf Iges.Idf.Spec

theorem Kept.refl (c : Comp) : Kept c c := ⟨rfl, rfl, rfl, List.prefix_rfl, List.prefix_rfl⟩

theorem Kept.trans {a b c : Comp} (h : Kept a b) (g : Kept b c) : Kept a c :=
  ⟨g.refdes.trans h.refdes, g.pos.trans h.pos, g.placement.trans h.placement, h.drills.trans g.drills, h.outs.trans g.outs⟩

theorem obj_put (b : OBoard) (i j : ℕ) (c c0 : Comp) (h : b.obj i = some c0) :
    (b.put i c).obj j = if j = i then some c else b.obj j := by
  unfold OBoard.obj OBoard.put at *
  have hi : i < b.objs.length := by
    by_contra hh
    rw [List.getElem?_eq_none (by omega)] at h
    cases h
  simp only [List.getElem?_set]
  by_cases e : i = j
  · subst e
    rw [if_pos rfl, if_pos rfl, if_pos hi]; rfl
  · rw [if_neg e, if_neg (fun h => e h.symm)]

theorem obj_free (b : OBoard) (i j : ℕ) (h : j ≠ i) : (b.free i).obj j = b.obj j := by
  unfold OBoard.obj OBoard.free
  simp only [List.getElem?_set]
  rw [if_neg (fun e => h e.symm)]

theorem obj_map (b : OBoard) (m : SMap ℕ) (j : ℕ) : ({ b with map := m } : OBoard).obj j = b.obj j := rfl

theorem obj_new (b : OBoard) (x : Option Comp) (j : ℕ) (c : Comp) (h : b.obj j = some c) :
    ({ b with objs := b.objs ++ [x] } : OBoard).obj j = some c := by
  unfold OBoard.obj at *
  have hi : j < b.objs.length := by
    by_contra hh
    rw [List.getElem?_eq_none (by omega)] at h
    cases h
  simp only
  rw [List.getElem?_append_left hi]
  exact h

theorem foreign_no {cad : Cad} {c : Comp} (h : Foreign cad c) : mayChange cad c = false ∧ mayChangePlaced cad c = false := by
  unfold mayChange mayChangePlaced
  rcases h with ⟨h1, rfl⟩ | ⟨h1, rfl⟩ <;> rw [h1] <;> exact ⟨rfl, rfl⟩

theorem step_cad {b b' : OBoard} {call : OCall} {r : Bool} (h : b.step call = some (b', r)) : b'.cad = b.cad := by
  cases call with
  | new => cases h; rfl
  | addBoardHole => cases h; rfl
  | delBoardHole => cases h; rfl
  | delComponent i =>
    unfold OBoard.step at h
    simp only at h
    split at h
    · cases h
    split at h
    · cases h; rfl
    split at h
    · cases h; rfl
    split at h
    · cases h
    · cases h; rfl
  | delComponentAt k =>
    unfold OBoard.step at h
    simp only at h
    split at h
    · cases h; rfl
    split at h
    · cases h
    split at h
    · cases h; rfl
    · cases h; rfl
  | _ =>
    obtain ⟨c, -, e⟩ := Option.map_eq_some_iff.1 h
    first
      | (split at e <;> first | (cases e; rfl) | (split at e <;> (cases e; rfl)))
      | (cases e; rfl)

/-- what a call on one component does to all -/
theorem put_kept {b : OBoard} {i j : ℕ} {c c' ci : Comp} (hi : b.obj i = some ci) (hj : b.obj j = some c)
    (h : i = j → Kept c c') : ∃ c'', (b.put i c').obj j = some c'' ∧ Kept c c'' := by
  rw [obj_put b i j c' ci hi]
  by_cases e : j = i
  · rw [if_pos e]; exact ⟨c', rfl, h e.symm⟩
  · rw [if_neg e]; exact ⟨c, hj, Kept.refl c⟩

theorem locked_step {b b' : OBoard} {call : OCall} {r : Bool} (h : b.step call = some (b', r)) {i : ℕ} {c : Comp}
    (hi : b.obj i = some c) (hf : Foreign b.cad c) :
    (∃ c', b'.obj i = some c' ∧ Kept c c') ∨
    ∃ j cj, call = .delComponent j ∧ j ≠ i ∧ b.obj j = some cj ∧ b.map.find cj.refdes = some i := by
  obtain ⟨n1, n2⟩ := foreign_no hf
  have same : ∀ {cj : Comp} {j : ℕ}, b.obj j = some cj → j = i → cj = c := by
    intro cj j h e; subst e; rw [hi] at h; exact (Option.some.inj h).symm
  cases call with
  | new => cases h; exact .inl ⟨c, obj_new b _ i c hi, Kept.refl c⟩
  | addBoardHole => cases h; exact .inl ⟨c, hi, Kept.refl c⟩
  | delBoardHole => cases h; exact .inl ⟨c, hi, Kept.refl c⟩
  | delComponent j =>
    unfold OBoard.step at h
    simp only at h
    split at h
    · cases h
    rename_i cj hj
    split at h
    · cases h; exact .inl ⟨c, hi, Kept.refl c⟩
    rename_i hm
    split at h
    · cases h; exact .inl ⟨c, hi, Kept.refl c⟩
    rename_i k hk
    split at h
    · cases h
    cases h
    by_cases e : k = i
    · subst e
      refine .inr ⟨j, cj, rfl, ?_, hj, hk⟩
      intro e
      rw [same hj e] at hm
      exact hm n2
    · exact .inl ⟨c, by rw [obj_map, obj_free b k i (fun h => e h.symm)]; exact hi, Kept.refl c⟩
  | delComponentAt k =>
    unfold OBoard.step at h
    simp only at h
    split at h
    · cases h; exact .inl ⟨c, hi, Kept.refl c⟩
    rename_i key j hk
    split at h
    · cases h
    rename_i cj hj
    split at h
    · cases h; exact .inl ⟨c, hi, Kept.refl c⟩
    rename_i hm
    cases h
    have e : j ≠ i := by
      intro e
      rw [same hj e] at hm
      exact hm n2
    exact .inl ⟨c, by rw [obj_map, obj_free b j i (fun h => e h.symm)]; exact hi, Kept.refl c⟩
  | addComponent j =>
    obtain ⟨cj, hj, e⟩ := Option.map_eq_some_iff.1 h
    split at e
    · cases e; exact .inl ⟨c, hi, Kept.refl c⟩
    · cases e; exact .inl ⟨c, hi, Kept.refl c⟩
  | setRefDes j r =>
    obtain ⟨cj, hj, e⟩ := Option.map_eq_some_iff.1 h
    split at e
    · cases e; exact .inl ⟨c, hi, Kept.refl c⟩
    · rename_i hm
      cases e
      exact .inl (put_kept hj hi fun e => absurd (by rw [same hj e]; exact .inl n1) hm)
  | setPosition j p =>
    obtain ⟨cj, hj, e⟩ := Option.map_eq_some_iff.1 h
    split at e
    · cases e; exact .inl ⟨c, hi, Kept.refl c⟩
    · rename_i hm
      cases e
      exact .inl (put_kept hj hi fun e => absurd (by rw [same hj e]; exact .inl n1) hm)
  | setPlacement j p =>
    obtain ⟨cj, hj, e⟩ := Option.map_eq_some_iff.1 h
    split at e
    · cases e; exact .inl ⟨c, hi, Kept.refl c⟩
    · rename_i hm
      cases e
      exact .inl (put_kept hj hi fun e => absurd (by rw [same hj e]; exact n1) hm)
  | addHole j dia x y plated hole owner =>
    obtain ⟨cj, hj, e⟩ := Option.map_eq_some_iff.1 h
    cases e
    exact .inl (put_kept hj hi fun e => by
      rw [same hj e]; exact ⟨rfl, rfl, rfl, List.prefix_append _ _, List.prefix_rfl⟩)
  | delHole j dia x y =>
    obtain ⟨cj, hj, e⟩ := Option.map_eq_some_iff.1 h
    split at e
    · cases e; exact .inl ⟨c, hi, Kept.refl c⟩
    · rename_i hm
      cases e
      exact .inl (put_kept hj hi fun e => absurd (by rw [same hj e]; exact n1) hm)
  | addOutline j o =>
    obtain ⟨cj, hj, e⟩ := Option.map_eq_some_iff.1 h
    cases e
    exact .inl (put_kept hj hi fun e => by
      rw [same hj e]; exact ⟨rfl, rfl, rfl, List.prefix_rfl, List.prefix_append _ _⟩)
  | delOutline j k =>
    obtain ⟨cj, hj, e⟩ := Option.map_eq_some_iff.1 h
    split at e
    · cases e; exact .inl ⟨c, hi, Kept.refl c⟩
    · rename_i hm
      cases e
      exact .inl (put_kept hj hi fun e => absurd (by rw [same hj e]; exact .inl n1) hm)
  | setOffsets j k x y z a =>
    obtain ⟨cj, hj, e⟩ := Option.map_eq_some_iff.1 h
    split at e
    · cases e; exact .inl ⟨c, hi, Kept.refl c⟩
    split at e
    · cases e; exact .inl ⟨c, hi, Kept.refl c⟩
    · rename_i hm
      cases e
      exact .inl (put_kept hj hi fun e => absurd (by rw [same hj e]; exact n2) hm)

/-- **C77_locked_partial** (a component of the other system is safe): whatever is called, in any number and order, a component
whose placement belongs to the other kind of system stays on the heap with its name, position and status, and none of its holes
and outlines is taken away or changed.  Condition: `DelComponent` is not called with a namesake of a component on the board; with one,
the component is deleted (`C77_deleted_by_namesake`). -/
theorem C77_locked_partial (b b' : OBoard) (calls : List OCall) (hr : b.run calls = some b') (hh : Honest b calls)
    (i : ℕ) (c : Comp) (hi : b.obj i = some c) (hf : Foreign b.cad c) : ∃ c', b'.obj i = some c' ∧ Kept c c' := by
  induction calls generalizing b c with
  | nil => cases hr; exact ⟨c, hi, Kept.refl c⟩
  | cons call cs ih =>
    unfold OBoard.run at hr
    split at hr
    · cases hr
    rename_i b1 r hs
    have hcad := step_cad hs
    rcases locked_step hs hi hf with ⟨c1, h1, hk⟩ | ⟨j, cj, rfl, hj, h1, h2⟩
    · have hf1 : Foreign b1.cad c1 := by
        unfold Foreign at *
        rw [hcad, hk.placement]; exact hf
      obtain ⟨c2, h2, hk2⟩ := ih b1 hr (hh.2 b1 r hs) c1 h1 hf1
      exact ⟨c2, h2, Kept.trans hk hk2⟩
    · exact absurd (hh.1 j rfl cj h1 i h2).symm hj

/-- **C77_refused**: on a component of the other system, the calls that would change it answer "no" and change nothing. -/
theorem C77_refused (b : OBoard) (i : ℕ) (c : Comp) (hi : b.obj i = some c) (hf : Foreign b.cad c) :
    (∀ r, b.step (.setRefDes i r) = some (b, false)) ∧ (∀ p, b.step (.setPosition i p) = some (b, false)) ∧
    (∀ p, b.step (.setPlacement i p) = some (b, false)) ∧ (∀ d x y, b.step (.delHole i d x y) = some (b, false)) ∧
    (∀ k, b.step (.delOutline i k) = some (b, false)) ∧ (∀ k x y z a, b.step (.setOffsets i k x y z a) = some (b, false)) ∧
    b.step (.delComponent i) = some (b, false) ∧
    ∀ k key, b.map[k]? = some (key, i) → b.step (.delComponentAt k) = some (b, false) := by
  obtain ⟨n1, n2⟩ := foreign_no hf
  refine ⟨?_, ?_, ?_, ?_, ?_, ?_, ?_, ?_⟩
  · intro r; simp only [OBoard.step, hi, Option.map_some, n1, true_or, if_true]
  · intro p; simp only [OBoard.step, hi, Option.map_some, n1, true_or, if_true]
  · intro p; simp only [OBoard.step, hi, Option.map_some, n1, if_true]
  · intro d x y; simp only [OBoard.step, hi, Option.map_some, n1, if_true]
  · intro k; simp only [OBoard.step, hi, Option.map_some, n1, true_or, if_true]
  · intro k x y z a
    simp only [OBoard.step, hi, Option.map_some, n2, if_true]
    split <;> rfl
  · simp only [OBoard.step, hi, n2, if_true]
  · intro k key hk
    simp only [OBoard.step, hk, hi, n2, if_true]

/-- **C77_allowed**: on any other component the placement can be set, and the name, unless it is empty or PANEL. -/
theorem C77_allowed (b : OBoard) (i : ℕ) (c : Comp) (hi : b.obj i = some c) (hf : ¬ Foreign b.cad c) :
    (∀ p, b.step (.setPlacement i p) = some (b.put i { c with placement := some p }, true)) ∧
    (∀ r, r ≠ [] → compareToken "PANEL" r = false → b.step (.setRefDes i r) = some (b.put i { c with refdes := r }, true)) ∧
    (∀ p, c.pos = none → b.step (.setPosition i p) = some (b.put i { c with pos := some p }, true)) := by
  have n1 : mayChange b.cad c = true := by
    unfold mayChange
    unfold Foreign at hf
    cases hp : c.placement with
    | none => rfl
    | some p =>
      cases p with
      | mcad => cases hc : b.cad with
        | elec => exact absurd (.inl ⟨hp, hc⟩) hf
        | mech => rfl
      | ecad => cases hc : b.cad with
        | elec => rfl
        | mech => exact absurd (.inr ⟨hp, hc⟩) hf
      | _ => rfl
  refine ⟨?_, ?_, ?_⟩
  · intro p; simp [OBoard.step, hi, n1]
  · intro r h1 h2; simp [OBoard.step, hi, n1, h1, h2]
  · intro p h; simp [OBoard.step, hi, n1, h]

theorem position_step {b b' : OBoard} {call : OCall} {r : Bool} (h : b.step call = some (b', r)) {i : ℕ} {c : Comp} {p : CompPos}
    (hi : b.obj i = some c) (hp : c.pos = some p) : b'.obj i = none ∨ ∃ c', b'.obj i = some c' ∧ c'.pos = some p := by
  have put : ∀ {j : ℕ} {cj c' : Comp}, b.obj j = some cj → (j = i → c'.pos = some p) →
      (b.put j c').obj i = none ∨ ∃ c'', (b.put j c').obj i = some c'' ∧ c''.pos = some p := by
    intro j cj c' hj hh
    rw [obj_put b j i c' cj hj]
    by_cases e : i = j
    · rw [if_pos e]; exact .inr ⟨c', rfl, hh e.symm⟩
    · rw [if_neg e]; exact .inr ⟨c, hi, hp⟩
  have same : ∀ {cj : Comp} {j : ℕ}, b.obj j = some cj → j = i → cj = c := by
    intro cj j h e; subst e; rw [hi] at h; exact (Option.some.inj h).symm
  have free : ∀ (j : ℕ) (m : SMap ℕ), ({ b.free j with map := m } : OBoard).obj i = none ∨
      ∃ c', ({ b.free j with map := m } : OBoard).obj i = some c' ∧ c'.pos = some p := by
    intro j m
    by_cases e : i = j
    · left
      subst e
      rw [obj_map]
      unfold OBoard.obj OBoard.free
      simp only [List.getElem?_set, if_true]
      split <;> rfl
    · right
      exact ⟨c, by rw [obj_map, obj_free b j i e]; exact hi, hp⟩
  cases call with
  | new => cases h; exact .inr ⟨c, obj_new b _ i c hi, hp⟩
  | addBoardHole => cases h; exact .inr ⟨c, hi, hp⟩
  | delBoardHole => cases h; exact .inr ⟨c, hi, hp⟩
  | delComponent j =>
    unfold OBoard.step at h
    simp only at h
    split at h
    · cases h
    split at h
    · cases h; exact .inr ⟨c, hi, hp⟩
    split at h
    · cases h; exact .inr ⟨c, hi, hp⟩
    split at h
    · cases h
    cases h
    exact free _ _
  | delComponentAt k =>
    unfold OBoard.step at h
    simp only at h
    split at h
    · cases h; exact .inr ⟨c, hi, hp⟩
    split at h
    · cases h
    split at h
    · cases h; exact .inr ⟨c, hi, hp⟩
    cases h
    exact free _ _
  | addComponent j =>
    obtain ⟨cj, hj, e⟩ := Option.map_eq_some_iff.1 h
    split at e <;> (cases e; exact .inr ⟨c, hi, hp⟩)
  | setPosition j q =>
    obtain ⟨cj, hj, e⟩ := Option.map_eq_some_iff.1 h
    split at e
    · cases e; exact .inr ⟨c, hi, hp⟩
    · rename_i hm
      cases e
      exact put hj fun e => absurd (by rw [same hj e, hp]; exact .inr rfl) hm
  | addHole j =>
    obtain ⟨cj, hj, e⟩ := Option.map_eq_some_iff.1 h
    cases e
    exact put hj fun e => by rw [same hj e]; exact hp
  | addOutline j =>
    obtain ⟨cj, hj, e⟩ := Option.map_eq_some_iff.1 h
    cases e
    exact put hj fun e => by rw [same hj e]; exact hp
  | setOffsets j k x y z a =>
    obtain ⟨cj, hj, e⟩ := Option.map_eq_some_iff.1 h
    split at e
    · cases e; exact .inr ⟨c, hi, hp⟩
    split at e
    · cases e; exact .inr ⟨c, hi, hp⟩
    · cases e
      exact put hj fun e => by rw [same hj e]; exact hp
  | _ =>
    obtain ⟨cj, hj, e⟩ := Option.map_eq_some_iff.1 h
    split at e
    · cases e; exact .inr ⟨c, hi, hp⟩
    · cases e
      exact put hj fun e => by rw [same hj e]; exact hp

theorem dead_step {b b' : OBoard} {call : OCall} {r : Bool} (h : b.step call = some (b', r)) {i : ℕ} (hlt : i < b.objs.length)
    (hi : b.obj i = none) : i < b'.objs.length ∧ b'.obj i = none := by
  have put : ∀ {j : ℕ} {cj c' : Comp}, b.obj j = some cj → i < (b.put j c').objs.length ∧ (b.put j c').obj i = none := by
    intro j cj c' hj
    refine ⟨by unfold OBoard.put; simpa using hlt, ?_⟩
    rw [obj_put b j i c' cj hj, if_neg]
    · exact hi
    · intro e; subst e; rw [hi] at hj; cases hj
  have free : ∀ (j : ℕ) (m : SMap ℕ), i < ({ b.free j with map := m } : OBoard).objs.length ∧
      ({ b.free j with map := m } : OBoard).obj i = none := by
    intro j m
    refine ⟨by unfold OBoard.free; simpa using hlt, ?_⟩
    rw [obj_map]
    by_cases e : i = j
    · subst e
      unfold OBoard.obj OBoard.free
      simp only [List.getElem?_set, if_true]
      split <;> rfl
    · rw [obj_free b j i e]; exact hi
  cases call with
  | new =>
    cases h
    refine ⟨by simp; omega, ?_⟩
    unfold OBoard.obj at *
    simp only
    rw [List.getElem?_append_left hlt]
    exact hi
  | addBoardHole => cases h; exact ⟨hlt, hi⟩
  | delBoardHole => cases h; exact ⟨hlt, hi⟩
  | delComponent j =>
    unfold OBoard.step at h
    simp only at h
    split at h
    · cases h
    split at h
    · cases h; exact ⟨hlt, hi⟩
    split at h
    · cases h; exact ⟨hlt, hi⟩
    split at h
    · cases h
    cases h
    exact free _ _
  | delComponentAt k =>
    unfold OBoard.step at h
    simp only at h
    split at h
    · cases h; exact ⟨hlt, hi⟩
    split at h
    · cases h
    split at h
    · cases h; exact ⟨hlt, hi⟩
    cases h
    exact free _ _
  | addHole j =>
    obtain ⟨cj, hj, e⟩ := Option.map_eq_some_iff.1 h
    cases e
    exact put hj
  | addOutline j =>
    obtain ⟨cj, hj, e⟩ := Option.map_eq_some_iff.1 h
    cases e
    exact put hj
  | addComponent j =>
    obtain ⟨cj, hj, e⟩ := Option.map_eq_some_iff.1 h
    split at e <;> (cases e; exact ⟨hlt, hi⟩)
  | setOffsets j k x y z a =>
    obtain ⟨cj, hj, e⟩ := Option.map_eq_some_iff.1 h
    split at e
    · cases e; exact ⟨hlt, hi⟩
    split at e
    · cases e; exact ⟨hlt, hi⟩
    · cases e
      exact put hj
  | _ =>
    obtain ⟨cj, hj, e⟩ := Option.map_eq_some_iff.1 h
    split at e
    · cases e; exact ⟨hlt, hi⟩
    · cases e
      exact put hj

/-- **C77_position_once**: the position of a component, of whichever system, can be set once; then it stays as long as the
component exists. -/
theorem C77_position_once (b b' : OBoard) (calls : List OCall) (hr : b.run calls = some b') (i : ℕ) (c : Comp) (p : CompPos)
    (hi : b.obj i = some c) (hp : c.pos = some p) (c' : Comp) (hi' : b'.obj i = some c') : c'.pos = some p := by
  have dead : ∀ (calls : List OCall) (b : OBoard), b.run calls = some b' → i < b.objs.length → b.obj i = none → b'.obj i = none := by
    intro calls
    induction calls with
    | nil => intro b hr _ h; cases hr; exact h
    | cons call cs ih =>
      intro b hr hlt h
      unfold OBoard.run at hr
      split at hr
      · cases hr
      rename_i b1 r hs
      obtain ⟨h1, h2⟩ := dead_step hs hlt h
      exact ih b1 hr h1 h2
  have len : ∀ {b : OBoard} {c : Comp}, b.obj i = some c → i < b.objs.length := by
    intro b c h
    by_contra hh
    unfold OBoard.obj at h
    rw [List.getElem?_eq_none (by omega)] at h
    cases h
  have grow : ∀ {b b1 : OBoard} {call : OCall} {r : Bool}, b.step call = some (b1, r) → i < b.objs.length → i < b1.objs.length := by
    intro b b1 call r hs hlt
    cases ho : b.obj i with
    | none => exact (dead_step hs hlt ho).1
    | some c0 =>
      by_contra hh
      have hn : b1.objs.length ≤ i := by omega
      have hlen : b.objs.length ≤ b1.objs.length := by
        cases call with
        | new => cases hs; simp
        | addBoardHole => cases hs; exact le_refl _
        | delBoardHole => cases hs; exact le_refl _
        | delComponent j =>
          unfold OBoard.step at hs
          simp only at hs
          split at hs
          · cases hs
          split at hs
          · cases hs; exact le_refl _
          split at hs
          · cases hs; exact le_refl _
          split at hs
          · cases hs
          cases hs
          unfold OBoard.free; simp
        | delComponentAt k =>
          unfold OBoard.step at hs
          simp only at hs
          split at hs
          · cases hs; exact le_refl _
          split at hs
          · cases hs
          split at hs
          · cases hs; exact le_refl _
          cases hs
          unfold OBoard.free; simp
        | addHole j =>
          obtain ⟨cj, hj, e⟩ := Option.map_eq_some_iff.1 hs
          cases e; unfold OBoard.put; simp
        | addOutline j =>
          obtain ⟨cj, hj, e⟩ := Option.map_eq_some_iff.1 hs
          cases e; unfold OBoard.put; simp
        | addComponent j =>
          obtain ⟨cj, hj, e⟩ := Option.map_eq_some_iff.1 hs
          split at e <;> (cases e; exact le_refl _)
        | setOffsets j k x y z a =>
          obtain ⟨cj, hj, e⟩ := Option.map_eq_some_iff.1 hs
          split at e
          · cases e; exact le_refl _
          split at e
          · cases e; exact le_refl _
          · cases e; unfold OBoard.put; simp
        | _ =>
          obtain ⟨cj, hj, e⟩ := Option.map_eq_some_iff.1 hs
          split at e
          · cases e; exact le_refl _
          · cases e; unfold OBoard.put; simp
      omega
  induction calls generalizing b c with
  | nil => cases hr; rw [hi] at hi'; cases hi'; exact hp
  | cons call cs ih =>
    unfold OBoard.run at hr
    split at hr
    · cases hr
    rename_i b1 r hs
    rcases position_step hs hi hp with h1 | ⟨c1, h1, h2⟩
    · have := dead cs b1 hr (grow hs (len hi)) h1
      rw [this] at hi'; cases hi'
    · exact ih b1 hr c1 h1 h2

/-- **C77_board_holes** (holes of the other system): whatever is called, the holes of the board that belong to the other
system stay, in order; new ones only come after them. -/
theorem C77_board_holes (b b' : OBoard) (calls : List OCall) (hr : b.run calls = some b') :
    b.holes.filter (fun d => decide (ForeignOwner b.cad d.owner)) <+: b'.holes.filter (fun d => decide (ForeignOwner b.cad d.owner)) := by
  induction calls generalizing b with
  | nil => cases hr; exact List.prefix_rfl
  | cons call cs ih =>
    unfold OBoard.run at hr
    split at hr
    · cases hr
    rename_i b1 r hs
    have hcad := step_cad hs
    have h1 := ih b1 hr
    rw [hcad] at h1
    refine List.IsPrefix.trans ?_ h1
    clear h1 ih hr
    have key : ∀ b1 : OBoard, b1.holes = b.holes → b.holes.filter (fun d => decide (ForeignOwner b.cad d.owner)) <+:
        b1.holes.filter (fun d => decide (ForeignOwner b.cad d.owner)) := by
      intro b1 h; rw [h]; exact List.prefix_rfl
    cases call with
    | new => cases hs; exact key _ rfl
    | addBoardHole =>
      cases hs
      simp only
      rw [List.filter_append]
      exact List.prefix_append _ _
    | delBoardHole dia x y =>
      cases hs
      simp only
      rw [List.filter_filter]
      suffices e : b.holes.filter (fun a => decide (ForeignOwner b.cad a.owner) && !(a.isAt dia x y && mayDelete b.cad a)) =
          b.holes.filter (fun d => decide (ForeignOwner b.cad d.owner)) by
        rw [e]; exact List.prefix_rfl
      refine List.filter_congr fun d _ => ?_
      by_cases hf : ForeignOwner b.cad d.owner
      · have : mayDelete b.cad d = false := by
          unfold mayDelete
          rcases hf with ⟨h1, h2⟩ | ⟨h1, h2⟩ <;> rw [h1, h2] <;> rfl
        simp [hf, this]
      · simp [hf]
    | delComponent j =>
      unfold OBoard.step at hs
      simp only at hs
      split at hs
      · cases hs
      split at hs
      · cases hs; exact key _ rfl
      split at hs
      · cases hs; exact key _ rfl
      split at hs
      · cases hs
      cases hs
      exact key _ rfl
    | delComponentAt k =>
      unfold OBoard.step at hs
      simp only at hs
      split at hs
      · cases hs; exact key _ rfl
      split at hs
      · cases hs
      split at hs
      · cases hs; exact key _ rfl
      cases hs
      exact key _ rfl
    | addHole j =>
      obtain ⟨cj, hj, e⟩ := Option.map_eq_some_iff.1 hs
      cases e; exact key _ rfl
    | addOutline j =>
      obtain ⟨cj, hj, e⟩ := Option.map_eq_some_iff.1 hs
      cases e; exact key _ rfl
    | addComponent j =>
      obtain ⟨cj, hj, e⟩ := Option.map_eq_some_iff.1 hs
      split at e <;> (cases e; exact key _ rfl)
    | setOffsets j k x y z a =>
      obtain ⟨cj, hj, e⟩ := Option.map_eq_some_iff.1 hs
      split at e
      · cases e; exact key _ rfl
      split at e
      · cases e; exact key _ rfl
      · cases e; exact key _ rfl
    | _ =>
      obtain ⟨cj, hj, e⟩ := Option.map_eq_some_iff.1 hs
      split at e
      · cases e; exact key _ rfl
      · cases e; exact key _ rfl

/-- **C77_board_hole_deleted**: holes of the board that are one's own or nobody's are deleted when diameter and position match
to within a hundred-thousandth of a millimetre; the answer says whether there was one; all others stay. -/
theorem C77_board_hole_deleted (b : OBoard) (dia x y : ℚ) : ∃ b' r, b.step (.delBoardHole dia x y) = some (b', r) ∧
    (∀ d, d ∈ b'.holes ↔ d ∈ b.holes ∧ ¬ (¬ ForeignOwner b.cad d.owner ∧ |dia - d.dia| < 1 / 100000 ∧
      (d.x - x) ^ 2 + (d.y - y) ^ 2 ≤ (1 / 100000) ^ 2)) ∧
    (r = true ↔ ∃ d ∈ b.holes, ¬ ForeignOwner b.cad d.owner ∧ |dia - d.dia| < 1 / 100000 ∧
      (d.x - x) ^ 2 + (d.y - y) ^ 2 ≤ (1 / 100000) ^ 2) := by
  have e : ∀ d : Drill, (d.isAt dia x y && mayDelete b.cad d) = true ↔ (¬ ForeignOwner b.cad d.owner ∧ |dia - d.dia| < 1 / 100000 ∧
      (d.x - x) ^ 2 + (d.y - y) ^ 2 ≤ (1 / 100000) ^ 2) := by
    intro d
    have h1 : mayDelete b.cad d = true ↔ ¬ ForeignOwner b.cad d.owner := by
      unfold mayDelete ForeignOwner
      cases d.owner <;> cases b.cad <;> decide
    rw [Bool.and_eq_true, h1]
    unfold Drill.isAt
    rw [decide_eq_true_eq, abs_lt]
    constructor
    · rintro ⟨⟨a1, a2, a3⟩, a4⟩
      exact ⟨a4, ⟨a1, a2⟩, by nlinarith⟩
    · rintro ⟨a4, ⟨a1, a2⟩, a3⟩
      exact ⟨⟨a1, a2, by nlinarith⟩, a4⟩
  refine ⟨_, _, rfl, ?_, ?_⟩
  · intro d
    simp only [List.mem_filter]
    rw [← e d]
    cases (d.isAt dia x y && mayDelete b.cad d) <;> simp
  · rw [List.any_eq_true]
    constructor
    · rintro ⟨d, h1, h2⟩; exact ⟨d, h1, (e d).1 h2⟩
    · rintro ⟨d, h1, h2⟩; exact ⟨d, h1, (e d).2 h2⟩

/-- **C77_outline_partial** (the outline of the board): if it belongs to the other system, its owner and thickness stay whatever is
called; and if no outline is deleted, all its outlines stay, in order (slots may be added).  Deleting is not checked
(`C77_outline_deleted`). -/
theorem C77_outline_partial (cad : Cad) (o : BOutline) (hf : ForeignOwner cad o.owner) (calls : List BCall) :
    (o.run cad calls).owner = o.owner ∧ (o.run cad calls).thickness = o.thickness ∧
    ((∀ c ∈ calls, ¬ Deletes c) → o.outlines <+: (o.run cad calls).outlines) := by
  unfold BOutline.run
  induction calls generalizing o with
  | nil => exact ⟨rfl, rfl, fun _ => List.prefix_rfl⟩
  | cons call cs ih =>
    have hn : mayChangeOutline cad o = false := by
      unfold mayChangeOutline
      rcases hf with ⟨h1, rfl⟩ | ⟨h1, rfl⟩ <;> rw [h1] <;> rfl
    have hadd : ∀ i, (o.add i).1.owner = o.owner ∧ (o.add i).1.thickness = o.thickness ∧ o.outlines <+: (o.add i).1.outlines := by
      intro i
      unfold BOutline.add
      split
      · exact ⟨rfl, rfl, List.prefix_rfl⟩
      · exact ⟨rfl, rfl, List.prefix_append _ _⟩
    have h : (o.step cad call).1.owner = o.owner ∧ (o.step cad call).1.thickness = o.thickness ∧
        (¬ Deletes call → o.outlines <+: (o.step cad call).1.outlines) := by
      cases call with
      | setThickness t => simp [BOutline.step, hn]
      | setOwner w => simp [BOutline.step, hn]
      | addOutline i => simp [BOutline.step, hn]
      | clear => simp [BOutline.step, hn]
      | addSlot i => exact ⟨(hadd i).1, (hadd i).2.1, fun _ => (hadd i).2.2⟩
      | delOutline i =>
        refine ⟨?_, ?_, fun h => absurd trivial h⟩
        · unfold BOutline.step
          simp only
          split
          · rfl
          · repeat' split
            all_goals rfl
        · unfold BOutline.step
          simp only
          split
          · rfl
          · repeat' split
            all_goals rfl
      | delOutlineAt k =>
        refine ⟨?_, ?_, fun h => absurd trivial h⟩
        · unfold BOutline.step
          simp only
          repeat' split
          all_goals rfl
        · unfold BOutline.step
          simp only
          repeat' split
          all_goals rfl
    obtain ⟨h1, h2, h3⟩ := h
    rw [List.foldl_cons]
    obtain ⟨g1, g2, g3⟩ := ih (o.step cad call).1 (by rw [h1]; exact hf)
    exact ⟨g1.trans h1, g2.trans h2, fun hd => (h3 (hd call (by simp))).trans (g3 fun c hc => hd c (by simp [hc]))⟩

/-- **C77_outline_first**: deleting never makes a cutout the outline of the board: the first outline goes only when it is the
last. -/
theorem C77_outline_first (cad : Cad) (o : BOutline) (f g : ℕ) (r : List ℕ) (ho : o.outlines = f :: g :: r) (call : BCall) (hd : Deletes call) :
    ∃ r', (o.step cad call).1.outlines = f :: r' := by
  cases call with
  | delOutline i =>
    unfold BOutline.step
    simp only [ho]
    split
    · rw [if_neg (by simp)]; exact ⟨_, ho⟩
    · split
      · exact ⟨_, rfl⟩
      · exact ⟨_, ho⟩
  | delOutlineAt k =>
    unfold BOutline.step
    simp only [ho]
    split
    · exact ⟨_, ho⟩
    · split
      · rw [if_pos (by simp)]; exact ⟨_, ho⟩
      · rename_i h
        obtain ⟨j, rfl⟩ : ∃ j, k = j + 1 := ⟨k - 1, by omega⟩
        exact ⟨_, rfl⟩
  | _ => exact absurd hd (by simp [Deletes])

/-- **C77_deleted_by_namesake** (against "a component of the other system cannot be deleted"): an electrical system makes a new
component with the name of a component placed by the mechanical system, and calls `DelComponent` with it. -/
theorem C77_deleted_by_namesake : ∃ (calls : List OCall) (b b' : OBoard) (c : Comp),
    b.cad = .elec ∧ b.obj 0 = some c ∧ Foreign b.cad c ∧ b.map.find c.refdes = some 0 ∧ b.run calls = some b' ∧
    b'.obj 0 = none ∧ b'.map.find c.refdes = none := by
  let c : Comp := ⟨"U1".toList, some ⟨0, 0, 0, .top⟩, some .mcad, [], []⟩
  refine ⟨[.new, .setRefDes 1 "U1".toList, .setPlacement 1 .placed, .delComponent 1], ⟨.elec, [some c], [("U1".toList, 0)], []⟩,
    ⟨.elec, [none, some ⟨"U1".toList, none, some .placed, [], []⟩], [], []⟩, c, rfl, rfl, .inl ⟨rfl, rfl⟩, ?_, ?_, rfl, rfl⟩
  · decide
  · rfl

/-- **C77_component_hole_deleted** (against "holes of the other system cannot be deleted"): the owner of a hole is looked at for holes
of the board only. -/
theorem C77_component_hole_deleted : ∃ (b b' : OBoard) (c : Comp) (d : Drill), b.obj 0 = some c ∧ c.drills = [d] ∧
    ForeignOwner b.cad d.owner ∧ b.step (.delHole 0 d.dia d.x d.y) = some (b', true) ∧
    ∃ c', b'.obj 0 = some c' ∧ c'.drills = [] := by
  let d : Drill := ⟨1, 0, 0, true, .refdes "U1".toList, .pin, .mcad⟩
  let c : Comp := ⟨"U1".toList, none, some .placed, [], [d]⟩
  let b : OBoard := ⟨.elec, [some c], [("U1".toList, 0)], []⟩
  have h1 : d.isAt 1 0 0 = true := by decide +kernel
  refine ⟨b, b.put 0 { c with drills := [] }, c, d, rfl, rfl, .inl ⟨rfl, rfl⟩, ?_, _, rfl, rfl⟩
  simp only [OBoard.step, show b.obj 0 = some c from rfl, Option.map_some, show mayChange b.cad c = true from rfl,
    Bool.true_eq_false, if_false, show c.drills = [d] from rfl, show d.dia = 1 from rfl, show d.x = 0 from rfl, show d.y = 0 from rfl,
    List.filter_cons, h1, Bool.not_true, Bool.false_eq_true, List.filter_nil, List.any_cons, Bool.true_or]

/-- **C77_outline_deleted** (against "the outline of the other system cannot be changed"): a cutout of a board outline that belongs
to the mechanical system is deleted by an electrical system. -/
theorem C77_outline_deleted : ∃ o : BOutline, ForeignOwner .elec o.owner ∧ o.outlines = [0, 1] ∧
    (o.step .elec (.delOutlineAt 1)).1.outlines = [0] ∧ (o.step .elec (.delOutline 1)).1.outlines = [0] :=
  ⟨⟨.mcad, 1, [0, 1]⟩, .inl ⟨rfl, rfl⟩, rfl, by decide, by decide⟩

/-- **C77_dangling** (a component registered under two names): after `DelComponent` the board still holds a pointer to the deleted
component; the next use, here deleting it again by its index, is undefined. -/
theorem C77_dangling : ∃ (calls : List OCall) (b : OBoard), (⟨.elec, [], [], []⟩ : OBoard).run calls = some b ∧
    b.map.find "A".toList = some 0 ∧ b.obj 0 = none ∧ b.step (.delComponentAt 0) = none := by
  refine ⟨[.new, .setRefDes 0 "A".toList, .setPlacement 0 .placed, .addComponent 0, .setRefDes 0 "B".toList, .addComponent 0, .delComponent 0],
    ⟨.elec, [none], [("A".toList, 0)], []⟩, rfl, ?_, rfl, rfl⟩
  decide

/-- **C77_unplaced_stays**: a component whose placement was never set cannot be deleted by anyone. -/
theorem C77_unplaced_stays (b : OBoard) (i : ℕ) (c : Comp) (hi : b.obj i = some c) (hp : c.placement = none) :
    b.step (.delComponent i) = some (b, false) := by
  have : mayChangePlaced b.cad c = false := by unfold mayChangePlaced; rw [hp]
  simp only [OBoard.step, hi, this, if_true]

/-- a history on a board with a component of the mechanical system meets the hypotheses of `C77_locked_partial` -/
example : let c : Comp := ⟨"U1".toList, some ⟨0, 0, 0, .top⟩, some .mcad, [], []⟩
    let b : OBoard := ⟨.elec, [some c], [("U1".toList, 0)], []⟩
    Foreign b.cad c ∧ Honest b [.addHole 0 1 0 0 true [] .ecad, .delComponent 0, .delComponentAt 0] ∧
    ∃ b' c', b.run [.addHole 0 1 0 0 true [] .ecad, .delComponent 0, .delComponentAt 0] = some b' ∧ b'.obj 0 = some c' ∧
      c'.drills.length = 1 := by
  refine ⟨.inl ⟨rfl, rfl⟩, ⟨?_, ?_⟩, _, _, rfl, rfl, rfl⟩
  · intro i h; cases h
  · intro b' r h
    cases h
    refine ⟨?_, ?_⟩
    · intro i h ci hc j hj
      cases h
      cases hc
      have : SMap.find "U1".toList [("U1".toList, 0)] = some 0 := by decide
      exact (Option.some.inj (this.symm.trans hj)).symm
    · intro b' r h
      cases h
      refine ⟨?_, fun _ _ _ => trivial⟩
      intro i h; cases h

end Iges.Props.IdfOwner
