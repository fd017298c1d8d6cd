import Verif.Props.Lists
import Verif.Props.Unused
import Verif.Props.Graph

/-!
C23 (a model never holds an entity twice; adding, deleting and unlinking) and C54 (an entity
belongs to one model).
-/

namespace Iges.Props.Lists

open Iges.Graph Iges.Lists Iges.Spec.Lists Iges.Props.Live

/-- A state that a program reaches whose operations are legal and keep every entity in one
model. -/
def Reached (W : World) : Prop := ∃ l, SoleRun start l ∧ run l = some W

theorem inv_start : Inv start :=
  ⟨fun _ _ _ h => (by cases h), fun _ _ _ h => (by obtain ⟨_, h, _⟩ := h; cases h),
    fun _ _ _ _ _ h => (by obtain ⟨_, h, _⟩ := h; cases h),
    fun _ _ _ h => (by obtain ⟨_, h, _⟩ := h; cases h)⟩

theorem runFrom_inv : ∀ (l : List Op) (W W' : World), Inv W → SoleRun W l → runFrom W l = some W' → Inv W'
  | [], W, W', I, _, H => by cases H; exact I
  | o :: l, W, W', I, ⟨h1, h2, h3⟩, H => by
    unfold Lists.runFrom at H
    split at H
    · cases H
    · rename_i W1 b hs
      exact runFrom_inv l W1 W' (step_inv I h1 h2 hs) (h3 _ _ hs) H

theorem Reached.inv {W} (h : Reached W) : Inv W := by
  obtain ⟨l, h1, h2⟩ := h
  exact runFrom_inv l start W inv_start h1 h2

theorem Inv.noDuplicates {W} (I : Inv W) : NoDuplicates W :=
  fun m L h e => List.nodup_iff_count_le_one.mp (I.nd m L trivial h) e

theorem Inv.noStale {W} (I : Inv W) : NoStale W :=
  fun m e h => Option.isSome_iff_exists.mp (I.live m e trivial h)

/-- **C23** (part): in a program that keeps every entity in one model, no model ever holds an
entity twice.  Missing: programs that put an entity into a second model, see
`C23_fails_address_reuse`. -/
theorem C23_no_duplicates_partial (W : World) (h : Reached W) : NoDuplicates W := h.inv.noDuplicates

/-- **C54** (part): in a program that keeps every entity in one model, every entity a model holds
is alive, is held by no other model, and reports that model as its parent.  Missing: programs
that put an entity into a second model, see `C54_fails_two_models`. -/
theorem C54_one_model_partial (W : World) (h : Reached W) : NoStale W ∧ OneModel W ∧ ParentRight W :=
  ⟨h.inv.noStale, fun m m' e => h.inv.one m m' e trivial trivial, fun m e => h.inv.par m e trivial⟩

/-! ### Programs with one model -/

/-- There is no model but `m`, and no entity believes to belong to another one. -/
structure Single (m : Nat) (W : World) : Prop where
  lone : ∀ n, n ≠ m → W.list n = none
  par : ∀ e p, W.parent e = some p → p = m

theorem Single.set {m W} (S : Single m W) (h : Heap) (L : Option (List Nat)) :
    Single m (({ W with heap := h }).setList m L) :=
  ⟨fun n hn => by simp [hn, S.lone n hn], S.par⟩

theorem Single.own {m W} (S : Single m W) (e : Nat) {p : Option Nat} (hp : ∀ q, p = some q → q = m) :
    Single m (W.setParent e p) := by
  refine ⟨S.lone, ?_⟩
  intro x q h
  simp only [setParent_parent] at h
  split at h
  · exact hp q h
  · exact S.par x q h

theorem Single.add {m W e W' b} (S : Single m W) (H : AddEntity W m e = some (W', b)) : Single m W' := by
  cases e with
  | none =>
    unfold AddEntity at H
    split at H
    · cases H
    · cases H; exact S
    · rename_i h; cases h
  | some e =>
    obtain ⟨_, _, _, a4, a5⟩ := addEntity_eff H
    refine ⟨fun n hn => (a5 n hn).trans (S.lone n hn), ?_⟩
    intro x p h
    rcases a4 x with h1 | ⟨_, h1⟩
    · exact S.par x p (h1 ▸ h)
    · rw [h1] at h; cases h; rfl

theorem Single.adoptAll {m e} : ∀ (l : List Nat) {W W' : World}, Single m W →
    Lists.adoptAll W e l = some W' → Single m W'
  | [], _, _, S, H => by cases H; exact S
  | c :: l, W, W', S, H => by
    unfold Lists.adoptAll at H
    split at H
    · cases H
    · rename_i W1 h1
      refine Single.adoptAll l ?_ H
      obtain ⟨_, _, _, _, a5, a6⟩ := adopt_eff h1
      refine ⟨fun n hn => (a5 n (fun h => hn (S.par e n h))).trans (S.lone n hn), ?_⟩
      intro x p h
      rcases a6 x with h1 | ⟨_, h1⟩
      · exact S.par x p (h1 ▸ h)
      · exact S.par e p (h1 ▸ h)

theorem Single.call {m c W W' b} (S : Single m W) (H : callEntity W c = some (W', b)) : Single m W' := by
  unfold callEntity at H
  split at H
  · cases H
  · rename_i h1 b1 _
    split at H
    · cases H
    · rename_i W1 hW1
      cases H
      exact Single.adoptAll _ (W := { W with heap := h1 }) ⟨S.lone, S.par⟩ hW1

theorem Single.fill {m p} : ∀ (l : List Nat) {W W' : World}, Single m W →
    Lists.fill W p l = some W' → Single m W'
  | [], _, _, S, H => by cases H; exact S
  | e :: l, W, W', S, H => by
    unfold Lists.fill at H
    split at H
    · rename_i W1 h1
      exact Single.fill l (S.call h1) H
    · cases H

theorem Single.addAll {m} : ∀ (l : List Nat) {W W' : World}, Single m W →
    Lists.addAll W m l = some W' → Single m W'
  | [], _, _, S, H => by cases H; exact S
  | e :: l, W, W', S, H => by
    unfold Lists.addAll at H
    split at H
    · rename_i W1 h1
      exact Single.addAll l (S.add h1) H
    · cases H

theorem Single.newEntity {m i t W W' b} (S : Single m W) (H : NewEntity W m i t = some (W', b)) :
    Single m W' := by
  unfold NewEntity at H
  split at H
  · cases H
  · cases H
    have := (S.own i (p := some m) (fun q h => by cases h; rfl))
    exact ⟨fun n hn => by simp [hn, S.lone n hn], this.par⟩

theorem Single.export {m b k p W W' r} (S : Single m W) (hb : ∀ x, b = some x → x = m)
    (H : Export W m b k p = some (W', r)) : Single m W' := by
  unfold Export at H
  split at H
  · cases H
  · split at H
    · cases H
    · cases H; exact S
    · rename_i L n hL
      split at H
      · cases H; exact S
      · split at H
        · cases H
        · rename_i Ln hLn
          split at H
          · cases H
          · rename_i sel hsel
            split at H
            · cases H; exact S
            · split at H
              · cases H
              · rename_i W1 b1 hW1
                split at H
                · cases H
                · rename_i W2 hW2
                  split at H
                  · cases H
                  · rename_i W3 hW3
                    have hn := hb n rfl
                    subst hn
                    cases H
                    exact (((S.newEntity hW1).fill _ hW2).addAll _ hW3).set _ _

theorem Single.step {m op W W' b} (S : Single m W) (ho : Only m op)
    (H : Lists.step W op = some (W', b)) : Single m W' := by
  cases op with
  | newModel n => simp only [Only] at ho; subst ho; cases H; exact S.set _ _
  | delModel n =>
    simp only [Only] at ho
    subst ho
    simp only [Lists.step] at H
    unfold DelModel Clear at H
    split at H
    · cases H
    · rename_i W1 b1 h1
      cases H
      split at h1
      · cases h1
      · split at h1
        · cases h1
        · cases h1
          exact (S.set _ _).set _ _
  | new n i t =>
    simp only [Only] at ho
    subst ho
    exact S.newEntity H
  | add n e =>
    simp only [Only] at ho
    subst ho
    exact S.add H
  | del n e =>
    simp only [Only] at ho
    subst ho
    simp only [Lists.step] at H
    unfold DelEntity at H
    split at H
    · cases H
    · cases H; exact S
    · split at H
      · split at H
        · cases H
        · cases H; exact S.set _ _
      · cases H; exact S
  | unlink n e =>
    simp only [Only] at ho
    subst ho
    simp only [Lists.step] at H
    unfold UnlinkEntity at H
    split at H
    · cases H
    · cases H; exact S
    · split at H
      · cases H; exact S.set _ _
      · cases H; exact S
  | clear n =>
    simp only [Only] at ho
    subst ho
    simp only [Lists.step] at H
    unfold Clear at H
    split at H
    · cases H
    · split at H
      · cases H
      · cases H; exact S.set _ _
  | cull n v =>
    simp only [Only] at ho
    subst ho
    simp only [Lists.step] at H
    unfold CullModel at H
    split at H
    · cases H
    · split at H
      · cases H
      · cases H; exact S.set _ _
  | call c =>
    by_cases hc : ∃ i t, c = .new i t
    · obtain ⟨i, t, rfl⟩ := hc
      simp only [Lists.step] at H
      cases H
      exact Single.own (W := { W with heap := W.heap.put i (newObj t) }) ⟨S.lone, S.par⟩ i (p := none) (fun q h => by cases h)
    · have : Lists.step W (.call c) = callEntity W c := by
        cases c <;> first | rfl | exact absurd ⟨_, _, rfl⟩ hc
      rw [this] at H
      exact S.call H
  | «export» a n k p =>
    simp only [Only] at ho
    obtain ⟨rfl, hb⟩ := ho
    simp only [Lists.step, Option.map_eq_some_iff] at H
    obtain ⟨⟨W1, r⟩, h1, h2⟩ := H
    cases h2
    exact S.export hb h1

theorem Single.sole {m op W} (S : Single m W) (ho : Only m op) : Sole W op := by
  have hh : ∀ n e, Holds W n e → n = m := by
    intro n e ⟨L, h, _⟩
    by_contra hn
    rw [S.lone n hn] at h; cases h
  have key : ∀ (c : Call), ∀ x ∈ args c, ∀ n p, Holds W n x → W.parent (receiver c) = some p → n = p :=
    fun c x _ n p h hp => (hh n x h).trans (S.par _ p hp).symm
  cases op with
  | add n e =>
    cases e with
    | none => trivial
    | some e => exact fun m' h => (hh m' e h).trans ho.symm
  | call c => cases c <;> first | exact key _ | exact absurd ho (by simp [Only])
  | _ => trivial

theorem single_run (m : Nat) : ∀ (l : List Op) (W W' : World), Inv W → Single m W → LegalRun W l →
    (∀ o ∈ l, Only m o) → runFrom W l = some W' → Inv W'
  | [], W, W', I, _, _, _, H => by cases H; exact I
  | o :: l, W, W', I, S, ⟨h1, h2⟩, ho, H => by
    unfold Lists.runFrom at H
    split at H
    · cases H
    · rename_i W1 b hs
      exact single_run m l W1 W' (step_inv I h1 (S.sole (ho o (by simp))) hs) (S.step (ho o (by simp)) hs)
        (h2 _ _ hs) (fun x hx => ho x (by simp [hx])) H

/-- **C23**: a program that works with one model never makes it hold an entity twice, and every
entity the model holds is alive. -/
theorem C23_single_model (m : Nat) (l : List Op) (W : World) (hl : LegalRun start l)
    (ho : ∀ o ∈ l, Only m o) (h : run l = some W) : NoDuplicates W ∧ NoStale W := by
  have I := single_run m l start W inv_start ⟨fun _ _ => rfl, fun _ _ h => (by cases h)⟩ hl ho h
  exact ⟨I.noDuplicates, I.noStale⟩

/-! ### Adding, unlinking and deleting -/

/-- **C23**: adding an entity that is present succeeds and changes nothing. -/
theorem C23_add_present (W : World) (m e : Nat) (h : Holds W m e) :
    Lists.step W (.add m (some e)) = some (W, true) := by
  obtain ⟨L, h1, h2⟩ := h
  simp [Lists.step, AddEntity, h1, h2]

/-- **C23**: adding an entity that is alive and not present appends it, once, to that model only. -/
theorem C23_add_absent (W : World) (m e : Nat) (L : List Nat) (hL : W.list m = some L) (he : Alive W e)
    (h : ¬ Holds W m e) : ∃ W', Lists.step W (.add m (some e)) = some (W', true)
      ∧ W'.list m = some (L ++ [e]) ∧ (∀ n, n ≠ m → W'.list n = W.list n) ∧ W'.heap = W.heap
      ∧ W'.parent e = some m := by
  obtain ⟨o, ho⟩ := he
  have h2 : e ∉ L := fun h2 => h ⟨L, hL, h2⟩
  refine ⟨(W.setList m (some (L ++ [e]))).setParent e (some m), by simp [Lists.step, AddEntity, hL, h2, ho], ?_, ?_, rfl, ?_⟩
  · simp
  · intro n hn; simp [hn]
  · simp

/-- **C23**: unlinking an entity removes it from that model, keeps the others in order, and
destroys nothing. -/
theorem C23_unlink_exact (W : World) (hr : Reached W) (m e : Nat) (L : List Nat) (hL : W.list m = some L)
    (he : e ∈ L) : ∃ W', Lists.step W (.unlink m (some e)) = some (W', true)
      ∧ W'.list m = some (L.filter (· ≠ e)) ∧ (∀ n, n ≠ m → W'.list n = W.list n) ∧ W'.heap = W.heap := by
  refine ⟨W.setList m (some (L.erase e)), by simp [Lists.step, UnlinkEntity, hL, he], ?_, ?_, rfl⟩
  · simp only [setList_list, if_true]
    rw [(hr.inv.nd m L trivial hL).erase_eq_filter]
    refine congrArg some (List.filter_congr (fun x _ => ?_))
    by_cases hxe : x = e <;> simp [bne, hxe]
  · intro n hn; simp [hn]

/-- **C23**: unlinking an entity that is not there says so and changes nothing. -/
theorem C23_unlink_absent (W : World) (m e : Nat) (L : List Nat) (hL : W.list m = some L) (he : e ∉ L) :
    Lists.step W (.unlink m (some e)) = some (W, false) := by
  simp [Lists.step, UnlinkEntity, hL, he]

/-- **C23**: deleting an entity removes exactly that entity: the list keeps all others in order,
the other models keep theirs, and of all entities only this one is destroyed. -/
theorem C23_del_exact (W : World) (hr : Reached W) (m e : Nat) (L : List Nat) (hL : W.list m = some L)
    (he : e ∈ L) (W' : World) (b : Bool) (H : Lists.step W (.del m (some e)) = some (W', b)) :
    b = true ∧ W'.list m = some (L.filter (· ≠ e)) ∧ (∀ n, n ≠ m → W'.list n = W.list n)
      ∧ ¬ Alive W' e ∧ ∀ x, x ≠ e → (Alive W' x ↔ Alive W x) := by
  simp only [Lists.step] at H
  unfold DelEntity at H
  simp only [hL, he, if_true] at H
  split at H
  · cases H
  · rename_i h hd
    cases H
    obtain ⟨_, d1, d2⟩ := destroy_live hd
    refine ⟨rfl, ?_, ?_, ?_, ?_⟩
    · simp only [setList_list, if_true]
      rw [(hr.inv.nd m L trivial hL).erase_eq_filter]
      refine congrArg some (List.filter_congr (fun x _ => ?_))
      by_cases hxe : x = e <;> simp [bne, hxe]
    · intro n hn; simp [hn]
    · rintro ⟨o, ho⟩
      have ho : h e = some o := ho
      simp_all
    · intro x hx
      have := d2 x hx
      unfold Alive
      rw [← Option.isSome_iff_exists, ← Option.isSome_iff_exists]
      show (h x).isSome = true ↔ (W.heap x).isSome = true
      rw [this]

/-- **C23**: deleting an entity that is not there says so and changes nothing. -/
theorem C23_del_absent (W : World) (m e : Nat) (L : List Nat) (hL : W.list m = some L) (he : e ∉ L) :
    Lists.step W (.del m (some e)) = some (W, false) := by
  simp [Lists.step, DelEntity, hL, he]

end Iges.Props.Lists
