import Verif.Spec.Attr
import Mathlib.Tactic.FinCases
import Mathlib.Order.Lattice
import Mathlib.Algebra.Order.Ring.Int

/-!
C42: setters and getters of the common attributes.
-/

namespace Iges.Props.Attr
open Iges Iges.Attr Iges.Spec.Attr

theorem attach_true {c : Child} {b : Bool} (h : (attach c b).2 = true) : (attach c b).1 = some c.id := by
  unfold attach at *
  cases b with
  | false => simp at h
  | true => cases hr : c.reply <;> simp [hr] at h ⊢

theorem set_base {t : Nat} {grad : Option Int} {a : Attr} {s : Setter} (h : mode t s = .base) :
    Attr.set t grad a s = base grad a s := by unfold Attr.set; rw [h]

/-- C42: for every state, class and value, a setter that works and reports success is observed by the
getter.  What is missing: the setters that report success without effect (`C42_fails_ignored`), those whose
value is cut off (`C42_label`, `C42_weight`) and the getters that never see an entity
(`C42_fails_labelAssoc`, `C42_fails_colorEnt`). -/
theorem C42_observed_partial (t : Nat) (grad : Option Int) (a : Attr) (s : Setter) (hw : Works t grad s)
    (h : (set t grad a s).2 = true) : Observed (set t grad a s).1 s := by
  cases s with
  | font n =>
    simp only [Works] at hw
    rw [set_base hw] at h ⊢
    simp only [base] at h ⊢
    split at h
    · cases h
    · rename_i hn
      rw [if_neg hn]
      simp [Observed, GetLineFontPattern]
      omega
  | fontEnt c =>
    simp only [Works] at hw
    rw [set_base hw] at h ⊢
    cases c with
    | none => simp [base, Observed, GetLineFontPatternEntity]
    | some c =>
      simp only [base] at h ⊢
      have hr := attach_true h
      simp only [Observed, GetLineFontPatternEntity, hr]
      rfl
  | level n =>
    simp only [Works] at hw
    rw [set_base hw] at h ⊢
    simp only [base] at h ⊢
    split at h
    · cases h
    · rename_i hn
      rw [if_neg hn]
      simp [Observed, GetLevel]
      omega
  | levelEnt c =>
    simp only [Works] at hw
    rw [set_base hw] at h ⊢
    cases c with
    | none => simp [base, Observed, GetLevelEntity]
    | some c =>
      simp only [base] at h ⊢
      have hr := attach_true h
      simp only [Observed, GetLevelEntity, hr]
      rfl
  | view c =>
    simp only [Works] at hw
    rw [set_base hw] at h ⊢
    cases c with
    | none => simp [base, Observed, GetView]
    | some c =>
      simp only [base] at h ⊢
      have hr := attach_true h
      simp only [Observed, GetView, hr]
      rfl
  | labelAssoc c =>
    cases c with
    | none =>
      simp only [Works] at hw
      rw [set_base hw] at h ⊢
      simp [base, Observed, GetLabelAssoc]
    | some c => exact hw.elim
  | color n =>
    simp only [Works] at hw
    rw [set_base hw] at h ⊢
    simp only [base] at h ⊢
    split at h
    · cases h
    · rename_i hn
      rw [if_neg hn]
      simp [Observed, GetColor]
      omega
  | colorEnt c =>
    cases c with
    | none =>
      simp only [Works] at hw
      rw [set_base hw] at h ⊢
      simp [base, Observed, GetColorEntity]
    | some c => exact hw.elim
  | weight n =>
    simp only [Works] at hw
    rw [set_base hw.1] at h ⊢
    simp only [base] at h ⊢
    split at h
    · cases h
    · rename_i hn
      rw [if_neg hn]
      cases grad with
      | none => cases h
      | some g =>
        have := hw.2 g rfl
        simp only
        rw [if_neg (by omega)]
        rfl
  | label l =>
    simp only [Works] at hw
    rw [set_base rfl]
    simp only [base, Observed]
    exact List.take_of_length_le hw
  | subscript n =>
    rw [set_base rfl] at h ⊢
    simp only [base] at h ⊢
    split at h
    · rename_i hn; rw [if_pos hn]; rfl
    · cases h
  | visible b => simp only [Works] at hw; rw [set_base hw]; rfl
  | depends n => simp only [Works] at hw; rw [set_base hw]; rfl
  | use n => simp only [Works] at hw; rw [set_base hw]; rfl
  | hier n => simp only [Works] at hw; rw [set_base hw]; rfl

example : Works 110 (some 8) (.weight 3) ∧ (set 110 (some 8) {} (.weight 3)).2 = true
    ∧ Works 110 none (.levelEnt (some ⟨7, 406, 1, .accepted⟩))
    ∧ (set 110 none { pLevel := some 2 } (.levelEnt (some ⟨7, 406, 1, .accepted⟩))).2 = true := by
  refine ⟨⟨rfl, ?_⟩, rfl, rfl, rfl⟩
  intro g hg; cases hg; decide

/-- The getter of the other kind answers that there is nothing: a number hides no entity and an
entity no number. -/
theorem C42_exclusive (t : Nat) (grad : Option Int) (a : Attr) (n : Int) (c : Child) :
    (mode t (.level n) = .base → GetLevelEntity (set t grad a (.level n)).1 = (false, none))
    ∧ (mode t (.font n) = .base → GetLineFontPatternEntity (set t grad a (.font n)).1 = (false, none))
    ∧ (mode t (.levelEnt (some c)) = .base → (set t grad a (.levelEnt (some c))).2 = true →
        (GetLevel (set t grad a (.levelEnt (some c))).1).1 = false)
    ∧ (mode t (.fontEnt (some c)) = .base → (set t grad a (.fontEnt (some c))).2 = true →
        (GetLineFontPattern (set t grad a (.fontEnt (some c))).1).1 = false) := by
  refine ⟨fun h => ?_, fun h => ?_, fun h1 h2 => ?_, fun h1 h2 => ?_⟩
  · rw [set_base h]; simp only [base]; split <;> simp [GetLevelEntity]
  · rw [set_base h]; simp only [base]; split <;> simp [GetLineFontPatternEntity]
  · rw [set_base h1] at h2 ⊢
    simp only [base] at h2 ⊢
    have hr := attach_true h2
    simp only [GetLevel, hr]
    rfl
  · rw [set_base h1] at h2 ⊢
    simp only [base] at h2 ⊢
    have hr := attach_true h2
    simp only [GetLineFontPattern, hr]
    rfl

theorem base_frame (grad : Option Int) (a : Attr) (s : Setter) (f : Field) (hf : f ≠ field s) :
    Same (base grad a s).1 a f := by
  cases s <;> cases f <;> simp only [field, ne_eq, not_true_eq_false, reduceCtorEq, not_false_eq_true] at hf <;>
    first
    | (rename_i c; cases c <;> exact ⟨rfl, rfl⟩)
    | (rename_i c; cases c <;> exact rfl)
    | (simp only [base]; split <;> exact ⟨rfl, rfl⟩)
    | (simp only [base]; split <;> exact rfl)
    | (simp only [base]; split <;> first | exact ⟨rfl, rfl⟩ | exact rfl | (split <;> first | exact ⟨rfl, rfl⟩ | exact rfl | (split <;> first | exact ⟨rfl, rfl⟩ | exact rfl)))

theorem same_refl (a : Attr) (f : Field) : Same a a f := by
  cases f <;> first | exact ⟨rfl, rfl⟩ | exact rfl

/-- For every state, class and value: a setter, successful or not, changes what is observed of no
other attribute. -/
theorem C42_frame (t : Nat) (grad : Option Int) (a : Attr) (s : Setter) (f : Field) (hf : f ≠ field s) :
    Same (set t grad a s).1 a f := by
  unfold Attr.set
  split
  · exact base_frame grad a s f hf
  · exact same_refl a f
  · exact same_refl a f

/-- The label that is observed is the first eight characters of the one that was set. -/
theorem C42_label (t : Nat) (grad : Option Int) (a : Attr) (l : Str) :
    (set t grad a (.label l)).2 = true ∧ (set t grad a (.label l)).1.label = l.take 8 := ⟨rfl, rfl⟩

/-- The line weight that is observed is the one that was set, or the largest of the model. -/
theorem C42_weight (t : Nat) (grad : Option Int) (a : Attr) (n : Int) (ht : mode t (.weight n) = .base)
    (h : (set t grad a (.weight n)).2 = true) :
    ∃ g, grad = some g ∧ (set t grad a (.weight n)).1.weight = min n g := by
  rw [set_base ht] at h ⊢
  simp only [base] at h ⊢
  split at h
  · cases h
  · rename_i hn
    rw [if_neg hn]
    cases grad with
    | none => cases h
    | some g =>
      refine ⟨g, rfl, ?_⟩
      simp only
      split
      · show g = min n g; omega
      · show n = min n g; omega

/-- C42 is false: these setters report success and do nothing, whatever the state and the value. -/
theorem C42_fails_ignored (grad : Option Int) (a : Attr) (n : Int) (c : Option Child) (b : Bool) :
    (∀ s ∈ [Setter.font n, .fontEnt c, .level n, .levelEnt c, .view c, .labelAssoc c, .color n, .colorEnt c,
        .weight n, .visible b, .depends n, .hier n], set 124 grad a s = (a, true))
    ∧ (∀ s ∈ [Setter.font n, .fontEnt c, .view c, .labelAssoc c, .color n, .colorEnt c, .weight n],
        set 406 grad a s = (a, true))
    ∧ (∀ s ∈ [Setter.font n, .fontEnt c, .weight n, .depends n, .use n, .hier n], set 108 grad a s = (a, true))
    ∧ (∀ t ∈ [100, 104, 110, 120, 122, 126, 128, 142, 144, 154, 164, 502, 504],
        set t grad a (.hier n) = (a, true)) := by
  refine ⟨?_, ?_, ?_, ?_⟩ <;> (intro s hs; fin_cases hs <;> rfl)

/-- C42 is false: no view can be set. -/
theorem C42_fails_view (t : Nat) (grad : Option Int) (a : Attr) (c : Child)
    (ht : mode t (.view (some c)) = .base) : (set t grad a (.view (some c))).2 = false := by
  rw [set_base ht]
  simp only [base, attach]
  rw [if_neg]
  simp only [decide_eq_true_eq, not_not]
  by_cases h : c.etype = 410
  · right; left; omega
  · left; exact h

/-- C42 is false: a label association that was set is not observed; the getter reports success and
that there is none. -/
theorem C42_fails_labelAssoc (t : Nat) (grad : Option Int) (a : Attr) (c : Child)
    (ht : mode t (.labelAssoc (some c)) = .base) :
    GetLabelAssoc (set t grad a (.labelAssoc (some c))).1 = (true, none) := by
  rw [set_base ht]
  simp [base, GetLabelAssoc]

/-- C42 is false: a colour entity that was set is not observed; `GetColorEntity` reports success and
that there is none, `GetColor` reports the colour number 0. -/
theorem C42_fails_colorEnt (t : Nat) (grad : Option Int) (a : Attr) (c : Child)
    (ht : mode t (.colorEnt (some c)) = .base) :
    GetColorEntity (set t grad a (.colorEnt (some c))).1 = (true, none)
      ∧ GetColor (set t grad a (.colorEnt (some c))).1 = (true, 0) := by
  rw [set_base ht]
  simp [base, GetColorEntity, GetColor]

example : (set 110 none {} (.colorEnt (some ⟨3, 314, 0, .accepted⟩))).2 = true
    ∧ (set 110 none {} (.labelAssoc (some ⟨3, 402, 5, .accepted⟩))).2 = true
    ∧ (set 110 none {} (.view (some ⟨3, 410, 0, .accepted⟩))).2 = false := ⟨rfl, rfl, rfl⟩

/-- A number that is refused nevertheless takes the entity away: what a setter that reports failure
leaves behind. -/
theorem C42_refused_number (t : Nat) (grad : Option Int) (a : Attr) (n : Int) (hn : n < 0)
    (ht : mode t (.level n) = .base) :
    (set t grad a (.level n)).2 = false ∧ GetLevelEntity (set t grad a (.level n)).1 = (false, none) := by
  rw [set_base ht]
  simp [base, hn, GetLevelEntity]

example : GetLevelEntity (set 110 none {} (.levelEnt (some ⟨7, 406, 1, .accepted⟩))).1 = (true, some 7)
    ∧ GetLevelEntity (set 110 none (set 110 none {} (.levelEnt (some ⟨7, 406, 1, .accepted⟩))).1 (.level (-1))).1
      = (false, none) := ⟨rfl, rfl⟩

end Iges.Props.Attr
