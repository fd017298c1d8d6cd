import Verif.Spec.ApiGlobals
import Verif.Props.NewModel
/-
C92: the global data that are set through the handle.
-/
namespace Iges.Props.ApiGlobals
open Iges Iges.ApiGlobals Iges.ApiGlobals.Spec

namespace Steps

theorem convert_frame {fuel : Nat} {m m' : ScaleModel} {u : Int} {b : Bool} (h : ConvertUnits fuel m u = some (b, m')) :
    ∃ r f, m'.globals = { m.globals with minResolution := r, unitsFlag := f } := by
  unfold ConvertUnits at h
  split at h
  · cases h; exact ⟨_, _, rfl⟩
  split at h
  · cases h; exact ⟨_, _, rfl⟩
  split at h
  · cases h; exact ⟨_, _, rfl⟩
  simp only at h
  split at h
  · cases h; exact ⟨_, _, rfl⟩
  split at h
  · cases h
  · cases h; exact ⟨_, _, rfl⟩
  · cases h; exact ⟨_, _, rfl⟩

theorem scale_frame {fuel : Nat} {m m' : ScaleModel} {x : ℚ} {b : Bool} (h : ChangeModelScale fuel m x = some (b, m')) :
    ∃ r s, m'.globals = { m.globals with minResolution := r, modelScale := s } := by
  unfold ChangeModelScale at h
  split at h
  · cases h; exact ⟨_, _, rfl⟩
  split at h
  · cases h; exact ⟨_, _, rfl⟩
  simp only at h
  split at h
  · cases h
  · cases h; exact ⟨_, _, rfl⟩

theorem stored_store (g : Globals) (s : Str) (a b : Text) : stored (store g s b) a = if b = a then s else stored g a := by
  cases a <;> cases b <;> rfl

/-- What a call does to the global data. -/
theorem step_globals {fuel : Nat} {m m' : ScaleModel} {c : Call} {b : Bool} (h : step fuel m c = some (b, m')) :
    (∃ a v, c = .text a v ∧ m'.globals = store m.globals (cView (v.getD [])) a) ∨
    (∃ n, c = .grad n ∧ m'.globals = { m.globals with maxLinewidthGrad := if 0 < n then n else m.globals.maxLinewidthGrad }) ∨
    (∃ x, c = .width x ∧ m'.globals = { m.globals with maxLinewidth := if 0 < x then x else m.globals.maxLinewidth }) ∨
    (∃ x, c = .resolution x ∧ m'.globals = { m.globals with minResolution := if 1 / 10 ^ 9 ≤ x then x else m.globals.minResolution }) ∨
    (∃ n, c = .standard n ∧ m'.globals = { m.globals with draftStandard := n }) ∨
    (Scales c ∧ ∃ r f s, m'.globals = { m.globals with minResolution := r, unitsFlag := f, modelScale := s }) := by
  cases c with
  | text a v =>
    refine .inl ⟨a, v, rfl, ?_⟩
    cases a <;> cases v <;> cases h <;> rfl
  | grad n =>
    refine .inr (.inl ⟨n, rfl, ?_⟩)
    simp only [step] at h
    split at h
    · cases h; rw [if_neg (by omega)]
    · cases h; rw [if_pos (by omega)]
  | width x =>
    refine .inr (.inr (.inl ⟨x, rfl, ?_⟩))
    simp only [step] at h
    split at h
    · rename_i hx; cases h; rw [if_neg (not_lt.2 hx)]
    · rename_i hx; cases h; rw [if_pos (not_le.1 hx)]
  | resolution x =>
    refine .inr (.inr (.inr (.inl ⟨x, rfl, ?_⟩)))
    simp only [step] at h
    split at h
    · rename_i hx; cases h; rw [if_neg (not_le.2 hx)]
    · rename_i hx; cases h; rw [if_pos (not_lt.1 hx)]
  | standard n =>
    refine .inr (.inr (.inr (.inr (.inl ⟨n, rfl, ?_⟩))))
    cases h; rfl
  | units u =>
    refine .inr (.inr (.inr (.inr (.inr ⟨trivial, ?_⟩))))
    simp only [step] at h
    split at h
    · cases h; exact ⟨_, _, _, rfl⟩
    · obtain ⟨r, f, h⟩ := convert_frame h
      exact ⟨r, f, m.globals.modelScale, h⟩
  | scale x =>
    refine .inr (.inr (.inr (.inr (.inr ⟨trivial, ?_⟩))))
    obtain ⟨r, s, h⟩ := scale_frame h
    exact ⟨r, m.globals.unitsFlag, s, h⟩

theorem step_text {fuel : Nat} {m m' : ScaleModel} {c : Call} {b : Bool} (a : Text) (h : step fuel m c = some (b, m')) :
    stored m'.globals a = (setsText a c).getD (stored m.globals a) := by
  obtain ⟨x, v, rfl, k⟩ | ⟨n, rfl, k⟩ | ⟨n, rfl, k⟩ | ⟨n, rfl, k⟩ | ⟨n, rfl, k⟩ | ⟨hs, r, f, s, k⟩ := step_globals h
  · rw [k, stored_store, setsText]
    split <;> rfl
  iterate 4 (rw [k]; cases a <;> rfl)
  · rw [k]; cases c <;> simp only [Scales] at hs <;> cases a <;> rfl

theorem step_grad {fuel : Nat} {m m' : ScaleModel} {c : Call} {b : Bool} (h : step fuel m c = some (b, m')) :
    m'.globals.maxLinewidthGrad = (setsGrad c).getD m.globals.maxLinewidthGrad := by
  obtain ⟨x, v, rfl, k⟩ | ⟨n, rfl, k⟩ | ⟨n, rfl, k⟩ | ⟨n, rfl, k⟩ | ⟨n, rfl, k⟩ | ⟨hs, r, f, s, k⟩ := step_globals h
  · rw [k]; cases x <;> rfl
  · rw [k, setsGrad]; simp only; split <;> rfl
  iterate 3 (rw [k]; rfl)
  · rw [k]; cases c <;> simp only [Scales] at hs <;> rfl

theorem step_width {fuel : Nat} {m m' : ScaleModel} {c : Call} {b : Bool} (h : step fuel m c = some (b, m')) :
    m'.globals.maxLinewidth = (setsWidth c).getD m.globals.maxLinewidth := by
  obtain ⟨x, v, rfl, k⟩ | ⟨n, rfl, k⟩ | ⟨n, rfl, k⟩ | ⟨n, rfl, k⟩ | ⟨n, rfl, k⟩ | ⟨hs, r, f, s, k⟩ := step_globals h
  · rw [k]; cases x <;> rfl
  · rw [k]; rfl
  · rw [k, setsWidth]; simp only; split <;> rfl
  iterate 2 (rw [k]; rfl)
  · rw [k]; cases c <;> simp only [Scales] at hs <;> rfl

theorem step_standard {fuel : Nat} {m m' : ScaleModel} {c : Call} {b : Bool} (h : step fuel m c = some (b, m')) :
    m'.globals.draftStandard = (setsStandard c).getD m.globals.draftStandard := by
  obtain ⟨x, v, rfl, k⟩ | ⟨n, rfl, k⟩ | ⟨n, rfl, k⟩ | ⟨n, rfl, k⟩ | ⟨n, rfl, k⟩ | ⟨hs, r, f, s, k⟩ := step_globals h
  · rw [k]; cases x <;> rfl
  iterate 4 (rw [k]; rfl)
  · rw [k]; cases c <;> simp only [Scales] at hs <;> rfl

theorem step_resolution {fuel : Nat} {m m' : ScaleModel} {c : Call} {b : Bool} (h : step fuel m c = some (b, m')) (hc : ¬ Scales c) :
    m'.globals.minResolution = (setsResolution c).getD m.globals.minResolution := by
  obtain ⟨x, v, rfl, k⟩ | ⟨n, rfl, k⟩ | ⟨n, rfl, k⟩ | ⟨n, rfl, k⟩ | ⟨n, rfl, k⟩ | ⟨hs, r, f, s, k⟩ := step_globals h
  · rw [k]; cases x <;> rfl
  iterate 2 (rw [k]; rfl)
  · rw [k, setsResolution]; simp only; split <;> rfl
  · rw [k]; rfl
  · exact absurd hs hc

/-- A value that every call sets or keeps is the one set last. -/
theorem last_of {α : Type} {P : Call → Prop} {sets : Call → Option α} {p : Globals → α} {fuel : Nat}
    (hs : ∀ m m' c b, P c → step fuel m c = some (b, m') → p m'.globals = (sets c).getD (p m.globals)) :
    ∀ (calls : List Call) (m m' : ScaleModel), (∀ c ∈ calls, P c) → run fuel m calls = some m' →
      Last calls sets (p m.globals) (p m'.globals) := by
  intro calls
  induction calls with
  | nil => intro m m' _ h; cases h; exact .inr ⟨rfl, fun _ h => absurd h List.not_mem_nil⟩
  | cons c cs ih =>
    intro m m' hP h
    obtain ⟨⟨b, m1⟩, h1, h2⟩ := Option.bind_eq_some_iff.1 h
    have e := hs m m1 c b (hP c List.mem_cons_self) h1
    obtain ⟨pre, c', post, h3, h4, h5⟩ | ⟨h3, h4⟩ := ih m1 m' (fun x hx => hP x (List.mem_cons_of_mem _ hx)) h2
    · exact .inl ⟨c :: pre, c', post, by rw [h3]; rfl, h4, h5⟩
    · cases hc : sets c with
      | some v =>
        rw [hc] at e
        exact .inl ⟨[], c, cs, rfl, by rw [hc, h3, e]; rfl, h4⟩
      | none =>
        rw [hc] at e
        refine .inr ⟨h3.trans e, fun x hx => ?_⟩
        rcases List.mem_cons.1 hx with rfl | hx
        · exact hc
        · exact h4 x hx

theorem cView_idem (s : Str) : cView (cView s) = cView s := by
  unfold cView
  induction s with
  | nil => rfl
  | cons x xs ih =>
    simp only [List.takeWhile_cons]
    split
    · rename_i hx
      rw [List.takeWhile_cons, if_pos hx, ih]
    · rfl

theorem cView_length (s : Str) : (cView s).length ≤ s.length := (List.takeWhile_prefix _).length_le

end Steps
open Steps

/-- **C92_partial** (getters report what was set last): after any program of setters, in any order and however often, with conversions of
units and scale between them, the five plain texts, the number of line widths, the line width and the drafting standard are those that
were last set with a value that the setter accepts; if there were none, the ones before.  The resolution is too, if the model was not
scaled meanwhile.  For the product name of the receiver see `C92_receiver`. -/
theorem C92_partial (fuel : Nat) (m m' : ScaleModel) (calls : List Call) (h : run fuel m calls = some m') :
    (∀ a, Last calls (setsText a) (stored m.globals a) (stored m'.globals a)) ∧
    Last calls setsGrad m.globals.maxLinewidthGrad m'.globals.maxLinewidthGrad ∧
    Last calls setsWidth m.globals.maxLinewidth m'.globals.maxLinewidth ∧
    Last calls setsStandard m.globals.draftStandard m'.globals.draftStandard ∧
    ((∀ c ∈ calls, ¬ Scales c) → Last calls setsResolution m.globals.minResolution m'.globals.minResolution) := by
  have t : ∀ c ∈ calls, True := fun _ _ => trivial
  exact ⟨fun a => last_of (P := fun _ => True) (p := fun g => stored g a) (fun _ _ _ _ _ h => step_text a h) calls m m' t h,
    last_of (P := fun _ => True) (p := fun g => g.maxLinewidthGrad) (fun _ _ _ _ _ h => step_grad h) calls m m' t h,
    last_of (P := fun _ => True) (p := fun g => g.maxLinewidth) (fun _ _ _ _ _ h => step_width h) calls m m' t h,
    last_of (P := fun _ => True) (p := fun g => g.draftStandard) (fun _ _ _ _ _ h => step_standard h) calls m m' t h,
    fun hc => last_of (P := fun c => ¬ Scales c) (p := fun g => g.minResolution) (fun _ _ _ _ hp h => step_resolution h hp) calls m m' hc h⟩

/-- **C92_reported**: the getters of the texts report the texts of the model (up to a zero character), except that of the receiver. -/
theorem C92_reported (g : Globals) (a : Text) (h : a ≠ .receiver) : GetText (some g) a = (true, some (cView (stored g a))) := by
  cases a <;> first | rfl | exact absurd rfl h

/-- **C92_receiver**: the receiver's name is reported as the sender's if it is empty: clearing it has no visible effect. -/
theorem C92_receiver (g : Globals) :
    (g.productIDRS ≠ [] → GetText (some g) .receiver = (true, some (cView g.productIDRS))) ∧
    (g.productIDRS = [] → GetText (some g) .receiver = GetText (some g) .sender) := by
  constructor
  · intro h; simp only [GetText, h, false_and, if_false]
  · intro h
    simp only [GetText, h, true_and, stored]
    by_cases hs : g.productIDSS = []
    · simp [hs]
    · simp [hs]

/-- **C92_answers**: a setter answers whether it accepts the value; a value that is not accepted changes nothing. -/
theorem C92_answers (fuel : Nat) (m : ScaleModel) :
    (∀ a v, ¬ (a = .receiver ∧ v = none) → ∃ m', step fuel m (.text a v) = some (true, m') ∧ m'.heap = m.heap ∧ m'.entities = m.entities) ∧
    (∀ n, 0 < n → ∃ m', step fuel m (.grad n) = some (true, m')) ∧ (∀ n, n ≤ 0 → step fuel m (.grad n) = some (false, m)) ∧
    (∀ x, 0 < x → ∃ m', step fuel m (.width x) = some (true, m')) ∧ (∀ x, x ≤ 0 → step fuel m (.width x) = some (false, m)) ∧
    (∀ x, 1 / 10 ^ 9 ≤ x → ∃ m', step fuel m (.resolution x) = some (true, m')) ∧
    (∀ x, x < 1 / 10 ^ 9 → step fuel m (.resolution x) = some (false, m)) ∧
    (∀ n, ∃ m', step fuel m (.standard n) = some (true, m')) ∧ step fuel m (.units 3) = some (false, m) := by
  refine ⟨fun a v h => ?_, fun n h => ?_, fun n h => ?_, fun x h => ?_, fun x h => ?_, fun x h => ?_, fun x h => ?_, fun n => ?_, rfl⟩
  · cases a <;> cases v <;> first | exact absurd ⟨rfl, rfl⟩ h | exact ⟨_, rfl, rfl, rfl⟩
  · exact ⟨_, by rw [step, if_neg (by omega)]⟩
  · rw [step, if_pos h]
  · exact ⟨_, by rw [step, if_neg (not_le.2 h)]⟩
  · rw [step, if_pos h]
  · exact ⟨_, by rw [step, if_neg (not_lt.2 h)]⟩
  · rw [step, if_pos h]
  · exact ⟨_, rfl⟩

/-- **C92_null_receiver_undefined**: all setters of texts accept a null pointer, except the one for the receiver's name. -/
theorem C92_null_receiver_undefined (fuel : Nat) (m : ScaleModel) : step fuel m (.text .receiver none) = none := rfl

/-- **C92_no_model**: without a model the getters of the texts answer "no" and give a null pointer. -/
theorem C92_no_model (a : Text) : GetText none a = (false, none) := rfl

/-- A program. -/
def ex_calls : List Call :=
  [.text .author (some "A".toList), .grad 0, .grad 4, .text .author (some "B; C".toList), .resolution (1 / 1000), .text .sender (some "board".toList),
   .text .note none, .width (1 / 2), .standard 3]

def ex_model : ScaleModel := ⟨initGlobals, fun _ => ⟨.null, []⟩, []⟩

example : (run 0 ex_model (ex_calls ++ [.units 1, .scale 2])).map (fun m' => (stored m'.globals .author, m'.globals.maxLinewidthGrad,
    m'.globals.unitsFlag, GetText (some m'.globals) .receiver)) = some ("B; C".toList, 4, 1, (true, some "board".toList)) := by
  decide +kernel

/-! ### Through a file -/

namespace Files

theorem chars_cons (c : Call) (cs : List Call) :
    chars (c :: cs) = argLen c + chars cs := by
  unfold chars
  rw [List.map_cons, List.sum_cons]

/-- The lengths of the six texts together. -/
def lens (g : Globals) : ℕ :=
  g.productIDSS.length + g.nativeSystemID.length + g.productIDRS.length + g.author.length + g.organization.length + g.applicationNote.length

theorem lens_store (g : Globals) (s : Str) (a : Text) : lens (store g s a) ≤ lens g + s.length := by
  cases a <;> simp only [lens, store] <;> omega

/-- Global data that writable calls make of those of a new model. -/
structure Fine (g : Globals) : Prop where
  delims : g.pdelim = ',' ∧ g.rdelim = ';'
  nl : ∀ a, '\n' ∉ stored g a
  scale : g.modelScale = 1
  res : 1 / 10 ^ 8 ≤ g.minResolution ∧ g.minResolution ≤ 1000
  units : g.unitsFlag = 2
  grad : 1 ≤ g.maxLinewidthGrad ∧ g.maxLinewidthGrad ≤ 2147483647
  draft : -2147483648 ≤ g.draftStandard ∧ g.draftStandard ≤ 2147483647
  date : g.creationDate = []

theorem fine_step {fuel : Nat} {m m' : ScaleModel} {c : Call} {b : Bool} (h : step fuel m c = some (b, m')) (hc : Storable c)
    (hf : Fine m.globals) : Fine m'.globals ∧ lens m'.globals ≤ lens m.globals + chars [c] := by
  have hns : ¬ Scales c := by cases c <;> simp only [Storable, Scales] at hc ⊢ <;> exact id
  have ht := fun a => step_text a h
  have hg := step_grad h
  have hr := step_resolution h hns
  have hd := step_standard h
  have hkeep : (m'.globals.pdelim = m.globals.pdelim ∧ m'.globals.rdelim = m.globals.rdelim) ∧ m'.globals.modelScale = m.globals.modelScale ∧
      m'.globals.unitsFlag = m.globals.unitsFlag ∧ m'.globals.creationDate = m.globals.creationDate ∧
      lens m'.globals ≤ lens m.globals + chars [c] := by
    obtain ⟨x, v, rfl, k⟩ | ⟨n, rfl, k⟩ | ⟨n, rfl, k⟩ | ⟨n, rfl, k⟩ | ⟨n, rfl, k⟩ | ⟨hs, r, f, s, k⟩ := step_globals h
    · have hl : lens m'.globals ≤ lens m.globals + chars [.text x v] := by
        rw [k]
        refine le_trans (lens_store _ _ _) (Nat.add_le_add_left ?_ _)
        rw [chars_cons]
        cases v with
        | none => exact Nat.zero_le _
        | some s => exact le_trans (cView_length s) (Nat.le_add_right _ _)
      rw [k] at hl ⊢
      refine ⟨?_, ?_, ?_, ?_, hl⟩ <;> cases x <;> first | rfl | exact ⟨rfl, rfl⟩
    iterate 4 (rw [k]; exact ⟨⟨rfl, rfl⟩, rfl, rfl, rfl, Nat.le_add_right _ _⟩)
    · exact absurd hs hns
  obtain ⟨⟨k1, k1'⟩, k2, k3, k4, k5⟩ := hkeep
  refine ⟨⟨⟨k1.trans hf.delims.1, k1'.trans hf.delims.2⟩, fun a => ?_, k2.trans hf.scale, ?_, k3.trans hf.units, ?_, ?_, k4.trans hf.date⟩, k5⟩
  · rw [ht a]
    cases c with
    | text x v =>
      simp only [setsText]
      split
      · cases v with
        | none => exact List.not_mem_nil
        | some s => exact fun hm => hc.2 s rfl ((List.takeWhile_sublist _).subset hm)
      · exact hf.nl a
    | _ => exact hf.nl a
  · rw [hr]
    cases c with
    | resolution x =>
      simp only [setsResolution]
      split
      · rename_i hx
        rcases hc with hc | hc
        · exact absurd hx (not_le.2 hc)
        · exact hc
      · exact hf.res
    | _ => exact hf.res
  · rw [hg]
    cases c with
    | grad n =>
      simp only [setsGrad]
      split
      · rename_i hx
        have : n ≤ 2147483647 := hc
        exact ⟨Int.add_one_le_of_lt hx, this⟩
      · exact hf.grad
    | _ => exact hf.grad
  · rw [hd]
    cases c with
    | standard n => exact hc
    | _ => exact hf.draft

theorem fine_run {fuel : Nat} : ∀ (calls : List Call) (m : ScaleModel), (∀ c ∈ calls, Storable c) → Fine m.globals →
    ∃ m', run fuel m calls = some m' ∧ Fine m'.globals ∧ lens m'.globals ≤ lens m.globals + chars calls := by
  intro calls
  induction calls with
  | nil => exact fun m _ hf => ⟨m, rfl, hf, Nat.le_add_right _ _⟩
  | cons c cs ih =>
    intro m hw hf
    have hc := hw c List.mem_cons_self
    obtain ⟨b, m1, h1⟩ : ∃ b m1, step fuel m c = some (b, m1) := by
      cases c with
      | text a v =>
        cases a <;> cases v <;> first | exact ⟨_, _, rfl⟩ | exact absurd rfl (hc.1 rfl)
      | grad n => simp only [step]; split <;> exact ⟨_, _, rfl⟩
      | width n => simp only [step]; split <;> exact ⟨_, _, rfl⟩
      | resolution n => simp only [step]; split <;> exact ⟨_, _, rfl⟩
      | standard n => exact ⟨_, _, rfl⟩
      | units u => exact hc.elim
      | scale u => exact hc.elim
    obtain ⟨f1, l1⟩ := fine_step h1 hc hf
    obtain ⟨m', h2, f2, l2⟩ := ih m1 (fun x hx => hw x (List.mem_cons_of_mem _ hx)) f1
    refine ⟨m', by simp only [run, h1, Option.bind_some, h2], f2, ?_⟩
    have e1 := chars_cons c []
    have e2 := chars_cons c cs
    have e3 : chars ([] : List Call) = 0 := rfl
    omega

theorem text_ok {a : Text} {v : Option Str} (h : a ≠ .receiver) (hv : ∀ s, v = some s → '\n' ∉ s) : Storable (.text a v) :=
  ⟨fun e => absurd e h, hv⟩

theorem fine_init : Fine initGlobals where
  delims := ⟨rfl, rfl⟩
  nl := fun a => by cases a <;> exact List.not_mem_nil
  scale := rfl
  res := by constructor <;> norm_num [initGlobals]
  units := rfl
  grad := by decide
  draft := by decide
  date := rfl

theorem stored_normalise (g : Globals) (a : Text) : stored (normalise g) a = stored g a := by
  unfold normalise
  simp only
  split <;> split <;> cases a <;> rfl

theorem grad_normalise (g : Globals) : (normalise g).maxLinewidthGrad = g.maxLinewidthGrad := by
  unfold normalise
  simp only
  split <;> split <;> rfl

theorem standard_normalise (g : Globals) : (normalise g).draftStandard = g.draftStandard := by
  unfold normalise
  simp only
  split <;> split <;> rfl

end Files
open Files

/-- **C92_file** (what one program sets, another one reads): a program makes a new model, sets global data in any order and however often,
with values that a file can hold, and writes the model to a file.  The global section of the file is accepted by the reader, and the texts,
the number of line widths and the drafting standard that the reading program is told are those that were set last; empty names of the
sender and of the system have become "none".  The resolution is the same within the writing accuracy if there is no note. -/
theorem C92_file (est : ℚ → ℚ → Nat) (num : RealTok → ℚ) (he : EstOk est) (hn : DoubleConv num) (ver now name : Str)
    (hname : name ≠ []) (hnl : '\n' ∉ name ∧ '\n' ∉ ver) (ht : Iges.Spec.DateText now) (fuel : Nat) (heap : Iges.Heap) (ents : List Nat) (calls : List Call)
    (hw : ∀ c ∈ calls, Storable c) (hroom : chars calls + name.length + ver.length + 2 * now.length ≤ 9999000) :
    ∃ m' datas r, run fuel ⟨initGlobals, heap, ents⟩ calls = some m' ∧
      writeGlobals est ver now { m'.globals with fileName := name } = Rd.val (Iges.Spec.lines Iges.Spec.globalTail 1 datas, (datas.length : Int),
        prepGlobals { m'.globals with fileName := name }) ∧
      readGlobals num datas.flatten initGlobals = Rd.val r ∧
      (∀ a, ∃ v, Last calls (setsText a) [] v ∧ stored r a = if (a = .sender ∨ a = .system) ∧ v = [] then "none".toList else v) ∧
      Last calls setsGrad 1 r.maxLinewidthGrad ∧ Last calls setsStandard 0 r.draftStandard ∧
      (stored r .note = [] → ∃ v, Last calls setsResolution (1 / 10 ^ 8) v ∧ Iges.Spec.Near v v r.minResolution) := by
  obtain ⟨m', h1, hf, hl⟩ := fine_run (fuel := fuel) calls ⟨initGlobals, heap, ents⟩ hw fine_init
  obtain ⟨l1, l2, -, l4, l5⟩ := C92_partial fuel _ m' calls h1
  have l5 := l5 fun c hc hs => by
    have := hw c hc
    cases c <;> first | exact this.elim | exact hs.elim
  have hlegal : LegalGlobals ver now { ({ m'.globals with fileName := name } : Globals) with creationDate := now } := by
    refine ⟨?_, hname, ?_, ?_, hf.res, ?_, hf.grad.2, hf.draft, ht, ht, ?_⟩
    · show DelimPair m'.globals.pdelim m'.globals.rdelim
      rw [hf.delims.1, hf.delims.2]
      exact ⟨by decide, by decide, by decide, by decide, by decide⟩
    · intro s hs
      simp only [List.mem_cons, List.not_mem_nil, or_false] at hs
      rcases hs with rfl | rfl | rfl | rfl | rfl | rfl | rfl | rfl
      · exact hf.nl .sender
      · exact hnl.1
      · exact hf.nl .system
      · exact hnl.2
      · exact hf.nl .receiver
      · exact hf.nl .author
      · exact hf.nl .organization
      · exact hf.nl .note
    · show |m'.globals.modelScale| ≤ _
      rw [hf.scale, abs_one]
      exact one_le_zpow₀ (by norm_num) (by norm_num)
    · show 1 ≤ m'.globals.unitsFlag ∧ m'.globals.unitsFlag ≤ 11
      rw [hf.units]; exact ⟨by norm_num, by norm_num⟩
    · have : lens initGlobals = 0 := rfl
      simp only [totalLen]
      simp only [lens] at hl this
      simp only [this] at hl
      omega
  have h0 : checkDate ({ m'.globals with fileName := name } : Globals).creationDate = .ok false := by
    show checkDate m'.globals.creationDate = _
    rw [hf.date]; rfl
  obtain ⟨datas, r, w1, w2, k⟩ := C47_new_partial est num he hn ver now { m'.globals with fileName := name } hlegal h0
  have kt : ∀ a, stored r a = if (a = .sender ∨ a = .system) ∧ stored m'.globals a = [] then "none".toList else stored m'.globals a := by
    intro a
    cases a with
    | sender => rw [show stored r .sender = r.productIDSS from rfl, k.productIDSS]; simp [stored]
    | system => rw [show stored r .system = r.nativeSystemID from rfl, k.nativeSystemID]; simp [stored]
    | receiver => rw [show stored r .receiver = r.productIDRS from rfl, k.productIDRS]; simp [stored]
    | author => rw [show stored r .author = r.author from rfl, k.author]; simp [stored]
    | organization => rw [show stored r .organization = r.organization from rfl, k.organization]; simp [stored]
    | note => rw [show stored r .note = r.applicationNote from rfl, k.applicationNote]; simp [stored]
  have kg : r.maxLinewidthGrad = m'.globals.maxLinewidthGrad := by
    rw [k.maxLinewidthGrad]
    exact if_neg (not_lt.2 hf.grad.1)
  refine ⟨m', datas, _, h1, w1, w2, fun a => ⟨stored m'.globals a, ?_, ?_⟩, ?_, ?_, ?_⟩
  · have := l1 a
    cases a <;> exact this
  · split
    · exact kt a
    · rw [stored_normalise]; exact kt a
  · have : (if ({ m'.globals with fileName := name } : Globals).applicationNote = [] then r else normalise r).maxLinewidthGrad =
        m'.globals.maxLinewidthGrad := by
      split
      · exact kg
      · rw [grad_normalise]; exact kg
    rw [this]; exact l2
  · have : (if ({ m'.globals with fileName := name } : Globals).applicationNote = [] then r else normalise r).draftStandard =
        m'.globals.draftStandard := by
      split
      · exact k.draftStandard
      · rw [standard_normalise]; exact k.draftStandard
    rw [this]; exact l4
  · intro hnote
    refine ⟨m'.globals.minResolution, l5, ?_⟩
    have hn' : m'.globals.applicationNote = [] := by
      have e : stored (if ({ m'.globals with fileName := name } : Globals).applicationNote = [] then r else normalise r) .note =
          stored r .note := by
        split
        · rfl
        · rw [stored_normalise]
      rw [e, kt .note] at hnote
      simpa [stored] using hnote
    rw [if_pos hn']
    exact k.minResolution

/-- **C92_fine_resolution_lost**: the setter accepts resolutions from 1e-9 on, but those below 1e-8 are written as zero, which no reader
accepts (`C47_resolution_positive`). -/
theorem C92_fine_resolution_lost (est : ℚ → ℚ → Nat) (fuel : Nat) (m : ScaleModel) (x : ℚ) (h1 : 1 / 10 ^ 9 ≤ x) (h2 : x < 1 / 10 ^ 8) :
    ∃ m', step fuel m (.resolution x) = some (true, m') ∧ m'.globals.minResolution = x ∧
      realText est (prepGlobals m'.globals).minResolution (prepGlobals m'.globals).minResolution = "0.0".toList := by
  refine ⟨{ m with globals := { m.globals with minResolution := x } }, by rw [step, if_neg (not_lt.2 h1)], rfl, ?_⟩
  exact C47_fine_resolution_written_zero est _ (le_trans (by norm_num) h1) h2

example : (1 : ℚ) / 10 ^ 9 ≤ 5 / 10 ^ 9 ∧ (5 : ℚ) / 10 ^ 9 < 1 / 10 ^ 8 := by constructor <;> norm_num

example : ∀ c ∈ ex_calls, Storable c := by
  intro c hc
  simp only [ex_calls, List.mem_cons, List.not_mem_nil, or_false] at hc
  rcases hc with rfl | rfl | rfl | rfl | rfl | rfl | rfl | rfl | rfl
  · exact text_ok (by decide) (by intro s hs; cases hs; decide)
  · show (0 : Int) ≤ _; decide
  · show (4 : Int) ≤ _; decide
  · exact text_ok (by decide) (by intro s hs; cases hs; decide)
  · exact .inr ⟨by norm_num, by norm_num⟩
  · exact text_ok (by decide) (by intro s hs; cases hs; decide)
  · exact text_ok (by decide) (by intro s hs; cases hs)
  · trivial
  · exact ⟨by decide, by decide⟩

end Iges.Props.ApiGlobals
