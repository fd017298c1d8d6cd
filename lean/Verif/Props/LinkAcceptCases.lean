import Verif.Props.LinkAccept
import Verif.Props.LinkCases
/-
Concrete cases for C60, and files that are refused.
-/
namespace Iges.Props

open Iges.Graph Iges.Spec Iges.Link Iges.File LinkCases

namespace LinkCases

instance (es : List REnt) (l : List Nat) (v : Int) : Decidable (Leads es l v) := by unfold Leads; infer_instance
instance (es : List REnt) (v : Int) : Decidable (InFile es v) := by unfold InFile; infer_instance
instance (es : List REnt) (s i : Nat) : Decidable (DeTarget es s i) := by unfold DeTarget; infer_instance

def typedTest (es : List REnt) (r : REnt) : Bool :=
  match r.body with
  | .composite k => decide (∀ v ∈ k, Leads es simpleCurves v)
  | .revolution k => decide ((k.L ≠ 0 → Leads es [110] k.L) ∧ (k.C ≠ 0 → Leads es (102 :: simpleCurves) k.C))
  | .tabCyl k => decide (k.DE ≠ 0 → Leads es (102 :: simpleCurves) k.DE)
  | .solid k => decide (∀ v ∈ k.shell :: k.voids.map Prod.fst, Leads es [514] v ∧ formAt es (pos v) = 1)
  | .subfigure k => decide (∀ v ∈ k.DE, InFile es v)
  | .inst k => decide (k.DE ≠ 0 → Leads es [308] k.DE)
  | .edges k => decide (∀ q ∈ k, Leads es [502] q.svp ∧ Leads es [502] q.tvp
      ∧ Leads es ([102, 106, 112, 130] ++ simpleCurves) q.curv
      ∧ 1 ≤ q.sv ∧ q.sv ≤ pointsAt es (pos q.svp) ∧ 1 ≤ q.tv ∧ q.tv ≤ pointsAt es (pos q.tvp))
  | .loop k => decide (∀ q ∈ k, InFile es q.data ∧ ∀ c ∈ q.pcurves, InFile es c.2)
  | .face k => decide (Leads es [114, 118, 120, 122, 128, 140, 190, 192, 194, 196, 198] k.surf
      ∧ ∀ v ∈ k.loops, Leads es [508] v)
  | .shell k => decide (∀ v ∈ k.map Prod.fst, Leads es [510] v)
  | .onSurface _ | .trimmed _ | .extrusion _ | .tree _ => false
  | _ => true

theorem typed_of {es : List REnt} {r : REnt} (h : typedTest es r = true) : Typed es r := by
  unfold typedTest at h
  unfold Typed
  split at h <;> rename_i hb <;> simp only [hb] <;> first | exact of_decide_eq_true h | cases h

def acceptTest (es : List REnt) : Bool :=
  decide (es.length ≤ 4999999) &&
  allAt (fun i r => decide (∀ q ∈ deNumbers r.de, 0 < q.2 →
    wantsSlot r.body q.1 = true ∧ pos q.2 < es.length ∧ pos q.2 ≠ i ∧ DeTarget es q.1 (pos q.2))) es &&
  es.all (fun r => decide (∀ v ∈ r.extras, Leads es [406] v) && typedTest es r && decide (∀ v ∈ required r.body, 0 < v ∧ v % 2 = 1) &&
    decide (r.body ≠ .shell []) && decide (∀ c ∈ targets es r, typeAt es c ≠ 0) && decide (targets es r).Nodup) &&
  allAt (fun i r => decide (∀ j ∈ targets es r, ∀ q ∈ es[j]?.toList, i ∉ targets es q)) es

theorem acceptable_of {es : List REnt} (h : acceptTest es = true) : Acceptable geo es := by
  simp only [acceptTest, Bool.and_eq_true, decide_eq_true_eq] at h
  obtain ⟨⟨⟨h1, h2⟩, h3⟩, h4⟩ := h
  have h3 := fun r hr => List.all_eq_true.mp h3 r hr
  simp only [Bool.and_eq_true] at h3
  refine ⟨h1, fun i r hr => of_decide_eq_true (of_allAt h2 hr), fun r hr => of_decide_eq_true (h3 r hr).1.1.1.1.1,
    fun r hr => typed_of (h3 r hr).1.1.1.1.2, fun r hr => of_decide_eq_true (h3 r hr).1.1.1.2, fun r hr => of_decide_eq_true (h3 r hr).1.1.2,
    fun r hr => of_decide_eq_true (h3 r hr).1.2, fun r hr => of_decide_eq_true (h3 r hr).2, ?_, fun _ _ _ _ => rfl, fun _ _ _ _ _ => rfl⟩
  intro i j r q hr hq hj
  exact of_decide_eq_true (of_allAt h4 hr) j hj q (by simp [hq])

end LinkCases

/-- The solid of `LinkCases` meets the hypotheses of C60. -/
theorem C60_case_solid : ∃ st, readSections (exSys id) cleared "a.igs".toList (brepText [(15, true)]) = .val st ∧
    st.ents.length = 10 ∧ Acceptable geo st.ents := by
  have h := brep_records
  unfold records at h
  split at h
  · rename_i st hs
    refine ⟨st, hs, ?_, ?_⟩
    · rw [h]
      rfl
    · rw [h]
      exact acceptable_of (by decide +kernel)
  · exact absurd h (by simp [brepRecords, brep])

example : ∃ st, Read (exSys id) (linking geo) id cleared (some "a.igs".toList) (some (brepText [(15, true)])) = .val (true, st) := by
  obtain ⟨st, h1, _, h3⟩ := C60_case_solid
  exact ⟨_, (C60_read_accepts _ geo id cleared st _ _ rfl h1 h3).1⟩

/-- The example model with a coloured and named line, an arc with a transformation and a composite curve has its
pointers again after it has been written and read. -/
theorem C55_case_pointers : Acceptable geo (recordsFor fileModel) ∧ (∀ e ∈ fileModel.ents, PtrsOfType e) ∧
    wantDE (recordsFor fileModel) (recordFor fileModel.ents[0]) = [none, none, none, none, none, none, some 1] ∧
    wantKids fileModel.ents[2].body = [0, 4] := by
  refine ⟨acceptable_of (by decide +kernel), ?_, by decide +kernel, by decide +kernel⟩
  intro e he
  simp only [fileModel, List.mem_cons, List.not_mem_nil, or_false] at he
  rcases he with rfl | rfl | rfl | rfl | rfl | rfl <;> constructor <;> decide

example := C55_pointers_partial (exSys exSqrt.choose) (exSys_ok exSqrt.choose_spec) fileModel "dir/a.igs".toList
  "a".toList (some "igs".toList) exParts (by decide) (.inl (by decide)) (exLegal _) C55_case_pointers.2.1 geo C55_case_pointers.1 true
  (some ⟨"old".toList, true, true⟩) false (.inl ⟨_, rfl, rfl, .inl rfl⟩) id

end Iges.Props
