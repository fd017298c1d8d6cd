import Verif.Spec.ExportScale
import Verif.Props.Rescale
import Verif.Props.Export
/-
C93: exporting keeps sizes, and what it does to line weights.
-/
namespace Iges.Props.ExportScale
open Iges Iges.Lists Iges.Spec.Lists Iges.Props.Live Iges.ExportScale Iges.ExportScale.Spec

namespace Steps

theorem rescale_again {p : Bool} {a b : ℚ} {d d1 : EntData} (h : d.rescale p a = some d1) : ∃ d2, d1.rescale p b = some d2 := by
  cases d <;> simp only [EntData.rescale, Option.some.injEq, reduceCtorEq] at h <;> subst h <;> exact ⟨_, rfl⟩

theorem rescaleAll_again {fuel : Nat} {a b : ℚ} {h h1 : Iges.Heap} {is : List Nat} (hn : is.Nodup)
    (r1 : rescaleAll fuel a h is = some (true, h1)) : ∃ h2, rescaleAll fuel b h1 is = some (true, h2) := by
  classical
  obtain ⟨hs, hc⟩ := rescaleAll_links hn r1
  obtain ⟨x1, x2⟩ := (rescaleAll_iff _ _ _ _ _ hn).mp r1
  have hstep : ∀ i, ∃ p d, i ∈ is → paramOf h1 fuel i = some p ∧ (h1 i).data.rescale p b = some d := by
    intro i
    by_cases hi : i ∈ is
    · obtain ⟨p, d, e1, e2, e3⟩ := x1 i hi
      obtain ⟨d2, e4⟩ := rescale_again (b := b) e2
      exact ⟨p, d2, fun _ => ⟨by rw [paramOf_congr hs fuel i (hc i), e1], by rw [e3]; exact e4⟩⟩
    · exact ⟨true, .null, fun h => absurd h hi⟩
  choose P D hPD using hstep
  exact ⟨fun i => if i ∈ is then { h1 i with data := D i } else h1 i,
    (rescaleAll_iff _ _ _ _ _ hn).mpr ⟨fun i hi => ⟨P i, D i, (hPD i hi).1, (hPD i hi).2, by simp [hi]⟩, fun i hi => by simp [hi]⟩⟩

theorem twice {m : ScaleModel} (hm : Sound m) {a b : ℚ} (ha : a ≠ 0) (hb : b ≠ 0) :
    ∃ n, ∀ fuel ≥ n, ∃ h1 h2, rescaleAll fuel a m.heap m.entities = some (true, h1) ∧
      rescaleAll fuel b h1 m.entities = some (true, h2) ∧ (∀ g, AllScaled (a * b) m ⟨g, h2, m.entities⟩) ∧
      (∀ g, AllScaled a m ⟨g, h1, m.entities⟩) := by
  obtain ⟨n1, k1⟩ := rescaleAll_sound hm ha
  obtain ⟨n2, k2⟩ := rescaleAll_sound hm (mul_ne_zero ha hb)
  refine ⟨max n1 n2, fun fuel hf => ?_⟩
  obtain ⟨h1, e1, e2⟩ := k1 fuel (le_trans (le_max_left _ _) hf)
  obtain ⟨h3, e3, e4⟩ := k2 fuel (le_trans (le_max_right _ _) hf)
  obtain ⟨h2, e5⟩ := rescaleAll_again (b := b) hm.nodup e1
  have e6 := rescaleAll_comp hm.nodup e1 e5
  rw [e3] at e6
  cases e6
  exact ⟨h1, h3, e1, e5, e4, e2⟩

theorem allScaled_one {m : ScaleModel} (hm : Sound m) (g : Globals) : AllScaled 1 m ⟨g, m.heap, m.entities⟩ := by
  obtain ⟨n, k⟩ := rescaleAll_sound hm one_ne_zero
  obtain ⟨h', e1, e2⟩ := k n le_rfl
  rw [rescaleAll_one hm.nodup e1] at e2
  exact e2 g

/-- Both conversions succeed for a sound model. -/
theorem sizes {m : ScaleModel} (hm : Sound m) {pms : ℚ} {pUF : Int} {a b : ℚ} (h0 : m.globals.modelScale ≠ 0)
    (h1 : 6 / 10 ^ 8 ≤ pms) (h2 : pms ≤ 17000000) (hu : Iges.Spec.unitLength m.globals.unitsFlag = some a)
    (hv : Iges.Spec.unitLength pUF = some b) :
    ∃ n, ∀ fuel ≥ n, ∃ m' f, adjustSizes fuel m pms pUF = some m' ∧ f * (b / pms) = a / m.globals.modelScale ∧ AllScaled f m m' ∧
      ∃ r, m'.globals = { m.globals with modelScale := pms, unitsFlag := pUF, minResolution := r } := by
  have hp : pms ≠ 0 := by intro e; rw [e] at h1; norm_num at h1
  have ha := ne_of_gt (unitLength_facts hu).2.1
  have hb := ne_of_gt (unitLength_facts hv).2.1
  obtain ⟨n, hn⟩ := twice hm (div_ne_zero hp h0) (div_ne_zero ha hb)
  obtain ⟨n2, hn2⟩ := rescaleAll_sound hm (div_ne_zero ha hb)
  refine ⟨max n n2, fun fuel hf => ?_⟩
  obtain ⟨x1, x2, e1, e2, e3, e4⟩ := hn fuel (le_trans (le_max_left _ _) hf)
  obtain ⟨y, e5, e6⟩ := hn2 fuel (le_trans (le_max_right _ _) hf)
  by_cases hs : m.globals.modelScale = pms
  · by_cases hq : m.globals.unitsFlag = pUF
    · subst hq hs
      rw [hu] at hv; cases hv
      exact ⟨m, 1, by simp [adjustSizes], by ring, allScaled_one hm _, m.globals.minResolution, rfl⟩
    · refine ⟨⟨{ m.globals with minResolution := m.globals.minResolution * (a / b), unitsFlag := pUF }, y, m.entities⟩, a / b, ?_, ?_, e6 _,
        m.globals.minResolution * (a / b), by rw [← hs]⟩
      · simp only [adjustSizes, hs, ne_eq, not_true_eq_false, if_false, Option.bind_some, hq, not_false_eq_true, if_true,
          convert_eq fuel m pUF hu hv hq, e5, Option.map_some]
      · rw [hs]; field_simp
  · have hc := scale_eq fuel m pms h1 h2
    rw [e1] at hc
    by_cases hq : m.globals.unitsFlag = pUF
    · subst hq
      rw [hu] at hv; cases hv
      refine ⟨⟨{ m.globals with minResolution := m.globals.minResolution * pms, modelScale := pms }, x1, m.entities⟩,
        pms / m.globals.modelScale, ?_, ?_, e4 _, m.globals.minResolution * pms, rfl⟩
      · simp only [adjustSizes, hs, ne_eq, not_false_eq_true, if_true, hc, Option.map_some, Option.bind_some, not_true_eq_false, if_false]
      · field_simp
    · refine ⟨⟨{ m.globals with minResolution := m.globals.minResolution * pms * (a / b), modelScale := pms, unitsFlag := pUF }, x2, m.entities⟩,
        pms / m.globals.modelScale * (a / b), ?_, ?_, e3 _, m.globals.minResolution * pms * (a / b), rfl⟩
      · simp only [adjustSizes, hs, ne_eq, not_false_eq_true, if_true, hc, Option.map_some, Option.bind_some, hq]
        have hc2 := convert_eq fuel ⟨{ m.globals with minResolution := m.globals.minResolution * pms, modelScale := pms }, x1, m.entities⟩ pUF
          (a := a) (b := b) hu hv hq
        simp only [e2] at hc2
        rw [hc2]
        rfl
      · field_simp

theorem newWeights_spec {lws : Int} {W : Int → Int} : ∀ (is : List Nat) (w : Nat → Int), is.Nodup →
    (∀ i ∈ is, newWeight lws (w i) = some (W (w i))) →
    ∃ w', newWeights lws is w = some w' ∧ (∀ i ∈ is, w' i = W (w i)) ∧ ∀ i ∉ is, w' i = w i := by
  intro is
  induction is with
  | nil => exact fun w _ _ => ⟨w, rfl, fun _ h => absurd h List.not_mem_nil, fun _ _ => rfl⟩
  | cons i is ih =>
    intro w hn hw
    obtain ⟨hi, hn⟩ := List.nodup_cons.1 hn
    obtain ⟨w', h1, h2, h3⟩ := ih (Function.update w i (W (w i))) hn fun j hj => by
      rw [Function.update_of_ne (fun e : j = i => hi (e ▸ hj))]
      exact hw j (List.mem_cons_of_mem _ hj)
    refine ⟨w', by rw [newWeights, hw i List.mem_cons_self]; exact h1, fun j hj => ?_, fun j hj => ?_⟩
    · rcases List.mem_cons.1 hj with rfl | hj
      · rw [h3 j hi, Function.update_self]
      · rw [h2 j hj, Function.update_of_ne (fun e : j = i => hi (e ▸ hj))]
    · rw [h3 j (fun h => hj (List.mem_cons_of_mem _ h)), Function.update_of_ne (fun e : j = i => hj (e ▸ List.mem_cons_self))]

/-- The new weight. -/
def exported (own parent w : Int) : Int := if 0 < w then max 1 (w * (parent / own)) else w

theorem newWeight_eq {own parent w : Int} (ho : 0 < own) (hp : 0 < parent) (hp' : parent ≤ 2147483647) (hw : w ≤ own) :
    newWeight (parent.tdiv own) w = some (exported own parent w) := by
  rw [Int.tdiv_eq_ediv_of_nonneg hp.le, newWeight, exported]
  have hq : 0 ≤ parent / own := Int.ediv_nonneg hp.le ho.le
  have hm : own * (parent / own) ≤ parent := Int.mul_ediv_self_le ho.ne'
  split
  · rename_i h
    have h1 : w * (parent / own) ≤ own * (parent / own) := mul_le_mul_of_nonneg_right hw hq
    have h2 : 0 ≤ w * (parent / own) := mul_nonneg h.le hq
    rw [toInt32, if_pos ⟨by omega, by omega⟩]
    simp only [Option.map_some, Option.some.injEq]
    split
    · rename_i e; rw [e]; rfl
    · exact (max_eq_right (by omega)).symm
  · rfl

theorem exported_facts {own parent : Int} (ho : 0 < own) (hp : 0 < parent) :
    (∀ w, 0 ≤ w → w ≤ own → 0 ≤ exported own parent w ∧ exported own parent w ≤ parent ∧ (exported own parent w = 0 ↔ w = 0)) ∧
    (∀ v w, 0 ≤ v → v ≤ w → exported own parent v ≤ exported own parent w) ∧
    (own ∣ parent → ∀ w, 0 ≤ w → SamePart w own (exported own parent w) parent) := by
  have hq : 0 ≤ parent / own := Int.ediv_nonneg hp.le ho.le
  have hm : own * (parent / own) ≤ parent := Int.mul_ediv_self_le ho.ne'
  refine ⟨fun w h0 h1 => ?_, fun v w h0 h1 => ?_, fun hd w h0 => ?_⟩
  · have h2 : w * (parent / own) ≤ own * (parent / own) := mul_le_mul_of_nonneg_right h1 hq
    unfold exported
    split
    · refine ⟨by omega, by omega, by omega⟩
    · exact ⟨h0, by omega, Iff.rfl⟩
  · have h2 : v * (parent / own) ≤ w * (parent / own) := mul_le_mul_of_nonneg_right h1 hq
    unfold exported
    split <;> split <;> omega
  · obtain ⟨k, rfl⟩ := hd
    have hk : 0 < k := by by_contra h; nlinarith
    have e : exported own (own * k) w = w * k := by
      unfold exported
      rw [Int.mul_ediv_cancel_left _ ho.ne']
      split
      · exact max_eq_right (by nlinarith)
      · have : w = 0 := by omega
        rw [this, zero_mul]
    rw [e, SamePart]
    have : (own : ℚ) ≠ 0 := by exact_mod_cast ho.ne'
    have : (k : ℚ) ≠ 0 := by exact_mod_cast hk.ne'
    push_cast
    field_simp

theorem beforeLastDot_none : ∀ {s : Str}, '.' ∉ s → beforeLastDot s = none
  | [], _ => rfl
  | c :: cs, h => by
    rw [beforeLastDot, beforeLastDot_none fun hm => h (List.mem_cons_of_mem _ hm)]
    exact if_neg fun e : c = '.' => h (e ▸ List.mem_cons_self)

theorem beforeLastDot_some {ext : Str} (h : '.' ∉ ext) : ∀ base : Str, beforeLastDot (base ++ '.' :: ext) = some base
  | [] => by rw [List.nil_append, beforeLastDot, beforeLastDot_none h]; rfl
  | c :: cs => by rw [List.cons_append, beforeLastDot, beforeLastDot_some h cs]

/-- What `Export` does when the conversions, the weights and the links succeed. -/
theorem export_eq {fuel : Nat} {s : State} {m n p : Nat} {stamp : Str} {L Ln : List Nat} (hL : s.world.list m = some L) (hne : L ≠ [])
    (hLn : s.world.list n = some Ln) {m' : ScaleModel} {w : Nat → Int} {W' : World} {b : Bool} {q : Option Nat}
    (h1 : adjustSizes fuel ⟨s.globals m, s.data, L⟩ (s.globals n).modelScale (s.globals n).unitsFlag = some m')
    (h2 : adjustWeights (s.globals n).maxLinewidthGrad m'.globals.maxLinewidthGrad L s.weight = some w)
    (h3 : Lists.Export s.world m (some n) true p = some (W', b, q)) :
    ∃ nm, ExportAll fuel s m (some n) true p stamp =
      some ({ world := W', globals := Function.update s.globals m m'.globals, data := m'.heap, weight := w, name := nm }, b, q) ∧
      (q = none → nm = s.name) ∧ ∀ x, q = some x → (∀ y, y ≠ x → nm y = s.name y) ∧
        ∃ assy : Bool, nm x = definitionName m'.globals.fileName assy stamp := by
  cases L with
  | nil => exact absurd rfl hne
  | cons e l =>
    unfold ExportAll
    rw [if_neg (by decide), hL]
    simp only [hLn, reduceCtorEq, if_false, h1, h2, h3, Option.bind_some]
    cases q with
    | none => exact ⟨_, rfl, fun _ => rfl, fun x h => by cases h⟩
    | some x =>
      refine ⟨_, rfl, (fun h => by cases h), fun y h => ?_⟩
      cases h
      exact ⟨fun y hy => Function.update_of_ne hy _ _, _, Function.update_self _ _ _⟩

end Steps
open Steps

/-- **C93_partial** (sizes and line weights of an exported model): for every state that calls can reach, different models `m` and `n`, something
to package, a sound model (the entities that the code can scale), units with a length and scales in the allowed range: the export
succeeds; every entity keeps its real size, in the units and scale of the new parent; nothing else is resized.  Line weights are those of
the parent: between 0 and its number of gradations, 0 exactly for 0, in the same order as before; they stand for the same part of
the largest width if the parent's number is a multiple.  The definition is named after the file without its extension. -/
theorem C93_partial (s : State) (hr : Lists.Reached s.world) (hg : Props.Reached s.world.heap) (m n p : Nat) (hmn : m ≠ n)
    (L Ln : List Nat) (hL : s.world.list m = some L) (hLn : s.world.list n = some Ln) (hp : s.world.heap p = none)
    (hpk : ∃ e, Iges.Spec.Export.Packaged s.world.heap L e) (hm : Sound ⟨s.globals m, s.data, L⟩) (a b : ℚ)
    (ha : coordinateLength (s.globals m) = some a) (hb : coordinateLength (s.globals n) = some b) (h0 : (s.globals m).modelScale ≠ 0)
    (hs1 : 6 / 10 ^ 8 ≤ (s.globals n).modelScale) (hs2 : (s.globals n).modelScale ≤ 17000000)
    (hw1 : 0 < (s.globals m).maxLinewidthGrad) (hw2 : 0 < (s.globals n).maxLinewidthGrad) (hw3 : (s.globals n).maxLinewidthGrad ≤ 2147483647)
    (hw : ∀ i ∈ L, 0 ≤ s.weight i ∧ s.weight i ≤ (s.globals m).maxLinewidthGrad) (stamp : Str) :
    ∃ N, ∀ fuel ≥ N, ∃ s', ExportAll fuel s m (some n) true p stamp = some (s', true, some p) ∧
      Lists.Export s.world m (some n) true p = some (s'.world, true, some p) ∧
      (∀ i ∈ L, ∃ q : Bool, (q = true ↔ Iges.Spec.OnParamPlane s.data i) ∧ SameSize q a b (s.data i).data (s'.data i).data) ∧
      (∀ i ∉ L, s'.data i = s.data i ∧ s'.weight i = s.weight i) ∧ s'.globals n = s.globals n ∧
      (∀ i ∈ L, 0 ≤ s'.weight i ∧ s'.weight i ≤ (s.globals n).maxLinewidthGrad ∧ (s'.weight i = 0 ↔ s.weight i = 0)) ∧
      (∀ i ∈ L, ∀ j ∈ L, s.weight i ≤ s.weight j → s'.weight i ≤ s'.weight j) ∧
      ((s.globals m).maxLinewidthGrad ∣ (s.globals n).maxLinewidthGrad →
        ∀ i ∈ L, SamePart (s.weight i) (s.globals m).maxLinewidthGrad (s'.weight i) (s.globals n).maxLinewidthGrad) ∧
      (∀ q, q ≠ p → s'.name q = s.name q) ∧
      (∀ base ext, base ≠ [] → '.' ∉ ext → (s.globals m).fileName = base ++ '.' :: ext → s'.name p = base) ∧
      ((s.globals m).fileName ≠ [] → '.' ∉ (s.globals m).fileName → s'.name p = (s.globals m).fileName) := by
  obtain ⟨la, hla, rfl⟩ := Option.map_eq_some_iff.1 ha
  obtain ⟨lb, hlb, rfl⟩ := Option.map_eq_some_iff.1 hb
  obtain ⟨N, hN⟩ := sizes hm (pms := (s.globals n).modelScale) (pUF := (s.globals n).unitsFlag) h0 hs1 hs2 hla hlb
  refine ⟨N, fun fuel hf => ?_⟩
  obtain ⟨m', f, e1, e2, e3, r, e4⟩ := hN fuel hf
  obtain ⟨w', e5, e6, e7⟩ := newWeights_spec (lws := (s.globals n).maxLinewidthGrad.tdiv (s.globals m).maxLinewidthGrad)
    (W := exported (s.globals m).maxLinewidthGrad (s.globals n).maxLinewidthGrad) L s.weight hm.nodup fun i hi => newWeight_eq hw1 hw2 hw3 (hw i hi).2
  obtain ⟨W', K, e8, -⟩ := Export.C52_export_partial s.world hr hg m n p hmn L Ln hL hLn hp hpk
  have hne : L ≠ [] := by
    obtain ⟨e, he, -⟩ := hpk
    exact List.ne_nil_of_mem he
  obtain ⟨nm, e9, -, e10⟩ := export_eq (stamp := stamp) hL hne hLn e1 (by
    rw [e4, adjustWeights, if_neg (ne_of_gt hw1)]; exact e5) e8
  obtain ⟨e11, assy, e12⟩ := e10 p rfl
  obtain ⟨x1, x2, x3⟩ := exported_facts hw1 hw2
  refine ⟨_, e9, e8, fun i hi => ?_, fun i hi => ⟨e3.2.2.1 i hi, e7 i hi⟩, Function.update_of_ne hmn.symm _ _, fun i hi => ?_, fun i hi j hj h => ?_,
    fun hd i hi => ?_, e11, fun base ext hb he hfn => ?_, fun hnf hdot => ?_⟩
  · obtain ⟨q, h1, h2⟩ := e3.2.2.2 i hi
    exact ⟨q, h1, f, e2, h2⟩
  · simp only [e6 i hi]
    exact x1 _ (hw i hi).1 (hw i hi).2
  · simp only [e6 i hi, e6 j hj]
    exact x2 _ _ (hw i hi).1 h
  · simp only [e6 i hi]
    exact x3 hd _ (hw i hi).1
  · simp only [e12, e4, hfn, definitionName]
    rw [if_neg (by simp), beforeLastDot_some he]
    cases base with
    | nil => exact absurd rfl hb
    | cons c cs => rfl
  · simp only [e12, e4, definitionName]
    rw [if_neg hnf, beforeLastDot_none hdot]

/-- A state: model 1 (inches, 2 gradations) has a trimmed surface, its plane of two by two points and a solid; model 2 (millimetres, scale one
half, 4 gradations) a line. -/
def ex_state (W : World) : State where
  world := W
  globals := fun k => if k = 1 then { initGlobals with unitsFlag := 1, maxLinewidthGrad := 2, fileName := "part.v2.igs".toList }
    else { initGlobals with maxLinewidthGrad := 4, modelScale := 1 / 2 }
  data := fun k => if k = 5 then ⟨.links 144, []⟩ else if k = 6 then ⟨.surf ⟨4, 4, 2, 2, some [0, 0, 1, 1], some [0, 0, 1, 1],
    some [0, 0, 0, 1, 0, 0, 0, 1, 0, 1, 1, 0], 1, 1, 1, 1, 0, 0, 1, 0, 0, 0, 1, 0, 1⟩, [5]⟩ else ⟨.links 186, []⟩
  weight := fun k => if k = 5 then 1 else if k = 6 then 2 else 0
  name := fun _ => []

theorem ex_sound (W : World) : Sound ⟨(ex_state W).globals 1, (ex_state W).data, [5, 6, 7]⟩ := by
  have hno : ∀ c b, ((ex_state W).data c).data ≠ .onSurface b := by
    intro c b
    simp only [ex_state]
    split
    · simp
    · split <;> simp
  have hnp : ∀ i, ¬ Iges.Spec.OnParamPlane (ex_state W).data i := by
    rintro i ⟨a, c, -, -, h⟩
    exact hno c _ h
  have hus : ∀ j k, k ∈ ((ex_state W).data j).users → j = 6 ∧ k = 5 := by
    intro j k hk
    simp only [ex_state] at hk
    split at hk
    · cases hk
    · split at hk
      · rename_i h; exact ⟨h, by simpa using hk⟩
      · cases hk
  refine ⟨by simp, fun c b h => absurd h (hno c _), ⟨id, fun j k hk => ?_⟩, ?_, ?_⟩
  · obtain ⟨rfl, rfl⟩ := hus j k hk
    decide
  · rintro i hi ⟨d, hd⟩
    simp only [List.mem_cons, List.not_mem_nil, or_false] at hi
    rcases hi with rfl | rfl | rfl <;> cases hd
  · intro i hi
    simp only [List.mem_cons, List.not_mem_nil, or_false] at hi
    rcases hi with rfl | rfl | rfl
    · trivial
    · exact ⟨⟨by decide, by decide, by decide, by decide, by decide, by decide, by decide⟩, hnp _⟩
    · trivial

/-- That state meets the hypotheses of `C93_partial`. -/
example : ∃ W, run Export.sample = some W ∧ Lists.Reached W ∧ Props.Reached W.heap ∧ W.list 1 = some [5, 6, 7] ∧ W.list 2 = some [8] ∧
    W.heap 9 = none ∧ Iges.Spec.Export.Packaged W.heap [5, 6, 7] 5 := by
  refine ⟨_, rfl, ⟨Export.sample, Export.sample_sole, rfl⟩, ⟨Export.sampleCalls, Export.sampleCalls_careful, rfl⟩, rfl, rfl, rfl,
    by simp, Or.inr ⟨?_, Or.inl ⟨_, rfl, rfl, rfl⟩⟩⟩
  rintro ⟨x, hx, o, h1, h2, _⟩
  simp only [List.mem_cons, List.not_mem_nil, or_false] at hx
  rcases hx with rfl | rfl | rfl <;> cases h1 <;> exact absurd h2 (by decide)

example (W : World) : coordinateLength ((ex_state W).globals 1) = some (254 / 10) ∧ coordinateLength ((ex_state W).globals 2) = some 2 ∧
    ((ex_state W).globals 1).modelScale ≠ 0 ∧ 6 / 10 ^ 8 ≤ ((ex_state W).globals 2).modelScale ∧
    (∀ i ∈ [5, 6, 7], 0 ≤ (ex_state W).weight i ∧ (ex_state W).weight i ≤ ((ex_state W).globals 1).maxLinewidthGrad) := by
  have e1 : (ex_state W).globals 1 = { initGlobals with unitsFlag := 1, maxLinewidthGrad := 2, fileName := "part.v2.igs".toList } := rfl
  have e2 : (ex_state W).globals 2 = { initGlobals with maxLinewidthGrad := 4, modelScale := 1 / 2 } := rfl
  rw [e1, e2]
  have e3 : (ex_state W).weight = fun k => if k = 5 then 1 else if k = 6 then 2 else 0 := rfl
  rw [e3]
  clear e1 e2 e3
  refine ⟨?_, ?_, ?_, ?_, ?_⟩ <;> decide +kernel

/-! ### What goes wrong -/

/-- **C93_units_ignored**: if the unit of one of the models is the user defined one and that of the other is not, the conversion fails, but
the answer is not looked at: the export succeeds and the coordinates are what they were. -/
theorem C93_units_ignored (fuel : Nat) (s : State) (hr : Lists.Reached s.world) (hg : Props.Reached s.world.heap) (m n p : Nat) (hmn : m ≠ n)
    (L Ln : List Nat) (hL : s.world.list m = some L) (hLn : s.world.list n = some Ln) (hp : s.world.heap p = none)
    (hpk : ∃ e, Iges.Spec.Export.Packaged s.world.heap L e) (hnd : L.Nodup)
    (hscale : (s.globals m).modelScale = (s.globals n).modelScale) (hne : (s.globals m).unitsFlag ≠ (s.globals n).unitsFlag)
    (h3 : (s.globals m).unitsFlag = 3 ∨ (s.globals n).unitsFlag = 3)
    (hw1 : 0 < (s.globals m).maxLinewidthGrad) (hw2 : 0 < (s.globals n).maxLinewidthGrad) (hw3 : (s.globals n).maxLinewidthGrad ≤ 2147483647)
    (hw : ∀ i ∈ L, s.weight i ≤ (s.globals m).maxLinewidthGrad) (stamp : Str) :
    ∃ s', ExportAll fuel s m (some n) true p stamp = some (s', true, some p) ∧ s'.data = s.data := by
  have e1 : adjustSizes fuel ⟨s.globals m, s.data, L⟩ (s.globals n).modelScale (s.globals n).unitsFlag = some ⟨s.globals m, s.data, L⟩ := by
    rw [adjustSizes]
    simp only [hscale, ne_eq, not_true_eq_false, if_false, Option.bind_some, hne, not_false_eq_true, if_true]
    rw [C17_extern_refused fuel _ _ h3 hne]
    rfl
  obtain ⟨w', e5, -⟩ := newWeights_spec (lws := (s.globals n).maxLinewidthGrad.tdiv (s.globals m).maxLinewidthGrad)
    (W := exported (s.globals m).maxLinewidthGrad (s.globals n).maxLinewidthGrad) L s.weight hnd fun i hi => newWeight_eq hw1 hw2 hw3 (hw i hi)
  obtain ⟨W', K, e8, -⟩ := Export.C52_export_partial s.world hr hg m n p hmn L Ln hL hLn hp hpk
  have hne' : L ≠ [] := by
    obtain ⟨e, he, -⟩ := hpk
    exact List.ne_nil_of_mem he
  obtain ⟨nm, e9, -⟩ := export_eq (stamp := stamp) hL hne' hLn e1 (by
    rw [adjustWeights, if_neg (ne_of_gt hw1)]; exact e5) e8
  exact ⟨_, e9, rfl⟩

/-- **C93_scale_ignored**: the same if the scale of the new parent is outside the range that can be set. -/
theorem C93_scale_ignored (fuel : Nat) (s : State) (hr : Lists.Reached s.world) (hg : Props.Reached s.world.heap) (m n p : Nat) (hmn : m ≠ n)
    (L Ln : List Nat) (hL : s.world.list m = some L) (hLn : s.world.list n = some Ln) (hp : s.world.heap p = none)
    (hpk : ∃ e, Iges.Spec.Export.Packaged s.world.heap L e) (hnd : L.Nodup) (hu : (s.globals m).unitsFlag = (s.globals n).unitsFlag)
    (hscale : (s.globals n).modelScale < 6 / 10 ^ 8 ∨ 17000000 < (s.globals n).modelScale)
    (hw1 : 0 < (s.globals m).maxLinewidthGrad) (hw2 : 0 < (s.globals n).maxLinewidthGrad) (hw3 : (s.globals n).maxLinewidthGrad ≤ 2147483647)
    (hw : ∀ i ∈ L, s.weight i ≤ (s.globals m).maxLinewidthGrad) (stamp : Str) :
    ∃ s', ExportAll fuel s m (some n) true p stamp = some (s', true, some p) ∧ s'.data = s.data := by
  have e1 : adjustSizes fuel ⟨s.globals m, s.data, L⟩ (s.globals n).modelScale (s.globals n).unitsFlag = some ⟨s.globals m, s.data, L⟩ := by
    rw [adjustSizes, C18_out_of_range fuel _ _ hscale]
    simp only [Option.map_some, ite_self, Option.bind_some, hu, ne_eq, not_true_eq_false, if_false]
  obtain ⟨w', e5, -⟩ := newWeights_spec (lws := (s.globals n).maxLinewidthGrad.tdiv (s.globals m).maxLinewidthGrad)
    (W := exported (s.globals m).maxLinewidthGrad (s.globals n).maxLinewidthGrad) L s.weight hnd fun i hi => newWeight_eq hw1 hw2 hw3 (hw i hi)
  obtain ⟨W', K, e8, -⟩ := Export.C52_export_partial s.world hr hg m n p hmn L Ln hL hLn hp hpk
  have hne' : L ≠ [] := by
    obtain ⟨e, he, -⟩ := hpk
    exact List.ne_nil_of_mem he
  obtain ⟨nm, e9, -⟩ := export_eq (stamp := stamp) hL hne' hLn e1 (by
    rw [adjustWeights, if_neg (ne_of_gt hw1)]; exact e5) e8
  exact ⟨_, e9, rfl⟩

/-- **C93_half_converted**: with an unsupported entity in the list, the entities in front of it are converted, the others are not; the export
succeeds. -/
theorem C93_half_converted (fuel : Nat) (s : State) (hr : Lists.Reached s.world) (hg : Props.Reached s.world.heap) (m n p : Nat) (hmn : m ≠ n)
    (xs ys Ln : List Nat) (x : Nat) (hL : s.world.list m = some (xs ++ x :: ys)) (hLn : s.world.list n = some Ln) (hp : s.world.heap p = none)
    (hpk : ∃ e, Iges.Spec.Export.Packaged s.world.heap (xs ++ x :: ys) e) (hnd : (xs ++ x :: ys).Nodup) (hnull : (s.data x).data = .null)
    (m1 : ScaleModel) (hok : ConvertUnits fuel ⟨s.globals m, s.data, xs⟩ (s.globals n).unitsFlag = some (true, m1)) (a b : ℚ)
    (hscale : (s.globals m).modelScale = (s.globals n).modelScale) (hne : (s.globals m).unitsFlag ≠ (s.globals n).unitsFlag)
    (hu : Iges.Spec.unitLength (s.globals m).unitsFlag = some a) (hv : Iges.Spec.unitLength (s.globals n).unitsFlag = some b)
    (hw1 : 0 < (s.globals m).maxLinewidthGrad) (hw2 : 0 < (s.globals n).maxLinewidthGrad) (hw3 : (s.globals n).maxLinewidthGrad ≤ 2147483647)
    (hw : ∀ i ∈ xs ++ x :: ys, s.weight i ≤ (s.globals m).maxLinewidthGrad) (stamp : Str) :
    ∃ s', ExportAll fuel s m (some n) true p stamp = some (s', true, some p) ∧ s'.data = m1.heap ∧ ∀ y ∈ ys, s'.data y = s.data y := by
  have hx : x ∉ xs := fun h => (List.nodup_append.1 hnd).2.2 x h x List.mem_cons_self rfl
  have hxs := (List.nodup_append.1 hnd).1
  have hh := C17_null_entity_half_converted fuel (s.globals m) s.data xs ys x _ a b m1 hok hx hxs hnull hu hv hne
  have e1 : adjustSizes fuel ⟨s.globals m, s.data, xs ++ x :: ys⟩ (s.globals n).modelScale (s.globals n).unitsFlag =
      some ⟨{ s.globals m with minResolution := (s.globals m).minResolution * (a / b) }, m1.heap, xs ++ x :: ys⟩ := by
    rw [adjustSizes]
    simp only [hscale, ne_eq, not_true_eq_false, if_false, Option.bind_some, hne, not_false_eq_true, if_true, hh]
    rfl
  obtain ⟨w', e5, -⟩ := newWeights_spec (lws := (s.globals n).maxLinewidthGrad.tdiv (s.globals m).maxLinewidthGrad)
    (W := exported (s.globals m).maxLinewidthGrad (s.globals n).maxLinewidthGrad) (xs ++ x :: ys) s.weight hnd
    fun i hi => newWeight_eq hw1 hw2 hw3 (hw i hi)
  obtain ⟨W', K, e8, -⟩ := Export.C52_export_partial s.world hr hg m n p hmn _ Ln hL hLn hp hpk
  obtain ⟨nm, e9, -⟩ := export_eq (stamp := stamp) hL (by simp) hLn e1 (by
    rw [adjustWeights, if_neg (ne_of_gt hw1)]; exact e5) e8
  refine ⟨_, e9, rfl, fun y hy => ?_⟩
  have hy' : y ∉ xs := fun h => (List.nodup_append.1 hnd).2.2 y h y (List.mem_cons_of_mem _ hy) rfl
  rw [convert_eq fuel ⟨s.globals m, s.data, xs⟩ _ hu hv hne] at hok
  simp only at hok
  split at hok
  · cases hok
  · cases hok
  · rename_i h' heq
    cases hok
    exact ((rescaleAll_iff _ _ _ _ _ hxs).mp heq).2 y hy'

/-- **C93_part_iff**: exactly when the parent's number of gradations is a multiple, positive weights stand for the same part of the largest width. -/
theorem C93_part_iff (own parent w : Int) (ho : 0 < own) (hp : own ≤ parent) (hp' : parent ≤ 2147483647) (h0 : 0 < w) (hw : w ≤ own) :
    ∃ w', newWeight (parent.tdiv own) w = some w' ∧ (SamePart w own w' parent ↔ own ∣ parent) := by
  refine ⟨_, newWeight_eq ho (by omega) hp' hw, fun h => ?_, fun h => (exported_facts ho (by omega)).2.2 h w h0.le⟩
  have h1 : 1 ≤ parent / own := by
    rw [Int.le_ediv_iff_mul_le ho]; omega
  have e : exported own parent w = w * (parent / own) := by
    unfold exported
    rw [if_pos h0]
    exact max_eq_right (by nlinarith)
  rw [e, SamePart, div_eq_div_iff (by exact_mod_cast (by omega : parent ≠ 0)) (by exact_mod_cast ho.ne')] at h
  have h2 : w * (parent / own) * own = w * parent := by exact_mod_cast h
  rw [mul_assoc] at h2
  exact ⟨parent / own, by rw [mul_comm]; exact (mul_left_cancel₀ h0.ne' h2).symm⟩

/-- **C93_weights_lost**: into a model with fewer gradations every positive weight becomes 1: the division is one of integers. -/
theorem C93_weights_lost (own parent w : Int) (hp : 0 < parent) (ho : parent < own) (h0 : 0 < w) (hw : w ≤ own) (hp' : parent ≤ 2147483647) :
    newWeight (parent.tdiv own) w = some 1 := by
  rw [newWeight_eq (by omega) hp hp' hw, exported, if_pos h0, Int.ediv_eq_zero_of_lt hp.le ho, mul_zero]
  rfl

/-- **C93_weight_too_large**: weights beyond the number of gradations of their model (lowered after they were set) are exported beyond that
of the parent. -/
theorem C93_weight_too_large : newWeight ((3 : Int).tdiv 1) 5 = some 15 := by decide

/-- **C93_kept_model_weights**: if there is nothing to package the answer is "yes" and nothing is moved, but the line weights of the model
are those for the other model: here a line of a model with one gradation has weight 4. -/
theorem C93_kept_model_weights : ∃ l W s', SoleRun start l ∧ run l = some W ∧ W.list 1 = some [5] ∧
    ExportAll 0 ⟨W, fun k => if k = 1 then initGlobals else { initGlobals with maxLinewidthGrad := 4 },
      fun _ => ⟨.line ⟨0, 0, 0, 1, 0, 0⟩, []⟩, fun _ => 1, fun _ => []⟩ 1 (some 2) true 9 [] = some (s', true, none) ∧ s'.world = W ∧
    (s'.globals 1).maxLinewidthGrad = 1 ∧ s'.weight 5 = 4 := by
  refine ⟨[.newModel 1, .newModel 2, .new 1 5 110], _, _, ?_, rfl, rfl, rfl, rfl, ?_, ?_⟩
  · refine Lists.SoleRun.cons rfl trivial rfl ?_
    refine Lists.SoleRun.cons rfl trivial rfl ?_
    exact Lists.SoleRun.cons ⟨⟨_, rfl⟩, rfl⟩ trivial rfl trivial
  · rfl
  · rfl

/-- **C93_null_handle**: a null pointer as handle is written through, with or without a parent. -/
theorem C93_null_handle (fuel : Nat) (s : State) (m : Nat) (n : Option Nat) (p : Nat) (stamp : Str) : ExportAll fuel s m n false p stamp = none := by
  unfold ExportAll
  rw [if_pos rfl]

/-- **C93_same_name**: parts of models without a file name that are exported in the same second have the same name, whatever they are. -/
theorem C93_same_name (stamp : Str) (assy : Bool) :
    definitionName [] assy stamp = (if assy then "assy".toList else "part".toList) ++ stamp ++ "0001".toList := rfl

/-- **C93_nothing_to_do**: without a model to export into the answer is no, an empty model is exported without an instance; in both cases nothing is changed. -/
theorem C93_nothing_to_do (fuel : Nat) (s : State) (m : Nat) (p : Nat) (stamp : Str) :
    (∀ l, s.world.list m = some l → ExportAll fuel s m none true p stamp = some (s, false, none)) ∧
    (s.world.list m = some [] → ∀ n, ExportAll fuel s m (some n) true p stamp = some (s, true, none)) := by
  constructor
  · intro l h
    unfold ExportAll
    rw [h]
    rfl
  · intro h n
    unfold ExportAll
    rw [h]
    rfl

end Iges.Props.ExportScale
