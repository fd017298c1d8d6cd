import Verif.Props.Comments
import Mathlib.Algebra.Order.Archimedean.Basic
/-
Concrete cases for the entity theorems: surroundings and entities that meet the hypotheses, and
entities that the library writes but does not read back.
-/
namespace Iges.Props
open Iges

/-- Surroundings used in the examples: default delimiters, the smallest digit estimate, decimals
converted exactly, and some square root. -/
def exEnv (sqrt : ℚ → ℚ) (res : ℚ) : PdEnv where
  pd := ','
  rd := ';'
  res := res
  est := fun x m => min 16 ((Int.log 10 (max (|x| / m) 10)).toNat + 5)
  num := fun t => match t with | .dec a => a.toRat | _ => 0
  sqrt := sqrt

theorem exEnv_ok (sqrt : ℚ → ℚ) {res : ℚ} (h : 0 < res) : (exEnv sqrt res).Ok where
  pd := (by decide : Spec.LegalDelim ',')
  rd := (by decide : Spec.LegalDelim ';')
  ne := (by decide : ',' ≠ ';')
  res := h
  est := fun x m _ => Or.inl rfl
  num := fun a _ => by
    simp only [exEnv, sub_self, abs_zero]
    positivity

theorem exSetting (sqrt : ℚ → ℚ) : Setting (exEnv sqrt (1 / 1000)) 7 3 [⟨402, 5⟩, ⟨406, 9⟩] 200 where
  env := exEnv_ok sqrt (by norm_num)
  de := by decide
  extras := ⟨by decide, by decide⟩
  first := by decide
  room := by decide

theorem _root_.Iges.Setting.mono {E : PdEnv} {de i0 : Int} {xs : List ExtraRef} {m n : Nat} (h : Setting E de i0 xs n) (hm : m ≤ n) :
    Setting E de i0 xs m := ⟨h.env, h.de, h.extras, h.first, by have := h.room; omega⟩

/-- There is a square root of the precision asked for. -/
theorem exSqrt : ∃ s, SqrtOk s := by
  have key : ∀ v : ℚ, ∃ s, 0 < v → 0 < s ∧ |s * s - v| ≤ v / 10 ^ 15 := by
    intro v
    by_cases hv : 0 < v
    · obtain ⟨q, hq, h1, h2⟩ := exists_rat_pow_btwn (n := 2) (by norm_num) (x := v) (y := v + v / 10 ^ 15)
        (by have : 0 < v / 10 ^ 15 := by positivity
            linarith) (by positivity)
      simp only [Rat.cast_id] at h1 h2
      refine ⟨q, fun _ => ⟨hq, ?_⟩⟩
      rw [abs_le]
      constructor <;> nlinarith
    · exact ⟨0, fun h => absurd h hv⟩
  choose s hs using key
  exact ⟨s, hs⟩

theorem small_ok {x : ℚ} (h : |x| ≤ 1000) : |x| ≤ 10 ^ (300 : ℤ) := by
  have : (10 : ℚ) ^ (3 : ℤ) ≤ 10 ^ (300 : ℤ) := zpow_le_zpow_right₀ (by norm_num) (by norm_num)
  refine le_trans h (le_trans (by norm_num) this)

/-! Concrete cases of the round trips, with two optional pointers. -/

example := C29_arc_partial _ _ _ ⟨2, 1, 2, 4, 2, 1, 5⟩ _ (1 / 1000) 10 ((exSetting id).mono (by decide))
  (by simp only [exEnv]; norm_num) (by norm_num)
  (by simp only [Arc.coords]; decide +kernel)
  (by simp only [exEnv]; decide +kernel) (by decide +kernel)

example := C29_line _ _ _ ⟨1, -2, 3, 100 / 3, 0, -1 / 7⟩ _ ((exSetting id).mono (by decide))
  (fun x hx => small_ok (by revert x; decide +kernel))

example := C29_conic _ _ _ ⟨1, 0, 1, 0, 0, -1, 0, 1, 0, 0, 1⟩ _ ((exSetting id).mono (by decide))
  (fun x hx => small_ok (by revert x; decide +kernel))

example := C29_transform _ _ _ ⟨⟨0, -1, 0, 1, 0, 0, 0, 0, 1⟩, ⟨1, 2, -3⟩⟩ _ ((exSetting id).mono (by decide))
  (fun x hx => small_ok (by revert x; decide +kernel))

example := C29_revolution _ _ _ ⟨3, 5, 0, 157 / 100⟩ _ ((exSetting id).mono (by decide)) (by decide) (by decide)
  (fun x hx => small_ok (by revert x; decide +kernel))

example := C29_tabulated _ _ _ ⟨3, 5, 0, 157 / 100⟩ _ ((exSetting id).mono (by decide)) (by decide)
  (fun x hx => small_ok (by revert x; decide +kernel))

example := C30_subfigure_instance _ _ _ ⟨3, 5, 0, 157 / 100, 1⟩ _ ((exSetting id).mono (by decide)) (by decide)
  (fun x hx => small_ok (by revert x; decide +kernel))

example := C29_cylinder _ _ _ ⟨10, 5 / 2, 0, 1, -3, 3 / 5, 0, 4 / 5⟩ (1 / 1000) _ ((exSetting exSqrt.choose).mono (by decide))
  exSqrt.choose_spec (by simp only [exEnv]; norm_num) (by norm_num) (by norm_num)
  (by norm_num) (fun x hx => small_ok (by revert x; decide +kernel))

example := C29_extrusion _ _ _ ⟨11, 5 / 2, 3 / 5, 0, 4 / 5⟩ _ ((exSetting exSqrt.choose).mono (by decide))
  exSqrt.choose_spec (by simp only [exEnv]; norm_num) (by decide) (by norm_num) (small_ok (by decide +kernel))

example := C40_radius_repair_hits_height _ _ _ ⟨10, 1 / 10000, 0, 1, -3, 3 / 5, 0, 4 / 5⟩ _ ((exSetting id).mono (by decide))
  (by simp only [exEnv]; norm_num) (by simp only [exEnv]; norm_num)
  (fun x hx => small_ok (by revert x; decide +kernel))

example := C40_height_repaired_partial _ _ _ ⟨1 / 10000, 10, 0, 1, -3, 3 / 5, 0, 4 / 5⟩ _ ((exSetting id).mono (by decide))
  (by simp only [exEnv]; norm_num) (by simp only [exEnv]; norm_num)
  (fun x hx => small_ok (by revert x; decide +kernel))

example := C30_colour_partial _ _ _ ⟨100, 25, 1 / 2, "dark, red".toList⟩ _ ((exSetting id).mono (by decide))
  (fun a h => h) (Or.inr rfl) (Or.inl (by norm_num)) (Or.inl (by norm_num)) (by decide) (by decide)

example := C30_name _ _ _ "top; layer".toList _ ((exSetting id).mono (by decide)) (by decide)

/-! ### Entities that are written but not read back -/

/-- The run of `format` writes text that the run of `readPD` for it refuses. -/
def refused {β : Type} (de : Int) (w : Rd (Str × Int)) (rd : Int → Int → Int → List Str → Rd β) : Bool :=
  match w with
  | .val (t, n) =>
    match rd de 1 (n - 1) (getlines [] t) with
    | .fail => true
    | _ => false
  | _ => false

theorem refused_spec {β : Type} {de : Int} {w : Rd (Str × Int)} {rd : Int → Int → Int → List Str → Rd β}
    (h : refused de w rd = true) : ∃ t n, w = .val (t, n) ∧ rd de 1 (n - 1) (getlines [] t) = .fail := by
  unfold refused at h
  split at h
  · rename_i t n
    split at h
    · rename_i hr
      exact ⟨t, n, rfl, hr⟩
    · simp at h
  · simp at h

/-- C29 fails for arcs: this arc has equal distances from its centre to both ends (a 3-4-5 triangle),
is within a million of the origin and has the resolution 0.001; it is written, and refused on reading. -/
theorem C29_arc_refused : ∃ (E : PdEnv) (a : Arc), E.Ok ∧ Arc.startSq a = Arc.endSq a ∧
    ∃ t n, a.format E 1 [] [] 1 = .val (t, n) ∧ Arc.readPD E 1 1 (n - 1) (getlines [] t) = .fail :=
  ⟨exEnv id (1 / 1000), ⟨0, 0, 0, 1000000 + 170 / 2 ^ 33, 0, 600000 + 102 / 2 ^ 33, 800000 + 136 / 2 ^ 33⟩,
    exEnv_ok _ (by norm_num), by decide +kernel, refused_spec (rd := Arc.readPD _) (by decide +kernel)⟩

/-- A colour without a name but with an optional pointer is written without the place of the name, and
refused on reading. -/
theorem C30_colour_extras_misread : ∃ (E : PdEnv) (k : Colour) (xs : List ExtraRef), E.Ok ∧ ExtrasOk xs ∧
    Percent k.red ∧ Percent k.green ∧ Percent k.blue ∧
    ∃ t n, k.format E 1 xs [] 1 = .val (t, n) ∧ Colour.readPD E 1 1 (n - 1) (getlines [] t) = .fail :=
  ⟨exEnv id (1 / 1000), ⟨1, 2, 3, []⟩, [⟨402, 5⟩], exEnv_ok _ (by norm_num), ⟨by decide, by decide⟩,
    Or.inl (by norm_num), Or.inl (by norm_num), Or.inl (by norm_num),
    refused_spec (rd := Colour.readPD _) (by decide +kernel)⟩

/-- A colour whose name does not fit a line is written as no lines at all. -/
theorem C30_long_colour_name_not_written : ∃ (E : PdEnv) (k : Colour), E.Ok ∧
    Percent k.red ∧ Percent k.green ∧ Percent k.blue ∧ '\n' ∉ k.cname ∧ k.format E 1 [] [] 1 = .val ([], 1) := by
  refine ⟨exEnv id (1 / 1000), ⟨1, 2, 3, List.replicate 62 'a'⟩, exEnv_ok _ (by norm_num),
    Or.inl (by norm_num), Or.inl (by norm_num), Or.inl (by norm_num), by decide, ?_⟩
  have : (match Colour.format (exEnv id (1 / 1000)) 1 ⟨1, 2, 3, List.replicate 62 'a'⟩ [] [] 1 with
    | .val r => decide (r = ([], 1)) | _ => false) = true := by decide +kernel
  revert this
  generalize Colour.format (exEnv id (1 / 1000)) 1 ⟨1, 2, 3, List.replicate 62 'a'⟩ [] [] 1 = r
  cases r <;> simp

/-- A concrete case of `C43_comment_refused`: a line with a comment and two optional pointers. -/
example : ∃ t n, Line.format (exEnv id (1 / 1000)) 7 ⟨1, -2, 3, 100 / 3, 0, -1 / 7⟩ [⟨402, 5⟩, ⟨406, 9⟩] ["hello".toList] 3 = .val (t, n) ∧
    ∀ more, Line.readPD (exEnv id (1 / 1000)) 7 3 (n - 3) (getlines [] (t ++ more)) = .fail := by
  obtain ⟨t, n, h⟩ : ∃ t n, Line.format (exEnv id (1 / 1000)) 7 ⟨1, -2, 3, 100 / 3, 0, -1 / 7⟩ [⟨402, 5⟩, ⟨406, 9⟩] ["hello".toList] 3 = .val (t, n) := by
    have : (match Line.format (exEnv id (1 / 1000)) 7 ⟨1, -2, 3, 100 / 3, 0, -1 / 7⟩ [⟨402, 5⟩, ⟨406, 9⟩] ["hello".toList] 3 with
      | .val _ => true | _ => false) = true := by decide +kernel
    revert this
    generalize Line.format (exEnv id (1 / 1000)) 7 ⟨1, -2, 3, 100 / 3, 0, -1 / 7⟩ [⟨402, 5⟩, ⟨406, 9⟩] ["hello".toList] 3 = r
    rcases r with ⟨t, n⟩ | _ | _ | _ <;> simp
  refine ⟨t, n, h, fun more => ?_⟩
  exact C43_comment_refused _ _ _ _ _ _ _ _ _ _ _ _ _ more _ (C29_line _ _ _ ⟨1, -2, 3, 100 / 3, 0, -1 / 7⟩ _
    ((exSetting id).mono (by decide)) (fun x hx => small_ok (by revert x; decide +kernel))) (by decide) (by decide) (by decide) h

end Iges.Props
