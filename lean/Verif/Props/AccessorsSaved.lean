import Verif.Props.Accessors
import Verif.Props.EntityCases
/-
C101: what is set through a handle is what is found in the file (with C29).
-/
namespace Iges.Props.Accessors
open Iges Iges.Handle Iges.Handle.Spec Iges.Props

private theorem run_append {c : Cls} (h : Option (EntOf c)) (ks ls : List (SetCall c)) :
    run h (ks ++ ls) = (run h ks).bind fun h' => run h' ls := by
  induction ks generalizing h with
  | nil => rfl
  | cons k ks ih =>
    rw [List.cons_append, run, run]
    cases set h k with
    | none => rfl
    | some p => exact ih p.1

/-- **C101_line_saved**: whatever was done before, a line whose ends have been set is written and read back with those ends, to the
accuracy of C29. -/
theorem C101_line_saved (E : PdEnv) (de i0 : Int) (xs : List ExtraRef) (hset : Setting E de i0 xs 12) (l : Line)
    (ks : List (SetCall .line)) (x1 y1 z1 x2 y2 z2 : ℚ) (hb : ∀ x ∈ [x1, y1, z1, x2, y2, z2], |x| ≤ 10 ^ (300 : ℤ)) :
    ∃ l' : Line, run (c := .line) (some l) (ks ++ [.lineStart x1 y1 z1, .lineEnd x2 y2 z2]) = some (some l') ∧
      Spec.PdCycle (12 + 2 * xs.length + 4) de i0 (l'.format E de xs [] i0) (Line.readPD E de)
        (fun r => (Spec.Near E.res x1 r.1.X1 ∧ Spec.Near E.res y1 r.1.Y1 ∧ Spec.Near E.res z1 r.1.Z1 ∧
          Spec.Near E.res x2 r.1.X2 ∧ Spec.Near E.res y2 r.1.Y2 ∧ Spec.Near E.res z2 r.1.Z2) ∧
          r.2.1 = secA xs ++ secB xs ∧ r.2.2 = []) := by
  obtain ⟨e, he, -⟩ := C101_last_partial (c := .line) (by decide) l trivial ks
  refine ⟨⟨x1, y1, z1, x2, y2, z2⟩, ?_, C29_line E de i0 ⟨x1, y1, z1, x2, y2, z2⟩ xs hset hb⟩
  rw [run_append, he]
  rfl

/-- **C101_conic_saved**: the same for a conic whose coefficients and ends have been set; both ends are at the height of the start. -/
theorem C101_conic_saved (E : PdEnv) (de i0 : Int) (xs : List ExtraRef) (hset : Setting E de i0 xs 22) (k : Conic)
    (ks : List (SetCall .conic)) (a b c d e f x1 y1 z x2 y2 : ℚ)
    (hb : ∀ x ∈ [a, b, c, d, e, f, z, x1, y1, x2, y2], |x| ≤ 10 ^ (300 : ℤ)) :
    ∃ k' : Conic, run (c := .conic) (some k) (ks ++ [.conicParams a b c d e f, .conicStart x1 y1 z, .conicEnd x2 y2]) = some (some k') ∧
      Spec.PdCycle (22 + 2 * xs.length + 4) de i0 (k'.format E de xs [] i0) (Conic.readPD E de)
        (fun r => ConicNear ⟨a, b, c, d, e, f, z, x1, y1, x2, y2⟩ r.1 ∧ r.2.1 = secA xs ++ secB xs ∧ r.2.2 = []) := by
  obtain ⟨e', he, -⟩ := C101_last_partial (c := .conic) (by decide) k trivial ks
  refine ⟨⟨a, b, c, d, e, f, z, x1, y1, x2, y2⟩, ?_, C29_conic E de i0 ⟨a, b, c, d, e, f, z, x1, y1, x2, y2⟩ xs hset hb⟩
  rw [run_append, he]
  rfl

/-- **C101_generatrix_saved**: the file of a new tabulated cylinder (`LX = LY = LZ = 0`) whose end was set to (x, y, z), whatever was set
before, has the end (z, 0, 0). -/
theorem C101_generatrix_saved (E : PdEnv) (de i0 : Int) (xs : List ExtraRef) (hset : Setting E de i0 xs 6) (DE : Int) (hD : goodDE DE)
    (ks : List (SetCall .extrusion)) (x y z : ℚ) (hz : |z| ≤ 10 ^ (300 : ℤ)) :
    ∃ t' : TabCyl, run (c := .extrusion) (some ⟨DE, 0, 0, 0⟩) (ks ++ [.generatrixEnd x y z]) = some (some t') ∧
      Spec.PdCycle (6 + 2 * xs.length + 4) de i0 (t'.format E de xs [] i0) (TabCyl.readPD E de)
        (fun r => (r.1.DE = DE ∧ Spec.Near E.res z r.1.LX ∧ Spec.Near E.res 0 r.1.LY ∧ Spec.Near E.res 0 r.1.LZ) ∧
          r.2.1 = secA xs ++ secB xs ∧ r.2.2 = []) := by
  obtain ⟨e, he, h1, h2, h3⟩ := C101_generatrix_never ⟨DE, 0, 0, 0⟩ ks
  refine ⟨⟨DE, z, 0, 0⟩, ?_, C29_tabulated E de i0 ⟨DE, z, 0, 0⟩ xs hset hD ?_⟩
  · rw [run_append, he]
    obtain ⟨eDE, eX, eY, eZ⟩ := e
    simp only at h1 h2 h3
    subst h1 h2 h3
    rfl
  · simp only [List.mem_cons, List.not_mem_nil, or_false, forall_eq_or_imp, forall_eq, abs_zero]
    have : (0 : ℚ) ≤ 10 ^ (300 : ℤ) := zpow_nonneg (by norm_num) _
    exact ⟨hz, this, this⟩

/-! Concrete cases. -/

example := C101_line_saved _ _ _ _ ((exSetting id).mono (by decide)) ⟨0, 0, 0, 0, 0, 0⟩ [.lineStart 9 9 9] 1 (-2) 3 (100 / 3) 0 (-1 / 7)
  (fun x hx => small_ok (by revert x; decide +kernel))

example := C101_generatrix_saved _ _ _ _ ((exSetting id).mono (by decide)) 5 (by decide) [] 1 2 3 (small_ok (by norm_num))

end Iges.Props.Accessors
