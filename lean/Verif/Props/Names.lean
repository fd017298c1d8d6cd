import Verif.Model.Names
import Verif.Spec.Units
import Verif.Lemmas.Columns
import Mathlib.Data.List.Nodup
/-
C45, C46: unit names and generated names.
-/
namespace Iges.Props
open Iges

/-- The name the library writes into the global section for a unit code is the right one.  (The
query `GetUnitName` is not, see below.) -/
theorem C45_written_name_partial (u : Int) (h1 : 1 ≤ u) (h2 : u ≤ 11) :
    some (unitNameAt u) = (Spec.unitName u).map String.toList := by
  have : u = 1 ∨ u = 2 ∨ u = 3 ∨ u = 4 ∨ u = 5 ∨ u = 6 ∨ u = 7 ∨ u = 8 ∨ u = 9 ∨ u = 10 ∨ u = 11 := by omega
  rcases this with rfl | rfl | rfl | rfl | rfl | rfl | rfl | rfl | rfl | rfl | rfl <;> decide

/-- **C45** fails for every unit: `GetUnitName` reports the name of the next unit code, and the empty
string for the last one. -/
theorem C45_query_reports_next_unit (g : Globals) (h1 : 1 ≤ g.unitsFlag) (h2 : g.unitsFlag ≤ 11) :
    GetUnitName g = .ok ((Spec.unitName (g.unitsFlag + 1)).getD "").toList := by
  have : g.unitsFlag = 1 ∨ g.unitsFlag = 2 ∨ g.unitsFlag = 3 ∨ g.unitsFlag = 4 ∨ g.unitsFlag = 5 ∨
    g.unitsFlag = 6 ∨ g.unitsFlag = 7 ∨ g.unitsFlag = 8 ∨ g.unitsFlag = 9 ∨ g.unitsFlag = 10 ∨
    g.unitsFlag = 11 := by omega
  unfold GetUnitName
  rcases this with h | h | h | h | h | h | h | h | h | h | h <;> rw [h] <;> decide

/-- ... which is never the right name. -/
theorem C45_query_wrong (g : Globals) (h1 : 1 ≤ g.unitsFlag) (h2 : g.unitsFlag ≤ 11) (name : String)
    (hn : Spec.unitName g.unitsFlag = some name) : GetUnitName g ≠ .ok name.toList := by
  rw [C45_query_reports_next_unit g h1 h2]
  have : g.unitsFlag = 1 ∨ g.unitsFlag = 2 ∨ g.unitsFlag = 3 ∨ g.unitsFlag = 4 ∨ g.unitsFlag = 5 ∨
    g.unitsFlag = 6 ∨ g.unitsFlag = 7 ∨ g.unitsFlag = 8 ∨ g.unitsFlag = 9 ∨ g.unitsFlag = 10 ∨
    g.unitsFlag = 11 := by omega
  rcases this with h | h | h | h | h | h | h | h | h | h | h <;> rw [h] at hn ⊢ <;>
    simp only [Spec.unitName, Option.some.injEq] at hn <;> subst hn <;> decide

/-- A time that the clock can show before the year 10000. -/
structure ClockTime (t : Tm) : Prop where
  year : t.year ≤ 9999
  yday : t.yday ≤ 366
  hour : t.hour ≤ 23
  min : t.min ≤ 59
  sec : t.sec ≤ 60

theorem zeroPad_length {w n : Nat} (hw : 0 < w) (h : n < 10 ^ w) : (zeroPad w n).length = w := by
  have := natStr_length_le hw h
  simp [zeroPad]; omega

theorem zeroPad_value (w n : Nat) : Nat.ofDigitChars 10 (zeroPad w n) 0 = n := by
  unfold zeroPad
  rw [Nat.ofDigitChars_append]
  have : ∀ k, Nat.ofDigitChars 10 (List.replicate k '0') 0 = 0 := by
    intro k
    induction k with
    | zero => rfl
    | succ k ih => rw [List.replicate_succ, Nat.ofDigitChars_cons]; exact ih
  rw [this]
  exact Nat.ofDigitChars_ten_toDigits

theorem zeroPad_inj {w m n : Nat} (h : zeroPad w m = zeroPad w n) : m = n := by
  rw [← zeroPad_value w m, h, zeroPad_value]

theorem stamp_inj {t u : Tm} (ht : ClockTime t) (hu : ClockTime u) (h : stamp t = stamp u) : t = u := by
  unfold stamp at h
  obtain ⟨h1, h2, h3, h4, h5⟩ := ht
  obtain ⟨g1, g2, g3, g4, g5⟩ := hu
  have l4 : ∀ n, n ≤ 9999 → (zeroPad 4 n).length = 4 := fun n hn => zeroPad_length (by decide) (by omega)
  have l3 : ∀ n, n ≤ 366 → (zeroPad 3 n).length = 3 := fun n hn => zeroPad_length (by decide) (by omega)
  have l2 : ∀ n, n ≤ 60 → (zeroPad 2 n).length = 2 := fun n hn => zeroPad_length (by decide) (by omega)
  simp only [List.append_assoc] at h
  obtain ⟨e1, h⟩ := List.append_inj h (by rw [l4 _ h1, l4 _ g1])
  obtain ⟨e2, h⟩ := List.append_inj h (by rw [l3 _ h2, l3 _ g2])
  obtain ⟨e3, h⟩ := List.append_inj h (by rw [l2 _ (by omega), l2 _ (by omega)])
  obtain ⟨e4, h⟩ := List.append_inj h (by rw [l2 _ (by omega), l2 _ (by omega)])
  obtain ⟨e5, h⟩ := List.append_inj h (by rw [l2 _ (by omega), l2 _ (by omega)])
  cases t; cases u
  simp only [Tm.mk.injEq]
  exact ⟨zeroPad_inj e1, zeroPad_inj e2, zeroPad_inj e3, zeroPad_inj e4, zeroPad_inj e5⟩

/-- **C46** — A sequence of generated part names has no repetition exactly if no two calls were made
within the same second; the same holds for assembly names. -/
theorem C46_distinct_iff_seconds_distinct_partial (times : List Tm) (h : ∀ t ∈ times, ClockTime t) :
    ((times.map GetNewPartName).Nodup ↔ times.Nodup) ∧
    ((times.map GetNewAssemblyName).Nodup ↔ times.Nodup) := by
  have key : ∀ pre : Str, (times.map fun t => pre ++ stamp t).Nodup ↔ times.Nodup := by
    intro pre
    constructor
    · exact List.Nodup.of_map _
    · intro hd
      refine (List.nodup_map_iff_inj_on hd).mpr ?_
      intro t ht u hu e
      exact stamp_inj (h t ht) (h u hu) (List.append_cancel_left e)
  exact ⟨key _, key _⟩

/-- Part names and assembly names never clash with each other. -/
theorem C46_part_ne_assembly (t u : Tm) : GetNewPartName t ≠ GetNewAssemblyName u := by
  intro h
  have := congrArg List.head? h
  simp [GetNewPartName, GetNewAssemblyName] at this

/-- **C46** fails for two calls within one second. -/
theorem C46_same_second_same_name (t : Tm) :
    ¬ ([t, t].map GetNewPartName).Nodup ∧ ¬ ([t, t].map GetNewAssemblyName).Nodup := by
  constructor <;> simp

/-- A concrete case. -/
example : GetNewPartName ⟨2026, 45, 9, 5, 59⟩ = "part20260450905590001".toList := by decide

end Iges.Props
