import Verif.Model.HandoutSplit
/-
C99: arrays handed out by the handle of a segment.
-/
namespace Iges.Props.HandoutSplit
open Iges.Handout

/-- An array and a count that belong together: NULL and 0, or an array with as many elements as the count says. -/
def Together {α : Type} (list : Option (List α)) (n : Int) : Prop := n = (list.getD []).length

/-- **C99_points**: common points are handed out only if an empty place for them was given; then the array has exactly the points that
were found, in order, and the count is their number. Otherwise neither is changed. -/
theorem C99_points {α : Type} (valid : Bool) (list : Option (List α)) (n : Int) (found : Option (List α)) :
    ((pointsOut valid list n found).2.2 = true ↔ valid = true ∧ list = none ∧ n = 0 ∧ found ≠ none) ∧
    ((pointsOut valid list n found).2.2 = true → ∃ ps, found = some ps ∧ (pointsOut valid list n found).1 = some ps ∧
      (pointsOut valid list n found).2.1 = ps.length) ∧
    ((pointsOut valid list n found).2.2 = false → (pointsOut valid list n found).1 = list ∧ (pointsOut valid list n found).2.1 = n) := by
  unfold pointsOut
  cases valid
  · simp
  · cases list with
    | some l => simp
    | none =>
      by_cases hn : n = 0
      · subst hn
        cases found <;> simp
      · simp [hn]

/-- **C99_points_again**: a second call with the same variables is always refused, even if no point was found the first time. -/
theorem C99_points_again {α : Type} (valid : Bool) (list : Option (List α)) (n : Int) (found found' : Option (List α))
    (h : (pointsOut valid list n found).2.2 = true) :
    (pointsOut valid (pointsOut valid list n found).1 (pointsOut valid list n found).2.1 found').2.2 = false := by
  obtain ⟨ps, -, h1, -⟩ := (C99_points valid list n found).2.1 h
  rw [h1]
  cases valid <;> simp [pointsOut]

/-- **C99_split_partial**: with an array and a count that belong together, splitting appends the new parts to the array, in order, and
the count belongs to it again; if the segment cannot be split nothing is changed. Missing: a count without an array
(`C99_split_overrun`). -/
theorem C99_split_partial {α : Type} (list : Option (List α)) (n : Int) (h : Together list n) (parts : Option (List α)) :
    ∃ list' n' b, splitOut list n parts = some (list', n', b) ∧ Together list' n' ∧ (b = true ↔ parts ≠ none) ∧
      list'.getD [] = list.getD [] ++ parts.getD [] := by
  unfold Together at h
  cases parts with
  | none => exact ⟨list, n, false, rfl, h, by simp, by simp⟩
  | some ps =>
    cases list with
    | none =>
      refine ⟨some ps, n + ps.length, true, rfl, ?_, by simp, by simp⟩
      simp [Together, h]
    | some l =>
      simp only [Option.getD_some] at h
      by_cases hn : n > 0
      · refine ⟨some (l.take n.toNat ++ ps), n + ps.length, true, ?_, ?_, by simp, ?_⟩
        · simp only [splitOut]
          rw [if_pos hn, if_neg (by omega)]
        · simp [Together, h]
        · simp [h]
      · have hl : l = [] := List.eq_nil_of_length_eq_zero (by omega)
        subst hl
        refine ⟨some ps, n + ps.length, true, ?_, ?_, by simp, by simp⟩
        · simp only [splitOut]; rw [if_neg hn]
        · simp [Together, h]

/-- **C99_split_overrun**: with NULL for the array and a count above zero, the count returned is larger than the array: a caller that
goes through the array reads past its end. -/
theorem C99_split_overrun {α : Type} (n : Int) (hn : 0 < n) (ps : List α) :
    ∃ l m, splitOut none n (some ps) = some (some l, m, true) ∧ (l.length : Int) < m :=
  ⟨ps, n + ps.length, rfl, by omega⟩

/-- **C99_split_lost**: with a count of zero an array that was given is neither kept nor freed: the new one has only the new parts. -/
theorem C99_split_lost {α : Type} (l ps : List α) : splitOut (some l) 0 (some ps) = some (some ps, (ps.length : Int), true) := by
  simp [splitOut]

/-- Several splits in a row, all into one array, starting from nothing. -/
def splits {α : Type} : Option (List α) × Int → List (Option (List α)) → Option (Option (List α) × Int)
  | s, [] => some s
  | s, p :: ps => match splitOut s.1 s.2 p with
    | none => none
    | some (l, n, _) => splits (l, n) ps

/-- **C99_splits**: after any splits into one array that was NULL with count 0, the array has the parts of all of them in order, and
the count is their number. -/
theorem C99_splits {α : Type} (ps : List (Option (List α))) :
    ∃ l n, splits (none, 0) ps = some (l, n) ∧ l.getD [] = (ps.map fun p => p.getD []).flatten ∧ n = (l.getD []).length := by
  suffices H : ∀ (s : Option (List α) × Int), Together s.1 s.2 →
      ∃ l n, splits s ps = some (l, n) ∧ l.getD [] = s.1.getD [] ++ (ps.map fun p => p.getD []).flatten ∧ n = (l.getD []).length by
    obtain ⟨l, n, h1, h2, h3⟩ := H (none, 0) rfl
    exact ⟨l, n, h1, by simpa using h2, h3⟩
  induction ps with
  | nil => intro s h; exact ⟨s.1, s.2, rfl, by simp, h⟩
  | cons p ps ih =>
    intro s h
    obtain ⟨l, n, b, h1, h2, -, h3⟩ := C99_split_partial s.1 s.2 h p
    obtain ⟨l', n', g1, g2, g3⟩ := ih (l, n) h2
    refine ⟨l', n', ?_, ?_, g3⟩
    · rw [splits, h1]; exact g1
    · rw [g2, h3]; simp

example : splits (α := Nat) (none, 0) [some [1, 2], none, some [3]] = some (some [1, 2, 3], 3) := by decide
example : (pointsOut (α := Nat) true none 0 (some [])).1 = some [] := rfl
example : Together (some [1, 2]) 2 := rfl

end Iges.Props.HandoutSplit
