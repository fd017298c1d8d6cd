import Verif.Model.Reader
import Verif.Model.PdOps
import Verif.Spec.Lines
import Verif.Spec.Reals
import Mathlib.LinearAlgebra.Matrix.Determinant.Basic
import Mathlib.LinearAlgebra.Matrix.Notation
import Mathlib.LinearAlgebra.Matrix.Trace
/-
Independent specification for the parameter data of entities.
-/
namespace Iges.Spec

/-- One write and read of the parameters of the entity with DE number `de`, starting at line `i0` of
the section: `fmt` (a run of `format`) succeeds with at least one and at most `most` 64-column data
lines numbered from `i0`, and `read first count lines` (a run of `readPD` for the first line number and line
count that are stored in the directory entry), given these lines and whatever follows in the file,
succeeds with a value `b` that satisfies `R`. -/
def PdCycle {β : Type} (most : Nat) (de i0 : Int) (fmt : Rd (Str × Int)) (read : Int → Int → List Str → Rd β)
    (R : β → Prop) : Prop :=
  ∃ datas : List Str, datas ≠ [] ∧ datas.length ≤ most ∧ (∀ d ∈ datas, d.length = 64 ∧ '\n' ∉ d) ∧
    fmt = .val (lines (pdTail de) i0 datas, i0 + datas.length) ∧
    ∃ b, R b ∧ ∀ more, read i0 datas.length (getlines [] (lines (pdTail de) i0 datas ++ more)) = .val b

/-- One write and read that fails: `fmt` succeeds as in `PdCycle`, and `readPD`, given these lines and
whatever follows in the file, refuses them. -/
def PdRefused {β : Type} (de i0 : Int) (fmt : Rd (Str × Int)) (read : Int → Int → List Str → Rd β) : Prop :=
  ∃ datas : List Str, datas ≠ [] ∧ (∀ d ∈ datas, d.length = 64 ∧ '\n' ∉ d) ∧
    fmt = .val (lines (pdTail de) i0 datas, i0 + datas.length) ∧
    ∀ more, read i0 datas.length (getlines [] (lines (pdTail de) i0 datas ++ more)) = .fail

/-- One write and read that loses data: `fmt` succeeds as in `PdCycle`, and `readPD`, given these lines and
whatever follows in the file, does not succeed with a value that satisfies `R`. -/
def PdLost {β : Type} (de i0 : Int) (fmt : Rd (Str × Int)) (read : Int → Int → List Str → Rd β)
    (R : β → Prop) : Prop :=
  ∃ datas : List Str, datas ≠ [] ∧ (∀ d ∈ datas, d.length = 64 ∧ '\n' ∉ d) ∧
    fmt = .val (lines (pdTail de) i0 datas, i0 + datas.length) ∧
    ∀ more b, read i0 datas.length (getlines [] (lines (pdTail de) i0 datas ++ more)) = .val b → ¬ R b

/-- The largest deviation of a coordinate of size at most `M` after a write and a read. -/
def coordErr (res M : ℚ) : ℚ := max (max (res / 1000) (M / 10 ^ 15)) (1 / 10 ^ 8)

/-- The matrix of the conic `A x² + B xy + C y² + D x + E y + F = 0`. -/
def conicMatrix (A B C D E F : ℚ) : Matrix (Fin 3) (Fin 3) ℚ :=
  !![A, B / 2, D / 2; B / 2, C, E / 2; D / 2, E / 2, F]

/-- Its quadratic part. -/
def conicQuad (A B C : ℚ) : Matrix (Fin 2) (Fin 2) ℚ := !![A, B / 2; B / 2, C]

/-- The left side of the conic equation. -/
def conicEq (A B C D E F x y : ℚ) : ℚ := A * x ^ 2 + B * x * y + C * y ^ 2 + D * x + E * y + F

end Iges.Spec
