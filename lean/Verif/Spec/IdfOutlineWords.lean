import Verif.Spec.IdfOutline
import Verif.Spec.IdfHole
/-
Independent specification of the text of outlines in IDF files, record by record (C78).
-/
namespace Iges.Idf.Spec

/-- The line `raw` is a record of outline number `i`: the number of the outline, X, Y and an angle, without quote marks; other words may
follow.  `f` is the size of the unit in millimetres. -/
def PointLine (f : ℚ) (i : ℕ) (raw : Str) (p : Pt) (a : ℚ) : Prop :=
  ∃ text wx wy wa more x y, fetchLine raw = some ⟨text, false⟩ ∧
    Words text ((natStr i, false) :: (wx, false) :: (wy, false) :: (wa, false) :: more) ∧
    scanNum wx = some (x, []) ∧ scanNum wy = some (y, []) ∧ scanNum wa = some (a, []) ∧ p = ⟨x * f, y * f⟩

/-- The angle of a segment: within a hundredth of a degree of zero it is a straight line. -/
def bend (a : ℚ) : ℚ := if |a| ≤ 1 / 100 then 0 else a

/-- Not a full turn. -/
def NotTurn (a : ℚ) : Prop := 1 / 100 ≤ |(|a| - 360)|

/-- Within 1e-5 of each other. -/
def PtClose (p q : Pt) : Prop := (p.x - q.x) ^ 2 + (p.y - q.y) ^ 2 ≤ (1 / 100000) ^ 2

/-- Records that lead from `pre` back to `first`, and the segments they stand for; `first` is reached by the last record only. -/
inductive RecPath (f : ℚ) (i : ℕ) (first : Pt) : Pt → List Str → List QSeg → Prop
  | last (pre : Pt) (raw : Str) (q : Pt) (a : ℚ) : PointLine f i raw q a → NotTurn a → PtClose q first →
      RecPath f i first pre [raw] [⟨pre, q, bend a⟩]
  | step (pre : Pt) (raw : Str) (q : Pt) (a : ℚ) (raws : List Str) (o : List QSeg) : PointLine f i raw q a → NotTurn a →
      ¬ PtClose q first → RecPath f i first q raws o → RecPath f i first pre (raw :: raws) (⟨pre, q, bend a⟩ :: o)

/-- The records of outline number `i` and its segments: a circle, given by its centre and a point of it, or a closed chain
of at least two lines and arcs. The first record has no angle. -/
inductive OutlineText (f : ℚ) (i : ℕ) : List Str → List QSeg → Prop
  | circle (r0 r1 : Str) (p q : Pt) (a0 a : ℚ) : PointLine f i r0 p a0 → |a0| ≤ 1 / 100 → PointLine f i r1 q a →
      |(|a| - 360)| < 1 / 100 → OutlineText f i [r0, r1] [⟨p, q, 360⟩]
  | chain (r0 r1 : Str) (p q : Pt) (a0 a : ℚ) (raws : List Str) (o : List QSeg) : PointLine f i r0 p a0 → |a0| ≤ 1 / 100 →
      PointLine f i r1 q a → NotTurn a → RecPath f i p q raws o →
      OutlineText f i (r0 :: r1 :: raws) (⟨p, q, bend a⟩ :: o)

/-- Outlines number `k`, `k + 1` and so on. All but the last must wind as the format says. -/
inductive OutlineTexts (f : ℚ) : ℕ → List Str → List (List QSeg) → Prop
  | last (k : ℕ) (raws : List Str) (o : List QSeg) : OutlineText f k raws o → OutlineTexts f k raws [o]
  | more (k : ℕ) (raws rest : List Str) (o : List QSeg) (os : List (List QSeg)) : OutlineText f k raws o → Winds k o →
      OutlineTexts f (k + 1) rest os → OutlineTexts f k (raws ++ rest) (o :: os)

end Iges.Idf.Spec
