import Mathlib.Analysis.SpecialFunctions.Complex.Circle
import Verif.Model.IdfInstance
/-
Independent specification for C86: where the parts of a board are.
-/
namespace Iges.Idf.Spec
open Iges

/-- A part is mounted on a board whose middle plane is `z = 0` and whose thickness is `2 * th`: at `(x, y)`, raised by `z` from the
surface, and turned by `a` degrees counterclockwise, as seen when one looks at the side on which it is mounted.  The point `p` of the part
comes to `q`.  Seen from below, what is at the right of the board from above is at the left. -/
def Mounted (th : ℝ) (side : Side) (x y z a : ℝ) (p q : Point ℝ) : Prop :=
  let turn := Complex.exp ((a * Real.pi / 180 : ℝ) * Complex.I)
  match side with
  | .top => (⟨q.x, q.y⟩ : ℂ) = ⟨p.x, p.y⟩ * turn + ⟨x, y⟩ ∧ q.z = th + z + p.z
  | .bottom => (⟨-q.x, q.y⟩ : ℂ) = ⟨p.x, p.y⟩ * turn + ⟨-x, y⟩ ∧ q.z = -(th + z + p.z)

/-- the square of the distance of two points -/
def distance2 (p q : Point ℝ) : ℝ := (p.x - q.x) ^ 2 + (p.y - q.y) ^ 2 + (p.z - q.z) ^ 2

/-- six times the volume, with its sign, of the tetrahedron with the corners `a b c d` -/
def volume6 (a b c d : Point ℝ) : ℝ :=
  (b.x - a.x) * ((c.y - a.y) * (d.z - a.z) - (c.z - a.z) * (d.y - a.y)) -
  (b.y - a.y) * ((c.x - a.x) * (d.z - a.z) - (c.z - a.z) * (d.x - a.x)) +
  (b.z - a.z) * ((c.x - a.x) * (d.y - a.y) - (c.y - a.y) * (d.x - a.x))

/-- The map moves things without changing their shape or turning them inside out. -/
def Rigid (f : Point ℝ → Point ℝ) : Prop :=
  (∀ p q, distance2 (f p) (f q) = distance2 p q) ∧ ∀ a b c d, volume6 (f a) (f b) (f c) (f d) = volume6 a b c d

/-- The instance shows the part of a record of the placement section where the record says, under the name `n`. -/
structure Shows (th : ℝ) (r : PlaceRec) (n : Str) (i : Instance) : Prop where
  label : i.label = n
  uid : i.uid = uidOf r.geom r.part
  placed : ∀ p, Mounted th r.side r.x r.y r.z r.a p (i.tx.act p)
  rigid : Rigid i.tx.act

/-- `recs` are the records that a placement section consists of, one after the other. -/
inductive Records (cad : Cad) (u : Unit) (v : Version) : List Str → List PlaceRec → List Str → Prop where
  | done {s rest} : readPlaceRec cad u v s = .finish rest → Records cad u v s [] rest
  | more {s r s' recs rest} : readPlaceRec cad u v s = .item r s' → Records cad u v s' recs rest → Records cad u v s (r :: recs) rest

/-- The name that a record is stored under: its own, or one made up for it. -/
def NameOf (r : PlaceRec) (n : Str) : Prop := r.ref = some n ∨ (r.ref = none ∧ ∃ k, n = newRefDes k)

/-- No part has been placed yet; components that only have holes are known by their names. -/
def Bare (b : PBoard) : Prop := ∀ e ∈ b.comps, e.2.refdes = e.1 ∧ e.2.pos = none ∧ e.2.placement = none ∧ e.2.outs = []

/-- The library is kept by the names of its parts. -/
def Keyed (b : PBoard) : Prop := ∀ k o, b.lib.find k = some o → outUid o.1 o.2 = k

end Iges.Idf.Spec
