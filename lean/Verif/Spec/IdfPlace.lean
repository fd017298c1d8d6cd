import Verif.Model.IdfPlace
import Verif.Spec.IdfText
/-
Specification for the placement of components (C76).
-/
namespace Iges.Idf.Spec

/-- Where an outline of a component is: the position of the component plus the offset of the outline.  This is how the
placement is used when a board is turned into a model (idf2igs.cpp:929-935) and how offsets are computed when a file is
read. -/
def outX (p : CompPos) (o : OutData) : ℚ := p.x + o.x
def outY (p : CompPos) (o : OutData) : ℚ := p.y + o.y
def outA (p : CompPos) (o : OutData) : ℚ := p.a + o.a

/-- Two outlines have the same names and are at the same place and angle, up to the places written. -/
structure OutNear (u : Unit) (p p' : CompPos) (o o' : OutData) : Prop where
  outline : o'.outline = o.outline
  x : |outX p' o' - outX p o| ≤ lengthTol u
  y : |outY p' o' - outY p o| ≤ lengthTol u
  z : |o'.z - o.z| ≤ diaTol u
  a : |outA p' o' - outA p o| ≤ 1 / 2000

/-- Two components agree: name, status, side, and the outlines one by one. -/
def CompNear (u : Unit) (c c' : Comp) : Prop :=
  c'.refdes = c.refdes ∧ (∀ pl, c.placement = some pl → c'.placement = some pl) ∧
  ∃ p p', c.pos = some p ∧ c'.pos = some p' ∧ p'.side = p.side ∧ List.Forall₂ (OutNear u p p') c.outs c'.outs

/-- A name that is read back as it was written without quote marks: not empty, no white space, no quote mark at the
beginning, not one of the reserved words and not beginning with NOREFDES. -/
structure RefName (r : Str) : Prop where
  nonempty : r ≠ []
  nospace : ∀ c ∈ r, isSpaceC c = false
  noquote : r.head? ≠ some '"'
  notilde : r ≠ ['~']
  noref : (r.take 8).map Char.toUpper ≠ "NOREFDES".toList
  notword : NotWord r ["BOARD", "PANEL"]

/-- A component that can be written: it has a position and outlines, with names that fit between quote marks and numbers
of a size that can be printed. -/
structure Writable (c : Comp) (p : CompPos) : Prop where
  pos : c.pos = some p
  name : RefName c.refdes
  outs : c.outs ≠ []
  outline : ∀ o ∈ c.outs, ∃ g q, o.outline = some (g, q) ∧ Plain g ∧ Plain q ∧ ¬ (g = [] ∧ q = [])
  size : |p.x| ≤ 10 ^ 299 ∧ |p.y| ≤ 10 ^ 299 ∧ |p.a| ≤ 10 ^ 299 ∧
    ∀ o ∈ c.outs, |o.x| ≤ 10 ^ 299 ∧ |o.y| ≤ 10 ^ 299 ∧ |o.z| ≤ 10 ^ 299 ∧ |o.a| ≤ 10 ^ 299

/-- No component of the name has been placed yet; there may be one that only has holes. -/
def Unplaced (b : PBoard) (r : Str) : Prop :=
  ∀ c, b.comps.find r = some c → c.refdes = r ∧ c.pos = none ∧ c.placement = none ∧ c.outs = []

/-- The holes of a component. -/
def holesOf (b : PBoard) (r : Str) : List Drill := (b.comps.find r).elim [] (·.drills)

/-- The outlines of the component are known to the board under their names. -/
def Known (b : PBoard) (c : Comp) : Prop :=
  ∀ o ∈ c.outs, ∀ g q, o.outline = some (g, q) → b.lib.find (uidOf g q) = some (g, q)

end Iges.Idf.Spec
