import Verif.Model.IdfPart
import Verif.Spec.IdfLib
/-
Specification for component outlines loaded from files (C95).
-/
namespace Iges.Idf.Spec

/-- Two points are not more than a thousandth of a millimetre apart. -/
def Within (p q : Pt) : Prop := (p.x - q.x) ^ 2 + (p.y - q.y) ^ 2 ≤ (1 / 1000) ^ 2

/-- The outlines have the same class, are equally many, and in the first outlines the segments begin and end at the same points. -/
def SameCorners (a b : CompOln) : Prop :=
  a.cls = b.cls ∧ a.outlines.length = b.outlines.length ∧
  ∀ l m, a.outlines.head? = some l → b.outlines.head? = some m → List.Forall₂ (fun s t : QSeg => Within s.start t.start ∧ Within s.stop t.stop) l m

/-- Something that is done with the outlines of a board: a file is asked for, which then has the given contents; or a board or library file is read, after which the
board may have more outlines and another version. -/
inductive PartCall where
  | load (f : Str) (content : Option (List Str))
  | grow (parts : SMap CompOln) (version : Version)

/-- One call.  A call that would lose an outline is not possible. -/
inductive Step (ccw : List QSeg → Bool) : PartStore → PartCall → Option Str → PartStore → Prop
  | load (S : PartStore) (f : Str) (content : Option (List Str)) :
      Step ccw S (.load f content) (GetComponentOutline ccw S f content).1 (GetComponentOutline ccw S f content).2
  | grow (S : PartStore) (parts : SMap CompOln) (version : Version) (h : ∀ k o, S.parts.find k = some o → ∃ o', parts.find k = some o') :
      Step ccw S (.grow parts version) none { S with parts := parts, version := version }

/-- The calls lead from the first state to the second. -/
inductive Steps (ccw : List QSeg → Bool) : PartStore → PartStore → Prop
  | refl (S) : Steps ccw S S
  | step {S T U : PartStore} {c r} : Steps ccw S T → Step ccw T c r U → Steps ccw S U

end Iges.Idf.Spec
