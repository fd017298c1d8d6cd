import Verif.Spec.IdfPlaceWords
/-
Independent specification of the placement section of a board file, word by word (C76).
-/
namespace Iges.Idf.Spec

/-- The lines of the section, for a program of the side `cad`: two lines for each part, and lines that are blank and skipped, also between the two.  The
lengths of the parts are in millimetres; `f` is the size of the unit. -/
inductive PlaceLines (cad : Cad) (v : Version) (f : ℚ) : List Str → List PlaceRec → Prop
  | nil : PlaceLines cad v f [] []
  | part (raw1 raw2 l1 l2 : Str) (gap : List Str) (ws1 ws2 : List (Str × Bool)) (r : PlaceRec) (raws : List Str) (rs : List PlaceRec) :
      fetchLine raw1 = some ⟨l1, false⟩ → (∀ g ∈ gap, fetchLine g = none) → fetchLine raw2 = some ⟨l2, false⟩ → Words l1 ws1 → Words l2 ws2 →
      PlaceSays cad v ws1 ws2 r → PlaceLines cad v f raws rs →
      PlaceLines cad v f (raw1 :: (gap ++ raw2 :: raws)) (scaled f r :: rs)
  | blank (raw : Str) (raws : List Str) (rs : List PlaceRec) : fetchLine raw = none → PlaceLines cad v f raws rs → PlaceLines cad v f (raw :: raws) rs

/-- The component `c` is the part of the record: its position, its status and one outline at the height of the record, without offset. -/
def IsPart (r : PlaceRec) (n : Str) (c : Comp) : Prop :=
  c.refdes = n ∧ c.pos = some ⟨r.x, r.y, r.a, r.side⟩ ∧ c.placement = some r.placement ∧ c.drills = [] ∧
    ∃ o, c.outs = [⟨o, 0, 0, r.z, 0⟩]

end Iges.Idf.Spec
