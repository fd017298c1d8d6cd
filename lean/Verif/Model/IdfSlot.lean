import Verif.Model.IdfSeg
/-
Slots: `IDF3_BOARD::AddSlot` (idf/idf_parser.cpp).

Simplifications: as in Model/IdfSeg.lean a `double` is a real number; memory allocation succeeds.  The list of outlines of the
board is a list of loops; the new outline is a new object, so that the search for the same pointer in `addOutline` finds nothing.
-/
namespace Iges.Idf

noncomputable section

/-- `IDF_MIN_DIA_MM`, idf_helpers.h:34 -/
def slotMinDia : ℝ := 0.001

/-- The outline made by `AddSlot`, idf_parser.cpp:3458-3512.  The results of `push` are not looked at. -/
def slotLoop (width length orientation x y : ℝ) : Loop :=
  let a1 := orientation / 180 * Real.pi
  let a2 := a1 + Real.pi / 2
  let d1 := length / 2
  let d2 := width / 2
  let sa1 := Real.sin a1
  let ca1 := Real.cos a1
  let dsa2 := d2 * Real.sin a2
  let dca2 := d2 * Real.cos a2
  let c0 : P2 := ⟨x + d1 * ca1, y + d1 * sa1⟩
  let c1 : P2 := ⟨x - d1 * ca1, y - d1 * sa1⟩
  let pt0 : P2 := ⟨c0.x - dca2, c0.y - dsa2⟩
  let pt1 : P2 := ⟨c1.x - dca2, c1.y - dsa2⟩
  let pt2 : P2 := ⟨c1.x + dca2, c1.y + dsa2⟩
  let pt3 : P2 := ⟨c0.x + dca2, c0.y + dsa2⟩
  let o := (Loop.empty.push (lineSeg pt0 pt1)).1
  let o := (o.push (arcSeg c1 pt1 (-180) true)).1
  let o := (o.push (lineSeg pt2 pt3)).1
  (o.push (arcSeg c0 pt3 (-180) true)).1

/-- `AddSlot`, idf_parser.cpp:3436-3525: the outlines of the board afterwards and the result -/
def addSlot (outlines : List Loop) (width length orientation x y : ℝ) : List Loop × Bool :=
  open Classical in
  if width < slotMinDia then (outlines, false)
  else if length < slotMinDia then (outlines, false)
  else (outlines ++ [slotLoop width length orientation x y], true)

end
end Iges.Idf
