import Verif.Model.Directory
import Verif.Model.Accessors
/-
Labels of entities, and the labels, names and colours that the converter from IDF gives to the entities it makes.
-/
namespace Iges.Look

/-- `DLL_IGES_ENTITY::SetLabel` (dll_iges_entity.cpp:582-594) with `IGES_ENTITY::SetLabel` (iges_entity.cpp:2471-2482):
the new label.  The answer is always true.  `none` is a null pointer. -/
def setLabel (t : Option Str) : Str := (t.getD []).take 8

/-- `DLL_IGES_ENTITY::GetLabel` (dll_iges_entity.cpp:597-610): `none` is the answer false. -/
def getLabel (label : Str) : Option Str := if label = [] then none else some label

/-- `cdef` in `initColors`, idf2igs.cpp:791-801. -/
def cdef : List (ℕ × ℕ × ℕ) :=
  [(0x2F, 0xD0, 0x37), (0x2F, 0xAA, 0xD0), (0xD0, 0x55, 0x2F), (0xF0, 0x76, 0x0F), (0x77, 0x0B, 0xF4),
    (0xF4, 0xC8, 0x0B), (0xF4, 0x0B, 0x84), (0x1B, 0x20, 0xE4), (0x8A, 0xAA, 0x55)]

/-- `cname` in `initColors`, idf2igs.cpp:803-813. -/
def cname : List Str :=
  ["pcb green".toList, "pcb cyan".toList, "pcb peach".toList, "pcb orange".toList, "pcb purple".toList,
    "pcb yellow".toList, "pcb pink".toList, "pcb blue".toList, "pcb olive".toList]

/-- A new colour definition, entity314.cpp:32-46. -/
def newColour : Colour := ⟨85, 20, 20, []⟩

/-- `SetColor` with percentages, idf2igs.cpp:824-826. -/
def paint (k : Colour) (c : ℕ × ℕ × ℕ) : Colour :=
  (Handle.setEnt (c := .colour) k (.rgb (c.1 * 100 / 255) (c.2.1 * 100 / 255) (c.2.2 * 100 / 255))).1

/-- The colour entities that `initColors` makes, idf2igs.cpp:815-855, each with the name in its property entity (832-835).
Numbers are exact. -/
def initColors : List (Colour × Str) :=
  (cdef.map (paint newColour)).zip cname

/-- `GetComponentColor`, idf2igs.cpp:1186-1194: the index handed out and the new value of the static variable. -/
def nextColour (cidx : ℕ) : ℕ × ℕ := (cidx, if cidx + 1 = 9 then 1 else cidx + 1)

/-- The colours of the bodies after the board, in the order in which they are made: parts (idf2igs.cpp:1158), then other
outlines (1061). -/
def dress {α : Type} : ℕ → List α → List (α × ℕ)
  | _, [] => []
  | cidx, b :: l => (b, (nextColour cidx).1) :: dress (nextColour cidx).2 l

/-- All bodies of a conversion with the index of their colour: the board (idf2igs.cpp:372) and the others. -/
def dressAll {α : Type} (board : Option α) (bodies : List α) : List (α × ℕ) :=
  (board.toList.map fun b => (b, 0)) ++ dress 1 bodies

/-- The label of the instance of a component, idf2igs.cpp:948. -/
def instanceLabel (refdes : Str) : Str := setLabel (some refdes)

end Iges.Look
