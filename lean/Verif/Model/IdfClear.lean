import Verif.Model.IdfLib
/-
`IDF3_BOARD::Clear`, and what `ReadFile` leaves in the board when it fails (idf/idf_parser.cpp).
-/
namespace Iges.Idf

/-- The board made by `IDF3_BOARD::IDF3_BOARD( aCadType )`, idf_parser.cpp:1353-1374, with the outline of idf_outlines.cpp:132-141. -/
def newBoard (cad : Cad) : Board where
  name := []
  unit := .mm
  version := .v3
  source := []
  date := []
  fileVersion := 0
  oln := ([], ⟨.unowned, 16 / 10, []⟩)
  sects := fun _ => []
  holes := []
  place := ⟨cad, [], [], 0⟩
  notes := []
  drillComments := []
  noteComments := []
  placeComments := []

/-- The library of a new board, idf_parser.cpp:1363. -/
def newLibrary : Library := ⟨[], [], [], 0⟩

/-- `IDF3_BOARD::Clear`, idf_parser.cpp:4013-4212.  The outline of the board (outlines, comments, owner, thickness), the version of the format and the type of
the CAD system are not touched. -/
def Board.clear (b : Board) : Board where
  name := []                                                  -- 4202
  unit := .mm                                                 -- 4206
  version := b.version
  source := []
  date := []
  fileVersion := 0
  oln := b.oln                                                -- 4017, 4203: the thickness is set to what it is
  sects := fun _ => []                                        -- 4092-4200
  holes := []                                                 -- 4045-4058
  place := ⟨b.place.cad, [], [], 0⟩                           -- 4030, 4061-4089
  notes := []                                                 -- 4038-4042
  drillComments := []
  noteComments := []
  placeComments := []

/-- The same for the library, idf_parser.cpp:4019-4029, 4077-4089. -/
def Library.clear (_ : Library) : Library := ⟨[], [], [], 0⟩

/-- `IDF3_BOARD::ReadFile`, idf_parser.cpp:2740-2791, with the board it leaves behind.  After an exception the board is cleared; `left` is what the outline of the
board and the version of the format were when the exception was thrown, and may be anything. -/
def ReadFile (ccw : List QSeg → Bool) (noSub : Bool) (S : Library × Board) (libInput : Option (List Str)) (input : List Str)
    (left : (List Str × BoardOln) × Version) : Bool × Library × Board :=
  match readFiles ccw noSub S.1 S.2 libInput input with
  | some S' => (true, S')
  | none => (false, S.1.clear, { S.2 with oln := left.1, version := left.2 }.clear)

/-- The call `Clear`. -/
def Clear (S : Library × Board) : Library × Board := (S.1.clear, S.2.clear)

end Iges.Idf
