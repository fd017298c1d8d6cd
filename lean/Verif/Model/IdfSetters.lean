import Verif.Model.IdfSections
import Verif.Model.IdfOwner
/-
The calls by which the outline sections of an IDF board (keepouts, regions and the like), the names of a library part and the
numbers of a board are set (idf/idf_outlines.cpp, idf/idf_parser.cpp).
-/
namespace Iges.Idf

/-- `CheckOwnership` for an outline with a parent, idf_outlines.cpp:79-128. -/
def ownerAllows (cad : Cad) : Owner → Bool
  | .unowned => true
  | .mcad => decide (cad = .mech)
  | .ecad => decide (cad = .elec)

/-- The constructors, idf_outlines.cpp:132-141, 1549-1557, 1948-1954, 2240-2247, 2644-2686. -/
def newSect (k : OlnKind) : OlnSect where
  owner := .unowned
  side := none
  thickness := if k = .place ∨ k = .placeKo then -1 else 0
  ident := []
  outlines := []

/-- The calls that set something of a section.  `none` as a side is `LYR_INVALID` or a value outside of the enumeration. -/
inductive SectCall where
  | setSide (l : Option Layer)        -- SetSide, SetLayers
  | setMaxHeight (h : ℚ)
  | setThickness (t : ℚ)
  | setIdent (s : Str)                -- SetOutlineIdentifier, SetGroupName
  | setOwner (o : Owner)
  | addOutline (l : List QSeg)        -- AddOutline of an outline object that is not in the list yet
  | clear

/-- `SetSide` and `SetLayers` once the owner is checked, idf_outlines.cpp:1583-1606, 1964, 2257-2281, 2695-2717. -/
def setSide (k : OlnKind) (s : OlnSect) (l : Option Layer) : OlnSect × Bool :=
  match k with
  | .other | .via =>
    match l with
    | some .top | some .bottom => ({ s with side := l }, true)
    | _ => ({ s with side := none }, false)
  | .route | .routeKo => ({ s with side := l }, true)
  | .place | .placeKo =>
    match l with
    | some .top | some .bottom | some .both => ({ s with side := l }, true)
    | _ => ({ s with side := none }, false)
  | .region =>
    match l with
    | some .top | some .bottom | some .both => ({ s with side := l }, true)
    | _ => (s, false)

/-- `SetMaxHeight` once the owner is checked, idf_outlines.cpp:2297-2313.  Other classes do not have it. -/
def setMaxHeight (k : OlnKind) (s : OlnSect) (h : ℚ) : OlnSect × Bool :=
  match k with
  | .place | .placeKo => if h < 0 then ({ s with thickness := 0 }, false) else ({ s with thickness := h }, true)
  | _ => (s, false)

/-- `SetOutlineIdentifier` and `SetGroupName` once the owner is checked, idf_outlines.cpp:1566, 2733. -/
def setIdent (k : OlnKind) (s : OlnSect) (n : Str) : OlnSect × Bool :=
  match k with
  | .other | .via | .region => ({ s with ident := n }, true)
  | _ => (s, false)

/-- `Clear` of the classes once the owner is checked, idf_outlines.cpp:1247-1254, 1937-1941, 2230-2233, 2633-2637, 2956-2961. -/
def clearSect (k : OlnKind) (s : OlnSect) : OlnSect :=
  ⟨.unowned, none, if k = .place ∨ k = .placeKo ∨ k = .region then 0 else s.thickness,
    if k = .other ∨ k = .via ∨ k = .region then [] else s.ident, []⟩

/-- One call.  All of them ask for the owner first, e.g. idf_outlines.cpp:1017-1025, 1307-1315, 1462-1471. -/
def sectCall (cad : Cad) (k : OlnKind) (s : OlnSect) (c : SectCall) : OlnSect × Bool :=
  if ownerAllows cad s.owner = false then (s, false)
  else
    match c with
    | .setSide l => setSide k s l
    | .setMaxHeight h => setMaxHeight k s h
    | .setThickness t => if t < 0 then (s, false) else ({ s with thickness := t }, true)     -- 1000-1015
    | .setIdent n => setIdent k s n
    | .setOwner o => ({ s with owner := o }, true)
    | .addOutline l => ({ s with outlines := s.outlines ++ [l] }, true)
    | .clear => (clearSect k s, true)

/-- A history of calls: the section and the results. -/
def sectRun (cad : Cad) (k : OlnKind) : OlnSect → List SectCall → OlnSect × List Bool
  | s, [] => (s, [])
  | s, c :: cs =>
    let r := sectCall cad k s c
    let q := sectRun cad k r.1 cs
    (q.1, r.2 :: q.2)

/-- The names of a library part, `IDF3_COMP_OUTLINE`: `geometry`, `part` and the remembered `uid`. -/
structure PartName where
  geometry : Str
  part : Str
  uid : Str
deriving DecidableEq, Repr

/-- Calls about the names of a part. -/
inductive NameCall where
  | setGeom (s : Str)
  | setPart (s : Str)
  | getUID
  | clear
  | standIn (g p : Str)

/-- `GetUID`, idf_outlines.cpp:3501-3512. -/
def getUID (n : PartName) : PartName × Str :=
  if n.uid ≠ [] then (n, n.uid)
  else if n.geometry = [] ∧ n.part = [] then (n, n.uid)
  else ({ n with uid := n.geometry ++ '_' :: n.part }, n.geometry ++ '_' :: n.part)

/-- One call: `SetGeomName` (3477-3482), `SetPartName` (3489-3494), `GetUID`, `Clear` (3426-3442; parts have no owner) and the
names given by `CreateDefaultOutline` (3536-3551). -/
def NameCall.run (n : PartName) : NameCall → PartName
  | .setGeom s => { n with geometry := s, uid := [] }
  | .setPart s => { n with part := s, uid := [] }
  | .getUID => (Idf.getUID n).1
  | .clear => ⟨[], [], []⟩
  | .standIn g p =>
    if g = [] ∧ p = [] then ⟨"NOGEOM".toList, "NOPART".toList, "NOGEOM_NOPART".toList⟩
    else ⟨g, p, g ++ '_' :: p⟩

/-- The numbers of a board. -/
structure BoardNums where
  scale : ℚ
  prec : ℤ
  brdVersion : ℤ
  libVersion : ℤ

/-- `IDF3_BOARD::IDF3_BOARD`, idf_parser.cpp:1358-1363. -/
def newNums : BoardNums := ⟨1, 5, 0, 0⟩

/-- Calls about the numbers of a board; `wroteBoard` and `wroteLib` are a file written (2810, 2854).  Reading, which sets the
versions to those of the file, and overflow after 2147483647 files are left out. -/
inductive NumCall where
  | setScale (q : ℚ)
  | setPrec (i : ℤ)
  | setBrdVersion (i : ℤ)
  | setLibVersion (i : ℤ)
  | wroteBoard
  | wroteLib
  | clear

/-- One call: `SetUserScale` (3220-3233), `SetUserPrecision` (3241-3254), `SetBoardVersion` (3172-3186), `SetLibraryVersion`
(3196-3210), the increments and `Clear` (4026-4027, 4207). -/
def NumCall.run (n : BoardNums) : NumCall → BoardNums × Bool
  | .setScale q => if q = 0 then (n, false) else ({ n with scale := q }, true)
  | .setPrec i => if i < 1 ∨ i > 8 then (n, false) else ({ n with prec := i }, true)
  | .setBrdVersion i => if i < 0 then (n, false) else ({ n with brdVersion := i }, true)
  | .setLibVersion i => if i < 0 then (n, false) else ({ n with libVersion := i }, true)
  | .wroteBoard => ({ n with brdVersion := n.brdVersion + 1 }, true)
  | .wroteLib => ({ n with libVersion := n.libVersion + 1 }, true)
  | .clear => ({ n with scale := 1, brdVersion := 0, libVersion := 0 }, true)

end Iges.Idf
