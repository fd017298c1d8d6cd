# Formal model of libIGES in Lean 4: design

## 1. Scope and method

The code in `/repo` is C++ and was only read, never built or run.  The model is a
set of total, computable Lean functions, one per modelled C++ function.  Every
definition cites the file and lines it models.  Theorems about the model are in
`lean/Verif/Props/*`; independent specifications are in `lean/Verif/Spec/*`;
helper lemmas are in `lean/Verif/Lemmas/*`; the model is in `lean/Verif/Model/*`.

General representation choices:

* `std::string` is `List Char` (`Str`).  Bytes are characters; locale is "C".
* `int`, `size_t` are `Int`/`Nat` unless the property is about a limit.  The
  parsers' `strtol` is modelled with its saturation/ERANGE outcome (64-bit long).
* `double` is not modelled as IEEE-754.  Geometry is done over a field (exact
  arithmetic); text formatting works on exact rationals and correctly rounded
  decimals.  This is recorded below for each property that depends on it.
* Pointers are entity identifiers (`Nat`); a heap maps identifiers to entities.
  Destroyed objects leave the heap, so a dangling pointer is an identifier that
  is mentioned but not in the heap.
* Undefined behaviour (null dereference, out-of-range `[]`, decrementing
  `begin()`, infinite recursion) and uncaught exceptions are distinct outcomes
  (`Res.ub`, `Res.exn`), never a default value.
* Log output (`std::cerr`) is not modelled.

## 2. Plan per property

| Id | Modelled | Proof |
|----|----------|-------|
| C01 | `FormatDEInt`, `DEItemToInt` | round trip by digit induction; refusal outside the range |
| C02 | `DEItemToInt` | iff with an independent column grammar |
| C03 | `ReadIGESRecord` | soundness iff; completeness for emitted lines |
| C04 | `AddPDItem`, `AddPDHStr` as emitter state machine | invariant over any list of emitter calls |
| C05 | emitter + `ParseInt`, `ParseHString` | round trip by induction over items |
| C06 | `GetHConst`, `ParseHString` | round trip for arbitrary content |
| C07 | all parsers | cursor monotonicity for every input |
| C08 | `AddSecItem`, `AddSecHStr` | invariant over calls |
| C09 | post-processing part of `FormatPDREal` | over all decimal texts an ostream can produce |
| C10 | decimal rounding over rationals | error bound; the `1e-8` cut-off is treated explicitly |
| C11 | `writeDE`, `readDE` | round trip over a DE record |
| C12 | status number arithmetic | round trip + decoding of every number |
| C13 | numbering in `Write`, lookup in `associate` | list induction |
| C14 | section counters, T record, `readTS` | round trip |
| C15 | `checkDate` | exact characterisation; two deviations proved as negations |
| C16 | first part of `readGlobals` | exact characterisation; deviation proved |
| C17 | `ConvertUnits`, `rescale` of each entity | field algebra |
| C18 | `ChangeModelScale` | field algebra; deviation proved |
| C19 | tail of `readGlobals` | deviation proved with witness |
| C20 | heap of entities, reference operations | invariant over histories |
| C21 | destructor and `unlink` | invariant over histories; deviating entities as negations |
| C22 | valid flag registry | invariant over histories |
| C23 | entity list of a model | invariant over histories |
| C24 | `Cull` | termination + characterisation |
| C25 | control flow of `Read` | case analysis over outcomes of the steps |
| C26 | control flow of `Write` with a file-system map | case analysis |
| C27 | `addReference`, `delReference` | list lemmas; UB outcome proved for the extras loop |
| C28 | DE part of `associate` | UB outcome proved |
| C29, C30 | per-entity `format`/`readPD` over tokens | round trips; deviations as negations |
| C31, C32 | boolean tree | stack semantics; deviation as negation |
| C33 | 126/128 | round trip, size invariant; deviations |
| C34 | 102 `AddSegment` | invariant over histories |
| C35 | 308 depth | recursion with fuel; 3-cycles as negation |
| C36 | transforms | ring algebra |
| C37 | 124 form check | negation |
| C38 | `getForm` | field algebra |
| C39 | 104 rescale | negation |
| C40 | 154 readPD | negation + partial |
| C41 | 504 vertex lists | invariant over histories |
| C42 | setters/getters | equations; deviations |
| C43 | comments, extra pointers | round trip / negation |
| C44 | header text | round trip / negation |
| C45 | unit names | table; deviation |
| C46 | name generators | negation + partial |
| C47 | globals | round trip per parameter / negation |
| C48, C49 | file paths | characterisation, exceptions as outcomes |
| C50 | wrapper state machine | invariant over interleavings |
| C51 | `PointMatches` | ordered-field algebra |
| C52 | `Export` | list invariant |
| C53 | normal computation in `mcad_helpers` | algebra over the reals |
| C54 | several models, parents, `AddEntity`, `DelEntity`, destruction of a model | invariant over histories |
| C55 | all of `Write` and `Read` as text | composition of the section and entity round trips |
| C56 | `associate` of every class, `Read` loop | induction over the records; exact pointers by a separate spec |
| C57 | the same, with the user lists | invariant over the linking steps |
| C58 | the same, undefined behaviour as an outcome | totality proof; negations with files |
| C59 | type checks of `associate` | induction over the records |
| C60 | all `associate` functions, `Read` | invariant (who may be a user, which slots hold what) kept by every step; composition with C55, C56, C57 |
| C61 | `MCAD_SEGMENT::SetParams`, `GetBoundingBox`, `GetMidpoint`, `GetLength`, `Reverse` over ℝ | independent point sets (lines by parameter, arcs by turning a direction), invariant over all histories, trigonometry |
| C62 | `checkCircles`, `calcCircleIntercepts` | the common points solved from the equations of the circles; triangle inequality for the flags |
| C63 | `checkLines` | linear system; counterexamples |
| C64 | `checkArcLine`, `checkArcs` | roots of the quadratic are exactly the common points of circle and line; range tests on angles; counterexamples |
| C65 | `Split` and its three helpers | parts of an arc as intervals of angles, of a line as intervals of parameters |
| C66 | `readPD` of entities 154, 164, 408 with optional parameters | records given by their fields; field by field |
| C67 | `MCAD_OUTLINE::AddSegment`, `IsContiguous`, `adjustBoundingBox` | histories as an inductive relation, state invariant; area as a line integral (Green) |
| C68 | `MCAD_OUTLINE::IsInside` | even-odd rule as the parity of the number of points to the left; a closed chain meets a horizontal line in an even number of points; for polygons corners at the height of the point by a half-open count and the parity of the changes round the chain |
| C69 | `GetVerticalSurface`, `GetSegmentWall`, `IGES_GEOM_CYLINDER`, `IGES_GEOM_WALL` | meaning of entities 100, 110, 120, 128, 144 from the standard; point sets compared by distance; normals from derivatives |
| C70 | `GetTrimmedPlane`, `GetCurves`, `GetCurveOnPlane` | curves that turn about a centre piece by piece; the affine map from the parameter plane to the face; split cases of both functions |
| C71 | IDF `GetOutline`, `IDF_OUTLINE::push`, `IsCCW` | chain invariant of the assembling loop with a permutation of the segments; for polygons, termination only when all are used |
| C72 | IDF arcs: constructor, `CalcCenterAndRadius`, `GetMinX`, `SwapEnds` | half-angle formulas; cosine on half turns; error of the truncated angle |
| C73 | IDF `FetchIDFLine`, `GetIDFString`, `CompareToken`, stream reading of numbers | a relation between a text and its words, shown to be the graph of the function; value of a decimal numeral |
| C74 | IDF `readNote`, `writeNote`, the notes section | printed numbers are read as their rounded value; induction over the notes |
| C75 | IDF `IDF_DRILL_DATA` constructor, `read`, `write`, the holes section | as C74, with the keywords; induction over the holes |
| C76 | IDF `readPlaceData`, `writePlaceData`, `readBrdPlacement`, `WritePlaceData` | a component is written as a block of records; induction over blocks and components with the map of components as state |
| C77 | IDF `checkOwnership`, `checkComponentOwnership`, setters, `AddComponent`, `DelComponent`, `DelBoardDrill`, `BOARD_OUTLINE` setters and `DelOutline` | state machine of objects, map of names and holes; invariants over all histories; counterexample histories |
| C78 | IDF `readOutlines`, `writeOutline`, `writeOutlines`, `BOARD_OUTLINE::readData`, `writeData` | records of a loop read one by one, induction over points and outlines; invariant of the reading loop over all texts; direction of polygons by the shoelace sum |
| C79 | IDF `readData`, `writeData` of `OTHER_OUTLINE`, `VIA_KO_OUTLINE`, `ROUTE_OUTLINE`, `ROUTE_KO_OUTLINE`, `PLACE_OUTLINE`, `PLACE_KO_OUTLINE`, `GROUP_OUTLINE` | round trip from the records of C78; refusals from the words of the second record; accepted texts by cases and the invariant of C78 |
| C80 | IDF `readBrdHeader`, `readBrdSection`, `readBoardFile`, `writeBoardFile`, `WriteFile`, `AddDrill` | each section read back by its own theorem (C74–C79), glued by one step lemma per section; needs-outline and reading-adds by invariants over the loop of sections |
| C81 | IDF `IDF3_COMP_OUTLINE`, `readLibFile`, `writeLibFile`, `ReadFile`, `WriteFile` | round trip part by part with one step lemma per part; the board with C80; reading by an invariant over the loop of sections, whose number of rounds is shown to make no difference (sections_fuel) |
| C82 | `opOutline( MCAD_SEGMENT* )`, `SubOutline`, `AddOutline` of `MCAD_OUTLINE` | the list of segments as a ring; splitting and erasing keep a ring, by induction over the list; the order of the two points from the side on which the inside is; counterexample computed with exact angles |
| C83 | as C82 | how often a closed curve of lines and arcs goes round a point, as the signed number of crossings with the ray to the left; it does not change along a path that does not meet the curve; two parts of the border on the two sides of the circle; the number for the new border from that of the old one |
| C84 | the other opOutline of mcad_outline.cpp, with its iterators as positions | the two borders are split at the common points into two parts each; a part that does not meet the other border lies on one side of it, by connectedness and C83's counting; the counts of the parts give the counts of the new border |
| C85 | the two functions AddCutout of mcad_outline.cpp, the lists of cutouts and holes | C84 and C83 for the step that takes the cutout, and an induction along the list of cutouts for the steps that pass it on |
| C86 | rotateY, rotateZ, calcTransform and MakeComponents of idf2igs.cpp, on the result of the reader of placement sections of C76 | complex multiplication as specification of turning; an invariant of storing a record: the set of the places of outlines grows by the place of the record |
| C87 | convertOln of idf2igs.cpp on the models of the IDF reader (C78), of the IDF segments (C72) and of MCAD_SEGMENT and MCAD_OUTLINE (C61, C67) | uniqueness of the centre and of the angle of an arc; an invariant of the reader that an outline comes back to its start only at its end |
| C88 | convertDrills, mergeDrills, bundleDrills and MakeBoard up to line 344 of idf2igs.cpp, on the models of AddOutline, SubOutline and AddCutout | invariants of the erasing loops: permutation of the list, connection of the bundle by crossings, no crossing between a bundle and what is left; regions by induction over the circles with the theorems of C83 |
| C89 | buildComponent, the end of MakeBoard, MakeOtherOutlines and the list functions of dll_iges_geom_pcb.cpp, on the models of GetVerticalSurface, GetTrimmedPlane and convertOln | the theorems about walls and faces (C69, C70) applied to the segments of a converted outline, for which the conditions of these theorems are proved, also after the outline was turned round; the box of the face has a size because no segment is a point |
| C90 | constructors, destructor and SetOutline of the outline records, Add/DeleteOutlineData, destruction of components, incrementRef and decrementRef, the guard of writeData | induction over the history with a relation between the count of a part and its users: "at most" for all histories, "equal" for those without the two faulty calls; for safety, the lists of the components are disjoint and hold records that exist |
| C91 | Clear, NewAPIEntity, NewIGESEntity, AddEntity, DelEntity, UnlinkEntity of the handle; NewEntity, DelEntity, Attach, Detach, construction and destruction of the wrappers | invariant over all careful programs (every listed entity exists, none is listed twice), a second invariant for all programs (wrappers refer to entities that were made), and general counterexamples for the three faulty calls |
| C92 | setters and getters of the global data of the handle, SetUnitsFlag, ConvertUnits, ChangeModelScale, then writeGlobals and readGlobals | one lemma per attribute says what a call sets; induction gives "last accepted value"; for the file an invariant of the global data (legal to write) along the program, then C47 for models without a date |
| C93 | Export with both conversions, the line weights and the name | both conversions are one scaling by the quotient of the real lengths of the coordinate unit (C17, C18, composition of two scalings); the loop over the weights by induction; C52 for lists and links |
| C94 | IDF `Clear`, `ReadFile` with the board it leaves | two boards that differ in the outline of the board only are read into side by side (a simulation over lines and sections); sequences of calls by induction |
| C95 | IDF `GetComponentOutline` from a file, `MatchCompOutline` | case analysis against a separate definition of equal corners; memory of file names as an invariant over sequences of calls; round trip with the lemma of C81; the two versions side by side |
| C96 | IDF `AddSlot`, the KiCad form of the arc constructor, `push`, `IsCCW` | coordinates along and across the slot; the border against the distance from its axis; error of the cut angle from C72; area of the seven-cornered polygon that the code adds up |
| C97 | entity 126 `GetStartPoint`, `GetEndPoint`, `hasUniquePlane`, `GetNormal`, `IsClosed`, `IsRational` | Cox-de Boor recursion as specification; support, sign and sum of the B-spline functions by induction on the degree; drift of the normal along the polygon by induction |
| C98 | entities 100, 102, 104, 110, 126: `GetStartPoint`, `GetEndPoint`, `GetNSegments`, `IsClosed` | case distinction; `PointMatches` against the square of the distance, which rigid transforms keep |
| C99 | `GetDEList`, `GetPTIList`, `GetComments`, `GetHeaders`, `GetEdges`, `GetBounds` with the calls that change their lists; `GetIntersections` and `Split` of segment handles | invariant over histories: the copy is empty, longer than the list, or right |
| C100 | `SetSide`, `SetLayers`, `SetMaxHeight`, `SetThickness`, `SetOutlineIdentifier`, `SetGroupName`, `SetOwner`, `Clear` of the section classes; `GetUID`; `SetUserScale`, `SetUserPrecision`, `Set…Version` | case distinction on the kind and the call, invariants over histories, C79 for the file |
| C101 | the getters and setters of values in `DLL_IGES_ENTITY_…`, one indexed type of calls for all classes | one call changes exactly what it gives (case distinction), then induction on the history |
| C102 | `Own`: live objects, lists of outlines, handles; `freeAll` deletes what an outline owns; the answer of a geometric operation is an argument | invariant over histories: every object has one holder and can be reached from a handle; deletion with a list of work |
| C103 | `IGES_ENTITY_508::AddEdge`, `addEdge`, `addPCurve` on the heap of C20; `unlink` and `delEdge` as a loop over a vector with a reverse iterator | induction over the curves with the heap described as "told these users"; induction over the position of the iterator |
| C104 | `SetLabel`, `GetLabel` of the handle and of the entity; `initColors`, `GetComponentColor` and the places where the converter uses them | lists and arithmetic modulo eight; C11 for the file |
| C105 | `main`, `merge`, `parseLine`, `parseFile`, `parsePos`, `parseOrient`, `parseUnit`, `TPARAMS::GetTransform` of the merge program | induction over the lines; Rodrigues formula from the quaternion; C86 for the placing |
| C106 | `format`, `readPD`, `associate`, `rescale`, `isOrphaned` and the destructor of entity 108 | the general cycle of C29 for the bounded case; counting delimiters written and read for the failure |
| C107 | `main` of the converter and `IDF3_BOARD::ReadFile`, with the outcome of each step a parameter | the parts of a path (C48), then the cases of a run |

## 3. What is modelled, file by file

"Text" means the model works on the characters of the file, not on an abstract
syntax.

| Source file | Modelled | Left out |
|---|---|---|
| `iges/iges_io.cpp` | all formatters and parsers (text) | the logarithm used for the digit estimate: any estimate that a rounded logarithm can give (`EstOk`) |
| `iges/iges.cpp` | `Read`, `Write`, the five sections, `Cull`, `Export` (entity part), `Clear`, `AddEntity`, `DelEntity`, `UnlinkEntity`, `ConvertUnits`, `ChangeModelScale`, `SetUserName` and the other setters of the globals, name generators, `AddToHeader`, `GetHeaders`; `Export` with line weights and units (C93) | iostream failures other than "cannot be opened"; `Compact` of the model (it only forwards) |
| `iges/mcad_utils.cpp` | the path class | what the file system answers for symbolic links |
| `entities/iges_entity.cpp` | `readDE`, `writeDE`, `readExtraParams`, `associate`, reference lists, setters and getters, validity flags, destructor | log output |
| `entities/entity*.cpp` | parameter data (`format`, `readPD`), `associate`, `unlink`, destructor, reference setters, `rescale`, for 100, 102, 104, 108 (parameters, scaling and curve only; its creation is never reached by `NewEntity`), 110, 120, 122, 124, 126, 128, 142, 144, 154, 164, 180, 186, 308, 314, 406, 408, 502, 504, 508, 510, 514 and the placeholder | `Interpolate` of curves and the SISL objects of entities 126 and 128 (`USE_SISL`); evaluation of NURBS other than at the ends (C97) |
| `geom/mcad_elements.cpp`, `geom/mcad_helpers.cpp` | points, matrices, transforms, normals, `PointMatches` | the SISL calls |
| `geom/mcad_segment.cpp`, `geom/mcad_outline.cpp`, `geom/geom_*.cpp` | validity flags, construction, boxes, intersections, splitting, outlines, region operations, cutouts, walls and faces (C61 to C70, C82 to C85) | printing; generation of NURBS surfaces through the SISL library, which is not part of the repository |
| `dllapi/*` | handle life cycle of the wrappers; the model and its global data through the handle (C91, C92); the members query, common points and split segments (C99); values of entities (C101); ownership of segments and outlines (C102) | bodies that test the handle and forward the call |
| `idf/*` | segments, outlines, ownership, reading and writing of boards and libraries, boards used again (C71 to C81, C90, C94 to C96); the converter's placement, outlines, holes and bodies (C86 to C89) | the command line, colours and `main` of the converter |

## 4. Parameters and assumptions of the model

These appear as explicit hypotheses of theorems, never as axioms.

* `EstOk est` (Lemmas/Reader): the digit estimate of the real formatter is one of
  the two values the rounded logarithm can give (`DigitEstimate`).
* `DoubleConv num` (Lemmas/Reader): `strtod` converts decimals that are not out of
  range with a relative error of at most 2^-53.
* `SqrtOk sqrt` (Lemmas/EntityBody): the square root is correct to 1e-15.
* `SysOk S` (Props/FileBody): the three above, and the text 100 is read as 100.
* `Geo` (Model/Assoc): "is this curve closed", "where does this curve start and
  end": arbitrary functions, the theorems hold for all of them.
* `assoc` in C55: the linking step, an arbitrary function there; C56 to C59 treat
  the real one.
* `Careful`, `Legal`, `Keeps` and the like are conditions on the calls a program
  makes.  Each excludes only calls for which a counterexample theorem is proved or
  which break the documented rules of the API (using a destroyed object).
* A new entity may get the address of a destroyed one (`new` chooses any free
  identifier), since that is what a C++ allocator does.

## 5. Deviations found

Each is proved as a theorem about the model, with a concrete witness; the name is
in `MANIFEST.json` under the property.

* Directory: level pointers are written and refused; any form of 124 accepted.
* Parameter data: strings do not check the sequence number limit; a declared
  string length that overflows moves the cursor back; comments make a file
  unreadable; values below 1e-8 become zero.
* Globals: line width lost; resolution below 1e-8 becomes zero and unreadable;
  seconds, blanks and signs in dates unchecked, month 13 reads outside a table;
  comma plus custom record delimiter refused; unit name query off by one; a start
  line of exactly 72 columns is dropped; scale not normalised without parameter 26.
* Rescaling: conics, lines on parameter planes, curves shared by two users,
  unsupported entities; resolution after a second change of scale.
* Reference lists: removing an absent user with optional pointers is undefined or
  removes another; boolean trees, `DelPTI`, `DelDE`, properties of matrices and
  placeholders, faces leave stale registrations or dangling pointers; self
  references accepted by three calls and by files.
* Boolean trees: never readable after writing; operators without operands accepted.
* Entities that never or not always round trip: loops, solids with voids, trimmed
  surfaces without boundary, some arcs, NURBS with tiny weights.
* NURBS: a refused call leaves inconsistent sizes; the data getter is undefined.
* Composite curves: any gap accepted.  Subfigures: circles make the depth endless.
* Cylinder: a small radius overwrites the height.
* Setters: several report success without effect; views cannot be set.
* Files: a write-only file is overwritten; a path without a dot or an attribute too
  wide is noticed after truncation; a failed read while linking keeps entities.
* Ownership: `AddEntity` and setters leave the entity in its old model.
* Linking: a directory pointer to the entity itself is undefined; vertex pointers
  are cast without a check; a part listed twice leaves a dangling pointer; any
  solid read from a file is destroyed in an undefined way, because the destructor
  of a loop asks its children to drop the loop instead of deregistering itself.
* Wrappers: one guard lets stale handles through, the next refuses all valid ones.

## 6. Geometry and IDF parts added later

* Planar segments (geom/mcad_segment.cpp, C61 to C65).  Coordinates, angles and
  radii are exact real numbers: rounding is not modelled, the tolerances of the
  code are.  `atan2` is Mathlib's `Complex.arg`, `sqrt`, `sin`, `cos` are the real
  functions.  Not modelled: error messages and stream output, the copy
  constructor (a value copy), and behaviour on NaN.
  What fails: a line that is vertical up to 1e-8 gets an inverted box; a line
  inside another one on the same straight line is missed; `checkArcLine` compares
  with the ends of `*this` even if that is the line; `checkArcs` compares the
  direction of a point from one centre with the angles of the arc about the other;
  splitting an arc left by an earlier split of a clockwise arc accepts points
  outside of it.
* Outlines (geom/mcad_outline.cpp, C67).  A segment is a value; the same
  segment object given twice, error messages and validity flags are not modelled.
  What fails: the sense of an outline with arcs is taken from the polygon over the
  ends and midpoints, so an arch drawn counterclockwise ends up clockwise.
* Inside (C68).  `GetBoundingBox` on a segment without type leaves its arguments
  alone (`boxOr`).  What fails: a point on the bottom side of a square is reported
  outside although the header promises "on or inside"; a ray that touches the top
  of a circle counts one crossing, so a point beside the circle is reported inside.

* Walls (geom/geom_cylinder.cpp, geom/geom_wall.cpp, geom/iges_geom_pcb.cpp, C69).
  Creating entities succeeds; SISL's four functions do what their manual says; of
  the entities only the geometry is kept.  What fails: curved walls need a height
  of 0.001 and straight ones 1e-6; swapping the heights turns straight walls round
  and leaves curved ones.
* Faces (geom/iges_geom_pcb.cpp, C70).  Entities left behind by a failed call are
  not modelled.  What fails: `getCurveArc` does not normalise the angles of a
  counterclockwise arc, so the piece of a split clockwise arc that is turned round
  becomes three arcs round the whole circle; `copArc` does normalise them.
* IDF outlines (idf/idf_common.cpp, C71, C72).  `std::list` and iterators are lists
  with a hole.  What fails: a straight line with no neighbour is dropped from the list
  and an empty outline returned although walking it the other way would find one;
  calling `GetOutline` with an empty list dereferences `end()`.
* IDF texts (idf/idf_helpers.cpp, idf/idf_common.cpp, C73 - C75).  A file is a list of
  lines; stream positions, tellg and seekg are not modelled.  Numbers are rationals: a
  number is written with `std::fixed` and a precision, rounded to nearest even, and read
  exactly; scaling between units is exact.  Exceptions are one outcome `error`.  What
  fails: `5" pad` as the text of a note loses everything after the quote mark, a line
  end in it makes the board unreadable, a component called "Board" loses its holes to the board,
  a hole of 0.01 thou is read but cannot be read again after writing.
* Units of version 2 (C75_words, C76_tnm_not_converted): `readPlaceData` converts thousandths of an inch but not tens of
  nanometres (idf_parser.cpp:635-640), while outlines and holes of the same file are converted; the parts of such a board
  are placed a hundred thousand times too far out.
* Placement (idf/idf_parser.cpp, C76).  The map of components is a list sorted by name; a library
  outline is its two names and its unique name.  Not modelled: creating default outlines for unknown names
  beyond the error when substitutes are switched off.  What fails: on the bottom side offsets
  in x and angles change their sign with every save, names with white space are cut,
  a component called "Board" makes the file unreadable.
* Ownership (idf/idf_parser.cpp, idf/idf_outlines.cpp, C77).  Component objects are numbered and stay dead after `delete`;
  a call with a dangling pointer is undefined (`none`).  Outlines of the board are numbers.  What fails:
  `DelComponent` looks up the name of the component it is given and deletes what it finds, so a namesake deletes a
  component of the other system; a component added under two names leaves a dangling pointer.
* Outlines in files (idf/idf_outlines.cpp, C78).  An outline is its segments with rational ends and angles; the test of the
  direction is `IsCCW` of Model/IdfSeg.lean over the reals, and the reader and writer take it as an argument.  Comments
  of the section are left out.  What fails: a thickness that is printed as zero comes back as 1.6 mm;
  comment lines between points are read as points; an index such as 0.5 leaves its fraction in the stream, where it is put in
  front of the next number; an outline that touches its first point on the way is written but refused when read.
  The meaning of the records, word by word and in both versions, is in Spec/IdfOutlineWords.lean (C78_words, C78_section).
  The same for the other sections is in Spec/IdfSectionWords.lean (C79_words), for notes in Spec/IdfNoteWords.lean (C74_words), for holes in Spec/IdfHoleSection.lean (C75_section).
  The least diameter of a hole is a hundred times smaller in thousandths of an inch than in millimetres (C75_least_differs).
* The other outline sections (idf/idf_outlines.cpp, C79).  The seven classes are one structure with a kind.  What fails: the writer
  puts no line end after the side of an other outline, so the section is refused when read; the test for a missing height
  is attached to keepouts, where a height is required, instead of placement outlines, so that both are unreadable without one.
* Board files as a whole (idf/idf_parser.cpp, C80).  The file is its list of lines; the library is the map of its outlines' names.  The position in the
  line, which `readBrdSection` does not reset from line to line, is kept in the model: an unknown word makes it skip what follows.
  The date is a parameter.  Panels (`.PANEL_OUTLINE`) are refused, as in the code.
* Library files (idf/idf_outlines.cpp `IDF3_COMP_OUTLINE`, idf/idf_parser.cpp `readLib…`, `writeLibFile`, `ReadFile`, `WriteFile`, C81).  The library is a map
  from unique names to parts.  A part carries the number of components that refer to it; as `ReadFile` builds components, the count goes up once per
  reference, and `writeLibFile` writes the parts whose count is not zero.  Components made through the 6-argument constructor of `IDF3_COMP_OUTLINE_DATA`
  (idf_parser.cpp:138-150) do not raise the count although its destructor lowers it; that constructor is not modelled.  The outline that stands in for a
  missing part (`CreateDefaultOutline`) appears as a name only.
* Cutting circles (geom/mcad_outline.cpp `opOutline( MCAD_SEGMENT* )`, C82).  Iterators are positions.  The loops over the segments are recursive functions;
  the erasing loop, which goes round the list, is `eraseTo`.  Segments that an operation has shortened before it fails stay shortened, as in the code.
* Regions (C83).  `rounds` of Spec/Turns counts the crossings of the segments with the ray to the left of a point, with their direction; `Inside` is the
  even-odd rule, extended to points at the height of corners by the points near to them.  No facts about plane curves are taken from outside: that the number
  of crossings is locally constant is proved for lines and arcs in Lemmas/Turns.
  Outlines that are one circle are treated as two halves of the circle (Lemmas/RegionCircle).  What fails: a circle of radius 13/24 about (17/24, 1/2) overlaps a circle of
  radius 1 about (1/2, 0), but they are not joined, and no error is reported (`C83_not_joined`).
* Two outlines (C84).  Only the two-point case is modelled in full, as in the code; every other number of common points is an error there.  The argument is a
  different object from the outline; an outline that is merged with itself is not modelled.  An endless search for the segment at which to go on is the outcome
  `hangs`, a step before the start of an empty list is `undefined`.
* Cutouts (C85).  The board is its outline with the list of cutouts and the list of holes.  An outline that has been taken over is a value in the list; ownership and
  the cutouts of a cutout, which the code does not look at, are left out.
* Placement of parts in the converter (C86).  The IGES entities made for a part are represented by the name of the part; the instance (entity 408) and its
  transform (entity 124) are modelled by what they hold.  Sine and cosine are the real functions, positions read from the file are exact.
* Drilled holes in the converter (C88).  Outlines and segments are values; a deletion is modelled where it leaves a pointer that is used afterwards (a failed
  `bundleDrills`).  The conditions of the region theorems refer to the outlines on the way, which are computed by the modelled `opOutline`.
* Outlines in the converter (C87).  An arc whose angle is exactly 0.01 or -0.01 degrees leaves the centre and the radius of the IDF segment unset
  (idf_common.cpp:1052-1098); the converter then reads them.  This case is excluded by `Item.Valid`.
* Bodies in the converter (C89).  The surfaces of a body are the values that the entities 144 hold; subfigures, names and colours are left out.  An entry of the
  caller's array that was never written is `none`.
* Users of a part (C90).  Parts, records and components are numbers; a part is never destroyed in this model (only Clear of the whole board does it).  Offsets, names
  and geometry are left out.
* Model behind the handle (C91).  An entity is a number and a type, a deleted one stays a number that is not to be used.  The references between entities and
  their files are left out (C01 to C22 have them); an entity that the model lists and that is deleted otherwise than by the model is what matters here.
* Global data through the handle (C92).  `char const*` arguments are texts, of which the part up to a zero character is used, or a null pointer; NaN and infinite
  numbers are left out.
* Export with sizes (C93).  The lists and links are those of C52; scaling those of C17 and C18.  Date and time are a given text.
* Boards used again (idf/idf_parser.cpp `Clear`, C94).  What the outline of the board holds when an exception is thrown is a free parameter of `ReadFile`.
* Outlines in files of their own (idf/idf_parser.cpp `GetComponentOutline`, C95).  The contents of a file are given anew at each call.  The list `uidLibList` is never filled in
  the code, so the loop over it is left out.
* Slots (idf/idf_parser.cpp `AddSlot`, C96), over the real numbers as all of Model/IdfSeg.lean.
* Ends and planes of NURBS curves (entities/entity126.cpp 771-952 and 1117-1189, C97), without SISL; the square root is any function good to nine digits.
* Ends of curves (entities 100, 102, 104, 110, 126, C98): the transform of a curve is the matrix `GetTransformMatrix` gives for it (C36).
* Lists handed out (entities 144, 308, 504, 510, comments, header lines, C99): pointers to texts are addresses, live while the text is in its list; the array itself (which a later query may move) is taken at the time of the query.
* Setters (idf/idf_outlines.cpp, idf/idf_parser.cpp, C100): the seven section classes are the one structure of C79; a call that a class does not have is refused. `DelOutline`, which does not ask for the owner (C77), and comments are left out.
* Values through handles (dllapi/dll_entity*.cpp, C101): a handle is the entity or invalid; overloads that only differ in how a point is passed are one call; a name has no NUL character; of entities 142, 308 and 124 only the members concerned are kept; numbers are exact.
* Ownership (dllapi/dll_mcad_*.cpp, geom/mcad_outline.cpp, C102): objects are numbers; the geometry is left out and its answer given (refused, kept, worked in with the resulting segments); the destructor deletes the outline before its lists, which makes no difference afterwards; messages and bounding boxes are left out.
* Edges of a loop (entities/entity508.cpp, C103): `AddEdge` is composed of the functions that linking after a read uses (C56). `delEdge` is modelled with the vector, the freed entries and the position of the iterator; C103_delete_used shows that the case that `Graph.unlink` takes as undefined (an edge in use) is. After a refused edge the table may name a list that no edge uses; its deletion is defined in the code (C103_delete_unused) and taken as undefined in the heap model of C20 and C58. A loop has no other calls that set pointers; shells (514) and solids (186) have none.
* Labels and colours (dllapi/dll_iges_entity.cpp, idf/idf2igs.cpp, C104): the bodies are a list in the order in which they are made; percentages are exact numbers.
* The merge program (tests/test_merge.cpp, C105): the keywords, file names and units are read from the text; the numbers of a line are a parameter of the program and are read with the models of `ParseReal` and `ParseInt` (Model/MergeLine.lean); an exported subfigure is represented by the name of its file.
* Planes (entity 108, C106): the class is used by a program that makes planes itself, since `NewEntity` does not make them. Findings: the last parameter is closed by the parameter delimiter, so the record of a plane without optional pointers is never ended and its last line is not written; `FormatDEInt` writes the missing curve without a delimiter; `rescale` does nothing although `D`, the symbol position and its size are lengths; the constructor sets neither `PTR` nor `Size`; `associate` passes over the pointer 1; `isOrphaned` tests `NULL != PTR` where `NULL == PTR` is meant. `GetClosedCurve` and `SetClosedCurve` are declared and not defined.
* The converter's run (C107): `main` ignores the results of `MakeBoard`, `MakeComponents`, `MakeOtherOutlines` and `Write` and returns 0, so that a script cannot tell a failed conversion. `ReadFile` says that it checks the extension and replaces it instead: `BOARD.EMN` makes it read `BOARD.emn`.

## 7. Trusted base

* Lean's kernel, and for each theorem at most the axioms `propext`,
  `Classical.choice`, `Quot.sound`.  No axiom is added, there is no `sorry`, and
  neither `native_decide` nor `bv_decide` is used.  Concrete witnesses are checked
  by `decide`, `decide +kernel` or `rfl`, that is, by the kernel.
* The fidelity of the hand-written model to the C++ source (cited line by line).
* Exact arithmetic in place of IEEE doubles: everywhere in geometry and scaling.
  In text formatting the double is an exact rational and printing is the correctly
  rounded decimal, as `ostream` does; reading is `DoubleConv`.
* The Lean project has `autoImplicit` on; the sources were also compiled with it
  off to exclude misspelt names in statements (see `tools/`).
