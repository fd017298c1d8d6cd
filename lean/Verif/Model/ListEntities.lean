import Verif.Model.Entities
/-
`format` and `readPD` of the entity types that hold lists of pointers to other entities.  A pointer
is given by the DE sequence number of its target; 0 stands for NULL where NULL is allowed.
-/
namespace Iges

/-- One integer per emitter call; the last one is closed by `last`. -/
def intGroups (pd last : Char) : List Int → List (List (Item × Char))
  | [] => []
  | [n] => [[(.int n, last)]]
  | n :: m :: ns => [(.int n, pd)] :: intGroups pd last (m :: ns)

/-- A flag as it is written, `if( flag ) ostr << "1"; else ostr << "0";`. -/
def flagInt (b : Bool) : Int := if b then 1 else 0

/-- An integer parameter that must satisfy `p`. -/
def Src.intIf (s : Src) (p : Int → Prop) [DecidablePred p] (c : Cur) : Rd (Int × Cur) := do
  let (n, c) ← s.int c
  Rd.need (p n)
  pure (n, c)

/-- The flags of entities 508, 510, 514 and 186: 0 or 1. -/
def Src.flag (s : Src) (c : Cur) : Rd (Bool × Cur) := do
  let (n, c) ← s.int c
  Rd.need (¬ (n < 0 ∨ n > 1))
  pure (decide (n = 1), c)

/-- A pointer test of entities 186, 510 and 514, which do not look at the parity. -/
def inDE (n : Int) : Prop := ¬ (n < 1 ∨ n > 9999997)

instance : DecidablePred inDE := fun n => by unfold inDE; infer_instance

/-! ### Entity 102: composite curve -/

/-- `IGES_ENTITY_102::format`, entity102.cpp:304-387.  Without curves and optional pointers the
started line `102,0;` is never passed to an emitter, so nothing is written. -/
def compositeFormat (E : PdEnv) (de : Int) (curves : List Int) (xs : List ExtraRef) (cs : List Str) (index : Int) :
    Rd (Str × Int) :=
  formatPD E de [102, curves.length] (intGroups E.pd (E.last xs) curves) xs cs 9999999 index

/-- The parameters of `IGES_ENTITY_102::readPD`, entity102.cpp:538-574. -/
def compositeReadParams (s : Src) (c : Cur) : Rd (List Int × Cur) := do
  let (n, c) ← s.int c
  Rd.need (¬ n < 1)
  readN (s.intIf goodDE) n.toNat c

/-- `IGES_ENTITY_102::readPD`, entity102.cpp:503-592, for an entity without curves. -/
def compositeReadPD (E : PdEnv) (de pdata count : Int) (ls : List Str) : Rd (List Int × List Int × List Str) :=
  readPDWith E 102 de pdata count ls compositeReadParams

/-! ### Entity 142: curve on a parametric surface -/

/-- Data of entity 142, entity142.h. -/
structure SurfCurve where
  CRTN : Int
  SPTR : Int
  BPTR : Int
  CPTR : Int
  PREF : Int
  deriving DecidableEq

/-- The preference after the corrections of `format`, entity142.cpp:205-223, and of `readPD`,
485-497. -/
def SurfCurve.pref (k : SurfCurve) : Int :=
  let p := if k.BPTR = 0 then 2 else k.PREF
  if k.CPTR = 0 then 1 else p

/-- `IGES_ENTITY_142::format`, entity142.cpp:183-287. -/
def SurfCurve.format (E : PdEnv) (de : Int) (k : SurfCurve) (xs : List ExtraRef) (cs : List Str) (index : Int) :
    Rd (Str × Int) :=
  if index < 1 ∨ index > 9999999 then .fail                           -- 187-191
  else if k.SPTR = 0 then .fail                                       -- 193-197
  else if k.BPTR = 0 ∧ k.CPTR = 0 then .fail                          -- 199-203
  else if k.CRTN < 0 ∨ k.CRTN > 3 then .fail                          -- 225-229
  else if k.pref < 0 ∨ k.pref > 3 then .fail                          -- 231-235
  else formatPD E de [142, k.CRTN, k.SPTR, k.BPTR, k.CPTR] [[(.int k.pref, E.last xs)]] xs cs 9999999 index

/-- The parameters of `IGES_ENTITY_142::readPD`, entity142.cpp:407-497. -/
def SurfCurve.readParams (s : Src) (c : Cur) : Rd (SurfCurve × Cur) := do
  let (CRTN, c) ← s.int c
  Rd.need (¬ (CRTN < 0 ∨ CRTN > 3))
  let (SPTR, c) ← s.int c
  Rd.need (¬ (SPTR < 0 ∨ SPTR % 2 = 0 ∨ SPTR > 9999997))
  let (BPTR, c) ← s.int c
  Rd.need (¬ (BPTR < 0 ∨ (BPTR ≠ 0 ∧ BPTR % 2 = 0) ∨ BPTR > 9999997))
  let (CPTR, c) ← s.int c
  Rd.need (¬ (CPTR < 0 ∨ (CPTR ≠ 0 ∧ CPTR % 2 = 0) ∨ CPTR > 9999997))
  let (PREF, c) ← s.int c
  Rd.need (¬ (PREF < 0 ∨ PREF > 3))
  Rd.need (¬ (BPTR = 0 ∧ CPTR = 0))
  let k : SurfCurve := ⟨CRTN, SPTR, BPTR, CPTR, PREF⟩
  pure ({ k with PREF := k.pref }, c)

/-- `IGES_ENTITY_142::readPD`, entity142.cpp:381-515. -/
def SurfCurve.readPD (E : PdEnv) (de pdata count : Int) (ls : List Str) : Rd (SurfCurve × List Int × List Str) :=
  readPDWith E 142 de pdata count ls SurfCurve.readParams

/-! ### Entity 144: trimmed surface -/

/-- Data of entity 144, entity144.h. -/
structure Trimmed where
  PTS : Int
  N1 : Int
  PTO : Int
  PTI : List Int
  deriving DecidableEq

/-- `IGES_ENTITY_144::format`, entity144.cpp:285-386. -/
def Trimmed.format (E : PdEnv) (de : Int) (k : Trimmed) (xs : List ExtraRef) (cs : List Str) (index : Int) :
    Rd (Str × Int) :=
  if index < 1 ∨ index > 9999999 then .fail                           -- 289-293
  else if k.PTS = 0 then .fail                                        -- 295-299
  else if k.N1 < 0 ∨ k.N1 > 1 then .fail                              -- 301-305
  else formatPD E de [144, k.PTS, k.N1, k.PTI.length] (intGroups E.pd (E.last xs) (k.PTO :: k.PTI)) xs cs 9999999 index

/-- A pointer test of entities 144 and 308. -/
def oddDE (n : Int) : Prop := ¬ (n < 0 ∨ n % 2 = 0 ∨ n > 9999997)

instance : DecidablePred oddDE := fun n => by unfold oddDE; infer_instance

/-- The parameters of `IGES_ENTITY_144::readPD`, entity144.cpp:535-611. -/
def Trimmed.readParams (s : Src) (c : Cur) : Rd (Trimmed × Cur) := do
  let (PTS, c) ← s.intIf oddDE c
  let (N1, c) ← s.int c
  Rd.need (¬ (N1 < 0 ∨ N1 > 1))
  let (N2, c) ← s.int c
  Rd.need (¬ N2 < 0)
  let (PTO, c) ← s.intIf oddDE c
  let (PTI, c) ← readN (s.intIf oddDE) N2.toNat c
  pure (⟨PTS, N1, PTO, PTI⟩, c)

/-- `IGES_ENTITY_144::readPD`, entity144.cpp:509-629, for an entity without cutouts. -/
def Trimmed.readPD (E : PdEnv) (de pdata count : Int) (ls : List Str) : Rd (Trimmed × List Int × List Str) :=
  readPDWith E 144 de pdata count ls Trimmed.readParams

/-! ### Entity 180: boolean tree -/

/-- A node of entity 180, entity180.h: an operation code or a pointer to an operand. -/
inductive BNode where
  | op (val : Int)
  | arg (de : Int)
  deriving DecidableEq

/-- The integer written for a node, entity180.cpp:234-249. -/
def BNode.code : BNode → Int
  | .op v => v
  | .arg d => -d

def BNode.isOp : BNode → Bool
  | .op _ => true
  | .arg _ => false

/-- The test `(nArg - 1) != nOp`, entity180.cpp:263 and 478. -/
def balanced (ns : List BNode) : Prop := ((ns.countP fun n => !n.isOp : Nat) : Int) - 1 = (ns.countP (·.isOp) : Nat)

instance (ns : List BNode) : Decidable (balanced ns) := by unfold balanced; infer_instance

/-- `IGES_ENTITY_180::format`, entity180.cpp:188-287.  The balance is tested after the nodes have been
put out; a failed `format` leaves no result. -/
def treeFormat (E : PdEnv) (de : Int) (ns : List BNode) (xs : List ExtraRef) (cs : List Str) (index : Int) :
    Rd (Str × Int) :=
  if index < 1 ∨ index > 9999999 then .fail                           -- 192-196
  else if ns.length < 3 then .fail                                    -- 201-205
  else if ¬ balanced ns then .fail                                    -- 263-267
  else formatPD E de [180, ns.length] (intGroups E.pd (E.last xs) (ns.map BNode.code)) xs cs 9999999 index

/-- The test on a value read, entity180.cpp:447-448. -/
def goodCode (n : Int) : Prop := ¬ (n = 0 ∨ n > 3 ∨ n < -9999997 ∨ (n < 0 ∧ n % 2 ≠ 0))

instance : DecidablePred goodCode := fun n => by unfold goodCode; infer_instance

/-- The parameters of `IGES_ENTITY_180::readPD`, entity180.cpp:407-484. -/
def treeReadParams (s : Src) (c : Cur) : Rd (List BNode × Cur) := do
  let (n, c) ← s.int c
  Rd.need (¬ n < 3)
  Rd.need (¬ n % 2 = 0)
  let (vs, c) ← readN (s.intIf goodCode) n.toNat c
  let ns := vs.map fun v => if v > 0 then BNode.op v else BNode.arg (-v)
  Rd.need (balanced ns)
  pure (ns, c)

/-- `IGES_ENTITY_180::readPD`, entity180.cpp:374-502, for an entity without nodes. -/
def treeReadPD (E : PdEnv) (de pdata count : Int) (ls : List Str) : Rd (List BNode × List Int × List Str) :=
  readPDWith E 180 de pdata count ls treeReadParams

/-! ### Entity 186: manifold solid B-rep object -/

/-- Data of entity 186, entity186.h. -/
structure Solid where
  shell : Int
  sof : Bool
  voids : List (Int × Bool)
  deriving DecidableEq

/-- `IGES_ENTITY_186::format`, entity186.cpp:179-278.  The number of voids is written only if it is 0.
Line 234 decrements the end of a `std::list` that may be empty; the result is then not used, and this is
taken to be harmless. -/
def Solid.format (E : PdEnv) (de : Int) (k : Solid) (xs : List ExtraRef) (cs : List Str) (index : Int) : Rd (Str × Int) :=
  formatPD E de [186, k.shell, flagInt k.sof]
    (intGroups E.pd (E.last xs) (if k.voids = [] then [0] else k.voids.flatMap fun v => [v.1, flagInt v.2])) xs cs 9999997 index

/-- A pointer and a flag. -/
def Src.deFlag (s : Src) (c : Cur) : Rd ((Int × Bool) × Cur) := do
  let (n, c) ← s.intIf inDE c
  let (b, c) ← s.flag c
  pure ((n, b), c)

/-- The parameters of `IGES_ENTITY_186::readPD`, entity186.cpp:395-488. -/
def Solid.readParams (s : Src) (c : Cur) : Rd (Solid × Cur) := do
  let (shell, c) ← s.intIf inDE c
  let (sof, c) ← s.flag c
  let (n, c) ← s.int c
  Rd.need (¬ n < 0)
  let (voids, c) ← readN s.deFlag n.toNat c
  pure (⟨shell, sof, voids⟩, c)

/-- `IGES_ENTITY_186::readPD`, entity186.cpp:369-509. -/
def Solid.readPD (E : PdEnv) (de pdata count : Int) (ls : List Str) : Rd (Solid × List Int × List Str) :=
  readPDWith E 186 de pdata count ls Solid.readParams

/-! ### Entity 308: subfigure definition -/

/-- Data of entity 308, entity308.h; `depth` is the result of `getDepthLevel`. -/
structure Subfigure where
  depth : Int
  name : Str
  DE : List Int
  deriving DecidableEq

/-- `IGES_ENTITY_308::format`, entity308.cpp:138-227. -/
def Subfigure.format (E : PdEnv) (de : Int) (k : Subfigure) (xs : List ExtraRef) (cs : List Str) (index : Int) :
    Rd (Str × Int) :=
  if index < 1 ∨ index > 9999999 then .fail                           -- 145-149
  else if k.DE = [] then .fail                                        -- 151-155
  else formatPD E de [308, k.depth]
    ([(.str k.name, E.pd)] :: [(.int k.DE.length, E.pd)] :: intGroups E.pd (E.last xs) k.DE) xs cs 9999999 index

/-- The parameters of `IGES_ENTITY_308::readPD`, entity308.cpp:357-418. -/
def Subfigure.readParams (s : Src) (c : Cur) : Rd (Subfigure × Cur) := do
  let (depth, c) ← s.int c
  Rd.need (¬ depth < 0)
  let (name, c) ← s.hstr c
  let (n, c) ← s.int c
  Rd.need (¬ n < 0)
  let (DE, c) ← readN (s.intIf oddDE) n.toNat c
  pure (⟨depth, name, DE⟩, c)

/-- `IGES_ENTITY_308::readPD`, entity308.cpp:331-436. -/
def Subfigure.readPD (E : PdEnv) (de pdata count : Int) (ls : List Str) : Rd (Subfigure × List Int × List Str) :=
  readPDWith E 308 de pdata count ls Subfigure.readParams

/-! ### Entity 502: vertex list -/

/-- The coordinates of the vertices, one emitter call each; all three of the last vertex are closed by
`last`, entity502.cpp:93-142. -/
def vertexGroups (pd last : Char) (r : ℚ) : List (Point ℚ) → List (List (Item × Char))
  | [] => []
  | [p] => [[(.real p.x r, last)], [(.real p.y r, last)], [(.real p.z r, last)]]
  | p :: q :: ps => [(.real p.x r, pd)] :: [(.real p.y r, pd)] :: [(.real p.z r, pd)] :: vertexGroups pd last r (q :: ps)

/-- `IGES_ENTITY_502::format`, entity502.cpp:64-163; `--vertices.end()` of an empty vector is
undefined. -/
def vertexFormat (E : PdEnv) (de : Int) (ps : List (Point ℚ)) (xs : List ExtraRef) (cs : List Str) (index : Int) :
    Rd (Str × Int) :=
  if index < 1 ∨ index > 9999999 then .fail                           -- 69-73
  else if ps = [] then .ub                                            -- 94
  else formatPD E de [502, ps.length] (vertexGroups E.pd (E.last xs) E.res ps) xs cs 9999999 index

/-- One vertex, entity502.cpp:293-305. -/
def readVertex (s : Src) (c : Cur) : Rd (Point ℚ × Cur) := do
  let (x, c) ← s.real c
  let (y, c) ← s.real c
  let (z, c) ← s.real c
  pure (⟨x, y, z⟩, c)

/-- The parameters of `IGES_ENTITY_502::readPD`, entity502.cpp:274-306. -/
def vertexReadParams (s : Src) (c : Cur) : Rd (List (Point ℚ) × Cur) := do
  let (n, c) ← s.int c
  Rd.need (¬ n < 1)
  readN (readVertex s) n.toNat c

/-- `IGES_ENTITY_502::readPD`, entity502.cpp:248-325. -/
def vertexReadPD (E : PdEnv) (de pdata count : Int) (ls : List Str) : Rd (List (Point ℚ) × List Int × List Str) :=
  readPDWith E 502 de pdata count ls vertexReadParams

/-! ### Entity 504: edge list -/

/-- One edge of entity 504, entity504.h: curve, start vertex list and index, end vertex list and index. -/
structure Edge where
  curv : Int
  svp : Int
  sv : Int
  tvp : Int
  tv : Int
  deriving DecidableEq

/-- The emitter call for an edge, entity504.cpp:210-218 and 242-250. -/
def Edge.group (pd last : Char) (e : Edge) : List (Item × Char) :=
  [(.int e.curv, pd), (.int e.svp, pd), (.int e.sv, pd), (.int e.tvp, pd), (.int e.tv, last)]

def edgeGroups (pd last : Char) : List Edge → List (List (Item × Char))
  | [] => []
  | [e] => [e.group pd last]
  | e :: f :: es => e.group pd pd :: edgeGroups pd last (f :: es)

/-- `IGES_ENTITY_504::format`, entity504.cpp:169-270, with non-NULL pointers; the last element of an
empty list is used, which is undefined. -/
def edgeFormat (E : PdEnv) (de : Int) (es : List Edge) (xs : List ExtraRef) (cs : List Str) (index : Int) :
    Rd (Str × Int) :=
  if index < 1 ∨ index > 9999999 then .fail                           -- 174-178
  else if es = [] then .ub                                            -- 198
  else formatPD E de [504, es.length] (edgeGroups E.pd (E.last xs) es) xs cs 9999999 index

/-- One edge, entity504.cpp:485-495. -/
def readEdge (s : Src) (c : Cur) : Rd (Edge × Cur) := do
  let (curv, c) ← s.int c
  let (svp, c) ← s.int c
  let (sv, c) ← s.int c
  let (tvp, c) ← s.int c
  let (tv, c) ← s.int c
  pure (⟨curv, svp, sv, tvp, tv⟩, c)

/-- The parameters of `IGES_ENTITY_504::readPD`, entity504.cpp:464-496. -/
def edgeReadParams (s : Src) (c : Cur) : Rd (List Edge × Cur) := do
  let (n, c) ← s.int c
  Rd.need (¬ n < 1)
  readN (readEdge s) n.toNat c

/-- `IGES_ENTITY_504::readPD`, entity504.cpp:438-516. -/
def edgeReadPD (E : PdEnv) (de pdata count : Int) (ls : List Str) : Rd (List Edge × List Int × List Str) :=
  readPDWith E 504 de pdata count ls edgeReadParams

/-! ### Entity 508: loop -/

/-- One edge of a loop, entity508.h. -/
structure LoopEdge where
  isVertex : Bool
  data : Int
  idx : Int
  orient : Bool
  pcurves : List (Bool × Int)
  deriving DecidableEq

/-- The emitter calls for one edge, entity508.cpp:241-324: the loop over the parameter-space curves
ends before the last one. -/
def LoopEdge.groups (pd dK : Char) (e : LoopEdge) : List (List (Item × Char)) :=
  [(.int (flagInt e.isVertex), pd)] :: [(.int e.data, pd)] :: [(.int e.idx, pd)] :: [(.int (flagInt e.orient), pd)] ::
  [(.int e.pcurves.length, dK)] ::
  (e.pcurves.dropLast.flatMap fun p => [[(.int (flagInt p.1), pd)], [(.int p.2, pd)]])

def loopGroups (pd last : Char) : List LoopEdge → List (List (Item × Char))
  | [] => []
  | [e] => e.groups pd last
  | e :: f :: es => e.groups pd pd ++ loopGroups pd last (f :: es)

/-- `IGES_ENTITY_508::format`, entity508.cpp:208-348, with non-NULL pointers.  `--end()` of an empty
vector is undefined: for a loop without edges, and for an edge without parameter-space curves, whose
curves are then read from `begin()` on until `end() - 1` is met. -/
def loopFormat (E : PdEnv) (de : Int) (es : List LoopEdge) (xs : List ExtraRef) (cs : List Str) (index : Int) :
    Rd (Str × Int) :=
  if index < 1 ∨ index > 9999999 then .fail                           -- 213-217
  else if es = [] ∨ ∃ e ∈ es, e.pcurves = [] then .ub                 -- 238, 297
  else formatPD E de [508, es.length] (loopGroups E.pd (E.last xs) es) xs cs 9999999 index

/-- One parameter-space curve, entity508.cpp:600-632. -/
def readPCurve (s : Src) (c : Cur) : Rd ((Bool × Int) × Cur) := do
  let (n, c) ← s.int c
  let (d, c) ← s.int c
  Rd.need (¬ (n < 0 ∨ n > 1))
  pure ((decide (n = 1), d), c)

/-- One edge, entity508.cpp:518-634. -/
def readLoopEdge (s : Src) (c : Cur) : Rd (LoopEdge × Cur) := do
  let (v, c) ← s.flag c
  let (d, c) ← s.int c
  let (i, c) ← s.int c
  let (o, c) ← s.flag c
  let (n, c) ← s.int c
  Rd.need (¬ n < 0)
  let (ps, c) ← readN (readPCurve s) n.toNat c
  pure (⟨v, d, i, o, ps⟩, c)

/-- The parameters of `IGES_ENTITY_508::readPD`, entity508.cpp:497-635. -/
def loopReadParams (s : Src) (c : Cur) : Rd (List LoopEdge × Cur) := do
  let (n, c) ← s.int c
  Rd.need (¬ n < 1)
  readN (readLoopEdge s) n.toNat c

/-- `IGES_ENTITY_508::readPD`, entity508.cpp:471-655. -/
def loopReadPD (E : PdEnv) (de pdata count : Int) (ls : List Str) : Rd (List LoopEdge × List Int × List Str) :=
  readPDWith E 508 de pdata count ls loopReadParams

/-! ### Entity 510: face -/

/-- Data of entity 510, entity510.h. -/
structure Face where
  surf : Int
  outer : Bool
  loops : List Int
  deriving DecidableEq

/-- `IGES_ENTITY_510::format`, entity510.cpp:157-240. -/
def Face.format (E : PdEnv) (de : Int) (k : Face) (xs : List ExtraRef) (cs : List Str) (index : Int) : Rd (Str × Int) :=
  if index < 1 ∨ index > 9999997 then .fail                           -- 162-166
  else if k.surf = 0 ∨ k.loops = [] then .fail                        -- 168-172
  else formatPD E de [510, k.surf, k.loops.length, flagInt k.outer] (intGroups E.pd (E.last xs) k.loops) xs cs 9999997 index

/-- The parameters of `IGES_ENTITY_510::readPD`, entity510.cpp:362-434. -/
def Face.readParams (s : Src) (c : Cur) : Rd (Face × Cur) := do
  let (surf, c) ← s.intIf inDE c
  let (n, c) ← s.int c
  Rd.need (¬ n < 1)
  let (outer, c) ← s.flag c
  let (loops, c) ← readN (s.intIf inDE) n.toNat c
  pure (⟨surf, outer, loops⟩, c)

/-- `IGES_ENTITY_510::readPD`, entity510.cpp:336-455. -/
def Face.readPD (E : PdEnv) (de pdata count : Int) (ls : List Str) : Rd (Face × List Int × List Str) :=
  readPDWith E 510 de pdata count ls Face.readParams

/-! ### Entity 514: shell -/

/-- `IGES_ENTITY_514::format`, entity514.cpp:127-223. -/
def shellFormat (E : PdEnv) (de : Int) (fs : List (Int × Bool)) (xs : List ExtraRef) (cs : List Str) (index : Int) :
    Rd (Str × Int) :=
  if index < 1 ∨ index > 9999997 then .fail                           -- 132-136
  else if fs = [] then .fail                                          -- 138-142
  else formatPD E de [514, fs.length] (intGroups E.pd (E.last xs) (fs.flatMap fun f => [f.1, flagInt f.2])) xs cs 9999997 index

/-- The parameters of `IGES_ENTITY_514::readPD`, entity514.cpp:338-397. -/
def shellReadParams (s : Src) (c : Cur) : Rd (List (Int × Bool) × Cur) := do
  let (n, c) ← s.int c
  Rd.need (¬ n < 1)
  readN s.deFlag n.toNat c

/-- `IGES_ENTITY_514::readPD`, entity514.cpp:312-418. -/
def shellReadPD (E : PdEnv) (de pdata count : Int) (ls : List Str) : Rd (List (Int × Bool) × List Int × List Str) :=
  readPDWith E 514 de pdata count ls shellReadParams

end Iges
