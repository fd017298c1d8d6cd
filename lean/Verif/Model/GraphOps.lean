import Verif.Model.Graph

/-!
Programs that use the entity graph: one constructor per API call, and the effect of a list of
calls (`/repo/src/entities/*.cpp`, `/repo/src/iges/iges.cpp`).
-/

namespace Iges.Graph

/-- The calls that create, connect, disconnect or delete entities.  `closed` arguments are the
answers of the geometric query the call makes. -/
inductive Call where
  /-- `IGES::NewEntity( t )`; `i` is the address of the new entity. -/
  | new (i t : Nat)
  /-- `delete` of an entity (`IGES::DelEntity`, `IGES::Clear`, `IGES::Cull`). -/
  | del (e : Nat)
  | setTransform (e : Nat) (t : Option Nat)
  | setColor (e : Nat) (t : Option Nat)
  | addOptional (e c : Nat)
  | addSegment (e : Nat) (c : Option Nat) (closed : Bool)
  | setL (e : Nat) (c : Option Nat)
  | setC (e : Nat) (c : Option Nat)
  | setDE122 (e : Nat) (c : Option Nat)
  /-- `SetSPTR`, `SetBPTR`, `SetCPTR` for 0, 1, 2. -/
  | set142 (e i : Nat) (c : Option Nat)
  | setPTS (e : Nat) (c : Option Nat)
  | setPTO (e : Nat) (c : Option Nat)
  | addPTI (e : Nat) (c : Option Nat)
  | delPTI (e c : Nat)
  | setClosedCurve (e : Nat) (c : Option Nat) (closed : Bool)
  | addArg (e : Nat) (c : Option Nat)
  | clearNodes (e : Nat)
  | addDE (e : Nat) (c : Option Nat)
  | delDE (e c : Nat)
  | setDE408 (e : Nat) (c : Option Nat)
  | addEdge (e : Nat) (c s : Option Nat) (sv : Int) (t : Option Nat) (tv : Int)
  | setSurface (e : Nat) (c : Option Nat)
  | addBound (e : Nat) (c : Option Nat)
  /-- `IGES_ENTITY_502::AddVertex` (`/repo/src/entities/entity502.cpp`): one more point. -/
  | addVertex (e : Nat)
  deriving Repr

/-- The effect of a call; `none` is undefined behaviour. -/
def step (h : Heap) : Call → Option (Heap × Bool)
  | .new i t => some (h.put i (newObj t), true)
  | .del e => (destroy h e).map (·, true)
  | .setTransform e t => SetTransform h e t
  | .setColor e t => SetColor h e t
  | .addOptional e c => AddOptionalEntity h e c
  | .addSegment e c k => AddSegment h e c k
  | .setL e c => SetL h e c
  | .setC e c => SetC h e c
  | .setDE122 e c => SetDE122 h e c
  | .set142 e i c => Set142 h e i c
  | .setPTS e c => SetPTS h e c
  | .setPTO e c => SetPTO h e c
  | .addPTI e c => AddPTI h e c
  | .delPTI e c => delKid h e c
  | .setClosedCurve e c k => SetClosedCurve h e c k
  | .addArg e c => AddArg h e c
  | .clearNodes e => (ClearNodes h e).map (·, true)
  | .addDE e c => AddDE h e c
  | .delDE e c => delKid h e c
  | .setDE408 e c => SetDE408 h e c
  | .addEdge e c s sv t tv => AddEdge h e c s sv t tv
  | .setSurface e c => SetSurface h e c
  | .addBound e c => AddBound h e c
  | .addVertex e => (h e).map (fun o => (h.put e { o with npts := o.npts + 1 }, true))

/-- The effect of a program, starting in a heap. -/
def runFrom (h : Heap) : List Call → Option Heap
  | [] => some h
  | c :: l =>
    match step h c with
    | none => none
    | some (h', _) => runFrom h' l

/-- No entity exists. -/
def emptyHeap : Heap := fun _ => none

/-- The effect of a whole program. -/
def run (l : List Call) : Option Heap := runFrom emptyHeap l

end Iges.Graph
