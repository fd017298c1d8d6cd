import Verif.Model.ListEntities

/-!
Building a boolean tree (`/repo/src/entities/entity180.cpp`): the operand and operator list as the
calls `AddArg`, `AddOp`, `ClearNodes` and the destruction of an operand change it.
-/

namespace Iges.Tree

/-- `IGES_ENTITY_180::typeOK`, entity180.cpp:51-86. -/
def typeOK (t : Int) : Bool :=
  t = 150 || t = 152 || t = 154 || t = 156 || t = 158 || t = 160 || t = 162 || t = 164 || t = 168
    || t = 180 || t = 430 || t = 186

/-- The node list, and the operands that have this tree in their list of references.  An operand is
named by a number in place of its address. -/
structure St where
  nodes : List BNode
  regs : List Int

/-- The calls.  `refuses` says that the operand refuses the reference (`addReference` returns false:
entity180.cpp:596-600). -/
inductive Call where
  | addOp (v : Int)
  | addArg (d ty : Int) (refuses : Bool)
  | clear
  | destroyed (d : Int)

/-- `AddOp`, entity180.cpp:553-580. -/
def AddOp (s : St) (v : Int) : St × Bool :=
  if v < 1 ∨ v ≥ 4 then (s, false)                        -- 555-559
  else if s.nodes.length < 2 then (s, false)              -- 561-565
  else (⟨s.nodes ++ [.op v], s.regs⟩, true)

/-- `AddArg`, entity180.cpp:583-623. -/
def AddArg (s : St) (d ty : Int) (refuses : Bool) : St × Bool :=
  if ¬ typeOK ty then (s, false)                          -- 587-591
  else if refuses then (s, false)                         -- 595-599
  else if d ∈ s.regs then (s, false)                      -- 601-605
  else (⟨s.nodes ++ [.arg d], d :: s.regs⟩, true)

/-- `ClearNodes`, entity180.cpp:90-114. -/
def ClearNodes (s : St) : St :=
  ⟨[], s.regs.filter fun d => BNode.arg d ∉ s.nodes⟩

/-- `unlink`, entity180.cpp:298-327, called by the destructor of an operand.  The list is cleared
without taking back the references to the other operands. -/
def unlink (s : St) (d : Int) : St :=
  if BNode.arg d ∈ s.nodes then ⟨[], s.regs.erase d⟩ else s

/-- One call and whether it reports success. -/
def step (s : St) : Call → St × Bool
  | .addOp v => AddOp s v
  | .addArg d ty r => AddArg s d ty r
  | .clear => (ClearNodes s, true)
  | .destroyed d => (unlink s d, true)

/-- A sequence of calls on a new tree (entity180.cpp:36-41). -/
def runFrom : St → List Call → St
  | s, [] => s
  | s, c :: cs => runFrom (step s c).1 cs

def run (cs : List Call) : St := runFrom ⟨[], []⟩ cs

end Iges.Tree
