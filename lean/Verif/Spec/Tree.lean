import Verif.Model.Tree

/-!
What a boolean tree means: a list in postfix notation (IGES 5.3, section 4.46; `entity180.h:35-38`).
-/

namespace Iges.Spec.Tree

/-- A solid described by a boolean tree. -/
inductive Expr where
  | operand (de : Int)
  | combine (op : Int) (left right : Expr)
  deriving DecidableEq

/-- Evaluation with a stack: an operand is put on the stack, an operator takes the two last results.
`none`: an operator finds fewer than two results. -/
def eval : List Expr → List BNode → Option (List Expr)
  | st, [] => some st
  | st, .arg d :: ns => eval (.operand d :: st) ns
  | b :: a :: st, .op v :: ns => eval (.combine v a b :: st) ns
  | _, .op _ :: _ => none

/-- No operator lacks an operand. -/
def NoUnderflow (ns : List BNode) : Prop := ∃ st, eval [] ns = some st

/-- The list describes exactly one solid. -/
def OneSolid (ns : List BNode) : Prop := ∃ e, eval [] ns = some [e]

/-- The caller adds an operator only if at least two results are waiting for it. -/
def Careful (s : Iges.Tree.St) : Iges.Tree.Call → Prop
  | .addOp _ => ∃ a b st, eval [] s.nodes = some (a :: b :: st)
  | _ => True

def CarefulFrom : Iges.Tree.St → List Iges.Tree.Call → Prop
  | _, [] => True
  | s, c :: cs => Careful s c ∧ CarefulFrom (Iges.Tree.step s c).1 cs

end Iges.Spec.Tree
