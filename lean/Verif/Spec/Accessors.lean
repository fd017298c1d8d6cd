import Verif.Model.Accessors
/-
C101: what the setters and getters of handles should do.
-/
namespace Iges.Handle.Spec
open Iges Iges.Handle

/-- The values that a setter with acceptable arguments gives: the place in a getter (the getter and the number of the argument) and the
value. An arc and a conic lie in a plane, whose height is given with the centre or the start point. -/
def gives : {c : Cls} → SetCall c → List ((Slot c × Nat) × Val)
  | _, .center x y z =>
      [((.center, 0), .num x), ((.center, 1), .num y), ((.center, 2), .num z), ((.arcStart, 2), .num z), ((.arcEnd, 2), .num z)]
  | _, .arcStart x y | _, .arcStartPt x y _ => [((.arcStart, 0), .num x), ((.arcStart, 1), .num y)]
  | _, .arcEnd x y | _, .arcEndPt x y _ => [((.arcEnd, 0), .num x), ((.arcEnd, 1), .num y)]
  | _, .conicStart x y z =>
      [((.conicStart, 0), .num x), ((.conicStart, 1), .num y), ((.conicStart, 2), .num z), ((.conicEnd, 2), .num z)]
  | _, .conicEnd x y | _, .conicEndPt x y _ => [((.conicEnd, 0), .num x), ((.conicEnd, 1), .num y)]
  | _, .conicParams a b c d e f =>
      [((.conicParams, 0), .num a), ((.conicParams, 1), .num b), ((.conicParams, 2), .num c),
       ((.conicParams, 3), .num d), ((.conicParams, 4), .num e), ((.conicParams, 5), .num f)]
  | _, .lineStart x y z => [((.lineStart, 0), .num x), ((.lineStart, 1), .num y), ((.lineStart, 2), .num z)]
  | _, .lineEnd x y z => [((.lineEnd, 0), .num x), ((.lineEnd, 1), .num y), ((.lineEnd, 2), .num z)]
  | _, .generatrixEnd x y z => [((.generatrixEnd, 0), .num x), ((.generatrixEnd, 1), .num y), ((.generatrixEnd, 2), .num z)]
  | _, .angles s t => [((.angles, 0), .num s), ((.angles, 1), .num t)]
  | _, .root (some m) => [((.root, 0), .mat m)]
  | _, .preference p => [((.preference, 0), .int p.val)]
  | _, .creation p => [((.creation, 0), .int p.val)]
  | _, .figName n => [((.figName, 0), .txt (n.getD []))]
  | _, .rgb r g b => [((.rgb, 0), .num r), ((.rgb, 1), .num g), ((.rgb, 2), .num b)]
  | _, .colourName n => [((.colourName, 0), .txt (n.getD []))]
  | _, .place x y z s => [((.place, 0), .num x), ((.place, 1), .num y), ((.place, 2), .num z), ((.place, 3), .num s)]
  | _, .propName (some n) => [((.propName, 0), .txt n)]
  | _, .root none | _, .propName none => []

/-- The arguments are acceptable: percentages are between 0 and 100, no transform and no name of a property is NULL. -/
def Fine : {c : Cls} → SetCall c → Prop
  | _, .rgb r g b => (0 ≤ r ∧ r ≤ 100) ∧ (0 ≤ g ∧ g ≤ 100) ∧ (0 ≤ b ∧ b ≤ 100)
  | _, .root m => m ≠ none
  | _, .propName n => n ≠ none
  | _, _ => True

/-- The name of a property can be set and read only in form 15, the only one there is. -/
def NameForm : {c : Cls} → EntOf c → Prop
  | .property, (p : Prop406) => p.form = 15
  | .arc, _ | .conic, _ | .line, _ | .extrusion, _ | .revolution, _ | .transform, _ | .bound, _ | .subfigure, _ | .colour, _
  | .instance_, _ => True

/-- The getters of a name that answer `false` if it is empty. -/
def IsName : {c : Cls} → Slot c → Prop
  | _, .figName | _, .colourName => True
  | _, _ => False

/-- The number of values a getter is asked for. -/
def arity : {c : Cls} → Slot c → Nat
  | _, .conicParams => 6
  | _, .place => 4
  | _, .angles => 2
  | _, .root | _, .preference | _, .creation | _, .figName | _, .colourName | _, .propName => 1
  | _, _ => 3

/-- The value at a place after the calls: the one given last by a call with acceptable arguments, else the one before. -/
noncomputable def last {c : Cls} (p : Slot c × Nat) : Option Val → List (SetCall c) → Option Val
  | v, [] => v
  | v, k :: ks =>
    have := Classical.propDecidable (Fine k)
    last p (if Fine k then ((gives k).lookup p).or v else v) ks

/-- What is shown at a place by the getters: no answer is the empty name. -/
def shown {c : Cls} (e : EntOf c) (p : Slot c × Nat) : Option Val := ((getEnt e p.1).getD [.txt []])[p.2]?

end Iges.Handle.Spec
