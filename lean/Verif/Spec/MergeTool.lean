import Verif.Model.MergeTool
import Verif.Spec.IdfInstance
/-
Independent specification for C105: what an input of the merge program asks for.
-/
namespace Iges.MergeTool.Spec
open Iges

/-- the scalar product -/
def dot (u v : Point ℝ) : ℝ := u.x * v.x + u.y * v.y + u.z * v.z

/-- `q` is `p` turned by `a` degrees counterclockwise about the direction `v`, which need not have the length one (Rodrigues' formula). -/
def TurnedAbout (v : Point ℝ) (a : ℝ) (p q : Point ℝ) : Prop :=
  ∃ n : Point ℝ, ∃ k : ℝ, 0 < k ∧ v = ⟨k * n.x, k * n.y, k * n.z⟩ ∧ dot n n = 1 ∧
    let c := Real.cos (a * Real.pi / 180)
    let s := Real.sin (a * Real.pi / 180)
    q.x = c * p.x + s * (n.y * p.z - n.z * p.y) + (1 - c) * dot n p * n.x ∧
    q.y = c * p.y + s * (n.z * p.x - n.x * p.z) + (1 - c) * dot n p * n.y ∧
    q.z = c * p.z + s * (n.x * p.y - n.y * p.x) + (1 - c) * dot n p * n.z

/-- what one line of the input asks for -/
inductive Entry where
  | file (name : Str)
  | pos (p : Pos)
  | orient (t : Turn)
  | unit (u : Int)
  | nothing

/-- the text has none of the words -/
def lacks (keys : List String) (s : Str) : Prop := ∀ k ∈ keys, ¬ k.toList <:+: s

/-- the names of the units, and their numbers in an IGES file -/
def unitNamed : List (String × Int) :=
  [("in", 1), ("mm", 2), ("ft", 4), ("mi", 5), ("m", 6), ("km", 7), ("mil", 8), ("micron", 9), ("cm", 10), ("microinch", 11)]

/-- what a line means -/
inductive Means (num : Numbers) : Str → Entry → Prop where
  | file {s a n b} : "file:".toList <:+: s → s = a ++ '"' :: n ++ '"' :: b → '"' ∉ a → '"' ∉ b → Means num s (.file n)
  | pos {s p} : "pos:".toList <:+: s → lacks ["file:", "unit:", "orient:"] s → num.pos s = some p → Means num s (.pos p)
  | unit {s pre name post u} : s = "unit:".toList ++ pre ++ name.toList ++ post → (name, u) ∈ unitNamed → pre.all (· ∈ [' ', '\t']) →
      post.all (· ∈ [' ', '\t', '\r']) → Means num s (.unit u)
  | orient {s t} : "orient:".toList <:+: s → lacks ["file:", "pos:", "unit:"] s → num.turn s = some t → Means num s (.orient t)
  | other {s} : lacks ["file:", "pos:", "unit:", "orient:"] s → Means num s .nothing
  | badPos {s} : "pos:".toList <:+: s → lacks ["file:", "unit:", "orient:"] s → num.pos s = none → Means num s .nothing
  | badOrient {s} : "orient:".toList <:+: s → lacks ["file:", "pos:", "unit:"] s → num.turn s = none → Means num s .nothing

/-- the instances asked for: each position belongs to the file named last before it -/
def placed : Option Str → List Entry → List (Str × Pos)
  | _, [] => []
  | _, .file n :: l => placed (some n) l
  | some n, .pos p :: l => (n, p) :: placed (some n) l
  | c, _ :: l => placed c l

/-- the orientation of a file: the first one given for it -/
def turnOf (n : Str) : Option Str → List Entry → Option Turn
  | _, [] => none
  | _, .file m :: l => turnOf n (some m) l
  | some m, .orient t :: l => if m = n then some t else turnOf n (some m) l
  | c, _ :: l => turnOf n c l

/-- the unit asked for: the first one named, or else the millimetre -/
def unitOf : List Entry → Int
  | [] => 2
  | .unit u :: _ => u
  | _ :: l => unitOf l

/-- The point `p` of the file comes to `q`: first it is turned and moved as the orientation of the file says, then it is placed like a part on an
IDF board without thickness. -/
def Comes (t : Option Turn) (x : Pos) (p q : Point ℝ) : Prop :=
  ∃ r r' : Point ℝ, (match t with
      | none => r = p
      | some t => TurnedAbout t.axis t.angle p r' ∧ r = ⟨r'.x + t.off.x, r'.y + t.off.y, r'.z + t.off.z⟩) ∧
    Idf.Spec.Mounted 0 (if x.flip then .bottom else .top) x.x x.y x.z x.zRot r q

/-- The direction is long enough, and of length one or clearly not of length one. -/
def Clear (v : Point ℝ) : Prop := 1 / 10 ^ 12 ≤ dot v v ∧ (dot v v = 1 ∨ 1 / 10 ^ 8 < |dot v v - 1|)

end Iges.MergeTool.Spec
