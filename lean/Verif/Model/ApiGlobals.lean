import Verif.Model.Rescale
/-
The global data as they are set and asked for through the handle `DLL_IGES` (src/dllapi/dll_iges.cpp).
-/
namespace Iges.ApiGlobals

/-- The texts that can be set. -/
inductive Text | sender | system | receiver | author | organization | note
  deriving DecidableEq

/-- A setter of the handle with its argument; a null pointer is `none`. -/
inductive Call
  | text (a : Text) (v : Option Str)
  | grad (n : Int)
  | width (x : ℚ)
  | resolution (x : ℚ)
  | standard (n : Int)
  | units (u : Int)
  | scale (x : ℚ)

/-- What is seen of a string through `char const*`. -/
def cView (s : Str) : Str := s.takeWhile (· ≠ '\x00')

/-- A text of the global data. -/
def stored (g : Globals) : Text → Str
  | .sender => g.productIDSS
  | .system => g.nativeSystemID
  | .receiver => g.productIDRS
  | .author => g.author
  | .organization => g.organization
  | .note => g.applicationNote

/-- Assignment to a text of the global data. -/
def store (g : Globals) (s : Str) : Text → Globals
  | .sender => { g with productIDSS := s }
  | .system => { g with nativeSystemID := s }
  | .receiver => { g with productIDRS := s }
  | .author => { g with author := s }
  | .organization => { g with organization := s }
  | .note => { g with applicationNote := s }

/-- The getters of the texts, dll_iges.cpp:540-552, 571-583, 602-614 (not this one: the version is fixed), 617-632, 840-852, 871-883,
933-945.  `none`: the handle has no model, the pointer is null. -/
def GetText (m : Option Globals) (a : Text) : Bool × Option Str :=
  match m with
  | none => (false, none)
  | some g =>
    match a with
    | .receiver =>                                                     -- 626-629
      (true, some (cView (if g.productIDRS = [] ∧ g.productIDSS ≠ [] then g.productIDSS else g.productIDRS)))
    | a => (true, some (cView (stored g a)))

/-- The setters, dll_iges.cpp:478-499, 555-568, 586-599, 635-645, 662-680, 708-729, 747-768, 807-824, 855-868, 886-899, 919-929, 948-961,
for a handle with a model.  `none`: undefined behaviour, or an endless recursion of `rescale` for the given fuel. -/
def step (fuel : Nat) (m : ScaleModel) : Call → Option (Bool × ScaleModel)
  | .text .receiver none => none                                       -- 643: std::string = NULL
  | .text a v => some (true, { m with globals := store m.globals (cView (v.getD [])) a })
  | .grad n => if 0 ≥ n then some (false, m) else some (true, { m with globals := { m.globals with maxLinewidthGrad := n } })
  | .width x => if 0 ≥ x then some (false, m) else some (true, { m with globals := { m.globals with maxLinewidth := x } })
  | .resolution x => if x < 1 / 10 ^ 9 then some (false, m) else some (true, { m with globals := { m.globals with minResolution := x } })
  | .standard n => some (true, { m with globals := { m.globals with draftStandard := n } })
  | .units u => if u = 3 then some (false, m) else ConvertUnits fuel m u
  | .scale x => ChangeModelScale fuel m x

/-- A program of setters; the answers are not looked at. -/
def run (fuel : Nat) (m : ScaleModel) : List Call → Option ScaleModel
  | [] => some m
  | c :: cs => (step fuel m c).bind fun r => run fuel r.2 cs

end Iges.ApiGlobals
