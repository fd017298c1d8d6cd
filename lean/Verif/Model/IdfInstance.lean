import Mathlib.Analysis.SpecialFunctions.Trigonometric.Basic
import Verif.Model.Geom
import Verif.Model.IdfPlace
/-
How the converter places the parts of an IDF board in an IGES model: idf/idf2igs.cpp, `MakeComponents` and its helpers.

Positions read from the file are rational numbers; they are taken as real numbers here.  The model of a part is represented by
its name.  What the IGES entities hold besides (colours, use flags) is left out, and so is the shortening of the label.
-/
namespace Iges.Idf

noncomputable section

/-- `rotateY`, idf2igs.cpp:1199-1209: four entries of the matrix are set -/
def rotateY (m : Mat ℝ) (angle : ℝ) : Mat ℝ :=
  { m with v00 := Real.cos angle, v02 := Real.sin angle, v20 := -Real.sin angle, v22 := Real.cos angle }

/-- `rotateZ`, idf2igs.cpp:1212-1220 -/
def rotateZ (m : Mat ℝ) (angle : ℝ) : Mat ℝ :=
  { m with v00 := Real.cos angle, v01 := -Real.sin angle, v10 := Real.sin angle, v11 := Real.cos angle }

/-- `calcTransform`, idf2igs.cpp:1223-1255: what the transform entity holds -/
def calcTransform (dX dY dZ dA : ℝ) (bottom : Bool) : Transform ℝ :=
  let m0 := if dA ≠ 0 then (if bottom then rotateZ Mat.one (-dA) else rotateZ Mat.one dA) else Mat.one
  let m1 := if bottom then rotateY Mat.one Real.pi else Mat.one
  let dZ := if bottom then -dZ else dZ
  ⟨m0.mul m1, ⟨dX, dY, dZ⟩⟩

/-- an entity 408 made by `MakeComponents`: its label, the name of the part whose model it shows, and its transform -/
structure Instance where
  label : Str
  uid : Str
  tx : Transform ℝ

/-- `IDF3_COMP_OUTLINE::GetUID`, idf_outlines.cpp:3501-3512 -/
def outUid (geom part : Str) : Str := if geom = [] ∧ part = [] then [] else uidOf geom part

/-- what `MakeComponents` makes; `undefined`: `GetUID` is called through a null pointer -/
inductive Instances where
  | made (l : List Instance)
  | undefined

/-- the loop over the outlines of a component, idf2igs.cpp:916-951.  `models` says for which names there is a model.  A component without a position
is taken to be at the origin and not at the bottom, idf_parser.cpp:1229-1249. -/
def placeOutlines (models : Str → Bool) (th : ℝ) (c : Comp) : List OutData → Instances
  | [] => .made []
  | o :: rest =>
    match o.outline with
    | none => .undefined                                                              -- 918
    | some (g, p) =>
      match placeOutlines models th c rest with
      | .undefined => .undefined
      | .made l =>
        if models (outUid g p) = false then .made l                                   -- 922-927
        else
          let vX : ℝ := (c.pos.map (·.x)).getD 0
          let vY : ℝ := (c.pos.map (·.y)).getD 0
          let vA : ℝ := (c.pos.map (·.a)).getD 0
          let bottom := c.pos.map (·.side) = some .bottom
          let tX := o.x + vX
          let tY := o.y + vY
          let tZ := o.z + th
          let tA := (o.a + vA) * Real.pi / 180
          .made (⟨c.refdes, outUid g p, calcTransform tX tY tZ tA bottom⟩ :: l)

/-- the loop over the components, idf2igs.cpp:904-954; `th` is half of the thickness of the board -/
def placeComponents (models : Str → Bool) (th : ℝ) : SMap Comp → Instances
  | [] => .made []
  | (_, c) :: rest =>
    match placeOutlines models th c c.outs with
    | .undefined => .undefined
    | .made l =>
      match placeComponents models th rest with
      | .undefined => .undefined
      | .made m => .made (l ++ m)

end
end Iges.Idf
