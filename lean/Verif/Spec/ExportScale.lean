import Verif.Model.ExportScale
import Verif.Spec.Rescale
/-
What keeping the sizes means.
-/
namespace Iges.ExportScale.Spec

/-- The real length, in millimetres, of one unit of the coordinates of a model: the unit of length divided by the model scale. -/
def coordinateLength (g : Globals) : Option ℚ := (Iges.Spec.unitLength g.unitsFlag).map (· / g.modelScale)

/-- The data of the entity before and after describe things of the same real size: `a` and `b` are the lengths that a coordinate 1 has before
and after.  On the parameter plane of a surface coordinates are not lengths (`param`). -/
def SameSize (param : Bool) (a b : ℚ) (d d' : EntData) : Prop := ∃ f, f * b = a ∧ Iges.Spec.Scaled param f d d'

/-- A line weight stands for a part of the largest width. -/
def SamePart (w g w' g' : Int) : Prop := (w' : ℚ) / g' = (w : ℚ) / g

end Iges.ExportScale.Spec
