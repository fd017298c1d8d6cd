import Verif.Model.IdfSetters
import Verif.Spec.IdfSections
/-
C100: what the setters of outline sections should do.
-/
namespace Iges.Idf.Spec
open Iges Iges.Idf

/-- The section belongs to the other kind of system. -/
def OthersSection (cad : Cad) (s : OlnSect) : Prop :=
  (s.owner = .mcad ∧ cad = .elec) ∨ (s.owner = .ecad ∧ cad = .mech)

/-- The sides a kind of section has in the file format: other outlines are on the top or the bottom, placement outlines, keepouts
and regions on the top, the bottom or both; any layers for routing. -/
def LegalSide : OlnKind → Layer → Prop
  | .other, l | .via, l => l = .top ∨ l = .bottom
  | .route, _ | .routeKo, _ => True
  | .place, l | .placeKo, l | .region, l => l = .top ∨ l = .bottom ∨ l = .both

/-- The call is about something that the file has for this kind of section. -/
def InFile : OlnKind → SectCall → Prop
  | .via, .setSide _ | .via, .setIdent _ | .via, .setThickness _ => False
  | .route, .setThickness _ | .routeKo, .setThickness _ | .region, .setThickness _ => False
  | _, _ => True

/-- The names after the calls: the last ones given, and those of the stand-in. -/
def names : Str × Str → List NameCall → Str × Str
  | x, [] => x
  | x, .setGeom s :: cs => names (s, x.2) cs
  | x, .setPart s :: cs => names (x.1, s) cs
  | x, .getUID :: cs => names x cs
  | _, .clear :: cs => names ([], []) cs
  | _, .standIn g p :: cs => names (if g = [] ∧ p = [] then ("NOGEOM".toList, "NOPART".toList) else (g, p)) cs

end Iges.Idf.Spec
