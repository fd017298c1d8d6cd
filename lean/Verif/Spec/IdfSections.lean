import Verif.Model.IdfSections
import Verif.Spec.IdfOutline
/-
Specification for the outline sections of board files (C79).
-/
namespace Iges.Idf.Spec

/-- The sides on which components are placed. -/
def Sided (l : Layer) : Prop := l = .top ∨ l = .bottom ∨ l = .both

/-- What a section of the given kind can hold: layers for routing, a side and a height for placement, a side and a name for
regions and nothing for vias; members that the kind does not have keep their initial values. -/
def SectOk : OlnKind → OlnSect → Prop
  | .via, s => s.side = none ∧ s.thickness = 0 ∧ s.ident = []
  | .route, s | .routeKo, s => (∃ l, s.side = some l) ∧ s.thickness = 0 ∧ s.ident = []
  | .place, s | .placeKo, s => (∃ l, s.side = some l ∧ Sided l) ∧ 0 ≤ s.thickness ∧ |s.thickness| ≤ 10 ^ 300 ∧ s.ident = []
  | .region, s => (∃ l, s.side = some l ∧ Sided l) ∧ s.thickness = 0 ∧ Plain s.ident
  | .other, s => (s.side = some .top ∨ s.side = some .bottom) ∧ |s.thickness| ≤ 10 ^ 300 ∧ Plain s.ident

end Iges.Idf.Spec
