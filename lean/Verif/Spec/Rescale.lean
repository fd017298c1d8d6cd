import Verif.Model.Rescale
import Verif.Spec.Nurbs
import Verif.Spec.Units
/-
What it means to scale an entity by a factor: lengths are multiplied, everything else stays.
-/
namespace Iges.Spec

/-- A point scaled by `f`; on a parameter plane the first two coordinates are not lengths. -/
def scaledPoint (param : Bool) (f : ℚ) (p q : Point ℚ) : Prop :=
  (if param then q.x = p.x ∧ q.y = p.y else q.x = f * p.x ∧ q.y = f * p.y) ∧ q.z = f * p.z

/-- The left side of the equation of a conic. -/
def conicAt (k : Conic) (x y : ℚ) : ℚ := k.A * x ^ 2 + k.B * x * y + k.C * y ^ 2 + k.D * x + k.E * y + k.F

/-- Scaled control points with their weights. -/
def scaledCtrl (param : Bool) (f : ℚ) (p q : Point ℚ × ℚ) : Prop := scaledPoint param f p.1 q.1 ∧ q.2 = p.2

/-- `b` is the entity `a` scaled by `f`.  `param` says that `a` lies on the parameter plane of a surface. -/
def Scaled (param : Bool) (f : ℚ) : EntData → EntData → Prop
  | .arc a, .arc b => scaledPoint param f ⟨a.xCenter, a.yCenter, a.zOffset⟩ ⟨b.xCenter, b.yCenter, b.zOffset⟩ ∧
      scaledPoint param f ⟨a.xStart, a.yStart, a.zOffset⟩ ⟨b.xStart, b.yStart, b.zOffset⟩ ∧
      scaledPoint param f ⟨a.xEnd, a.yEnd, a.zOffset⟩ ⟨b.xEnd, b.yEnd, b.zOffset⟩
  | .conic a, .conic b => scaledPoint param f ⟨a.X1, a.Y1, a.ZT⟩ ⟨b.X1, b.Y1, b.ZT⟩ ∧
      scaledPoint param f ⟨a.X2, a.Y2, a.ZT⟩ ⟨b.X2, b.Y2, b.ZT⟩ ∧
      ∀ p q, scaledPoint param f p q → (conicAt b q.x q.y = 0 ↔ conicAt a p.x p.y = 0)
  | .line a, .line b => scaledPoint param f ⟨a.X1, a.Y1, a.Z1⟩ ⟨b.X1, b.Y1, b.Z1⟩ ∧
      scaledPoint param f ⟨a.X2, a.Y2, a.Z2⟩ ⟨b.X2, b.Y2, b.Z2⟩
  | .revolution a, .revolution b => b = a
  | .tabCyl a, .tabCyl b => b.DE = a.DE ∧ scaledPoint param f ⟨a.LX, a.LY, a.LZ⟩ ⟨b.LX, b.LY, b.LZ⟩
  | .tx a, .tx b => b.R = a.R ∧ scaledPoint false f a.T b.T
  | .curve a, .curve b =>
      { b with coeffs := a.coeffs } = a ∧ (a.coeffs = none → b.coeffs = none) ∧
      ∀ ps, a.coeffs = some (ctrlArray a.PROP3 ps) →
        ∃ qs, b.coeffs = some (ctrlArray b.PROP3 qs) ∧ List.Forall₂ (scaledCtrl param f) ps qs
  | .surf a, .surf b =>
      { b with coeffs := a.coeffs } = a ∧ (a.coeffs = none → b.coeffs = none) ∧
      ∀ ps, a.coeffs = some (ctrlArray a.PROP3 ps) →
        ∃ qs, b.coeffs = some (ctrlArray b.PROP3 qs) ∧ List.Forall₂ (scaledCtrl param f) ps qs
  | .cylinder a, .cylinder b => b.H = f * a.H ∧ b.R = f * a.R ∧
      scaledPoint param f ⟨a.X1, a.Y1, a.Z1⟩ ⟨b.X1, b.Y1, b.Z1⟩ ∧ b.I1 = a.I1 ∧ b.J1 = a.J1 ∧ b.K1 = a.K1
  | .extrusion a, .extrusion b => b.PTR = a.PTR ∧ b.L = f * a.L ∧ b.I1 = a.I1 ∧ b.J1 = a.J1 ∧ b.K1 = a.K1
  | .inst a, .inst b => b.DE = a.DE ∧ b.S = a.S ∧ scaledPoint param f ⟨a.X, a.Y, a.Z⟩ ⟨b.X, b.Y, b.Z⟩
  | .vertices a, .vertices b => List.Forall₂ (scaledPoint param f) a b
  | .onSurface a, .onSurface b => b = a
  | .links a, .links b => b = a
  | .null, .null => True
  | _, _ => False

/-- `a` is `i` or contains it through a chain of users, none of them a curve on a surface. -/
inductive PartOf (h : Heap) : Nat → Nat → Prop
  | self (i : Nat) : PartOf h i i
  | up {i p a : Nat} : p ∈ (h i).users → (∀ b, (h p).data ≠ .onSurface b) → PartOf h p a → PartOf h i a

/-- The entity is, or is part of, the parameter plane curve of a curve on a surface. -/
def OnParamPlane (h : Heap) (i : Nat) : Prop :=
  ∃ a c, PartOf h i a ∧ c ∈ (h a).users ∧ (h c).data = .onSurface (some a)

end Iges.Spec
