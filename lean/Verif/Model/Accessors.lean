import Verif.Model.Entities
/-
C101: the values of entities read and set through their handles (`DLL_IGES_ENTITY_…` of src/dllapi). A handle is `none` if its flag
is cleared or its entity is NULL, `some` the entity otherwise; which of the two it is over time is C50. Overloads that differ only in
how a point is passed are one call. References to other entities are in C20 and C27.
-/
namespace Iges.Handle
open Iges

/-- The classes of handles with values of their own, src/include/api/dll_entity100.h and the like. -/
inductive Cls | arc | conic | line | extrusion | revolution | transform | bound | subfigure | colour | instance_ | property
  deriving DecidableEq

/-- `IGES_ENTITY_142`, the two flags only, entity142.h; integers as in the file. -/
structure Bound where
  PREF : Int
  CRTN : Int

/-- `IGES_ENTITY_406`, entity406.cpp:37-52: the form and the string behind `data`. -/
structure Prop406 where
  form : Int
  name : Str

/-- The entity behind a handle of each class: the structures of C29 where there is one; of type 308 the name only; of type 124 the
twelve numbers of `T`. -/
abbrev EntOf : Cls → Type
  | .arc => Arc
  | .conic => Conic
  | .line => Line
  | .extrusion => TabCyl
  | .revolution => Revolution
  | .transform => Fin 12 → ℚ
  | .bound => Bound
  | .subfigure => Str
  | .colour => Colour
  | .instance_ => SubInstance
  | .property => Prop406

/-- What is returned through the arguments of a getter. -/
inductive Val
  | num (x : ℚ)
  | int (n : Int)
  | txt (s : Str)
  | mat (m : Fin 12 → ℚ)

/-- The getters of each class, src/dllapi/dll_entity100.cpp:99-168, dll_entity104.cpp:96-157, dll_entity110.cpp:97-142,
dll_entity122.cpp:96-118, dll_entity120.cpp:152, dll_entity124.cpp:106, dll_entity142.cpp:178-217, dll_entity308.cpp:187,
dll_entity314.cpp:103-153, dll_entity408.cpp:114, dll_entity406.cpp:96. -/
inductive Slot : Cls → Type
  | center : Slot .arc
  | arcStart : Slot .arc
  | arcEnd : Slot .arc
  | conicStart : Slot .conic
  | conicEnd : Slot .conic
  | conicParams : Slot .conic
  | lineStart : Slot .line
  | lineEnd : Slot .line
  | generatrixEnd : Slot .extrusion
  | angles : Slot .revolution
  | root : Slot .transform
  | preference : Slot .bound
  | creation : Slot .bound
  | figName : Slot .subfigure
  | rgb : Slot .colour
  | colourName : Slot .colour
  | place : Slot .instance_
  | propName : Slot .property
  deriving DecidableEq

/-- The setters of each class, src/dllapi/dll_entity100.cpp:171-237, dll_entity104.cpp:160-221, dll_entity110.cpp:145-190,
dll_entity122.cpp:130-151, dll_entity120.cpp:163, dll_entity124.cpp:116-133, dll_entity142.cpp:194-228, dll_entity308.cpp:205,
dll_entity314.cpp:116-168, dll_entity408.cpp:128, dll_entity406.cpp:111. `…Pt` is the overload with a point, where it is told a height
that the other is not; a `const char*` or a pointer to a transform is `none` if NULL; an enumeration of four values is `Fin 4`. -/
inductive SetCall : Cls → Type
  | center (x y z : ℚ) : SetCall .arc
  | arcStart (x y : ℚ) : SetCall .arc
  | arcStartPt (x y z : ℚ) : SetCall .arc
  | arcEnd (x y : ℚ) : SetCall .arc
  | arcEndPt (x y z : ℚ) : SetCall .arc
  | conicStart (x y z : ℚ) : SetCall .conic
  | conicEnd (x y : ℚ) : SetCall .conic
  | conicEndPt (x y z : ℚ) : SetCall .conic
  | conicParams (a b c d e f : ℚ) : SetCall .conic
  | lineStart (x y z : ℚ) : SetCall .line
  | lineEnd (x y z : ℚ) : SetCall .line
  | generatrixEnd (x y z : ℚ) : SetCall .extrusion
  | angles (s t : ℚ) : SetCall .revolution
  | root (m : Option (Fin 12 → ℚ)) : SetCall .transform
  | preference (p : Fin 4) : SetCall .bound
  | creation (p : Fin 4) : SetCall .bound
  | figName (n : Option Str) : SetCall .subfigure
  | rgb (r g b : ℚ) : SetCall .colour
  | colourName (n : Option Str) : SetCall .colour
  | place (x y z s : ℚ) : SetCall .instance_
  | propName (n : Option Str) : SetCall .property

/-- A flag out of range is read as 0, dll_entity142.cpp:183-188 and 209-214. -/
def flagOf (n : Int) : Int := if n < 0 ∨ n > 3 then 0 else n

/-- `GetName`, dll_entity308.cpp:187-202 and dll_entity314.cpp:138-153: an empty name is NULL and the answer `false`. -/
def nameOf (s : Str) : Option (List Val) := if s = [] then none else some [.txt s]

/-- A getter on a valid handle, at the lines of `Slot`; `none` is the answer `false` (NULL for the name of a property). -/
def getEnt : {c : Cls} → EntOf c → Slot c → Option (List Val)
  | .arc, (a : Arc), .center => some [.num a.xCenter, .num a.yCenter, .num a.zOffset]
  | .arc, (a : Arc), .arcStart => some [.num a.xStart, .num a.yStart, .num a.zOffset]
  | .arc, (a : Arc), .arcEnd => some [.num a.xEnd, .num a.yEnd, .num a.zOffset]
  | .conic, (k : Conic), .conicStart => some [.num k.X1, .num k.Y1, .num k.ZT]
  | .conic, (k : Conic), .conicEnd => some [.num k.X2, .num k.Y2, .num k.ZT]
  | .conic, (k : Conic), .conicParams => some [.num k.A, .num k.B, .num k.C, .num k.D, .num k.E, .num k.F]
  | .line, (l : Line), .lineStart => some [.num l.X1, .num l.Y1, .num l.Z1]
  | .line, (l : Line), .lineEnd => some [.num l.X2, .num l.Y2, .num l.Z2]
  | .extrusion, (t : TabCyl), .generatrixEnd => some [.num t.LX, .num t.LY, .num t.LZ]
  | .revolution, (r : Revolution), .angles => some [.num r.SA, .num r.TA]
  | .transform, m, .root => some [.mat m]
  | .bound, (b : Bound), .preference => some [.int (flagOf b.PREF)]
  | .bound, (b : Bound), .creation => some [.int (flagOf b.CRTN)]
  | .subfigure, (s : Str), .figName => nameOf s
  | .colour, (k : Colour), .rgb => some [.num k.red, .num k.green, .num k.blue]
  | .colour, (k : Colour), .colourName => nameOf k.cname
  | .instance_, (i : SubInstance), .place => some [.num i.X, .num i.Y, .num i.Z, .num i.S]
  | .property, (p : Prop406), .propName => if p.form = 15 then some [.txt p.name] else none

/-- A setter on a valid handle, at the lines of `SetCall`. The end of a generatrix is assigned three times to the same member,
dll_entity122.cpp:135-137 and 147-149. -/
def setEnt : {c : Cls} → EntOf c → SetCall c → EntOf c × Bool
  | .arc, (a : Arc), .center x y z => ({ a with xCenter := x, yCenter := y, zOffset := z }, true)
  | .arc, (a : Arc), .arcStart x y => ({ a with xStart := x, yStart := y }, true)
  | .arc, (a : Arc), .arcStartPt x y _ => ({ a with xStart := x, yStart := y }, true)
  | .arc, (a : Arc), .arcEnd x y => ({ a with xEnd := x, yEnd := y }, true)
  | .arc, (a : Arc), .arcEndPt x y _ => ({ a with xEnd := x, yEnd := y }, true)
  | .conic, (k : Conic), .conicStart x y z => ({ k with X1 := x, Y1 := y, ZT := z }, true)
  | .conic, (k : Conic), .conicEnd x y => ({ k with X2 := x, Y2 := y }, true)
  | .conic, (k : Conic), .conicEndPt x y _ => ({ k with X2 := x, Y2 := y }, true)
  | .conic, (k : Conic), .conicParams a b c d e f => ({ k with A := a, B := b, C := c, D := d, E := e, F := f }, true)
  | .line, (l : Line), .lineStart x y z => ({ l with X1 := x, Y1 := y, Z1 := z }, true)
  | .line, (l : Line), .lineEnd x y z => ({ l with X2 := x, Y2 := y, Z2 := z }, true)
  | .extrusion, (t : TabCyl), .generatrixEnd x y z =>
      let t1 : TabCyl := { t with LX := x }
      let t2 : TabCyl := { t1 with LX := y }
      ({ t2 with LX := z }, true)
  | .revolution, (r : Revolution), .angles s t => ({ r with SA := s, TA := t }, true)
  | .transform, m, .root none => (m, false)
  | .transform, _, .root (some m') => (m', true)
  | .bound, (b : Bound), .preference p => ({ b with PREF := p.val }, true)
  | .bound, (b : Bound), .creation p => ({ b with CRTN := p.val }, true)
  | .subfigure, _, .figName n => (n.getD [], true)
  | .colour, (k : Colour), .rgb r g b =>
      if r < 0 ∨ r > 100 ∨ g < 0 ∨ g > 100 ∨ b < 0 ∨ b > 100 then (k, false)
      else ({ k with red := r, green := g, blue := b }, true)
  | .colour, (k : Colour), .colourName n => ({ k with cname := n.getD [] }, true)
  | .instance_, (i : SubInstance), .place x y z s => ({ i with X := x, Y := y, Z := z, S := s }, true)
  | .property, (p : Prop406), .propName none => (p, false)
  | .property, (p : Prop406), .propName (some n) => if p.form = 15 then ({ p with name := n }, true) else (p, false)

/-- A getter: every class but the property begins with `if( !m_valid || NULL == m_entity ) return false`; the property does not ask,
dll_entity406.cpp:96-108, and follows a NULL or stale pointer. `none` is that undefined behaviour. -/
def get {c : Cls} (h : Option (EntOf c)) (s : Slot c) : Option (Option (List Val)) :=
  match h with
  | some e => some (getEnt e s)
  | none => if c = .property then none else some none

/-- A setter, likewise; dll_entity406.cpp:111-123. The handle afterwards and the answer. -/
def set {c : Cls} (h : Option (EntOf c)) (k : SetCall c) : Option (Option (EntOf c) × Bool) :=
  match h with
  | some e => some (some (setEnt e k).1, (setEnt e k).2)
  | none => if c = .property then none else some (none, false)

/-- A history of setters on one handle. -/
def run {c : Cls} (h : Option (EntOf c)) : List (SetCall c) → Option (Option (EntOf c))
  | [] => some h
  | k :: ks => match set h k with
    | none => none
    | some (h', _) => run h' ks

end Iges.Handle
