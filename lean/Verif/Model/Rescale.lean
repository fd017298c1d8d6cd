import Verif.Model.Entities
import Verif.Model.Nurbs
import Verif.Model.Globals
/-
Scaling of a whole model: `IGES::ConvertUnits`, `IGES::ChangeModelScale` (iges.cpp) and the `rescale`
functions of all entities.  Arithmetic on doubles is replaced by exact arithmetic on rationals.  A pointer
to an entity is a number; the heap maps numbers to entities.
-/
namespace Iges

/-- The data of an entity that matter for scaling.  `links t` stands for the entities of type `t` that hold
pointers, text or colours only: 102, 144, 180, 186, 308, 314, 406, 504, 508, 510 and 514.
Planes (108), whose lengths are not scaled, are in Model/Plane.lean.  `onSurface` is entity 142 with its pointer BPTR (NULL is `none`), `null` is `IGES_ENTITY_NULL`. -/
inductive EntData
  | arc (a : Arc)
  | conic (k : Conic)
  | line (l : Line)
  | revolution (r : Revolution)
  | tabCyl (t : TabCyl)
  | tx (t : Transform ℚ)
  | curve (d : Nurbs)
  | surf (d : NurbsSurf)
  | cylinder (k : Cylinder)
  | extrusion (k : Extrusion)
  | inst (k : SubInstance)
  | vertices (vs : List (Point ℚ))
  | onSurface (bptr : Option Nat)
  | links (t : Int)
  | null

/-- An entity on the heap: its data and the list `refs` of its users, iges_entity.h. -/
structure Node where
  data : EntData
  users : List Nat

/-- The heap of entities. -/
abbrev Heap := Nat → Node

/-- The loop of `IGES_ENTITY_126::rescale` over the first parents, entity126.cpp:317-357: `eps` is the list
collected so far, `ep` the next parent (`getFirstParentRef`, iges_entity.cpp:3065-3071).  `some true`: the
curve or a collected parent is the BPTR of the entity 142 found.  `none`: still looping. -/
def paramCurve (h : Heap) : Nat → List Nat → Option Nat → Option Bool
  | 0, _, _ => none
  | _ + 1, _, none => some false
  | n + 1, eps, some e =>
    match (h e).data with
    | .onSurface none => some false
    | .onSurface (some b) => some (eps.contains b)
    | _ => paramCurve h n (eps ++ [e]) (h e).users.head?

/-- `rescale` of each entity type: 100 (entity100.cpp:403-414), 104 (357-372), 110 (146-156), 120 (239-243),
122 (201-208), 124 (216-226), 126 (309-383, `param` is the result of the loop over the parents), 128
(356-389), 154 (160-169), 164 (220-224), 408 (209-216), 502 (166-181); the others (102: 390-394, 108: 303,
142: 290, 144: 389, 180: 290, 186: 281, 308: 230, 314: 246, 406: 269, 504: 273, 508: 351, 510: 243,
514: 226) do nothing; `none` is the failure of `IGES_ENTITY_NULL::rescale`, entityNULL.cpp:416-420. -/
def EntData.rescale (param : Bool) (sf : ℚ) : EntData → Option EntData
  | .arc a => some (.arc (a.rescale sf))
  | .conic k => some (.conic (k.rescale sf))
  | .line l => some (.line (l.rescale sf))
  | .revolution r => some (.revolution (r.rescale sf))
  | .tabCyl t => some (.tabCyl (t.rescale sf))
  | .tx t => some (.tx (txRescale sf t))
  | .curve d => some (.curve (d.rescale (!param) sf))
  | .surf d => some (.surf (d.rescale sf))
  | .cylinder k => some (.cylinder (k.rescale sf))
  | .extrusion k => some (.extrusion (k.rescale sf))
  | .inst k => some (.inst (k.rescale sf))
  | .vertices vs => some (.vertices (vs.map fun p => ⟨p.x * sf, p.y * sf, p.z * sf⟩))
  | .onSurface b => some (.onSurface b)
  | .links t => some (.links t)
  | .null => none

/-- `entities[i]->rescale(sf)`: the answer and the new heap; `none` is an endless loop over the parents.
Only entity 126 looks at its parents. -/
def rescaleAt (fuel : Nat) (sf : ℚ) (h : Heap) (i : Nat) : Option (Bool × Heap) :=
  let param := match (h i).data with
    | .curve _ => paramCurve h fuel [i] (h i).users.head?
    | _ => some false
  match param with
  | none => none
  | some p =>
    match (h i).data.rescale p sf with
    | none => some (false, h)
    | some d => some (true, Function.update h i { h i with data := d })

/-- The loop `if( !entities[i]->rescale(cf) ) return false`, iges.cpp:1813-1822 and 1849-1858. -/
def rescaleAll (fuel : Nat) (sf : ℚ) : Heap → List Nat → Option (Bool × Heap)
  | h, [] => some (true, h)
  | h, i :: is =>
    match rescaleAt fuel sf h i with
    | none => none
    | some (false, h) => some (false, h)
    | some (true, h) => rescaleAll fuel sf h is

/-- The part of a model that scaling concerns: global data, heap, entity list. -/
structure ScaleModel where
  globals : Globals
  heap : Heap
  entities : List Nat

/-- `IGES::ConvertUnits`, iges.cpp:1784-1827. -/
def ConvertUnits (fuel : Nat) (m : ScaleModel) (newUnit : Int) : Option (Bool × ScaleModel) :=
  if m.globals.unitsFlag = newUnit then some (true, m)
  else if m.globals.unitsFlag = 3 then some (false, m)
  else if newUnit = 3 then some (false, m)
  else
    let cf := unitMM m.globals.unitsFlag / unitMM newUnit
    if cf > 9999998 / 10000000 ∧ cf < 1000001 / 1000000 then some (true, m)
    else
      let g := { m.globals with minResolution := m.globals.minResolution * cf }
      match rescaleAll fuel cf m.heap m.entities with
      | none => none
      | some (false, h) => some (false, ⟨g, h, m.entities⟩)
      | some (true, h) => some (true, ⟨{ g with unitsFlag := newUnit }, h, m.entities⟩)

/-- `IGES::ChangeModelScale`, iges.cpp:1830-1861. -/
def ChangeModelScale (fuel : Nat) (m : ScaleModel) (aScale : ℚ) : Option (Bool × ScaleModel) :=
  if aScale < 6 / 10 ^ 8 then some (false, m)
  else if aScale > 17000000 then some (false, m)
  else
    let cf := aScale / m.globals.modelScale
    let g := { m.globals with minResolution := m.globals.minResolution * aScale, modelScale := aScale }
    match rescaleAll fuel cf m.heap m.entities with
    | none => none
    | some (b, h) => some (b, ⟨g, h, m.entities⟩)

/-- The scaling at the end of `IGES::Read`, iges.cpp:616-620: the answers of `rescale` are ignored. -/
def importScale (fuel : Nat) (sf : ℚ) : Heap → List Nat → Option Heap
  | h, [] => some h
  | h, i :: is =>
    match rescaleAt fuel sf h i with
    | none => none
    | some (_, h) => importScale fuel sf h is

end Iges
