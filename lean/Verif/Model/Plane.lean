import Verif.Model.Entities
/-
Entity 108: planes.  `NewEntity` does not make planes; the class has a public constructor and is an accepted surface of
entity 144.  Arithmetic is exact.
-/
namespace Iges

/-- Data of entity 108, entity108.h:78-132.  `PTR` is the DE number that is written or read for the bounding curve, 0 is
NULL. -/
structure Plane where
  form : Int
  A : ℚ
  B : ℚ
  C : ℚ
  D : ℚ
  PTR : Int
  X : ℚ
  Y : ℚ
  Z : ℚ
  Size : ℚ

namespace Plane

/-- The place of the curve in `format`, entity108.cpp:237-248: without a curve `FormatDEInt` makes eight columns without a
delimiter. -/
def emitPtr (E : PdEnv) (de : Int) (k : Plane) (e : Emit) : Rd Emit :=
  if k.PTR ≠ 0 then emitGroup E de [(.int k.PTR, E.pd)] e
  else
    match FormatDEInt 0 with
    | none => .fail
    | some t => Rd.lift (AddPDItem t e de E.rd) fun r => .val r.1

/-- `IGES_ENTITY_108::format`, entity108.cpp:154-300.  `Size` is closed by the parameter delimiter (274), whether optional
pointers follow or not.  An indeterminate `PTR`, see `Held`, is taken as NULL here. -/
def format (E : PdEnv) (de : Int) (k : Plane) (xs : List ExtraRef) (cs : List Str) (index : Int) : Rd (Str × Int) :=
  if k.form = 0 ∧ k.PTR ≠ 0 then .fail                                -- 156-160
  else if k.form ≠ 0 ∧ k.PTR = 0 then .fail                           -- 162-166
  else if k.A = 0 ∧ k.B = 0 ∧ k.C = 0 then .fail                      -- 176-180
  else if index < 1 ∨ index > 9999999 then .fail                      -- 182-186
  else do
    let e ← emitGroups E de (realGroups E.pd E.pd E.res [k.A, k.B, k.C, k.D]) ⟨preText E.pd [108], [], index⟩
    let e ← emitPtr E de k e
    let e ← emitGroups E de (realGroups E.pd E.pd E.res [k.X, k.Y, k.Z, k.Size]) e
    let e ← if xs = [] then .val e else formatExtraParams E de xs e
    formatComments cs e.fOut e.index

/-- The parameters of `IGES_ENTITY_108::readPD`, entity108.cpp:408-489. -/
def readParams (form : Int) (s : Src) (c : Cur) : Rd (Plane × Cur) := do
  let (A, c) ← s.real c
  let (B, c) ← s.real c
  let (C, c) ← s.real c
  let (D, c) ← s.real c
  Rd.need (¬ (A = 0 ∧ B = 0 ∧ C = 0))
  let (p, c) ← s.int c
  Rd.need (¬ (form = 0 ∧ p ≠ 0))
  Rd.need (¬ (form ≠ 0 ∧ p = 0))
  let (X, c) ← s.real c
  let (Y, c) ← s.real c
  let (Z, c) ← s.real c
  let (Size, c) ← s.real c
  pure (⟨form, A, B, C, D, p, X, Y, Z, Size⟩, c)

/-- `IGES_ENTITY_108::readPD`, entity108.cpp:384-507, with the form read from the directory entry. -/
def readPD (E : PdEnv) (form de pdata count : Int) (ls : List Str) : Rd (Plane × List Int × List Str) :=
  readPDWith E 108 de pdata count ls (readParams form)

/-- `IGES_ENTITY_108::rescale`, entity108.cpp:303-307. -/
def rescale (_ : ℚ) (k : Plane) : Plane := k

/-- What the member `PTR` holds: nothing yet (the constructor, entity108.cpp:42-61, does not set it), NULL, or the entity at
a position of the file. -/
inductive Held where
  | unset
  | null
  | curve (i : Nat)
  deriving DecidableEq

/-- What an entity of the file is for a plane that points to it. -/
inductive Shape where
  | other
  | openCurve
  | closedCurve
  deriving DecidableEq

/-- `IGES_ENTITY_108::associate`, entity108.cpp:75-151, without the attributes of the base class; `none` is the `false`
return.  A failing or duplicate `addReference` is left out: each plane adds itself once. -/
def associate (es : List Shape) (iPtr : Int) (p : Held) : Option Held :=
  if 1 < iPtr then                                                    -- 105
    match es[(iPtr / 2).toNat]? with                                  -- 107-117
    | some .closedCurve => some (.curve (iPtr / 2).toNat)
    | _ => none                                                       -- 110-134
  else some p

/-- `~IGES_ENTITY_108`, entity108.cpp:64-72, and the tests of `format` (156, 162): `false` is the use of an indeterminate
pointer. -/
def usable : Held → Bool
  | .unset => false
  | _ => true

/-- `IGES_ENTITY_108::isOrphaned`, entity108.cpp:326-334. -/
def isOrphaned (used independent : Bool) (form : Int) (p : Held) : Bool :=
  (!used && !independent) || (decide (form ≠ 0) && decide (p ≠ .null))

end Plane
end Iges
