import Verif.Model.Str

/-!
The attributes every entity has: line font, level, view, label association, colour, line weight,
label, subscript, visibility, dependency, use, hierarchy
(`/repo/src/entities/iges_entity.cpp:1928-2549`, `3038-3062` and the overrides in `entity*.cpp`).
-/

namespace Iges.Attr

/-- The members (`/repo/src/include/core/iges_entity.h:49-90`): a number and, where there is one, the
pointer to an entity. -/
structure Attr where
  font : Int := 0
  pFont : Option Nat := none
  level : Int := 0
  pLevel : Option Nat := none
  view : Int := 0
  pView : Option Nat := none
  labelAssoc : Int := 0
  pLabelAssoc : Option Nat := none
  color : Int := 0
  pColor : Option Nat := none
  weight : Int := 0
  label : Str := []
  subscript : Int := 0
  visible : Bool := true
  depends : Int := 0
  use : Int := 0
  hier : Int := 0

/-- What `addReference` of the argument answers. -/
inductive Reply where
  | accepted
  | duplicate
  | refused

/-- An entity given to a setter: its identity, type, form and its answer to `addReference`. -/
structure Child where
  id : Nat
  etype : Int
  form : Int
  reply : Reply

/-- The setters. -/
inductive Setter where
  | font (n : Int)
  | fontEnt (c : Option Child)
  | level (n : Int)
  | levelEnt (c : Option Child)
  | view (c : Option Child)
  | labelAssoc (c : Option Child)
  | color (n : Int)
  | colorEnt (c : Option Child)
  | weight (n : Int)
  | label (l : Str)
  | subscript (n : Int)
  | visible (b : Bool)
  | depends (n : Int)
  | use (n : Int)
  | hier (n : Int)

/-- What the last part of the setters with an entity has in common: `good` is the test of type and
form; the pointer is stored if the reference was new and accepted. -/
def attach (c : Child) (good : Bool) : Option Nat × Bool :=
  if good then
    match c.reply with
    | .accepted => (some c.id, true)
    | .duplicate => (none, false)
    | .refused => (none, false)
  else (none, false)

/-- The setters of `IGES_ENTITY`; `grad` is the `maxLinewidthGrad` of the model, if the entity has one.
The effect on the entity that was attached before and on the new one is the subject of
`Verif.Model.Graph`. -/
def base (grad : Option Int) (a : Attr) : Setter → Attr × Bool
  | .font n =>                                                        -- 1959-1976
    if n < 0 ∨ n ≥ 6 then ({ a with pFont := none }, false)
    else ({ a with pFont := none, font := n }, true)
  | .fontEnt none => ({ a with font := 0, pFont := none }, true)      -- 1979-1990
  | .fontEnt (some c) =>                                              -- 1992-2024
    let r := attach c (c.etype = 304)
    ({ a with font := 0, pFont := r.1 }, r.2)
  | .level n =>                                                       -- 2061-2078
    if n < 0 then ({ a with pLevel := none }, false)
    else ({ a with pLevel := none, level := n }, true)
  | .levelEnt none => ({ a with level := 0, pLevel := none }, true)   -- 2081-2092
  | .levelEnt (some c) =>                                             -- 2094-2126
    let r := attach c (c.etype = 406 ∧ c.form = 1)
    ({ a with level := 0, pLevel := r.1 }, r.2)
  | .view none => ({ a with view := 0, pView := none }, true)         -- 2143-2154
  | .view (some c) =>                                                 -- 2156-2188
    let r := attach c (¬ (c.etype ≠ 410 ∨ c.etype ≠ 402
      ∨ (c.etype = 402 ∧ c.form ≠ 3 ∧ c.form ≠ 4 ∧ c.form ≠ 19)))
    ({ a with view := 0, pView := r.1 }, r.2)
  | .labelAssoc none => ({ a with labelAssoc := 0, pLabelAssoc := none }, true)  -- 2279-2290
  | .labelAssoc (some c) =>                                           -- 2292-2324
    let r := attach c (c.etype = 402 ∧ c.form = 5)
    ({ a with labelAssoc := 0, pLabelAssoc := r.1 }, r.2)
  | .color n =>                                                       -- 2365-2383
    if n < 0 ∨ n ≥ 9 then ({ a with pColor := none }, false)
    else ({ a with pColor := none, color := n }, true)
  | .colorEnt none => ({ a with color := 0, pColor := none }, true)   -- 2386-2397
  | .colorEnt (some c) =>                                             -- 2399-2430
    let r := attach c (c.etype = 314)
    ({ a with color := 0, pColor := r.1 }, r.2)
  | .weight n =>                                                      -- 2440-2468
    if n < 0 then (a, false)
    else
      match grad with
      | none => (a, false)
      | some g => if n > g then ({ a with weight := g }, true) else ({ a with weight := n }, true)
  | .label l => ({ a with label := l.take 8 }, true)                  -- 2471-2482
  | .subscript n =>                                                   -- 2498-2507
    if n ≥ 0 ∧ n ≤ 99999999 then ({ a with subscript := n }, true) else (a, false)
  | .visible b => ({ a with visible := b }, true)                     -- 2517-2521
  | .depends n => ({ a with depends := n }, true)                     -- 3038-3042
  | .use n => ({ a with use := n }, true)                             -- 3045-3049
  | .hier n => ({ a with hier := n }, true)                           -- 3052-3062

/-- What an override does. -/
inductive Mode where
  /-- the version of `IGES_ENTITY` -/
  | base
  /-- nothing, and `true` is returned -/
  | ignored
  /-- nothing, and `false` is returned -/
  | refused
  deriving DecidableEq

/-- The overrides (`entity100.cpp:395`, `entity104.cpp:349`, `entity108.cpp:523-571`,
`entity110.cpp:308`, `entity120.cpp:414`, `entity122.cpp:379`, `entity124.cpp:385-471`,
`entity126.cpp:764`, `entity128.cpp:830`, `entity142.cpp:529-544`, `entity144.cpp:643-658`,
`entity154.cpp:420-436`, `entity164.cpp:433-449`, `entity180.cpp:528-550`,
`entity308.cpp:450-472`, `entity314.cpp:414-524`, `entity406.cpp:438-490`,
`entity502.cpp:346-435`, `entity504.cpp:537-843`, `entity508.cpp:680-703`,
`entity510.cpp:476-527`, `entity514.cpp:442-481`, `entityNULL.cpp:325-413`); type 0 is the placeholder
class.  102, 308, 408, 508 override `SetHierarchy` with the same effect as the base version. -/
def mode (t : Nat) : Setter → Mode
  | .font _ | .fontEnt _ =>
    if t = 108 ∨ t = 124 ∨ t = 314 ∨ t = 406 then .ignored
    else if t = 502 ∨ t = 504 ∨ t = 510 ∨ t = 514 ∨ t = 0 then .refused else .base
  | .level _ | .levelEnt _ =>
    if t = 124 ∨ t = 314 then .ignored else if t = 0 then .refused else .base
  | .view _ =>
    if t = 124 ∨ t = 314 ∨ t = 406 then .ignored
    else if t = 502 ∨ t = 504 ∨ t = 508 ∨ t = 510 ∨ t = 514 ∨ t = 0 then .refused else .base
  | .labelAssoc _ =>
    if t = 124 ∨ t = 314 ∨ t = 406 then .ignored else if t = 0 then .refused else .base
  | .color n =>
    if t = 314 then (if n > 0 ∧ n < 9 then .base else .refused)
    else if t = 124 ∨ t = 406 then .ignored
    else if t = 502 ∨ t = 504 ∨ t = 510 ∨ t = 514 ∨ t = 0 then .refused else .base
  | .colorEnt _ =>
    if t = 124 ∨ t = 314 ∨ t = 406 then .ignored
    else if t = 502 ∨ t = 504 ∨ t = 510 ∨ t = 514 ∨ t = 0 then .refused else .base
  | .weight _ =>
    if t = 108 ∨ t = 124 ∨ t = 314 ∨ t = 406 then .ignored
    else if t = 502 ∨ t = 504 ∨ t = 510 ∨ t = 514 ∨ t = 0 then .refused else .base
  | .label _ => .base
  | .subscript _ => .base
  | .visible _ => if t = 124 ∨ t = 308 ∨ t = 314 then .ignored else .base
  | .depends n =>
    if t = 108 ∨ t = 124 ∨ t = 314 then .ignored
    else if t = 502 ∨ t = 504 ∨ t = 508 ∨ t = 510 then (if n = 1 then .ignored else .refused)
    else if t = 0 then .refused else .base
  | .use n =>
    if t = 108 ∨ t = 314 then .ignored
    else if t = 142 ∨ t = 144 ∨ t = 154 ∨ t = 164 ∨ t = 180 then (if n = 0 then .ignored else .refused)
    else if t = 308 then (if n = 2 then .ignored else .refused)
    else if t = 0 then .refused else .base
  | .hier _ =>
    if t = 100 ∨ t = 104 ∨ t = 108 ∨ t = 110 ∨ t = 120 ∨ t = 122 ∨ t = 124 ∨ t = 126 ∨ t = 128
        ∨ t = 142 ∨ t = 144 ∨ t = 154 ∨ t = 164 ∨ t = 314 ∨ t = 502 ∨ t = 504 then .ignored
    else if t = 0 then .refused else .base

/-- A setter called on an entity of type `t`.  (The colour number of a 314 is set without releasing
an attached colour entity, `entity314.cpp:493-503`; a 314 never has one.) -/
def set (t : Nat) (grad : Option Int) (a : Attr) (s : Setter) : Attr × Bool :=
  match mode t s with
  | .base => base grad a s
  | .ignored => (a, true)
  | .refused => (a, false)

/-! ### The getters: what is returned, and the value stored in the argument -/

/-- 1928-1944 -/
def GetLineFontPattern (a : Attr) : Bool × Int :=
  if a.pFont.isSome then (false, 0)
  else if a.font < 0 ∨ a.font ≥ 6 then (false, 0)
  else (true, a.font)

/-- 1947-1956 -/
def GetLineFontPatternEntity (a : Attr) : Bool × Option Nat :=
  if a.pFont.isSome then (true, a.pFont) else (false, none)

/-- 2027-2044 -/
def GetLevel (a : Attr) : Bool × Int :=
  if a.pLevel.isSome then (false, 0) else if a.level < 0 then (false, 0) else (true, a.level)

/-- 2047-2058 -/
def GetLevelEntity (a : Attr) : Bool × Option Nat :=
  if a.pLevel.isSome then (true, a.pLevel) else (false, none)

/-- 2129-2140 -/
def GetView (a : Attr) : Bool × Option Nat := if a.pView.isSome then (true, a.pView) else (false, none)

/-- 2260-2276; the test of the highest bit is a test of the sign. -/
def GetLabelAssoc (a : Attr) : Bool × Option Nat :=
  if ¬ a.labelAssoc < 0 then (true, none)
  else if a.pLabelAssoc.isNone then (false, none) else (true, a.pLabelAssoc)

/-- 2327-2337 -/
def GetColor (a : Attr) : Bool × Int := if a.color < 0 then (false, 0) else (true, a.color)

/-- 2340-2362 -/
def GetColorEntity (a : Attr) : Bool × Option Nat :=
  if ¬ a.color < 0 then (if a.color = 0 then (true, none) else (false, none))
  else if a.pColor.isNone then (false, none) else (true, a.pColor)

end Iges.Attr
