import Verif.Model.Geom

/-!
Composite curves (`/repo/src/entities/entity102.cpp`): the list of segments as `AddSegment` and the
destruction of segments change it, and the tests made when it is read.
-/

namespace Iges.Composite

/-- What a composite curve asks of a segment: its identity, its type, `GetStartPoint( p, true )`,
`GetEndPoint( p, true )` (`none`: the call returns false) and `GetNSegments()`. -/
structure Seg where
  id : Nat
  etype : Int
  start : Option (Point ℝ)
  stop : Option (Point ℝ)
  nseg : Nat

/-- `IGES_ENTITY_102::GetStartPoint`, entity102.cpp:610-624, for a curve without transform. -/
def GetStartPoint (cs : List Seg) : Option (Point ℝ) := cs.head?.bind (·.start)

/-- `IGES_ENTITY_102::GetEndPoint`, entity102.cpp:627-641, for a curve without transform. -/
def GetEndPoint (cs : List Seg) : Option (Point ℝ) := cs.getLast?.bind (·.stop)

/-- `IGES_ENTITY_102::IsClosed`, entity102.cpp:650-697; `res` is the model's resolution, 0.001 without
a model. -/
noncomputable def IsClosed (res : ℝ) (cs : List Seg) : Bool :=
  match cs.head?, cs.getLast? with
  | some f, some l =>
    if cs.length = 1 ∧ f.etype ≠ 100 then false                      -- 660-661
    else
      match f.start, l.stop with
      | some p1, some p2 => if cs.any (fun s => s.nseg > 0) then PointMatches p1 p2 res else false
      | _, _ => false                                                -- 666-671
  | _, _ => false                                                    -- 652-653

/-- `IGES_ENTITY_102::AddSegment`, entity102.cpp:700-749, and what it returns.  `refuses` says that the
segment refuses the reference.  A segment that is already there is not added again, and `true` is
returned. -/
noncomputable def AddSegment (res : ℝ) (cs : List Seg) (s : Seg) (refuses : Bool) : List Seg × Bool :=
  if s.etype = 102 then (cs, false)                                  -- 708-712
  else if cs ≠ [] ∧ IsClosed res cs then (cs, false)                 -- 714-718
  else if refuses then (cs, false)                                   -- 722-726
  else if s.id ∈ cs.map (·.id) then (cs, true)                       -- 728
  else (cs ++ [s], true)                                             -- 736

/-- `IGES_ENTITY_102::unlink`, entity102.cpp:353-400: the segment that is destroyed leaves the list; if it
is not at one of the ends, all others leave it too. -/
def unlink (cs : List Seg) (d : Nat) : List Seg :=
  match cs.findIdx? (fun s => s.id = d) with
  | none => cs
  | some i => if i ≠ 0 ∧ i ≠ cs.length - 1 then [] else cs.eraseIdx i

/-- The calls. -/
inductive Call where
  | add (s : Seg) (refuses : Bool)
  | destroyed (d : Nat)

noncomputable def step (res : ℝ) (cs : List Seg) : Call → List Seg
  | .add s r => (AddSegment res cs s r).1
  | .destroyed d => unlink cs d

noncomputable def runFrom (res : ℝ) : List Seg → List Call → List Seg
  | cs, [] => cs
  | cs, c :: l => runFrom res (step res cs c) l

/-! ### Reading -/

/-- The types of `IGES_ENTITY_102::associate`, entity102.cpp:210-211. -/
def typeOK (t : Int) : Bool :=
  t = 100 || t = 104 || t = 110 || t = 112 || t = 116 || t = 126 || t = 132 || t = 106

/-- The loop of `IGES_ENTITY_102::associate`, entity102.cpp:206-289.  `n`: the number of pointers in the
file; `prev`: the previous segment, if any; the result is `ok`.  The comparison of the end points
(262-281) only prints a message. -/
def checks (n : Nat) : Bool → Option Seg → List Seg → Bool
  | ok, _, [] => ok
  | ok, prev, s :: l =>
    let ok := if typeOK s.etype then ok else false                     -- 210-216
    let ok :=
      match prev with
      | none => ok
      | some p =>
        let ok := if (s.etype = 116 ∨ s.etype = 132) ∧ p.etype = s.etype ∧ n ≠ 2 then false else ok  -- 228-236
        if s.start.isSome ∧ p.stop.isSome then ok else false           -- 255-260
    checks n ok (some s) l

/-- The verdict of `IGES_ENTITY_102::associate` on segments that could be linked, entity102.cpp:180-298. -/
def readOk (n : Nat) (cs : List Seg) : Bool :=
  let ok := checks n true none cs
  match cs with
  | [s] => if s.etype = 116 ∨ s.etype = 132 then false else ok         -- 291-295
  | _ => ok

end Iges.Composite
