import Verif.Model.Outline
/-
Cutting a circle or another outline out of an outline, or joining it to the outline: `opOutline`, `SubOutline`,
`AddOutline` and `AddCutout` of geom/mcad_outline.cpp.

Iterators of the list of segments are positions.  Inserting after a position moves the later positions up.  As in
Model/Outline.lean a segment is a value and the list of error messages is left out.  Segments that are deleted by the
code are the ones that no longer appear; ownership is treated in Model/Wrap.lean.
-/
namespace Iges.Geo
open Classical

noncomputable section

/-- the state of the loop over the segments, mcad_outline.cpp:654-714: the points found with the position of the segment,
or one of the early exits: `apart` returns false without an error, `bad` with one -/
inductive Found (α : Type) where
  | points (l : List (Point ℝ × α))
  | apart
  | bad

/-- the flags that are no reason to give up, mcad_outline.cpp:661-662 and 1247-1248 -/
def Flag.fine (f : Flag) : Bool := f = .none ∨ f = .endpoint ∨ f = .tangent

/-- the points of the outline on the circle, mcad_outline.cpp:647-714; `i` is the position of the first segment -/
def circleHits (c : Seg) (opsub : Bool) : ℕ → List Seg → Found ℕ
  | _, [] => .points []
  | i, s :: rest =>
    let h := intersections s c
    if h.ret then
      if h.flag.fine = false then .bad                                                -- 661-671
      else
        match circleHits c opsub (i + 1) rest with
        | .points l => .points (h.pts.map (fun p => (p, i)) ++ l)                     -- 673-687
        | r => r
    else if h.flag = .none then circleHits c opsub (i + 1) rest
    else if opsub = true ∧ h.flag = .encircles then .apart                            -- 693-700
    else .bad                                                                         -- 702-709

/-- the loop over the intersections, mcad_outline.cpp:733-768 and 1326-1363: the points that match no earlier one -/
def distinct {α : Type} : List (Point ℝ × α) → List (Point ℝ × α) → List (Point ℝ × α)
  | acc, [] => acc
  | acc, x :: rest =>
    if acc.any fun y => PointMatches y.1 x.1 1e-8 then distinct acc rest else distinct (acc ++ [x]) rest

/-- what an operation leaves: the outline, the result and the flag `error` -/
structure OpRes where
  out : Outline
  ret : Bool
  error : Bool

/-- whether a point is an end of one of the segments in which the outline meets the circle, mcad_outline.cpp:786-815 -/
def isEndOf (segs : List Seg) (hits : List (Point ℝ × ℕ)) (p : Point ℝ) : Bool :=
  hits.any fun x =>
    match segs[x.2]? with
    | none => false
    | some s => s.kind ≠ .circle ∧ (PointMatches p s.getStart 1e-8 ∨ PointMatches p s.getEnd 1e-8)

/-- a segment is split at one point and the new segment inserted after it, mcad_outline.cpp:1030-1077: the list, and
whether it went well.  When `Split` gives another number of segments the segment has been shortened nevertheless. -/
def splitOne (segs : List Seg) (i : ℕ) (p : Point ℝ) : List Seg × Bool :=
  match segs[i]?.bind fun s => s.split [p] with
  | none => (segs, false)
  | some (s', [t]) => (segs.take i ++ s' :: t :: segs.drop (i + 1), true)
  | some (s', _) => (segs.set i s', false)

/-- the erasing loop, mcad_outline.cpp:1107-1135: the segments that remain when those after position `i` are erased,
going round, up to the one that starts at `p`, and the new segment is put before that one.  `none` if everything has been
erased. -/
def eraseTo (segs : List Seg) (i : ℕ) (p : Point ℝ) (sp : Seg) : Option (List Seg) :=
  let keep (s : Seg) : Bool := !PointMatches s.start p 1e-8
  let before := segs.take (i + 1)
  let after := (segs.drop (i + 1)).dropWhile keep
  if after ≠ [] then some (before ++ sp :: after)
  else
    let before := before.dropWhile keep
    if before = [] then none else some (sp :: before)

/-- the position before `i`, going round a list of length `n`, mcad_outline.cpp:1084-1090 -/
def before (n i : ℕ) : ℕ := if i = 0 then n - 1 else i - 1

/-- the end of `opOutline` after the splits, mcad_outline.cpp:1079-1135 -/
def joinArc (o : Outline) (segs : List Seg) (i : ℕ) (p q : Point ℝ) (sp : Seg) : OpRes :=
  let ends (i : ℕ) : Bool := (segs[i]?.map fun s => PointMatches s.stop p 1e-8).getD false
  let i := if ends i then i else before segs.length i
  if ends i = false then ⟨{ o with segs := segs }, false, true⟩                       -- 1092-1102
  else
    match eraseTo segs i q sp with
    | none => ⟨{ o with segs := [] }, false, true⟩                                    -- 1113-1123
    | some segs => ⟨{ o with segs := segs }, true, false⟩

/-- the splits at single points, mcad_outline.cpp:1028-1077: position, point and whether it is an end, for both points -/
def splitAndJoin (o : Outline) (i j : ℕ) (p q : Point ℝ) (pEnd qEnd : Bool) (sp : Seg) : OpRes :=
  let r := if pEnd then (o.segs, true) else splitOne o.segs i p
  if r.2 = false then ⟨{ o with segs := r.1 }, false, true⟩
  else
    let j := if pEnd = false ∧ i < j then j + 1 else j
    let t := if qEnd then (r.1, true) else splitOne r.1 j q
    if t.2 = false then ⟨{ o with segs := t.1 }, false, true⟩
    else
      let i := if qEnd = false ∧ j < i then i + 1 else i
      joinArc o t.1 i p q sp

/-- `opOutline` from line 838 on: the outline is changed between the points `p` and `q` (with the positions of their
segments and whether they are ends), mcad_outline.cpp:892-1135 -/
def changeOutline (o : Outline) (c : Seg) (opsub : Bool) (p q : Point ℝ × ℕ) (pEnd qEnd : Bool) : OpRes :=
  let sp := setArc c.center p.1 q.1 opsub
  if sp.2 = false then ⟨o, false, true⟩                                               -- 935-951
  else if (o.segs.head?.map Seg.kind) = some .circle then                             -- 953-984
    match o.segs[p.2]?.bind fun s => s.split [p.1, q.1] with
    | none => ⟨o, false, true⟩
    | some (s', _) => ⟨{ o with segs := o.segs.set p.2 s' ++ [sp.1] }, true, false⟩
  else if pEnd = false ∧ qEnd = false ∧ p.2 = q.2 then                                -- 986-1026
    match o.segs[p.2]?.bind fun s => s.split [p.1, q.1] with
    | none => ⟨o, false, true⟩
    | some (s', [_, t]) =>
      ⟨{ o with segs := o.segs.take p.2 ++ s' :: sp.1 :: t :: o.segs.drop (p.2 + 1) }, true, false⟩
    | some (s', _) => ⟨{ o with segs := o.segs.set p.2 s' }, false, true⟩
  else splitAndJoin o p.2 q.2 p.1 q.1 pEnd qEnd sp.1

/-- the middle `a3` of the directions of two points of a circle, counterclockwise from the first to the second one,
mcad_outline.cpp:821-830 -/
def midAngle (c p q : Point ℝ) : ℝ :=
  let a1 := atan2 (p.y - c.y) (p.x - c.x)
  let a2 := atan2 (q.y - c.y) (q.x - c.x)
  (a1 + if a2 < a1 then a2 + 2 * Real.pi else a2) / 2

/-- the point `pX` of the circle in a direction, mcad_outline.cpp:832-834 -/
def pointAt (c : Seg) (a : ℝ) : Point ℝ := ⟨c.center.x + c.radius * Real.cos a, c.center.y + c.radius * Real.sin a, 0⟩

/-- `opOutline( MCAD_SEGMENT*, bool&, bool )`, mcad_outline.cpp:611-1136: subtract (`opsub`) or add a circle.  `none` is the
NULL pointer. -/
def opCircle (o : Outline) (a : Option Seg) (opsub : Bool) : OpRes :=
  let o := { o with boxOk := false }
  if o.closed = false then ⟨o, false, true⟩                                           -- 615-624
  else
    match a with
    | none => ⟨o, false, true⟩                                                        -- 626-635
    | some c =>
      if c.kind ≠ .circle then ⟨o, false, true⟩                                       -- 637-646
      else
        match circleHits c opsub 0 o.segs with
        | .bad => ⟨o, false, true⟩
        | .apart => ⟨o, false, false⟩
        | .points hits =>
          match distinct [] hits with
          | [] => ⟨o, false, false⟩                                                   -- 723-724
          | [p, q] =>
            let m := midAngle c.center p.1 q.1
            match isInside o (pointAt c m), isInside o (pointAt c (m + Real.pi)) with
            | some isIn, some isIn2 =>
              if isIn2 = isIn then ⟨o, false, false⟩                                  -- 866-882: `error` is not set
              else
                let e1 := isEndOf o.segs hits p.1
                let e2 := isEndOf o.segs hits q.1
                if isIn then changeOutline o c opsub q p e2 e1 else changeOutline o c opsub p q e1 e2
            | _, _ => ⟨o, false, true⟩
          | _ => ⟨o, false, true⟩                                                     -- 770-781

/-- `SubOutline( MCAD_SEGMENT*, bool& )`, mcad_outline.cpp:1962-1981 -/
def subCircle (o : Outline) (a : Option Seg) : OpRes := opCircle o a true

/-- `AddOutline( MCAD_SEGMENT*, bool& )`, mcad_outline.cpp:1938-1957 -/
def addCircle (o : Outline) (a : Option Seg) : OpRes := opCircle o a false

end
end Iges.Geo
