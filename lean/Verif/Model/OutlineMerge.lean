import Verif.Model.OutlineOp
/-
Cutting an outline out of an outline, or joining it to the outline: `opOutline( MCAD_OUTLINE*, bool&, bool )`,
`SubOutline( MCAD_OUTLINE*, bool& )` and `AddOutline( MCAD_OUTLINE*, bool& )` of geom/mcad_outline.cpp.

Conventions as in Model/OutlineOp.lean: iterators are positions, segments are values.  The argument is another object: an
outline that is given to itself is not modelled.
-/
namespace Iges.Geo
open Classical

noncomputable section

/-- the inner loop over the segments of the argument, mcad_outline.cpp:1243-1304: `s` is the segment of `*this` at position
`i`, `j` the position of the first segment of the list.  The list `iList` is not emptied between two segments of the
argument: `acc` is what the earlier ones left, and those points are entered again. -/
def pairHits (s : Seg) (opsub : Bool) (i : ℕ) : List (Point ℝ) → ℕ → List Seg → Found (ℕ × ℕ)
  | _, _, [] => .points []
  | acc, j, t :: rest =>
    let h := intersections s t
    let acc := acc ++ h.pts
    if h.ret then
      if h.flag.fine = false then .bad                                                -- 1247-1257
      else
        match pairHits s opsub i acc (j + 1) rest with
        | .points l => .points (acc.map (fun p => (p, i, j)) ++ l)                    -- 1259-1273
        | r => r
    else if h.flag = .none then pairHits s opsub i acc (j + 1) rest
    else if opsub = true ∧ h.flag = .encircles then .apart                            -- 1279-1286
    else .bad                                                                         -- 1288-1296

/-- the loop over the segments of `*this`, mcad_outline.cpp:1233-1308 -/
def shapeHits (other : List Seg) (opsub : Bool) : ℕ → List Seg → Found (ℕ × ℕ)
  | _, [] => .points []
  | i, s :: rest =>
    match pairHits s opsub i [] 0 other with
    | .points l =>
      match shapeHits other opsub (i + 1) rest with
      | .points r => .points (l ++ r)
      | r => r
    | r => r

/-- whether a point is one of the ends of a segment, mcad_outline.cpp:1427-1428 and 1506-1507 -/
def isEnd (s : Seg) (p : Point ℝ) : Bool := PointMatches p s.start 1e-8 || PointMatches p s.stop 1e-8

/-- the flags `p1e` and `p2e`, mcad_outline.cpp:1381-1393 and 1460-1472 -/
def isEndAt (segs : List Seg) (i : ℕ) (p : Point ℝ) : Bool :=
  (segs[i]?.map fun s => s.kind ≠ .circle && isEnd s p).getD false

/-- one turn of the loop over the two points, mcad_outline.cpp:1423-1452 and 1502-1531: the segments, whether there is one
more, and whether it went well.  `Split` at one point gives exactly one new segment when it works. -/
def splitAt (segs : List Seg) (i : ℕ) (p : Point ℝ) : List Seg × Bool × Bool :=
  if (segs[i]?.map fun s => isEnd s p).getD false then (segs, false, true)
  else
    let r := splitOne segs i p
    (r.1, true, r.2)

/-- an outline is split at the two points, mcad_outline.cpp:1377-1454 and 1456-1533: the segments, the position of the
segment that belonged to the first point, and whether it went well -/
def splitBoth (segs : List Seg) (i j : ℕ) (p q : Point ℝ) : List Seg × ℕ × Bool :=
  if isEndAt segs i p = false ∧ isEndAt segs j q = false ∧ i = j then
    match segs[i]?.bind fun s => s.split [p, q] with
    | none => (segs, i, false)
    | some (s', l) => (segs.take i ++ s' :: l ++ segs.drop (i + 1), i, true)
  else
    let r := splitAt segs i p
    if r.2.2 = false then (r.1, i, false)
    else
      let j := if r.2.1 = true ∧ i < j then j + 1 else j
      let t := splitAt r.1 j q
      (t.1, if t.2.1 = true ∧ j < i then i + 1 else i, t.2.2)

/-- the position after `i`, going round a list of length `n` -/
def after (n i : ℕ) : ℕ := if i + 1 = n then 0 else i + 1

/-- the segment that starts at the point: the one at position `i` or one of the two that follow, mcad_outline.cpp:1546-1583
and 1597-1634 -/
def startingAt (segs : List Seg) (i : ℕ) (p : Point ℝ) : Option ℕ :=
  let starts (i : ℕ) : Bool := (segs[i]?.map fun s => PointMatches p s.start 1e-8).getD false
  let j := after segs.length i
  let k := after segs.length j
  if starts i then some i else if starts j then some j else if starts k then some k else none

/-- the segments from position `i` on, going round, that do not start at `q` are erased up to the first that does,
mcad_outline.cpp:1694-1718 and 1759-1783: the segments that remain and the position of that first one; `none` if nothing
remains -/
def eraseFrom (segs : List Seg) (i : ℕ) (q : Point ℝ) : Option (List Seg × ℕ) :=
  let keep (s : Seg) : Bool := !PointMatches s.start q 1e-8
  let rest := (segs.drop i).dropWhile keep
  if rest ≠ [] then some (segs.take i ++ rest, i)
  else
    let l := (segs.take i).dropWhile keep
    if l = [] then none else some (l, 0)

/-- the segments from position `i` on, going round, up to the first that starts at `q`, mcad_outline.cpp:1722-1751 and
1794-1825: these remain and the others are deleted; `none` if no segment starts at `q` -/
def keepTo (segs : List Seg) (i : ℕ) (q : Point ℝ) : Option (List Seg) :=
  let keep (s : Seg) : Bool := !PointMatches s.start q 1e-8
  let l := segs.drop i ++ segs.take i
  if l.dropWhile keep = [] then none else some (l.takeWhile keep)

/-- the rest of an outline after `eraseFrom` or `keepTo`, with the position that `lSegs.front()` has then -/
def trimThis (segs : List Seg) (i : ℕ) (q : Point ℝ) (inside : Bool) : Option (List Seg × ℕ) :=
  if inside then eraseFrom segs i q else (keepTo segs i q).map fun l => (l, 0)

/-- the rest of the argument, mcad_outline.cpp:1753-1826, with the position that `oSegs.front()` has then: the last one
after `keepTo` -/
def trimOther (segs : List Seg) (i : ℕ) (q : Point ℝ) (erase : Bool) : Option (List Seg × ℕ) :=
  if erase then eraseFrom segs i q else (keepTo segs i q).map fun l => (l, l.length - 1)

/-- a list read from position `i` on, going round -/
def roundFrom (segs : List Seg) (i : ℕ) : List Seg := segs.drop i ++ segs.take i

/-- what is put into the outline when the argument is subtracted, mcad_outline.cpp:1834-1867: from the segment before the
position `k` on, going round backwards, every segment turned round -/
def backwards (other : List Seg) (k : ℕ) : List Seg := (roundFrom other k).reverse.map Seg.reverse

/-- the search for the segment that starts where the outline ends, mcad_outline.cpp:1894-1900: the segments of the argument
in the order in which they are put in.  `none` if the search goes on for ever. -/
def startFrom (other : List Seg) (k : ℕ) (lastPt : Point ℝ) : Option (List Seg) :=
  let no (s : Seg) : Bool := !PointMatches s.getStart lastPt 1e-8
  let l := roundFrom other k
  if l.dropWhile no = [] then none else some (l.dropWhile no ++ l.takeWhile no)

/-- what `opOutline` leaves: both outlines, the result and the flag `error`.  When the result is true the argument has been
deleted and `other` means nothing. -/
structure MergeRes where
  out : Outline
  other : Outline
  ret : Bool
  error : Bool

/-- what can happen: the function returns, it never returns, or it uses a position outside a list -/
inductive Merge where
  | returns (r : MergeRes)
  | hangs
  | undefined

/-- the pieces are put together, mcad_outline.cpp:1828-1930: `l` and `m` are what remains of the two outlines, with the
positions of `lSegs.front()` and `oSegs.front()` -/
def stitch (o a : Outline) (opsub : Bool) (l m : List Seg × ℕ) : Merge :=
  if m.1 = [] then .undefined                                                         -- 1824: `--end()`
  else if opsub then
    .returns ⟨{ o with segs := l.1.take l.2 ++ backwards m.1 m.2 ++ l.1.drop l.2 }, a, true, false⟩
  else
    match l.1[before l.1.length l.2]? with
    | none => .undefined                                                              -- 1884: `--end()`
    | some e =>
      match startFrom m.1 m.2 e.getEnd with
      | none => .hangs
      | some r => .returns ⟨{ o with segs := l.1.take l.2 ++ r ++ l.1.drop l.2 }, a, true, false⟩

/-- the trimming, mcad_outline.cpp:1686-1930: `i` and `j` are the positions of the segments that start at the first point,
`q` is the second point -/
def trim (o a : Outline) (opsub : Bool) (i j : ℕ) (q : Point ℝ) (in0 in1 : Bool) : Merge :=
  match trimThis o.segs i q in0 with
  | none => .returns ⟨{ o with segs := [] }, a, false, true⟩
  | some l =>
    match trimOther a.segs j q (if opsub then !in1 else in1) with
    | none => .returns ⟨{ o with segs := l.1 }, { a with segs := [] }, false, true⟩
    | some m => stitch o a opsub l m

/-- the tests whether the outlines overlap, mcad_outline.cpp:1535-1668: `o` and `a` have been split, `i` and `j` are the
positions of the segments of the first point -/
def overlap (o a : Outline) (opsub : Bool) (i j : ℕ) (p q : Point ℝ) : Merge :=
  match startingAt o.segs i p with
  | none => .returns ⟨o, a, false, false⟩                                             -- 1575-1581: `error` is not set
  | some i =>
    let t := (o.segs[i]?.bind Seg.midpoint).getD origin
    match isInside a t with
    | none => .returns ⟨o, a, false, true⟩
    | some in0 =>
      match startingAt a.segs j p with
      | none => .returns ⟨o, a, false, false⟩                                         -- 1626-1632
      | some j =>
        match isInside o ((a.segs[j]?.bind Seg.midpoint).getD t) with
        | none => .returns ⟨o, a, false, true⟩
        | some in1 =>
          if in0 = in1 then .returns ⟨o, a, false, false⟩                             -- 1659-1667
          else trim o a opsub i j q in0 in1

/-- `opOutline( MCAD_OUTLINE*, bool&, bool )`, mcad_outline.cpp:1143-1934.  `none` is the NULL pointer; then `other` is the
empty outline. -/
def opShape (o : Outline) (a : Option Outline) (opsub : Bool) : Merge :=
  let o := { o with boxOk := false }
  if o.closed = false then .returns ⟨o, a.getD .new, false, true⟩                     -- 1182-1191
  else
    match a with
    | none => .returns ⟨o, .new, false, true⟩                                         -- 1193-1202
    | some a =>
      if a.closed = false then .returns ⟨o, a, false, true⟩                           -- 1204-1213
      else
        match shapeHits a.segs opsub 0 o.segs with
        | .bad => .returns ⟨o, a, false, true⟩
        | .apart => .returns ⟨o, a, false, false⟩
        | .points hits =>
          match distinct [] hits with
          | [] => .returns ⟨o, a, false, false⟩                                       -- 1317-1318
          | [p, q] =>
            let s := splitBoth o.segs p.2.1 q.2.1 p.1 q.1
            let o := { o with segs := s.1 }
            if s.2.2 = false then .returns ⟨o, a, false, true⟩
            else
              let t := splitBoth a.segs p.2.2 q.2.2 p.1 q.1
              let a := { a with segs := t.1 }
              if t.2.2 = false then .returns ⟨o, a, false, true⟩
              else overlap o a opsub s.2.1 t.2.1 p.1 q.1
          | _ => .returns ⟨o, a, false, true⟩                                         -- 1365-1375

/-- `SubOutline( MCAD_OUTLINE*, bool& )`, mcad_outline.cpp:1986-2004 -/
def subShape (o : Outline) (a : Option Outline) : Merge := opShape o a true

/-- `AddOutline( MCAD_OUTLINE*, bool& )`, mcad_outline.cpp:1920-1938 -/
def addShape (o : Outline) (a : Option Outline) : Merge := opShape o a false

end
end Iges.Geo
