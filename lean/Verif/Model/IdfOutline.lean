import Verif.Model.IdfText
import Verif.Model.IdfSeg
/-
Outlines in IDF files: `readOutlines`, `writeOutline` and the section of the board outline (idf/idf_outlines.cpp).

An outline is the list of its segments with ends and angle; numbers are rationals as in Model/IdfText.lean.  Where the code
asks for the winding of an outline, the segments are turned into the segments of Model/IdfSeg.lean (over the reals).
-/
namespace Iges.Idf

structure Pt where
  x : ℚ
  y : ℚ
  deriving DecidableEq

/-- The ends and the angle of an `IDF_SEGMENT`. -/
structure QSeg where
  start : Pt
  stop : Pt
  angle : ℚ
  deriving DecidableEq

/-- `angle < MIN_ANG && angle > -MIN_ANG` -/
def flat (a : ℚ) : Bool := decide (a < 1 / 100 ∧ a > -(1 / 100))

/-- `abs( angle ) - 360` is below `MIN_ANG` in size -/
def turn (a : ℚ) : Bool := decide (|a| - 360 < 1 / 100 ∧ |a| - 360 > -(1 / 100))

/-- `IDF_SEGMENT::IsCircle`, idf_common.cpp:1156-1164 -/
def QSeg.isCircle (s : QSeg) : Bool := turn s.angle

/-- The segment made from a record, idf_outlines.cpp:592-599 and the constructors idf_common.cpp:1042-1078 -/
def recSeg (a b : Pt) (ang : ℚ) : QSeg :=
  if flat ang then ⟨a, b, 0⟩
  else if turn ang then ⟨a, b, 360⟩
  else if ang > 1 / 100 ∨ ang < -(1 / 100) then ⟨a, b, ang⟩
  else ⟨a, b, 0⟩

noncomputable section

/-- The point over the reals. -/
def Pt.real (p : Pt) : P2 := ⟨p.x, p.y⟩

/-- The segment over the reals, as the constructors make it. -/
def QSeg.real (s : QSeg) : Seg := if s.angle = 0 then lineSeg s.start.real s.stop.real else arcSeg s.start.real s.stop.real s.angle false

/-- The outline made by adding the segments one by one. -/
def loopOf (l : List QSeg) : Loop := l.foldl (fun o s => (o.push s.real).1) Loop.empty

/-- `IsCCW` of the outline. -/
def ccwOf (l : List QSeg) : Bool := (loopOf l).isCCW

end

/-- Extraction of an `int` from a stream: white space, sign, digits; `none` is a set fail bit (no digits, or out of
range). -/
def scanInt (s : Str) : Option (ℤ × Str) :=
  let r := (takeSign (s.dropWhile isSpaceC)).2.2
  let ds := r.takeWhile isDigitC
  if ds = [] then none
  else
    let v : ℤ := if (takeSign (s.dropWhile isSpaceC)).1 then -(digitsVal ds : ℤ) else digitsVal ds
    if v < -2147483648 ∨ 2147483647 < v then none else some (v, r.dropWhile isDigitC)

/-- The local variables of `readOutlines`, idf_outlines.cpp:149-166: what is left in the stream `tstr`, which is used for all words,
the loop index (-1 before the first outline), the number of points, whether the outline is closed, the last point, the
outlines before the current one and the segments of the current one. -/
structure OutState where
  left : Str
  idx : ℤ
  npts : ℕ
  closed : Bool
  pre : Pt
  done : List (List QSeg)
  cur : List QSeg

def OutState.start : OutState := ⟨[], -1, 0, false, ⟨0, 0⟩, [], []⟩

/-- The outlines so far. -/
def OutState.loops (st : OutState) : List (List QSeg) := if st.idx = -1 then [] else st.done ++ [st.cur]

/-- The next word, not in quotes, read as a number from the stream, e.g. idf_outlines.cpp:404-445: value, what is left in the
stream, rest of the line. -/
def numTok (left s : Str) : Option (ℚ × Str × Str) :=
  match getWord s with
  | .word t q rest => if q then none else (scanNum (left ++ t)).map fun p => (p.1, p.2, rest)
  | _ => none

/-- A record with loop index `i`: a new outline begins if the index has changed, idf_outlines.cpp:257-402.  `ccw` is `IsCCW`. -/
def newLoop (single : Bool) (ccw : List QSeg → Bool) (st : OutState) (i : ℤ) : Option OutState :=
  if i = st.idx then (if st.idx = -1 then none else some st)
  else if 0 < st.npts ∧ st.closed = false then none                   -- 260-267
  else if i < 0 then none                                             -- 269-279
  else if st.idx = -1 then                                            -- 281-342
    if i = 0 ∨ (single = true ∧ i = 1) then some { st with idx := i, npts := 0, closed := false, cur := [] } else none
  else if single then none                                            -- 346-355
  else if i - st.idx ≠ 1 then none                                    -- 357-366
  else if (st.idx = 0 ∧ ccw st.cur = false) ∨
      (st.idx > 0 ∧ ccw st.cur = true ∧ (st.cur.head?.elim false QSeg.isCircle) = false) then none  -- 368-381
  else some { st with idx := i, npts := 0, closed := false, done := st.done ++ [st.cur], cur := [] }

/-- `IDF_POINT::Matches` with the distance 1e-5 -/
def Pt.near (p q : Pt) : Bool := decide ((p.x - q.x) * (p.x - q.x) + (p.y - q.y) * (p.y - q.y) ≤ 1 / 100000 * (1 / 100000))

/-- A point is added, idf_outlines.cpp:549-644. -/
def addPoint (st : OutState) (p : Pt) (ang : ℚ) : Option OutState :=
  if st.npts = 0 then                                                 -- 549-569
    if ang < -(1 / 100) ∨ ang > 1 / 100 then none else some { st with npts := 1, pre := p }
  else if st.closed then none                                         -- 573-584
  else
    let s := recSeg st.pre p ang
    if s.isCircle then                                                -- 608-628
      if st.cur ≠ [] then none
      else some { st with npts := st.npts + 1, closed := true, pre := p, cur := [s] }
    else                                                              -- 629-637
      some { st with npts := st.npts + 1, pre := p, cur := st.cur ++ [s],
                     closed := st.cur.head?.elim false fun f => p.near f.start }

/-- One line in `readOutlines`: an exception, the end of the section, the first line of the properties of a component, or the
state afterwards. -/
inductive OutStep where
  | error
  | finish
  | props
  | next (st : OutState)

/-- The body of the loop of `readOutlines`, idf_outlines.cpp:175-645.  Whether the line is a comment is not looked at. -/
def outlineLine (single comp : Bool) (ccw : List QSeg → Bool) (u : Unit) (v : Version) (st : OutState) (s : Str) : OutStep :=
  match getWord s with
  | .word t q r =>
    if q then .error                                                  -- 178-187
    else if 5 ≤ t.length ∧ compareToken ".END_" (t.take 5) = true then .finish  -- 190
    else
      match scanInt (st.left ++ t) with
      | none => if comp = true ∧ compareToken "PROP" t = true then .props else .error  -- 237-255
      | some (i, left) =>
        match newLoop single ccw st i with
        | none => .error
        | some st =>
          match numTok left r with
          | none => .error
          | some (x, left, r) =>
            match numTok left r with
            | none => .error
            | some (y, left, r) =>
              match numTok left r with
              | none => .error
              | some (ang, left, _) =>
                match unitFactor u v with                             -- 529-547
                | none => .error
                | some f =>
                  match addPoint { st with left := left } ⟨x * f, y * f⟩ ang with
                  | none => .error
                  | some st => .next st
  | _ => .error

/-- `BOARD_OUTLINE::readOutlines`, idf_outlines.cpp:146-656: the outlines and the lines from the end of the section on; `none` is
an exception.  The winding of the last outline is only the subject of a warning. -/
def readOutlines (single comp : Bool) (ccw : List QSeg → Bool) (u : Unit) (v : Version) :
    OutState → List Str → Option (List (List QSeg) × List Str)
  | _, [] => none
  | st, raw :: rest =>
    match fetchLine raw with
    | none => readOutlines single comp ccw u v st rest
    | some l =>
      match outlineLine single comp ccw u v st l.text with
      | .error => none
      | .finish => if st.idx ≠ -1 ∧ 0 < st.npts ∧ st.closed = false then none else some (st.loops, raw :: rest)
      | .props => some (st.loops, raw :: rest)
      | .next st => readOutlines single comp ccw u v st rest

/-- The outcome of writing: an exception, undefined behaviour, or a text. -/
inductive Written where
  | throws
  | undefined
  | text (s : Str)
  deriving DecidableEq

/-- A coordinate, in millimetres with five places or in thousandths of an inch with one. -/
def coordText (u : Unit) (x : ℚ) : Str := if u = .thou then fmtF 1 (x / thouToMM) else fmtF 5 x

/-- One record; the angle is a text. -/
def recText (u : Unit) (i : ℕ) (p : Pt) (ang : Str) : Str :=
  natStr i ++ ' ' :: (coordText u p.x ++ ' ' :: (coordText u p.y ++ ' ' :: (ang ++ ['\n'])))

/-- An angle: 0 for straight lines, otherwise three places. -/
def angText (a : ℚ) : Str := if flat a then ['0'] else fmtF 3 a

/-- The end points, with angles, of the segments after the first; the last one ends where the outline begins,
idf_outlines.cpp:868-870, 921-950. -/
def tailPts (first : Pt) : List QSeg → List (Pt × ℚ)
  | [] => []
  | [s] => [(first, s.angle)]
  | s :: l => (s.stop, s.angle) :: tailPts first l

/-- The points written in the given direction, 868-950, without the first one. -/
def forwardPts (f : QSeg) (l : List QSeg) : List (Pt × ℚ) := (f.stop, f.angle) :: tailPts f.start l

/-- The points written in the other direction, 755-865, without the first one: the start of the first segment, and the starts of the others from
the last to the second, whose start is set to the end of the first. -/
def backwardPts (f : QSeg) (l : List QSeg) : List (Pt × ℚ) :=
  (f.start, -f.angle) :: (match l with
    | [] => []
    | s :: l => (l.reverse.map fun t => (t.start, -t.angle)) ++ [(f.stop, -s.angle)])

/-- The records of an outline. -/
def recTexts (u : Unit) (i : ℕ) (p : Pt) (ps : List (Pt × ℚ)) : Str :=
  recText u i p ['0'] ++ ps.flatMap fun q => recText u i q.1 (angText q.2)

/-- `BOARD_OUTLINE::writeOutline`, idf_outlines.cpp:692-953.  For an outline without segments the code reads the front of an
empty list. -/
def writeOutline (single : Bool) (ccw : List QSeg → Bool) (u : Unit) (i : ℕ) (l : List QSeg) : Written :=
  match l with
  | [] => .undefined
  | [s] =>
    if s.isCircle then
      let i := if single then 0 else i
      .text (recText u i s.start ['0'] ++ recText u i s.stop "360".toList)
    else .throws
  | f :: r =>
    let i := if single then (if ccw (f :: r) then 0 else 1) else i    -- 736-744
    if (ccw (f :: r) = true ∧ 0 < i) ∨ (ccw (f :: r) = false ∧ i = 0) then
      .text (recTexts u i f.stop (backwardPts f r))
    else .text (recTexts u i f.start (forwardPts f r))

/-- `BOARD_OUTLINE::writeOutlines`, idf_outlines.cpp:955-973. -/
def writeLoops (single : Bool) (ccw : List QSeg → Bool) (u : Unit) : ℕ → List (List QSeg) → Written
  | _, [] => .text []
  | i, l :: ls =>
    match writeOutline single ccw u i l with
    | .throws => .throws
    | .undefined => .undefined
    | .text s =>
      match writeLoops single ccw u (i + 1) ls with
      | .throws => .throws
      | .undefined => .undefined
      | .text t => .text (s ++ t)

/-- The members of `BOARD_OUTLINE` that are in the file, without the comments. -/
structure BoardOln where
  owner : Owner
  thickness : ℚ
  outlines : List (List QSeg)

/-- The owner in a section header, idf_outlines.cpp:1060-1074: missing or unknown is nobody. -/
def headerOwner (s : Str) : Owner :=
  match getWord s with
  | .word t _ _ => (parseOwner t).getD .unowned
  | _ => .unowned

/-- `BOARD_OUTLINE::readData`, idf_outlines.cpp:1033-1223; `header` is the line `.BOARD_OUTLINE [owner]`, already read. -/
def readBoardOutline (ccw : List QSeg → Bool) (u : Unit) (v : Version) (header : Str) (input : List Str) : Option (BoardOln × List Str) :=
  match getWord header with
  | .word t q r =>
    if q = true ∨ compareToken ".BOARD_OUTLINE" t = false then none
    else
      let (l, rest) := nextLine input
      if l.text = [] ∨ l.comment then none                            -- 1080-1102
      else
        match getWord l.text with
        | .word t _ _ =>
          match readNum t with
          | none => none
          | some th =>
            match unitFactor u v with                                 -- 1128-1142
            | none => none
            | some f =>
              let th := th * f
              let th := if th = 0 then 16 / 10 else if th < 0 then -th else th  -- 1146-1160
              match readOutlines false false ccw u v .start rest with
              | none => none
              | some (ls, rest) =>
                let (l, rest) := nextLine rest
                if rest = [] ∨ l.text = [] ∨ l.comment then none      -- 1166-1190
                else if compareToken ".END_BOARD_OUTLINE" l.text = false then none
                else some (⟨headerOwner r, th, ls⟩, rest)
        | _ => none
  | _ => none

/-- The name of an owner, `writeOwner`, idf_outlines.cpp:673-690. -/
def ownerText : Owner → Str
  | .ecad => "ECAD".toList
  | .mcad => "MCAD".toList
  | .unowned => "UNOWNED".toList

/-- `BOARD_OUTLINE::writeData`, idf_outlines.cpp:1226-1245, without the comments. -/
def writeBoardOutline (ccw : List QSeg → Bool) (u : Unit) (b : BoardOln) : Written :=
  match writeLoops false ccw u 0 b.outlines with
  | .throws => .throws
  | .undefined => .undefined
  | .text s =>
    .text (".BOARD_OUTLINE ".toList ++ ownerText b.owner ++ '\n' :: (coordText u b.thickness ++ '\n' ::
      (s ++ ".END_BOARD_OUTLINE\n\n".toList)))

end Iges.Idf
