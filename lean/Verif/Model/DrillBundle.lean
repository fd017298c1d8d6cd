import Verif.Model.Cutout
import Verif.Model.IdfSeg
/-
The board that the converter from IDF makes: outline, cutouts and drilled holes (idf/idf2igs.cpp, `MakeBoard` up to line 344,
`convertOln`, `convertDrills`, `mergeDrills` and `bundleDrills`).

Simplifications: a `double` is a real number, as in Model/Segment.lean.  Segments and outlines are values; what the wrappers
`DLL_MCAD_SEGMENT` and `DLL_MCAD_OUTLINE` add is the deletion of an object that a wrapper still holds at the end of its life
(dllapi/dll_mcad_outline.cpp:51-60), which is modelled where it happens.  Messages and leaks are left out.
-/
namespace Iges.Idf
open Classical Iges.Geo

noncomputable section

/-- a point of the drawing plane, as in `pts[0].z = 0` of idf2igs.cpp:426-464 -/
def P2.flat (p : P2) : Point ℝ := ⟨p.x, p.y, 0⟩

/-- one segment in `convertOln`, idf2igs.cpp:424-467.  The results of `SetParams` are not looked at. -/
def convertSeg (s : Seg) : Geo.Seg :=
  if s.isCircle then
    let e : Point ℝ := ⟨s.center.x + s.radius, s.center.y, 0⟩
    (setArc s.center.flat e e false).1
  else if s.radius > 0 then (setArc s.center.flat s.start.flat s.stop.flat (!decide (s.angle > 0))).1
  else (setLine s.start.flat s.stop.flat).1

/-- the loop of `convertOln`, idf2igs.cpp:418-479; `none` when a segment is refused -/
def convertSegs (o : Outline) : List Seg → Option Outline
  | [] => some o
  | s :: l =>
    let r := addSegment o (some (convertSeg s))
    if r.2 = true then convertSegs r.1 l else none

/-- `convertOln`, idf2igs.cpp:398-483, for an outline that has no segments yet; `none` when it returns false -/
def convertOln (l : List Seg) : Option Outline := if l = [] then none else convertSegs .new l

/-- one hole in `convertDrills`, idf2igs.cpp:497-509 -/
def convertDrill (pos : P2) (dia : ℝ) : Geo.Seg :=
  let e : Point ℝ := ⟨pos.x + 0.5 * dia, pos.y, 0⟩
  (setArc pos.flat e e false).1

/-- what `mergeDrills` makes of a call of `GetIntersections` with two holes: they cross; they do not and there is no flag; they
do not but a flag is set -/
inductive Meet where
  | crossing
  | apart
  | flagged

/-- the tests of idf2igs.cpp:556, 588, 610 and 629 -/
def meet (a b : Geo.Seg) : Meet :=
  if (intersections a b).ret = true then .crossing
  else if (intersections a b).flag = .none then .apart
  else .flagged

/-- what the loop over the holes leaves: the holes that cross, in the order in which they were found, the other ones, and
whether the loop came to its end -/
structure Sweep where
  hits : List Geo.Seg
  left : List Geo.Seg
  ok : Bool

/-- the innermost loop of `mergeDrills`, idf2igs.cpp:580-619: one hole of a bundle against the holes that are left -/
def sweep (m : Geo.Seg) : List Geo.Seg → Sweep
  | [] => ⟨[], [], true⟩
  | d :: l =>
    match meet m d with
    | .crossing => let r := sweep m l; { r with hits := d :: r.hits }
    | .flagged => ⟨[], d :: l, false⟩
    | .apart => let r := sweep m l; { r with left := d :: r.left }

theorem sweep_length (m : Geo.Seg) (l : List Geo.Seg) : (sweep m l).hits.length + (sweep m l).left.length = l.length := by
  induction l with
  | nil => rfl
  | cons d l ih =>
    unfold sweep
    cases meet m d <;> simp only [List.length_cons, List.length_nil] <;> omega

/-- a bundle and the holes that are left: those before and those from the place `sD` on, and whether the search came to its end -/
structure Grown where
  bundle : List Geo.Seg
  pre : List Geo.Seg
  rest : List Geo.Seg
  ok : Bool

/-- the search for all holes of a bundle, idf2igs.cpp:568-623.  `todo` are the holes of the bundle from `sS` on; the first
part of the result is the bundle from `sS` on. -/
def growBundle (todo pre rest : List Geo.Seg) : Grown :=
  match todo with
  | [] => ⟨[], pre, rest, true⟩
  | m :: todo =>
    let a := sweep m pre
    if a.ok = false then ⟨m :: todo ++ a.hits, a.left, rest, false⟩
    else
      let b := sweep m rest
      if b.ok = false then ⟨m :: todo ++ a.hits ++ b.hits, a.left, b.left, false⟩
      else
        let r := growBundle (todo ++ a.hits ++ b.hits) a.left b.left
        { r with bundle := m :: r.bundle }
termination_by todo.length + pre.length + rest.length
decreasing_by
  have h1 := sweep_length m pre
  have h2 := sweep_length m rest
  simp only [List.length_append, List.length_cons]
  omega

/-- the result of the loop from `iD` on, idf2igs.cpp:554-637: no hole crosses; a flag was set; the hole `e` crosses, between
`before` and `after` -/
inductive First where
  | clear
  | flagged
  | found (before : List Geo.Seg) (e : Geo.Seg) (after : List Geo.Seg)

/-- the first hole that crosses `d`, idf2igs.cpp:554-556, 629-636 -/
def firstMeet (d : Geo.Seg) : List Geo.Seg → First
  | [] => .clear
  | e :: l =>
    match meet d e with
    | .crossing => .found [] e l
    | .flagged => .flagged
    | .apart =>
      match firstMeet d l with
      | .found b x a => .found (e :: b) x a
      | r => r

/-- how the search for bundles ends: the holes that are left and the bundles; or with a flag, which loses the bundles; or by a
second erasure of the place `sD` (which does not happen: `firstMeet_clear` in Lemmas/DrillBundle) -/
inductive Bundles where
  | done (drills : List Geo.Seg) (bundles : List (List Geo.Seg))
  | flagged (drills : List Geo.Seg)
  | undefined

theorem growBundle_rest (todo pre rest : List Geo.Seg) : (growBundle todo pre rest).rest.length ≤ rest.length := by
  induction todo, pre, rest using growBundle.induct with
  | case1 pre rest => simp [growBundle]
  | case2 pre rest m todo a ha => unfold growBundle; simp only; rw [if_pos ha]
  | case3 pre rest m todo a ha b hb =>
    unfold growBundle; simp only; rw [if_neg ha, if_pos hb]
    have := sweep_length m rest
    simp only
    omega
  | case4 pre rest m todo a ha b hb ih =>
    unfold growBundle; simp only; rw [if_neg ha, if_neg hb]
    have := sweep_length m rest
    simp only
    exact ih.trans (by simp only [b]; omega)

theorem firstMeet_length {d e : Geo.Seg} {l b a : List Geo.Seg} (h : firstMeet d l = .found b e a) :
    (b ++ a).length < l.length := by
  induction l generalizing b with
  | nil => cases h
  | cons x l ih =>
    unfold firstMeet at h
    cases hm : meet d x <;> rw [hm] at h <;> simp only at h
    · cases h; simp
    · cases hf : firstMeet d l with
      | clear => rw [hf] at h; cases h
      | flagged => rw [hf] at h; cases h
      | found b' x' a' =>
        rw [hf] at h
        simp only [First.found.injEq] at h
        obtain ⟨rfl, rfl, rfl⟩ := h
        have := ih hf
        simp only [List.cons_append, List.length_cons]
        omega
    · cases h

/-- the outer loop of `mergeDrills`, idf2igs.cpp:546-645: `pre` are the holes before `sD`, the other argument those from `sD`
on.  After a bundle the loop from `iD` on goes over the holes from the new `sD` on, with the hole that has gone. -/
def findBundles (pre : List Geo.Seg) : List Geo.Seg → Bundles
  | [] => .done pre []
  | d :: l =>
    match _hf : firstMeet d l with
    | .clear => findBundles (pre ++ [d]) l
    | .flagged => .flagged (pre ++ d :: l)
    | .found b e a =>
      let g := growBundle [d, e] pre (b ++ a)
      if g.ok = false then .flagged (g.pre ++ g.rest)
      else
        match firstMeet d g.rest with
        | .found _ _ _ => .undefined
        | .flagged => .flagged (g.pre ++ g.rest)
        | .clear =>
          match findBundles g.pre g.rest with
          | .done ds bs => .done ds (g.bundle :: bs)
          | r => r
termination_by l => l.length
decreasing_by
  · simp
  · have h1 := growBundle_rest [d, e] pre (b ++ a)
    have h2 := firstMeet_length _hf
    simp only [List.length_cons]
    omega

/-- `[distance - (R0 + R1)]`, idf2igs.cpp:699-704 -/
def gap (a b : Geo.Seg) : ℝ := hyp (b.center.x - a.center.x) (b.center.y - a.center.y) - (a.radius + b.radius)

/-- the inner loop of the sort, idf2igs.cpp:715-723: what is at place `i` afterwards and what is after it -/
def settle (f : Geo.Seg → ℝ) (x : Geo.Seg) : List Geo.Seg → Geo.Seg × List Geo.Seg
  | [] => (x, [])
  | y :: l =>
    if f y < f x then let r := settle f y l; (r.1, x :: r.2)
    else let r := settle f x l; (r.1, y :: r.2)

theorem settle_length (f : Geo.Seg → ℝ) (x : Geo.Seg) (l : List Geo.Seg) : (settle f x l).2.length = l.length := by
  induction l generalizing x with
  | nil => rfl
  | cons y l ih => unfold settle; split <;> simp [ih]

/-- the sort, idf2igs.cpp:709-724 -/
def sortDrills (f : Geo.Seg → ℝ) : List Geo.Seg → List Geo.Seg
  | [] => []
  | x :: l => (settle f x l).1 :: sortDrills f (settle f x l).2
termination_by l => l.length
decreasing_by simp [settle_length]

/-- the loop of `bundleDrills`, idf2igs.cpp:731-738: the holes are joined to the outline one after the other; `none` when one
is refused -/
def joinDrills (o : Outline) : List Geo.Seg → Option Outline
  | [] => some o
  | c :: l =>
    let r := addCircle o (some c)
    if r.ret = true then joinDrills r.out l else none

/-- `bundleDrills`, idf2igs.cpp:670-743: the outline that is put into the list of cutouts.  `none`: the function returns false,
and the wrapper `op` deletes the outline that has been put into the list (dll_mcad_outline.cpp:51-60), or the list of
holes is empty. -/
def bundleDrills : List Geo.Seg → Option Outline
  | [] => none
  | f :: l => joinDrills (addSegment .new (some f)).1 (sortDrills (gap f) l)

/-- how `mergeDrills` ends: the holes and the cutouts, and the result; `dangling` when the list of cutouts has an outline that
has been deleted.  The flag `error` is false in all cases. -/
inductive Merging where
  | returns (drills : List Geo.Seg) (cutouts : List Outline) (ret : Bool)
  | dangling (drills : List Geo.Seg)
  | undefined

/-- the last loop of `mergeDrills`, idf2igs.cpp:650-663 -/
def bundleAll : List (List Geo.Seg) → Option (List Outline)
  | [] => some []
  | b :: l =>
    match bundleDrills b with
    | none => none
    | some o =>
      match bundleAll l with
      | none => none
      | some os => some (o :: os)

/-- `mergeDrills`, idf2igs.cpp:520-666 -/
def mergeDrills (drills : List Geo.Seg) (cutouts : List Outline) : Merging :=
  match findBundles [] drills with
  | .undefined => .undefined
  | .flagged ds => .returns ds cutouts false
  | .done ds bs =>
    if bs = [] then .returns ds cutouts false
    else
      match bundleAll bs with
      | none => .dangling ds
      | some os => .returns ds (cutouts ++ os) true

/-- `subtract drill holes from PCB edge`, idf2igs.cpp:267-291: the outline and the holes that are left, `none` for an error -/
def cutEdge (o : Outline) : List Geo.Seg → Option (Outline × List Geo.Seg)
  | [] => some (o, [])
  | d :: l =>
    let r := subCircle o (some d)
    if r.ret = true then cutEdge r.out l
    else if r.error = true then none
    else
      match cutEdge r.out l with
      | none => none
      | some (o, l) => some (o, d :: l)

/-- one cutout in the loop of idf2igs.cpp:298-325: the cutout and the holes that are left, `none` for an error -/
def growCutout (o : Outline) : List Geo.Seg → Option (Outline × List Geo.Seg)
  | [] => some (o, [])
  | d :: l =>
    let r := addCircle o (some d)
    if r.ret = true then growCutout r.out l
    else if r.error = true then none
    else
      match growCutout r.out l with
      | none => none
      | some (o, l) => some (o, d :: l)

/-- `add drill holes to outline edges`, idf2igs.cpp:293-325 -/
def growCutouts (drills : List Geo.Seg) : List Outline → Option (List Outline × List Geo.Seg)
  | [] => some ([], drills)
  | c :: l =>
    match growCutout c drills with
    | none => none
    | some (c, drills) =>
      match growCutouts drills l with
      | none => none
      | some (l, drills) => some (c :: l, drills)

/-- how the part of `MakeBoard` before the surfaces ends -/
inductive Made where
  | plate (p : Plate)
  | fails
  | hangs
  | undefined

/-- `add all cutouts ... to the main outline`, idf2igs.cpp:327-335.  The results of `AddCutout` are not looked at. -/
def addCutouts (p : Plate) : List Outline → Made
  | [] => .plate p
  | c :: l =>
    match addCutout p (some c) true with
    | .hangs => .hangs
    | .undefined => .undefined
    | .returns p _ _ _ => addCutouts p l

/-- `... and remaining drills`, idf2igs.cpp:337-344 -/
def addDrills (p : Plate) : List Geo.Seg → Plate
  | [] => p
  | d :: l => addDrills (addHole p (some d) false).1 l

/-- the outlines of the board in turn, idf2igs.cpp:206-232 -/
def convertAll : List (List Seg) → Option (List Outline)
  | [] => some []
  | l :: ls =>
    match convertOln l with
    | none => none
    | some o =>
      match convertAll ls with
      | none => none
      | some os => some (o :: os)

/-- `MakeBoard` up to idf2igs.cpp:344, for the outlines of the board and its holes (those of the board and those of the
components, with their diameters).  A deleted outline in the list of cutouts is used at 302 or 286: undefined. -/
def makePlate (outlines : List (List Seg)) (drills : List (P2 × ℝ)) : Made :=
  match convertAll outlines with
  | none => .fails
  | some [] => .fails
  | some (main :: cutouts) =>
    match mergeDrills (drills.map fun d => convertDrill d.1 d.2) cutouts with
    | .undefined => .undefined
    | .dangling _ => .undefined
    | .returns ds cutouts _ =>
      match cutEdge main ds with
      | none => .fails
      | some (main, ds) =>
        match growCutouts ds cutouts with
        | none => .fails
        | some (cutouts, ds) =>
          match addCutouts ⟨main, [], []⟩ cutouts with
          | .plate p => .plate (addDrills p ds)
          | r => r

end
end Iges.Idf
