import Verif.Model.OutlineMerge
/-
An outline with its cutouts and holes: the two functions `AddCutout` of geom/mcad_outline.cpp.

Conventions as in Model/OutlineMerge.lean.  The cutouts of a cutout are not looked at by the code and are left out.  An object
that has been taken over is a value in the list that it was put into.
-/
namespace Iges.Geo
open Classical

noncomputable section

/-- an `MCAD_OUTLINE` with its `mcutouts` and `mholes`, mcad_outline.h:121-123 -/
structure Plate where
  main : Outline
  cutouts : List Outline
  holes : List Seg

/-- what the loop over the cutouts leaves: the cutouts, the argument, whether one of them took it, and the flag `error`; or
`AddOutline` does not return, or does something undefined -/
inductive Joining where
  | ends (l : List Outline) (a : Outline) (ret error : Bool)
  | hangs
  | undefined

/-- the loop over the cutouts, mcad_outline.cpp:2059-2078: the argument is joined to the first cutout that takes it -/
def joinFirst : List Outline → Outline → Joining
  | [], a => .ends [] a false false
  | c :: rest, a =>
    match addShape c (some a) with
    | .hangs => .hangs
    | .undefined => .undefined
    | .returns r =>
      if r.ret = true ∨ r.error = true then .ends (r.out :: rest) r.other r.ret r.error
      else
        match joinFirst rest r.other with
        | .ends l a ret error => .ends (r.out :: l) a ret error
        | j => j

/-- what `AddCutout( MCAD_OUTLINE*, bool, bool& )` leaves: the outline with its cutouts, the argument, the result and `error`;
or it does not return, or does something undefined -/
inductive Cutting where
  | returns (p : Plate) (a : Outline) (ret error : Bool)
  | hangs
  | undefined

/-- `AddCutout( MCAD_OUTLINE*, bool, bool& )`, mcad_outline.cpp:2013-2082.  `none` is the NULL pointer. -/
def addCutout (p : Plate) (a : Option Outline) (overlaps : Bool) : Cutting :=
  match a with
  | none => .returns p .new false true                                                -- 2017-2026
  | some a =>
    if a.closed = false then .returns p a false true                                  -- 2028-2037
    else if overlaps = false then .returns { p with cutouts := p.cutouts ++ [a] } a true false
    else
      match subShape p.main (some a) with
      | .hangs => .hangs
      | .undefined => .undefined
      | .returns r =>
        let p := { p with main := r.out }
        if r.ret = true ∨ r.error = true then .returns p r.other r.ret r.error        -- 2045-2056
        else
          match joinFirst p.cutouts r.other with
          | .hangs => .hangs
          | .undefined => .undefined
          | .ends l a ret error =>
            if ret = true ∨ error = true then .returns { p with cutouts := l } a ret error
            else .returns { p with cutouts := l ++ [a] } a true false                 -- 2080-2081

/-- the loop over the cutouts, mcad_outline.cpp:2135-2154 -/
def joinHole : List Outline → Seg → List Outline × Bool × Bool
  | [], _ => ([], false, false)
  | o :: rest, c =>
    let r := addCircle o (some c)
    if r.ret = true ∨ r.error = true then (r.out :: rest, r.ret, r.error)
    else
      let j := joinHole rest c
      (r.out :: j.1, j.2)

/-- `AddCutout( MCAD_SEGMENT*, bool, bool& )`, mcad_outline.cpp:2089-2158: the outline with its cutouts and holes, the result
and `error`.  `none` is the NULL pointer. -/
def addHole (p : Plate) (a : Option Seg) (overlaps : Bool) : Plate × Bool × Bool :=
  match a with
  | none => (p, false, true)                                                          -- 2093-2102
  | some c =>
    if c.kind ≠ .circle then (p, false, true)                                         -- 2104-2113
    else if overlaps = false then ({ p with holes := p.holes ++ [c] }, true, false)
    else
      let r := subCircle p.main (some c)
      let p := { p with main := r.out }
      if r.ret = true ∨ r.error = true then (p, r.ret, r.error)                       -- 2121-2132
      else
        let j := joinHole p.cutouts c
        let p := { p with cutouts := j.1 }
        if j.2.1 = true ∨ j.2.2 = true then (p, j.2)
        else ({ p with holes := p.holes ++ [c] }, true, false)                        -- 2156-2157

end
end Iges.Geo
