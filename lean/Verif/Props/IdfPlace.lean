import Verif.Lemmas.IdfPlace
/-
C76: placement of components in a board file.
-/
namespace Iges.Props.IdfPlace
open Iges.Idf Iges.Idf.Spec Iges.Props.IdfNotes Iges.Props.IdfDrill

/-- read the whole section -/
def readSection (u : Iges.Idf.Unit) (v : Version) (noSub : Bool) (b : PBoard) (s : Str) : Option (PBoard × List Str) :=
  readPlacement u v noSub ((lines s).length + 1) b (lines s)

/-- reading a whole map of components -/
theorem read_map {u : Iges.Idf.Unit} (hu : u ≠ .tnm) (noSub : Bool) (m : List (Str × Comp))
    (hd : (m.map fun e => e.2.refdes).Nodup) (hw : ∀ e ∈ m, ∃ p, Writable e.2 p)
    (b : PBoard) (hb : ∀ e ∈ m, Unplaced b e.2.refdes) (hk : ∀ e ∈ m, Known b e.2) (after : Str) :
    ∃ text k m', concatTexts (m.map fun e => writePlaceComp u e.2) = some text ∧ k < (lines text).length ∧
      (∀ n, readPlacement u .v3 noSub (k + n) b (lines (text ++ after)) = readPlacement u .v3 noSub n ⟨b.cad, b.lib, m', b.next⟩ (lines after)) ∧
      (∀ e ∈ m, ∃ c', SMap.find e.2.refdes m' = some c' ∧ c'.drills = holesOf b e.2.refdes ∧
        ∃ p o os, e.2.pos = some p ∧ e.2.outs = o :: os ∧
        c' = ⟨e.2.refdes, some ⟨again u (wx p o), again u (p.y + o.y), fval 3 (wa p o), p.side⟩, some (e.2.placement.getD .placed),
          e.2.outs.map (relative u p ⟨again u (wx p o), again u (p.y + o.y), fval 3 (wa p o), p.side⟩), holesOf b e.2.refdes⟩) ∧
      ∀ r, r ∉ m.map (fun e => e.2.refdes) → SMap.find r m' = b.comps.find r := by
  induction m generalizing b with
  | nil =>
    refine ⟨[], 0, b.comps, rfl, by decide, by intro n; simp, ?_, fun _ _ => rfl⟩
    intro e he; cases he
  | cons e m ih =>
    obtain ⟨p, hp⟩ := hw e (by simp)
    obtain ⟨t, ht1, ht2⟩ := concat_some hu hp e.2.outs (fun _ h => h)
    obtain ⟨m1, c1, hs1, hs2, hs3, o, os, ho, hc1⟩ := store_comp (u := u) noSub hp b (hb e (by simp)) (hk e (by simp))
    rw [List.map_cons, List.nodup_cons] at hd
    have hne : ∀ e' ∈ m, e'.2.refdes ≠ e.2.refdes := fun e' he' hh => hd.1 (by rw [← hh]; exact List.mem_map_of_mem he')
    obtain ⟨t2, k2, m2, g1, g2, g3, g4, g5⟩ := ih hd.2 (fun e h => hw e (by simp [h])) ⟨b.cad, b.lib, m1, b.next⟩
      (fun e' he' c hc => hb e' (by simp [he']) c (by rw [← hs3 _ (hne e' he')]; exact hc))
      (fun e' he' => hk e' (by simp [he']))
    refine ⟨t ++ t2, e.2.outs.length + k2, m2, ?_, ?_, ?_, ?_, ?_⟩
    · rw [List.map_cons]
      show concatTexts (writePlaceComp u e.2 :: _) = _
      have : writePlaceComp u e.2 = some t := ht1
      rw [this, concatTexts, g1]
      rfl
    · have := lines_append_length t t2
      omega
    · intro n
      rw [List.append_assoc, Nat.add_assoc, read_comp hu noSub hp e.2.outs (fun _ h => h) t ht1, hs1]
      exact g3 n
    · intro e' he'
      rcases List.mem_cons.1 he' with rfl | he'
      · refine ⟨c1, ?_, by rw [hc1], p, o, os, hp.pos, ho, hc1⟩
        rw [g5 _ hd.1]
        exact hs2
      · obtain ⟨c', q1, q2, q3⟩ := g4 e' he'
        have hh : holesOf ⟨b.cad, b.lib, m1, b.next⟩ e'.2.refdes = holesOf b e'.2.refdes := by
          unfold holesOf
          rw [show (PBoard.comps ⟨b.cad, b.lib, m1, b.next⟩) = m1 from rfl, hs3 _ (hne e' he')]
        rw [hh] at q2 q3
        exact ⟨c', q1, q2, q3⟩
    · intro r hr
      rw [List.map_cons, List.mem_cons, not_or] at hr
      rw [g5 r hr.2]
      exact hs3 r hr.1

theorem wx_out {p : CompPos} {o : OutData} (h : p.side = .bottom → o.x = 0 ∧ o.a = 0) : wx p o = outX p o ∧ wa p o = outA p o := by
  unfold wx wa outX outA
  cases hs : p.side with
  | top => simp
  | bottom => obtain ⟨h1, h2⟩ := h hs; simp [h1, h2]

/-- **C76_roundtrip_partial** (components survive writing and reading).  A board with any number of components, each with any
number of outlines, is written and read into a board that knows the outlines and whose components of these names have, at
most, holes.  Then every component is found under its name with the same side and status, the same outlines in the same order,
each at the same place and angle up to the places written (five of a millimetre or one of a thousandth of an inch; three of a
degree), and the holes stay with it; components of other names are unchanged.  In version 3.  Missing: components on the bottom
side with outlines that have an offset in x or an angle, which are mirrored (`C76_bottom_mirrored`), and names that are not
read back (`C76_space_cut`, `C76_board_unreadable`, `C76_unnamed_split`). -/
theorem C76_roundtrip_partial (u : Iges.Idf.Unit) (hu : u ≠ .tnm) (noSub : Bool) (m : SMap Comp)
    (hd : (m.map fun e => e.2.refdes).Nodup) (hw : ∀ e ∈ m, ∃ p, Writable e.2 p)
    (hbottom : ∀ e ∈ m, ∀ p, e.2.pos = some p → p.side = .bottom → ∀ o ∈ e.2.outs, o.x = 0 ∧ o.a = 0)
    (b : PBoard) (hb : ∀ e ∈ m, Unplaced b e.2.refdes) (hk : ∀ e ∈ m, Known b e.2) (after : Str) :
    ∃ text b', writePlacement u m = some text ∧ readSection u .v3 noSub b (text ++ after) = some (b', lines after) ∧
      (∀ e ∈ m, ∃ c', b'.comps.find e.2.refdes = some c' ∧ CompNear u e.2 c' ∧ c'.drills = holesOf b e.2.refdes) ∧
      (∀ r, (∀ e ∈ m, e.2.refdes ≠ r) → b'.comps.find r = b.comps.find r) ∧ b'.lib = b.lib := by
  obtain ⟨text, k, m', h1, h2, h3, h4, h5⟩ := read_map hu noSub m hd hw b hb hk (".END_PLACEMENT\n".toList ++ after)
  refine ⟨text ++ ".END_PLACEMENT\n".toList, ⟨b.cad, b.lib, m', b.next⟩, ?_, ?_, ?_, ?_, rfl⟩
  · unfold writePlacement; rw [h1]; rfl
  · unfold readSection
    rw [List.append_assoc]
    have hlen := lines_append_length text (".END_PLACEMENT\n".toList ++ after)
    have e3 : lines (".END_PLACEMENT\n".toList ++ after) = ".END_PLACEMENT".toList :: lines after := by
      rw [← lines_line (by decide)]; rfl
    rw [e3, List.length_cons] at hlen
    obtain ⟨j, hj⟩ : ∃ j, (lines (text ++ (".END_PLACEMENT\n".toList ++ after))).length + 1 = k + (j + 1) :=
      ⟨(lines (text ++ (".END_PLACEMENT\n".toList ++ after))).length - k, by omega⟩
    rw [hj, h3]
    rw [e3, readPlacement, end_placement]
  · intro e he
    obtain ⟨c', q1, q2, p, o, os, hp, ho, rfl⟩ := h4 e he
    refine ⟨_, q1, ⟨rfl, ?_, p, _, hp, rfl, rfl, ?_⟩, q2⟩
    · intro pl hpl
      rw [hpl]; rfl
    · rw [List.forall₂_map_right_iff, List.forall₂_same]
      intro o' ho'
      obtain ⟨e1, e2⟩ := wx_out (p := p) (o := o') (fun hs => hbottom e he p hp hs o' ho')
      refine ⟨rfl, ?_, ?_, dagain_near hu _, ?_⟩
      · rw [← e1]
        unfold outX relative
        rw [add_sub_cancel]
        exact again_near u _
      · unfold outY relative
        rw [add_sub_cancel]
        exact again_near u _
      · rw [← e2]
        unfold outA relative
        rw [add_sub_cancel]
        have := fval_err 3 (wa p o')
        unfold half at this
        norm_num at this ⊢
        exact this
  · intro r hr
    apply h5
    intro hm
    obtain ⟨e, he, h⟩ := List.mem_map.1 hm
    exact hr e he h

/-- **C76_first** (the position of the component itself): after reading, the component is where its first outline is, whose
offsets are zero.  So a component whose first outline had an offset reports another position than before. -/
theorem C76_first (noSub : Bool) (b b' : PBoard) (r : PlaceRec) (n : Str) (hn : r.ref = some n) (hf : b.comps.find n = none)
    (h : storePlace noSub b r = some b') : ∃ c', b'.comps.find n = some c' ∧ c'.pos = some ⟨r.x, r.y, r.a, r.side⟩ ∧
      ∃ o, c'.outs = [o] ∧ o.x = 0 ∧ o.y = 0 ∧ o.a = 0 ∧ o.z = r.z := by
  unfold storePlace at h
  rw [hn] at h
  simp only [hf] at h
  cases h
  exact ⟨_, by rw [find_add _ _ _ hf, if_pos rfl], rfl, _, rfl, rfl, rfl, rfl, rfl⟩

/-- a board that knows an outline "g" "p" -/
def known : SMap (Str × Str) := [("g_p".toList, ("g".toList, "p".toList))]

/-- an outline "g" "p" at an offset -/
def outAt (x a : ℚ) : OutData := ⟨some ("g".toList, "p".toList), x, 0, 0, a⟩

/-- **C76_bottom_mirrored** (against "outlines stay where they are"): a component on the bottom side whose two outlines are 10 mm
apart in x, the second to the right, comes back with the second to the left of the first. -/
theorem C76_bottom_mirrored : ∃ (c : Comp) (text : Str) (b : PBoard) (c' : Comp),
    c = ⟨"U1".toList, some ⟨100, 0, 0, .bottom⟩, some .placed, [outAt 0 0, outAt 10 0], []⟩ ∧
    writePlacement .mm [("U1".toList, c)] = some text ∧
    readSection .mm .v3 true ⟨.elec, known, [], 0⟩ text = some (b, [[]]) ∧ b.comps.find "U1".toList = some c' ∧
    c'.pos = c.pos ∧ c'.outs = [outAt 0 0, outAt (-10) 0] := by
  refine ⟨_, _, ⟨.elec, known, [("U1".toList, ⟨"U1".toList, some ⟨100, 0, 0, .bottom⟩, some .placed, [outAt 0 0, outAt (-10) 0], []⟩)], 0⟩,
    _, rfl, rfl, ?_, rfl, rfl, rfl⟩
  decide +kernel

/-- **C76_bottom_turned**: the same for angles, and a second pass restores them: what a board looks like depends on how often
it was saved. -/
theorem C76_bottom_turned : ∃ (c : Comp) (t1 t2 : Str) (b1 b2 : PBoard),
    c = ⟨"U1".toList, some ⟨0, 0, 0, .bottom⟩, some .placed, [outAt 0 0, outAt 0 90], []⟩ ∧
    writePlacement .mm [("U1".toList, c)] = some t1 ∧ readSection .mm .v3 true ⟨.elec, known, [], 0⟩ t1 = some (b1, [[]]) ∧
    b1.comps = [("U1".toList, { c with outs := [outAt 0 0, outAt 0 (-90)] })] ∧
    writePlacement .mm b1.comps = some t2 ∧ readSection .mm .v3 true ⟨.elec, known, [], 0⟩ t2 = some (b2, [[]]) ∧
    b2.comps = [("U1".toList, c)] := by
  refine ⟨⟨"U1".toList, some ⟨0, 0, 0, .bottom⟩, some .placed, [outAt 0 0, outAt 0 90], []⟩, _, _,
    ⟨.elec, known, [("U1".toList, ⟨"U1".toList, some ⟨0, 0, 0, .bottom⟩, some .placed, [outAt 0 0, outAt 0 (-90)], []⟩)], 0⟩,
    ⟨.elec, known, [("U1".toList, ⟨"U1".toList, some ⟨0, 0, 0, .bottom⟩, some .placed, [outAt 0 0, outAt 0 90], []⟩)], 0⟩,
    rfl, rfl, ?_, rfl, rfl, ?_, rfl⟩
  · decide +kernel
  · decide +kernel

/-- **C76_space_cut** (against "names survive"): a component called "R 1" comes back as "R". -/
theorem C76_space_cut : ∃ (c : Comp) (text : Str) (b : PBoard),
    c = ⟨"R 1".toList, some ⟨0, 0, 0, .top⟩, some .placed, [outAt 0 0], []⟩ ∧
    writePlacement .mm [("R 1".toList, c)] = some text ∧ readSection .mm .v3 true ⟨.elec, known, [], 0⟩ text = some (b, [[]]) ∧
    b.comps = [("R".toList, { c with refdes := "R".toList })] := by
  refine ⟨_, _, ⟨.elec, known, [("R".toList, ⟨"R".toList, some ⟨0, 0, 0, .top⟩, some .placed, [outAt 0 0], []⟩)], 0⟩, rfl, rfl, ?_, rfl⟩
  decide +kernel

/-- **C76_board_unreadable**: a component called "Board" is written, and the file is refused. -/
theorem C76_board_unreadable : ∃ (c : Comp) (text : Str),
    c = ⟨"Board".toList, some ⟨0, 0, 0, .top⟩, some .placed, [outAt 0 0], []⟩ ∧
    writePlacement .mm [("Board".toList, c)] = some text ∧ readSection .mm .v3 true ⟨.elec, known, [], 0⟩ text = none := by
  refine ⟨_, _, rfl, rfl, ?_⟩
  decide +kernel

/-- **C76_unnamed_split**: a component that was read without a name, here with two outlines and a hole and called "NOREFDESn1",
comes back as two components; its hole goes with the second outline, and the first gets another name.  (Holes are read before
components and keep the name.) -/
theorem C76_unnamed_split : ∃ (c : Comp) (d : Drill) (text : Str) (b : PBoard),
    d.ref = .refdes "NOREFDESn1".toList ∧ c = ⟨"NOREFDESn1".toList, some ⟨0, 0, 0, .top⟩, some .placed, [outAt 0 0, outAt 5 0], [d]⟩ ∧
    writePlacement .mm [("NOREFDESn1".toList, c)] = some text ∧
    readSection .mm .v3 true ⟨.elec, known, [("NOREFDESn1".toList, ⟨"NOREFDESn1".toList, none, none, [], [d]⟩)], 0⟩ text = some (b, [[]]) ∧
    b.comps = [("NOREFDESn0".toList, ⟨"NOREFDESn0".toList, some ⟨0, 0, 0, .top⟩, some .placed, [outAt 0 0], []⟩),
      ("NOREFDESn1".toList, ⟨"NOREFDESn1".toList, some ⟨5, 0, 0, .top⟩, some .placed, [outAt 0 0], [d]⟩)] := by
  refine ⟨_, mkDrill 1 0 0 true "NOREFDESn1".toList "PIN".toList .unowned, _, ⟨.elec, known,
    [("NOREFDESn0".toList, ⟨"NOREFDESn0".toList, some ⟨0, 0, 0, .top⟩, some .placed, [outAt 0 0], []⟩),
      ("NOREFDESn1".toList, ⟨"NOREFDESn1".toList, some ⟨5, 0, 0, .top⟩, some .placed, [outAt 0 0],
        [mkDrill 1 0 0 true "NOREFDESn1".toList "PIN".toList .unowned]⟩)], 2⟩, ?_, rfl, rfl, ?_, rfl⟩
  · decide +kernel
  · decide +kernel

/-- the hypotheses of `C76_roundtrip_partial` for a component with two outlines on top and one with one on the bottom,
and what is read -/
example : let c1 : Comp := ⟨"U1".toList, some ⟨10, 20, 45, .top⟩, some .mcad, [outAt 1 0, outAt (-1) 90], []⟩
    let c2 : Comp := ⟨"R2".toList, some ⟨1 / 3, 0, 0, .bottom⟩, some .placed, [outAt 0 0], []⟩
    (Writable c1 ⟨10, 20, 45, .top⟩ ∧ Writable c2 ⟨1 / 3, 0, 0, .bottom⟩ ∧ Known ⟨.elec, known, [], 0⟩ c1) ∧
    ∃ text, writePlacement .thou [("R2".toList, c2), ("U1".toList, c1)] = some text ∧
      (readSection .thou .v3 true ⟨.elec, known, [], 0⟩ text).map (fun r => (r.1.comps.map (·.1))) = some ["R2".toList, "U1".toList] := by
  have hs : ∀ x : ℚ, |x| ≤ 1000 → |x| ≤ 10 ^ 299 := by
    intro x h
    refine le_trans h ?_
    rw [show (1000 : ℚ) = 10 ^ 3 by norm_num]
    exact pow_le_pow_right₀ (by norm_num) (by norm_num)
  have hn : ∀ r ∈ ["U1".toList, "R2".toList], RefName r := by
    intro r hr
    simp only [List.mem_cons, List.not_mem_nil, or_false] at hr
    rcases hr with rfl | rfl <;>
      exact ⟨by decide, by decide, by decide, by decide, by decide, by unfold NotWord; decide⟩
  refine ⟨⟨⟨rfl, hn _ (by simp), by simp, ?_, hs _ (by norm_num), hs _ (by norm_num), hs _ (by norm_num), ?_⟩,
    ⟨rfl, hn _ (by simp), by simp, ?_, hs _ (by norm_num [abs_of_pos]), hs _ (by norm_num), hs _ (by norm_num), ?_⟩, ?_⟩, _, rfl, ?_⟩
  · intro o ho
    simp only [List.mem_cons, List.not_mem_nil, or_false] at ho
    rcases ho with rfl | rfl <;> exact ⟨_, _, rfl, ⟨by decide, by decide⟩, ⟨by decide, by decide⟩, by decide⟩
  · intro o ho
    simp only [List.mem_cons, List.not_mem_nil, or_false] at ho
    rcases ho with rfl | rfl <;>
      exact ⟨hs _ (by norm_num [outAt]), hs _ (by norm_num [outAt]), hs _ (by norm_num [outAt]), hs _ (by norm_num [outAt])⟩
  · intro o ho
    simp only [List.mem_cons, List.not_mem_nil, or_false] at ho
    rcases ho with rfl
    exact ⟨_, _, rfl, ⟨by decide, by decide⟩, ⟨by decide, by decide⟩, by decide⟩
  · intro o ho
    simp only [List.mem_cons, List.not_mem_nil, or_false] at ho
    rcases ho with rfl
    exact ⟨hs _ (by norm_num [outAt]), hs _ (by norm_num [outAt]), hs _ (by norm_num [outAt]), hs _ (by norm_num [outAt])⟩
  · intro o ho g q h
    simp only [List.mem_cons, List.not_mem_nil, or_false] at ho
    rcases ho with rfl | rfl
    · cases h; rfl
    · cases h; rfl
  · decide +kernel

end Iges.Props.IdfPlace
