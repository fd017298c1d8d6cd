import Verif.Props.IdfBody
import Verif.Props.IdfConvertCases
/-
C89: concrete bodies, and bodies that are not as they should be.
-/
namespace Iges.Props
open Iges.Geo Iges.Spec Iges.Idf Iges.Idf.Spec Real IdfOutline IdfConvert

namespace IdfBody

/-- a triangle and its conversion -/
theorem ex_triangle : ∃ o, (∀ it ∈ [ln 0 0 1 0, ln 1 0 0 1, ln 0 1 0 0].map QSeg.item, it.Valid ∧ it.Within 0) ∧
    convertOln (([ln 0 0 1 0, ln 1 0 0 1, ln 0 1 0 0].map QSeg.item).map Item.seg) = some o ∧ o.closed = true := by
  have hr : readOutlines false false (fun _ => true) .mm .v3 .start (ls "0 0 0 0\n0 1 0 0\n0 0 1 0\n0 0 0 0\n.END_BOARD_OUTLINE\n") =
      some ([[ln 0 0 1 0, ln 1 0 0 1, ln 0 1 0 0]], ls ".END_BOARD_OUTLINE\n") := read_any _ _ (by decide) (by decide +kernel)
  have hv : ∀ s ∈ [ln 0 0 1 0, ln 1 0 0 1, ln 0 1 0 0], s.item.Valid ∧ s.small := by
    intro s hs
    simp only [List.mem_cons, List.not_mem_nil, or_false] at hs
    rcases hs with rfl | rfl | rfl <;> exact ln_valid (by norm_num) (by norm_num)
  obtain ⟨o, ho, -, -, hc⟩ := C87_outline_partial false (fun _ => true) .mm .v3 _ _ _ hr _ (List.mem_singleton_self _) (fun s hs => (hv s hs).1) (fun s hs => (hv s hs).2)
  refine ⟨o, ?_, ?_, hc.2 (.inr ⟨_, _, rfl, rfl, C51_reflexive _ _⟩)⟩
  · intro it hit
    rw [List.mem_map] at hit
    obtain ⟨s, hs, rfl⟩ := hit
    refine ⟨(hv s hs).1, ?_⟩
    simp only [List.mem_cons, List.not_mem_nil, or_false] at hs
    rcases hs with rfl | rfl | rfl <;> rw [ln_item] <;> exact le_rfl
  · rw [List.map_map, show Item.seg ∘ QSeg.item = QSeg.real from funext item_seg]
    exact ho

end IdfBody

open IdfBody

/-- C89: the body of a component whose outline is a triangle, exactly. -/
example : ∃ (its : List Item) (o : Outline) (ws : List Patch) (f g : Face), its.length = 3 ∧
    buildComponent (its.map Item.seg) 2 = some (ws.map (fun w => some (Surf.wall w)) ++ [some (.face f), some (.face g)]) ∧
      Walled 0 (fun p => ∃ it ∈ its, it.On p) 2 0 ws ∧
      Edged 0 (fun p => ∃ it ∈ its, it.On p) 2 f ∧ Edged 0 (fun p => ∃ it ∈ its, it.On p) 0 g ∧
      FacesUp f ∧ FacesDown g ∧ ∀ w ∈ ws, Bounded 1e-8 w ∧ FacesRight o w := by
  obtain ⟨o, h1, h2, h3⟩ := ex_triangle
  obtain ⟨ws, f, g, h⟩ := C89_component (th := 2) (fun it hit => (h1 it hit).1) (fun it hit => (h1 it hit).2) h2 h3 (by norm_num)
  exact ⟨_, o, ws, f, g, rfl, h⟩

/-- C89: arcs and circles of ordinary size are within a tolerance. -/
example : (Item.arc ⟨1, 0⟩ ⟨0, 1⟩ 90).Within 1e-8 ∧ (Item.circle ⟨0, 0⟩ ⟨1, 0⟩ 360).Within 0 := by
  refine ⟨?_, le_rfl⟩
  intro c hc
  have h0 : turnDeg ⟨0, 0⟩ 90 ⟨1, 0⟩ = ⟨0, 1⟩ := by
    unfold turnDeg
    rw [show (90 : ℝ) * π / 180 = π / 2 by ring, Real.cos_pi_div_two, Real.sin_pi_div_two]
    norm_num
  have := centre_unique (by norm_num) (by norm_num) hc h0
  subst this
  refine ⟨le_rfl, ?_⟩
  unfold gap2
  norm_num

/-- C89. A polygon whose corners fit exactly runs counterclockwise in the converted outline, whatever its direction in the file, so that the
right of the way it runs is the outside. -/
theorem C89_counterclockwise {its : List Item} {o : Outline} (hl : ∀ it ∈ its, ∃ a b, it = .line a b) (hv : ∀ it ∈ its, it.Valid)
    (ho : convertOln (its.map Item.seg) = some o) (hc : o.closed = true) (hr : Round ((its.map Item.seg).map convertSeg)) :
    area o.segs = |area ((its.map Item.seg).map convertSeg)| := by
  have hne : its ≠ [] := by
    rintro rfl
    unfold convertOln at ho
    simp at ho
  have hd : Drawn ((its.map Item.seg).map convertSeg) o := by
    unfold convertOln at ho
    rw [if_neg (by simpa using hne)] at ho
    exact to_drawn _ _ ho
  refine Outlines.C67_orientation_lines hd hc hr fun s hs => ?_
  rw [List.map_map, List.mem_map] at hs
  obtain ⟨it, hit, rfl⟩ := hs
  have := (C87_item it (hv it hit)).2.2
  obtain ⟨a, b, rfl⟩ := hl it hit
  exact this.1

/-- C89. A component with an outline that does not close when it is converted gets a model without any surface, and no error is reported. -/
theorem C89_open {l : List Idf.Seg} {o : Outline} {th : ℝ} (ho : convertOln l = some o) (hc : o.closed = false) (ht : 0.001 ≤ th) :
    buildComponent l th = some [] := by
  have hne : l ≠ [] := by
    rintro rfl
    unfold convertOln at ho
    simp at ho
  unfold buildComponent
  rw [if_neg hne, if_neg (not_lt.2 (by norm_num at ht ⊢; linarith)), ho]
  simp only
  unfold bodyOf getPlane getVertical appendTo verticalSurface trimmedPlane
  simp [hc]

/-- C89 (counterexample). Such an outline is accepted as closed by the reader. -/
example : ∃ l : List QSeg, ClosedLoop l ∧ buildComponent (l.map QSeg.real) 1 = some [] := by
  obtain ⟨l, -, -, hl, o, ho, hc⟩ := C87_open fun _ => true
  exact ⟨l, hl, C89_open ho hc (by norm_num)⟩

/-- C89. A body whose walls cannot be made consists of the two faces only: walls lower than 0.001 over an arc or a circle. -/
theorem C89_no_walls {b : Geo.Board} {top bot : ℝ} {rt rb : Bool} (hc : b.outline.closed = true) (hne : b.outline.segs ≠ [])
    (hk : ∀ s ∈ edges b, s.kind ≠ .none) (hs : ∃ s ∈ edges b, s.kind = .arc ∨ s.kind = .circle) (hd : |top - bot| < 0.001) :
    ∃ f g, bodyOf b top bot rt rb = [some (.face f), some (.face g)] := by
  obtain ⟨s, hs, ha⟩ := hs
  have hw := Walls.C69_thin hs ha hd
  obtain ⟨f, hf⟩ := Option.isSome_iff_exists.1 ((Face.C70_face_made b top rt).2 ⟨hc, hne, hk⟩)
  obtain ⟨g, hg⟩ := Option.isSome_iff_exists.1 ((Face.C70_face_made b bot rb).2 ⟨hc, hne, hk⟩)
  refine ⟨f, g, ?_⟩
  unfold bodyOf getPlane getVertical appendTo
  rw [hf, hg]
  simp [hw]

/-- C89: a square board with a round hole and a thickness of 0.0005 has no walls. -/
example : ∃ (b : Geo.Board) (f g : Face), bodyOf b 0.00025 (-0.00025) false true = [some (.face f), some (.face g)] := by
  obtain ⟨b, h1, -, ⟨s, hs, hk⟩, hm⟩ := Walls.ex_board
  obtain ⟨c1, c2, -⟩ := (Walls.C69_board_made b 1 0).1 (h1 1 0 (by norm_num))
  refine ⟨b, C89_no_walls c1 c2 (fun t ht e => ?_) ⟨s, ?_, .inr hk⟩ (by norm_num [abs_lt])⟩
  · have := (hm t ht).2.2.1
    unfold Seg.length at this
    rw [e] at this
    exact lt_irrefl _ this
  · unfold edges
    simp [hs]

/-- C89: a board, and an outline of the OTHER section, for which the conditions hold: a triangle. -/
theorem ex_plate : ∃ p : Plate, p.main.closed = true ∧ p.main.segs ≠ [] ∧ (∀ s ∈ edges p.board, Ready 0 s) ∧ (∀ s ∈ p.main.segs, s.kind = .line) ∧
    p.holes = [] ∧ p.cutouts = [] := by
  obtain ⟨o, h1, h2, h3⟩ := ex_triangle
  obtain ⟨-, one, snd, -⟩ := outline_sound (fun it hit => (h1 it hit).1) (fun it hit => (h1 it hit).2) h2 h3
  refine ⟨⟨o, [], []⟩, h3, one, fun s hs => ?_, fun s hs => ?_, rfl, rfl⟩
  · unfold edges Plate.board at hs
    simp only [List.map_nil, List.flatten_nil, List.append_nil] at hs
    exact (snd s hs).ready
  · have hd : Drawn (([ln 0 0 1 0, ln 1 0 0 1, ln 0 1 0 0].map QSeg.item).map Item.seg |>.map convertSeg) o := by
      unfold convertOln at h2
      rw [if_neg (by simp)] at h2
      exact to_drawn _ _ h2
    have line : ∀ t ∈ (([ln 0 0 1 0, ln 1 0 0 1, ln 0 1 0 0].map QSeg.item).map Item.seg).map convertSeg, t.kind = .line := by
      intro t ht
      rw [List.map_map, List.mem_map] at ht
      obtain ⟨it, hit, rfl⟩ := ht
      have := (C87_item it (h1 it hit).1).2.2
      simp only [List.map_cons, List.map_nil, List.mem_cons, List.not_mem_nil, or_false] at hit
      rcases hit with rfl | rfl | rfl <;> rw [ln_item] at this ⊢ <;> exact this.1
    rcases (Outlines.C67_contents hd).2.1 h3 with e | e
    · exact line s (e ▸ hs)
    · have := e.mem_iff.1 hs
      rw [List.mem_map] at this
      obtain ⟨t, ht, rfl⟩ := this
      have := line t ht
      unfold Seg.reverse
      rw [this]

example : ∃ (p : Plate) (ws : List Patch) (f g : Face), boardBody p 0.8 = ws.map (fun w => some (Surf.wall w)) ++ [some (.face f), some (.face g)] ∧
    FacesUp f ∧ FacesDown g := by
  obtain ⟨p, h1, h2, h3, -⟩ := ex_plate
  obtain ⟨ws, f, g, h, -, -, -, hf, hg, -⟩ := C89_board_partial h1 h2 h3 (th := 0.8) (by norm_num)
  exact ⟨p, ws, f, g, h, hf, hg⟩

/-- C89 (counterexample). An outline of the OTHER section above the board: the walls are right and face outwards, but both faces face up. -/
theorem C89_other_top {p : Plate} {bt ε : ℝ} {o : OtherOln} (ho : o.bottom = false) (hc : p.main.closed = true) (hne : p.main.segs ≠ [])
    (hr : ∀ s ∈ edges p.board, Ready ε s) (ht : 0.001 ≤ o.th) :
    ∃ (ws : List Patch) (f g : Face), otherBody p bt o = ws.map (fun w => some (Surf.wall w)) ++ [some (.face f), some (.face g)] ∧
      Fits ε (fun x => ∃ w ∈ ws, PatchOn w x) (fun x => ∃ s ∈ edges p.board, Upright (Covers s) (o.th + bt) bt x) ∧
      EdgedBoard ε p.board (o.th + bt) f ∧ EdgedBoard ε p.board bt g ∧ FacesUp f ∧ FacesUp g := by
  obtain ⟨ws, f, g, w1, w2, w3, w4, w5, w6, w7, w8⟩ := body_ready (b := p.board) (top := o.th + bt) (bot := bt) (ε := ε) hc hne hr
    (by rw [add_sub_cancel_right]; exact le_trans ht (le_abs_self _)) false false
  refine ⟨ws, f, g, ?_, w5, w6, w7, face_up w2 w8, face_up w3 w8⟩
  unfold otherBody
  rw [ho, if_neg (by simp)]
  exact w4

/-- C89 (counterexample). An outline of the OTHER section below the board: both faces face down, and every straight wall faces inwards: to the left of the way the
outline runs. -/
theorem C89_other_bottom {p : Plate} {bt ε : ℝ} {o : OtherOln} (ho : o.bottom = true) (hc : p.main.closed = true) (hne : p.main.segs ≠ [])
    (hr : ∀ s ∈ edges p.board, Ready ε s) (hl : ∀ s ∈ p.main.segs, s.kind = .line) (hh : p.holes = [] ∧ p.cutouts = []) (ht : 0.001 ≤ o.th) :
    ∃ (ws : List Patch) (f g : Face), otherBody p bt o = ws.map (fun w => some (Surf.wall w)) ++ [some (.face f), some (.face g)] ∧
      Fits ε (fun x => ∃ w ∈ ws, PatchOn w x) (fun x => ∃ s ∈ edges p.board, Upright (Covers s) (-(o.th + bt)) (-bt) x) ∧
      EdgedBoard ε p.board (-(o.th + bt)) f ∧ EdgedBoard ε p.board (-bt) g ∧ FacesDown f ∧ FacesDown g ∧ ∀ w ∈ ws, FacesLeft p.main w := by
  obtain ⟨ws, f, g, w1, w2, w3, w4, w5, w6, w7, w8⟩ := body_ready (b := p.board) (top := -(o.th + bt)) (bot := -bt) (ε := ε) hc hne hr
    (by rw [show -(o.th + bt) - -bt = -o.th by ring, abs_neg]; exact le_trans ht (le_abs_self _)) true true
  refine ⟨ws, f, g, ?_, w5, w6, w7, face_down w2 w8, face_down w3 w8, fun w hw => ?_⟩
  · unfold otherBody
    rw [ho, if_pos rfl]
    exact w4
  · obtain ⟨-, -, -, h2⟩ := Walls.vertical_parts w1
    obtain ⟨s, rev, ws', hs, e, hx⟩ := h2 w hw
    have e1 : p.board.holes = [] := hh.1
    have e2 : p.board.cutouts = [] := by unfold Plate.board; rw [hh.2]; rfl
    rcases hs with ⟨hs, rfl⟩ | ⟨hs, rfl⟩
    · refine ⟨s, hs, fun u v => ?_⟩
      have hm := (hr s (by unfold edges; simp only [List.mem_append]; exact .inl (.inl hs))).made
      obtain ⟨d, d1, d2⟩ := Walls.C69_facing_upside_down hm (hl s hs) (by norm_num at ht; linarith) e w hx u v
      exact ⟨d, d1, by simpa using d2⟩
    · rw [e1, e2] at hs; simp at hs

/-- C89: both cases occur. -/
example : ∃ (p : Plate) (f g f' g' : Face), some (.face f) ∈ otherBody p 0.8 ⟨[], false, 2⟩ ∧ some (.face g) ∈ otherBody p 0.8 ⟨[], false, 2⟩ ∧
    FacesUp f ∧ FacesUp g ∧ some (.face f') ∈ otherBody p 0.8 ⟨[], true, 2⟩ ∧ some (.face g') ∈ otherBody p 0.8 ⟨[], true, 2⟩ ∧ FacesDown f' ∧ FacesDown g' := by
  obtain ⟨p, h1, h2, h3, h4, h5⟩ := ex_plate
  obtain ⟨ws, f, g, h, -, -, -, hf, hg⟩ := C89_other_top (o := ⟨[], false, 2⟩) (bt := 0.8) rfl h1 h2 h3 (by norm_num)
  obtain ⟨ws', f', g', h', -, -, -, hf', hg', -⟩ := C89_other_bottom (o := ⟨[], true, 2⟩) (bt := 0.8) rfl h1 h2 h3 h4 h5 (by norm_num)
  exact ⟨p, f, g, f', g', by rw [h]; simp, by rw [h]; simp, hf, hg, by rw [h']; simp, by rw [h']; simp, hf', hg'⟩

/-- C89 (counterexample). Of several outlines in the OTHER section only the first is made, because all are put into the same outline, which is closed after
the first: the function returns false at the second.  Outlines without loops are skipped before that. -/
theorem C89_second_other {bt : ℝ} {p q : Plate} {a b : OtherOln} {l l' : List Idf.Seg} {ls ls' : List (List Idf.Seg)} {es rest : List OtherOln}
    {main : Outline} {cs : List Outline} (ha : a.outlines = l :: ls) (hl : l ≠ []) (h1 : convertSegs p.main l = some main) (h2 : convertAll ls = some cs)
    (h3 : addCutouts { p with main := main } cs = .plate q) (hc : q.main.closed = true) (he : ∀ e ∈ es, e.outlines = [])
    (hb : b.outlines = l' :: ls') :
    makeOthers bt p (a :: (es ++ b :: rest)) = .returns [otherBody q bt a] false := by
  have hclosed : ∀ x : List Idf.Seg, x ≠ [] → convertSegs q.main x = none := by
    intro x hx
    obtain ⟨s, x, rfl⟩ := List.exists_cons_of_ne_nil hx
    rw [convertSegs]
    have : (addSegment q.main (some (convertSeg s))).2 = false := by
      unfold addSegment
      simp only
      split_ifs <;> rfl
    rw [if_neg (by rw [this]; simp)]
  have hrest : makeOthers bt q (es ++ b :: rest) = .returns [] false := by
    induction es with
    | nil =>
      rw [List.nil_append, makeOthers, hb]
      simp only
      by_cases hx : l' = []
      · rw [if_pos hx]
      · rw [if_neg hx, hclosed _ hx]
    | cons e es ih =>
      rw [List.cons_append, makeOthers, he e (by simp)]
      exact ih fun e' h => he e' (by simp [h])
  rw [makeOthers, ha]
  simp only
  rw [if_neg hl, h1]
  simp only
  rw [h2]
  simp only
  rw [h3]
  simp only
  rw [hrest]
  rfl

/-- C89: two triangles in the OTHER section, one above the board: the first is made, the second is not. -/
example : ∃ (l : List Idf.Seg) (q : Plate), q.main.segs ≠ [] ∧
    makeOthers 0.8 ⟨.new, [], []⟩ [⟨[l], false, 2⟩, ⟨[], false, 1⟩, ⟨[l], true, 3⟩] = .returns [otherBody q 0.8 ⟨[l], false, 2⟩] false := by
  obtain ⟨o, h1, h2, h3⟩ := ex_triangle
  have hs : o.segs ≠ [] := by
    obtain ⟨ws, f, g, h, -, -, -, -⟩ := C89_component (th := 2) (fun it hit => (h1 it hit).1) (fun it hit => (h1 it hit).2) h2 h3 (by norm_num)
    intro e
    unfold buildComponent at h
    rw [if_neg (by simp), if_neg (by norm_num), h2] at h
    simp only [Option.some.injEq] at h
    unfold bodyOf getPlane getVertical appendTo verticalSurface trimmedPlane at h
    simp [e] at h
  unfold convertOln at h2
  rw [if_neg (by simp)] at h2
  exact ⟨_, ⟨o, [], []⟩, hs, C89_second_other (es := [⟨[], false, 1⟩]) (rest := []) rfl (by simp) h2 rfl rfl h3 (by simp) rfl⟩

/-- C89. The list that the caller hands over keeps its surfaces and the new ones are behind them.  They are all of what the library has made if the result is
true, and there are none if it is false. -/
theorem C89_list (b : Geo.Board) (a : PList Surf) (top bot h : ℝ) (rev : Bool) :
    (∃ ws : List Patch, (getVertical b a top bot).1.getD [] = a.getD [] ++ ws.map (fun w => some (.wall w)) ∧
      ((getVertical b a top bot).2 = true → ws ≠ [] ∧ verticalSurface b top bot = (ws, true)) ∧ ((getVertical b a top bot).2 = false → ws = [])) ∧
    ∃ fs : List Face, (getPlane b a h rev).1.getD [] = a.getD [] ++ fs.map (fun f => some (.face f)) ∧
      ((getPlane b a h rev).2 = true → ∃ f, fs = [f] ∧ trimmedPlane b h rev = some f) ∧ ((getPlane b a h rev).2 = false → fs = []) := by
  constructor
  · unfold getVertical appendTo
    generalize verticalSurface b top bot = r
    obtain ⟨ws, ok⟩ := r
    simp only
    by_cases hc : ok = true ∧ ws.map Surf.wall ≠ []
    · rw [if_pos hc]
      refine ⟨ws, by simp, fun _ => ⟨by simpa using hc.2, by rw [hc.1]⟩, by simp⟩
    · rw [if_neg hc]
      exact ⟨[], by simp, by simp, by simp⟩
  · unfold getPlane appendTo
    cases trimmedPlane b h rev with
    | none => exact ⟨[], by simp, by simp, by simp⟩
    | some f => exact ⟨[f], by simp, by simp, by simp⟩

/-- C89: for a list that has an entry already, and a triangle. -/
example : ∃ (b : Geo.Board) (s : Surf), (getVertical b (some [some s]) 1 0).2 = true ∧ (getPlane b (some [some s]) 1 false).2 = true := by
  obtain ⟨o, h1, h2, h3⟩ := ex_triangle
  obtain ⟨ws, f, g, h, hw, -, -, -⟩ := C89_component (th := 1) (fun it hit => (h1 it hit).1) (fun it hit => (h1 it hit).2) h2 h3 (by norm_num)
  unfold buildComponent at h
  rw [if_neg (by simp), if_neg (by norm_num), h2] at h
  simp only [Option.some.injEq] at h
  have hne : ws ≠ [] := by
    rintro rfl
    obtain ⟨x, ⟨w, hw, -⟩, -⟩ := hw.2 ⟨0, 0, 0⟩ ⟨⟨_, List.mem_map.2 ⟨ln 0 0 1 0, by simp, rfl⟩, by
      rw [ln_item]; exact ⟨0, le_rfl, zero_le_one, by ext <;> simp [pt]⟩⟩, by norm_num, by norm_num⟩
    simp at hw
  refine ⟨⟨o, [], []⟩, .face f, ?_, ?_⟩
  · by_contra hn
    apply hne
    unfold getVertical appendTo at hn
    unfold bodyOf getVertical appendTo getPlane appendTo at h
    simp only at hn h
    split_ifs at hn with hc
    · simp at hn
    rw [if_neg hc] at h
    have := congrArg List.length h
    cases h4 : trimmedPlane ⟨o, [], []⟩ 1 false <;> cases h5 : trimmedPlane ⟨o, [], []⟩ 0 true <;> rw [h4, h5] at this <;> simp at this <;>
      first | exact List.length_eq_zero_iff.1 this.symm | exact List.length_eq_zero_iff.1 this | omega
  · have : (trimmedPlane ⟨o, [], []⟩ 1 false).isSome := by
      by_contra hn
      rw [Option.not_isSome_iff_eq_none] at hn
      have hn' : ¬ (trimmedPlane ⟨o, [], []⟩ 0 true).isSome := by
        rw [Face.C70_face_made, ← Face.C70_face_made _ 1 false, hn]; simp
      rw [Option.not_isSome_iff_eq_none] at hn'
      unfold bodyOf at h
      have e : ∀ a : PList Surf, (getPlane ⟨o, [], []⟩ a 1 false).1 = a ∧ (getPlane ⟨o, [], []⟩ a 0 true).1 = a := by
        intro a; unfold getPlane appendTo; rw [hn, hn']; simp
      rw [(e _).2, (e _).1] at h
      obtain ⟨⟨v, hv, -⟩, -⟩ := C89_list ⟨o, [], []⟩ none 1 0 0 true
      rw [hv] at h
      have hm : some (Surf.face f) ∈ (none : PList Surf).getD [] ++ v.map fun w => some (Surf.wall w) := by rw [h]; simp
      simp at hm
    obtain ⟨k, hk⟩ := Option.isSome_iff_exists.1 this
    unfold getPlane appendTo
    rw [hk]
    simp

/-- C89 (counterexample). `GetCurves` of the wrapper, for a line, an arc or a circle: it returns true and the list grows, but none of the new entries is
set. -/
theorem C89_curves_unset (a : PList Curve) (h : ℝ) (s : Geo.Seg) (hk : s.kind ≠ .none) :
    ∃ n, 0 < n ∧ getCurvesOf a h s = (some (a.getD [] ++ List.replicate n none), true) := by
  have key : ∀ l : List Curve, l ≠ [] → appendUnset a true l = (some (a.getD [] ++ List.replicate l.length none), true) := by
    intro l hl
    unfold appendUnset
    rw [if_pos ⟨rfl, hl⟩, List.map_const']
  have arc : ∀ (x y : ℝ) (t : Option (Transform ℝ)) (r : ℝ) (p0 p1 : ℝ × ℝ) (a0 a1 : ℝ), arcsThrough h x y t (arcStops x y r p0 p1 a0 a1) ≠ [] := by
    intro x y t r p0 p1 a0 a1
    unfold arcStops
    simp only
    split_ifs <;> simp [arcsThrough]
  have hne : ∃ l, getCurves h s = some l ∧ l ≠ [] := by
    unfold getCurves
    cases e : s.kind with
    | none => exact absurd e hk
    | line => exact ⟨_, rfl, by simp [curveLine]⟩
    | circle => exact ⟨_, rfl, by simp [curveCircle]⟩
    | arc =>
      refine ⟨_, rfl, ?_⟩
      unfold curveArc
      split
      · exact arc _ _ _ _ _ _ _ _
      · exact arc _ _ _ _ _ _ _ _
  obtain ⟨l, hl, hl'⟩ := hne
  refine ⟨l.length, List.length_pos_iff.2 hl', ?_⟩
  unfold getCurvesOf
  rw [hl]
  exact key l hl'

end Iges.Props
