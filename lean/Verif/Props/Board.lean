import Verif.Props.Walls
import Verif.Props.Circles
import Verif.Props.InsideCases

/-! C69 for a whole board: `GetVerticalSurface`. -/
namespace Iges.Props.Walls
open Iges Iges.Geo Iges.Spec Iges.Props.Inside Real

/-- the segments of a board -/
def parts (b : Board) : List Seg := b.outline.segs ++ b.holes ++ b.cutouts.flatten

theorem wallsOf_true {top bot : ℝ} {rev : Bool} {l : List Seg} (h : (wallsOf top bot rev l).2 = true) :
    (∀ s ∈ l, ∃ ws, segmentWall top bot s rev = some ws) ∧
    ∀ w, w ∈ (wallsOf top bot rev l).1 ↔ ∃ s ∈ l, ∃ ws, segmentWall top bot s rev = some ws ∧ w ∈ ws := by
  induction l with
  | nil => simp [wallsOf]
  | cons s l ih =>
    unfold wallsOf at h ⊢
    cases e : segmentWall top bot s rev with
    | none => rw [e] at h; cases h
    | some ws =>
      rw [e] at h
      simp only at h ⊢
      obtain ⟨i1, i2⟩ := ih h
      constructor
      · intro t ht
        rcases List.mem_cons.1 ht with rfl | ht
        · exact ⟨ws, e⟩
        · exact i1 t ht
      · intro w
        rw [List.mem_append, i2 w]
        constructor
        · rintro (hw | ⟨t, ht, x⟩)
          · exact ⟨s, by simp, ws, e, hw⟩
          · exact ⟨t, by simp [ht], x⟩
        · rintro ⟨t, ht, x⟩
          rcases List.mem_cons.1 ht with rfl | ht
          · obtain ⟨ws', e', hw⟩ := x
            rw [e] at e'
            injection e' with e'
            exact Or.inl (e' ▸ hw)
          · exact Or.inr ⟨t, ht, x⟩

theorem wallsOf_iff (top bot : ℝ) (rev : Bool) (l : List Seg) :
    (wallsOf top bot rev l).2 = true ↔ ∀ s ∈ l, (segmentWall top bot s rev).isSome := by
  induction l with
  | nil => simp [wallsOf]
  | cons s l ih =>
    unfold wallsOf
    cases e : segmentWall top bot s rev with
    | none => simp [e]
    | some ws => simp [e, ih]

theorem vertical_parts {b : Board} {top bot : ℝ} {l : List Patch} (h : verticalSurface b top bot = (l, true)) :
    b.outline.closed = true ∧ b.outline.segs ≠ [] ∧
    (∀ s ∈ parts b, ∃ rev ws, (rev = true ∨ s ∈ b.outline.segs) ∧ segmentWall top bot s rev = some ws ∧ ∀ w ∈ ws, w ∈ l) ∧
    ∀ w ∈ l, ∃ s rev ws, (s ∈ b.outline.segs ∧ rev = false ∨ s ∈ b.holes ++ b.cutouts.flatten ∧ rev = true) ∧
      segmentWall top bot s rev = some ws ∧ w ∈ ws := by
  unfold verticalSurface at h
  split at h
  · cases h
  rename_i hc
  split at h
  · cases h
  rename_i hn
  simp only at h
  split at h
  · rename_i hw
    rw [h] at hw; cases hw
  rename_i hw
  split at h
  · cases h
  rename_i hh
  injection h with hl h3
  have hw' := wallsOf_true (by simpa using hw)
  have hh' := wallsOf_true (by simpa using hh)
  have hc' := wallsOf_true h3
  refine ⟨by simpa using hc, hn, ?_, ?_⟩
  · intro s hs
    unfold parts at hs
    rw [List.mem_append, List.mem_append] at hs
    rw [← hl]
    rcases hs with (hs | hs) | hs
    · obtain ⟨ws, e⟩ := hw'.1 s hs
      refine ⟨false, ws, Or.inr hs, e, fun w hx => ?_⟩
      rw [List.mem_append, List.mem_append]
      exact Or.inl (Or.inl ((hw'.2 w).2 ⟨s, hs, ws, e, hx⟩))
    · obtain ⟨ws, e⟩ := hh'.1 s hs
      refine ⟨true, ws, Or.inl rfl, e, fun w hx => ?_⟩
      rw [List.mem_append, List.mem_append]
      exact Or.inl (Or.inr ((hh'.2 w).2 ⟨s, hs, ws, e, hx⟩))
    · obtain ⟨ws, e⟩ := hc'.1 s hs
      refine ⟨true, ws, Or.inl rfl, e, fun w hx => ?_⟩
      rw [List.mem_append, List.mem_append]
      exact Or.inr ((hc'.2 w).2 ⟨s, hs, ws, e, hx⟩)
  · intro w hx
    rw [← hl, List.mem_append, List.mem_append] at hx
    rcases hx with (hx | hx) | hx
    · obtain ⟨s, hs, ws, e, hx⟩ := (hw'.2 w).1 hx
      exact ⟨s, false, ws, Or.inl ⟨hs, rfl⟩, e, hx⟩
    · obtain ⟨s, hs, ws, e, hx⟩ := (hh'.2 w).1 hx
      exact ⟨s, true, ws, Or.inr ⟨List.mem_append_left _ hs, rfl⟩, e, hx⟩
    · obtain ⟨s, hs, ws, e, hx⟩ := (hc'.2 w).1 hx
      exact ⟨s, true, ws, Or.inr ⟨List.mem_append_right _ hs, rfl⟩, e, hx⟩

/-- C69. `GetVerticalSurface` succeeds if and only if the outline is closed and has a segment and the wall of every segment
of the outline, of every hole and of every cutout can be made. -/
theorem C69_board_made (b : Board) (top bot : ℝ) : (verticalSurface b top bot).2 = true ↔
    b.outline.closed = true ∧ b.outline.segs ≠ [] ∧ (∀ s ∈ b.outline.segs, (segmentWall top bot s false).isSome) ∧
      ∀ s ∈ b.holes ++ b.cutouts.flatten, (segmentWall top bot s true).isSome := by
  have e : (∀ s ∈ b.holes ++ b.cutouts.flatten, (segmentWall top bot s true).isSome) ↔
      (wallsOf top bot true b.holes).2 = true ∧ (wallsOf top bot true b.cutouts.flatten).2 = true := by
    rw [wallsOf_iff, wallsOf_iff]
    simp only [List.mem_append]
    constructor
    · intro h; exact ⟨fun s hs => h s (Or.inl hs), fun s hs => h s (Or.inr hs)⟩
    · rintro ⟨h1, h2⟩ s (hs | hs)
      · exact h1 s hs
      · exact h2 s hs
  rw [e, ← wallsOf_iff]
  unfold verticalSurface
  cases b.outline.closed
  · simp
  by_cases hn : b.outline.segs = []
  · simp [hn]
  simp only [hn, Bool.not_true, Bool.false_eq_true, if_false]
  cases hw : (wallsOf top bot false b.outline.segs).2
  · simp [hw]
  cases hh : (wallsOf top bot true b.holes).2
  · simp
  simp [hn]

/-- C69. When `GetVerticalSurface` returns true, its surfaces are the points of the outline, of the holes and of the cutouts
between the two heights: none is left out and nothing else is covered, up to the distance of the ends of the arcs from
their circles. -/
theorem C69_board {b : Board} {top bot ε : ℝ} {l : List Patch} (h : verticalSurface b top bot = (l, true))
    (hm : ∀ s ∈ b.outline.segs ++ b.holes ++ b.cutouts.flatten, Made s ∧
      (s.kind = .arc → PointMatches s.getStart s.getEnd 1e-8 = false) ∧ endTol s ≤ ε) :
    Fits ε (fun x => ∃ w ∈ l, PatchOn w x)
      (fun x => ∃ s ∈ b.outline.segs ++ b.holes ++ b.cutouts.flatten, Upright (Covers s) top bot x) := by
  obtain ⟨-, -, h1, h2⟩ := vertical_parts h
  have sq : ∀ s ∈ parts b, endTol s ^ 2 ≤ ε ^ 2 := by
    intro s hs
    have h0 : 0 ≤ endTol s := by
      unfold endTol
      split
      · exact le_max_of_le_left (by norm_num)
      · exact le_rfl
    exact pow_le_pow_left₀ h0 (hm s hs).2.2 2
  constructor
  · rintro p ⟨w, hw, hp⟩
    obtain ⟨s, rev, ws, hs, e, hx⟩ := h2 w hw
    have hs' : s ∈ parts b := by
      unfold parts
      rcases hs with ⟨hs, -⟩ | ⟨hs, -⟩
      · simp only [List.mem_append]; exact Or.inl (Or.inl hs)
      · simp only [List.mem_append] at hs ⊢; tauto
    obtain ⟨q, hq, hd⟩ := (C69_wall (hm s hs').1 (hm s hs').2.1 e).1 p ⟨w, hx, hp⟩
    exact ⟨q, ⟨s, hs', hq⟩, hd.trans (sq s hs')⟩
  · rintro q ⟨s, hs, hq⟩
    obtain ⟨rev, ws, -, e, hall⟩ := h1 s hs
    obtain ⟨p, ⟨w, hw, hp⟩, hd⟩ := (C69_wall (hm s hs).1 (hm s hs).2.1 e).2 q hq
    exact ⟨p, ⟨w, hall w hw, hp⟩, hd.trans (sq s hs)⟩

/-- C69. The surfaces face away from the board when the outline, the holes and the cutouts all run counterclockwise and the
first height is the greater one: those of the outline to the right of the direction of the segment, those of the holes and
cutouts to the left; and the boundary of each of them closes and lies on it. -/
theorem C69_board_facing {b : Board} {top bot : ℝ} {l : List Patch} (hlt : bot < top)
    (h : verticalSurface b top bot = (l, true))
    (hm : ∀ s ∈ b.outline.segs ++ b.holes ++ b.cutouts.flatten, Made s ∧
      (s.kind = .arc → PointMatches s.getStart s.getEnd 1e-8 = false) ∧ 0 < s.length) (w : Patch) (hw : w ∈ l) :
    Bounded 1e-8 w ∧
    ((∃ s ∈ b.outline.segs, ∀ u v, ∃ d, Heading s (surfaceAt w u v) d ∧ NormalAt w u v (cross d ⟨0, 0, 1⟩)) ∨
     ∃ s ∈ b.holes ++ b.cutouts.flatten, ∀ u v, ∃ d, Heading s (surfaceAt w u v) d ∧ NormalAt w u v (cross ⟨0, 0, 1⟩ d)) := by
  obtain ⟨-, -, -, h2⟩ := vertical_parts h
  obtain ⟨s, rev, ws, hs, e, hx⟩ := h2 w hw
  rcases hs with ⟨hs, rfl⟩ | ⟨hs, rfl⟩
  · obtain ⟨m1, m2, m3⟩ := hm s (by simp only [List.mem_append]; exact Or.inl (Or.inl hs))
    exact ⟨C69_boundary m1 m2 m3 e w hx, Or.inl ⟨s, hs, fun u v => C69_facing m1 m2 (fun _ => hlt) e w hx u v⟩⟩
  · obtain ⟨m1, m2, m3⟩ := hm s (by simp only [List.mem_append] at hs ⊢; tauto)
    exact ⟨C69_boundary m1 m2 m3 e w hx, Or.inr ⟨s, hs, fun u v => C69_facing m1 m2 (fun _ => hlt) e w hx u v⟩⟩

/-- C69. The wall of a circle of ordinary size can be made if and only if the heights differ by at least 0.001. -/
theorem C69_circle_made {c a b : Point ℝ} {cw : Bool} {s : Seg} (h : setArc c a b cw = (s, true)) (hk : s.kind = .circle)
    (hc : norm2 c ≤ 10 ^ 12) (hr : 1e-7 ≤ s.radius ∧ s.radius ≤ 10 ^ 6) (top bot : ℝ) (rev : Bool) :
    (segmentWall top bot s rev).isSome ↔ 0.001 ≤ |top - bot| := by
  have hm : Made s := .arc h
  obtain ⟨e1, e2, hr0, hz⟩ := made_circle hm hk
  have hcc : s.center = c := (setArc_cases h).2.2.2.2.2.1
  have hcw := ((made_ok hm).circle hk).2.2
  have g1 : s.getStart = pt (c.x + s.radius) c.y := by
    unfold Seg.getStart; rw [hcw]; rw [← hcc, ← polar_zero]; exact e1
  have g2 : s.getEnd = pt (c.x + s.radius) c.y := by
    unfold Seg.getEnd; rw [hcw]; rw [← hcc, ← polar_zero]; exact e2
  have hz' : c.z = 0 := by rw [← hcc]; exact hz
  unfold norm2 at hc
  have hcx : |c.x| ≤ 10 ^ 6 := abs_le_of_sq_le_sq (by nlinarith [sq_nonneg c.y, sq_nonneg c.z]) (by norm_num)
  rw [abs_le] at hcx
  have hmm : PointMatches c (pt (c.x + s.radius) c.y) 1e-8 = false := by
    apply no_match
    · norm_num
    · unfold norm2; linarith
    · unfold norm2 pt; simp only; nlinarith [sq_nonneg c.y, sq_nonneg c.z]
    · unfold dist2 pt; simp only [hz', sub_self]
      have := hr.1
      nlinarith
  obtain ⟨y, hy⟩ : ∃ y, cylParams s.center s.getStart s.getEnd = some y := by
    unfold cylParams
    rw [g1, g2, hcc]
    rw [if_neg (by simp [hz', pt]), if_neg (by simp [hmm])]
    simp only [sub_self, abs_zero]
    rw [if_neg (by norm_num), if_pos (C51_reflexive _ _)]
    exact ⟨_, rfl⟩
  unfold segmentWall
  rw [hk]
  by_cases hd : |top - bot| < 1e-6
  · have : |top - bot| < 0.001 := lt_trans hd (by norm_num)
    rw [if_pos hd]; simp; linarith
  · rw [if_neg hd]
    simp only [hy, Option.bind_some]
    unfold cylInstantiate
    by_cases hd2 : |top - bot| < 0.001
    · rw [if_pos hd2]; simp; linarith
    · rw [if_neg hd2]; simp; linarith

/-- C69. No wall whose height is less than 0.001 can be made for a board that has an arc or a circle anywhere. -/
theorem C69_thin {b : Board} {s : Seg} (hs : s ∈ b.outline.segs ++ b.holes ++ b.cutouts.flatten)
    (hk : s.kind = .arc ∨ s.kind = .circle) {top bot : ℝ} (hd : |top - bot| < 0.001) :
    (verticalSurface b top bot).2 = false := by
  have no : ∀ rev, ¬ (segmentWall top bot s rev).isSome := by
    intro rev h
    obtain ⟨l, h⟩ := Option.isSome_iff_exists.1 h
    obtain ⟨y, -, hi⟩ := segmentWall_cyl h hk
    unfold cylInstantiate at hi
    rw [if_pos hd] at hi
    cases hi
  rw [← Bool.not_eq_true, C69_board_made]
  rintro ⟨-, -, h1, h2⟩
  rw [List.append_assoc, List.mem_append] at hs
  rcases hs with hs | hs
  · exact no _ (h1 s hs)
  · exact no _ (h2 s hs)

theorem endTol_line {s : Seg} (h : s.kind = .line) : endTol s = 0 := by unfold endTol; rw [h]
theorem endTol_circle {s : Seg} (h : s.kind = .circle) : endTol s = 0 := by unfold endTol; rw [h]

/-- C69: a square board of thickness 1.6 with a round hole: all the hypotheses hold and the surfaces are made. -/
theorem ex_board : ∃ b : Board, (∀ top bot : ℝ, 0.001 ≤ |top - bot| → (verticalSurface b top bot).2 = true) ∧
    (∀ top bot : ℝ, 1e-6 ≤ |top - bot| → (verticalSurface { b with holes := [] } top bot).2 = true) ∧
    (∃ s ∈ b.holes, s.kind = .circle) ∧
    ∀ s ∈ b.outline.segs ++ b.holes ++ b.cutouts.flatten, Made s ∧
      (s.kind = .arc → PointMatches s.getStart s.getEnd 1e-8 = false) ∧ 0 < s.length ∧ endTol s ≤ 0 := by
  obtain ⟨b, r, t, l, o, -, hm, hc, hs, -, -, -, -, b1, b2, r1, r2, t1, t2, l1, l2⟩ := ex_square
  obtain ⟨h, hh, kh, ch, rh⟩ := ex_circle (x := 1) (r := 1 / 2) (by norm_num) (by norm_num)
  have wl : ∀ s ∈ [b, r, t, l], ∀ top bot : ℝ, 1e-6 ≤ |top - bot| → (segmentWall top bot s false).isSome := by
    intro s hx top bot hd
    unfold segmentWall
    rw [(hm s hx).2, if_neg (not_lt.2 hd)]
    rfl
  refine ⟨⟨o, [h], []⟩, ?_, ?_, ⟨h, by simp, kh⟩, ?_⟩
  · intro top bot hd
    rw [C69_board_made]
    refine ⟨hc, by rw [hs]; simp, fun s hx => wl s (by rw [← hs]; exact hx) top bot (le_trans (by norm_num) hd), ?_⟩
    intro s hx
    simp only [List.flatten_nil, List.append_nil, List.mem_singleton] at hx
    subst hx
    exact (C69_circle_made hh kh (by norm_num [norm2, pt]) (by rw [rh]; norm_num) top bot true).2 hd
  · intro top bot hd
    rw [C69_board_made]
    exact ⟨hc, by rw [hs]; simp, fun s hx => wl s (by rw [← hs]; exact hx) top bot hd, by simp⟩
  · intro s hx
    simp only [hs, List.flatten_nil, List.append_nil, List.mem_append, List.mem_singleton] at hx
    rcases hx with hx | rfl
    · obtain ⟨m1, m2⟩ := hm s hx
      refine ⟨m1, by rw [m2]; simp, ?_, (endTol_line m2).le⟩
      unfold Seg.length
      rw [m2]
      simp only [List.mem_cons, List.not_mem_nil, or_false] at hx
      rcases hx with rfl | rfl | rfl | rfl <;> simp only [b1, b2, r1, r2, t1, t2, l1, l2, hyp, pt] <;>
        apply Real.sqrt_pos.2 <;> norm_num
    · refine ⟨.arc hh, by rw [kh]; simp, ?_, (endTol_circle kh).le⟩
      unfold Seg.length
      rw [kh, rh]
      have := Real.pi_pos
      simp only
      positivity

/-- C69: the hypotheses of `C69_board` and `C69_board_facing` hold for the board. -/
example : ∃ b l, verticalSurface b 0.8 (-0.8) = (l, true) ∧
    (∀ s ∈ b.outline.segs ++ b.holes ++ b.cutouts.flatten, Made s ∧
      (s.kind = .arc → PointMatches s.getStart s.getEnd 1e-8 = false) ∧ 0 < s.length ∧ endTol s ≤ 0) ∧
    Fits 0 (fun x => ∃ w ∈ l, PatchOn w x)
      (fun x => ∃ s ∈ b.outline.segs ++ b.holes ++ b.cutouts.flatten, Upright (Covers s) 0.8 (-0.8) x) := by
  obtain ⟨b, h, -, -, hm⟩ := ex_board
  have h' := h 0.8 (-0.8) (by norm_num)
  have e : verticalSurface b 0.8 (-0.8) = ((verticalSurface b 0.8 (-0.8)).1, true) := Prod.ext rfl h'
  exact ⟨b, _, e, hm, C69_board e fun s hs => ⟨(hm s hs).1, (hm s hs).2.1, (hm s hs).2.2.2⟩⟩

/-- C69. A wall of height 0.0005 can be made for the square board without the hole and not for the board with it. -/
theorem C69_thin_hole : ∃ b : Board, (verticalSurface { b with holes := [] } 0.0005 0).2 = true ∧
    (verticalSurface b 0.0005 0).2 = false ∧ (verticalSurface b 0.001 0).2 = true := by
  obtain ⟨b, h1, h2, ⟨s, hs, hk⟩, -⟩ := ex_board
  refine ⟨b, h2 _ _ (by norm_num [abs_of_pos]), C69_thin (s := s) ?_ (Or.inr hk) (by norm_num [abs_of_pos]),
    h1 _ _ (by norm_num [abs_of_pos])⟩
  simp only [List.mem_append]
  exact Or.inl (Or.inr hs)

/-- C69: the wall of an arc of a unit circle, clockwise, from the bottom to the right: the hypotheses of `C69_wall`,
`C69_wall_exact`, `C69_boundary` and `C69_facing` hold. -/
example : ∃ s l, Made s ∧ s.kind = .arc ∧ s.cw = true ∧ PointMatches s.getStart s.getEnd 1e-8 = false ∧ 0 < s.length ∧
    planar2 s.getStart s.center = s.radius ^ 2 ∧ segmentWall 1 0 s false = some l := by
  obtain ⟨s, hs, hk, hr⟩ := ex_arc (x := 0) (y := -1) (u := 1) (v := 0) (by norm_num) (by norm_num) (by norm_num) true
  obtain ⟨-, -, -, -, -, e1, e2, h'⟩ := setArc_cases hs
  rcases h' with ⟨h', -⟩ | ⟨-, hab, h1, h2, h3, -, h4, h5⟩
  · rw [hk] at h'; cases h'
  have hsome := (C69_arc_made hs hk 1 0 false).2 (by norm_num)
  obtain ⟨l, hl⟩ := Option.isSome_iff_exists.1 hsome
  have g1 : s.getStart = pt 1 0 := by unfold Seg.getStart; rw [h3]; exact h2
  have g2 : s.getEnd = pt 0 (-1) := by unfold Seg.getEnd; rw [h3]; exact h1
  refine ⟨s, l, .arc hs, hk, h3, ?_, ?_, ?_, hl⟩
  · rw [g1, g2]; apart
  · have ok := (made_ok (.arc hs)).arc hk
    have hp := ok.pos
    unfold Seg.length
    rw [hk]
    simp only
    refine mul_pos ?_ hp
    unfold Seg.endAngle Seg.startAngle
    have a1 : atan2 ((pt 0 (-1)).y - (pt 0 0).y) ((pt 0 (-1)).x - (pt 0 0).x) = -(π / 2) := by
      simpa [pt] using atan2_down
    have a2 : atan2 ((pt 1 0).y - (pt 0 0).y) ((pt 1 0).x - (pt 0 0).x) = 0 := by
      simpa [pt] using atan2_fwd
    have := Real.pi_pos
    rw [a1, a2, if_pos ⟨rfl, by linarith⟩] at h4
    rw [if_neg (by simp), a2] at h5
    rw [h3, h4, h5]
    simp only [if_true]
    linarith
  · rw [g1, e1, hr]; norm_num [planar2, pt]

end Iges.Props.Walls
