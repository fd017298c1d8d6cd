import Verif.Props.DrillBoard
/-
C88: two holes, and what goes wrong.
-/
namespace Iges.Props
open Iges.Geo Iges.Spec Iges.Turn

namespace Drills

theorem find_pair {b c : Seg} (h : Idf.meet b c = .crossing) : Idf.findBundles [] [b, c] = .done [] [[b, c]] := by
  have e : Idf.firstMeet b [c] = .found [] c [] := by unfold Idf.firstMeet; rw [h]
  rw [Idf.findBundles]
  split
  · rename_i g; rw [e] at g; cases g
  · rename_i g; rw [e] at g; cases g
  · rename_i g
    rw [e] at g
    cases g
    simp [Idf.growBundle, Idf.sweep, Idf.firstMeet, Idf.findBundles]

theorem sort_one (f : Seg → ℝ) (c : Seg) : Idf.sortDrills f [c] = [c] := by
  simp [Idf.sortDrills, Idf.settle]

theorem merge_pair {b c : Seg} (h : Idf.meet b c = .crossing) (cutouts : List Outline) :
    Idf.mergeDrills [b, c] cutouts = if (opCircle (edgeOf b) (some c) false).ret = true then
      .returns [] (cutouts ++ [(opCircle (edgeOf b) (some c) false).out]) true else .dangling [] := by
  unfold Idf.mergeDrills
  rw [find_pair h]
  simp only [List.cons_ne_nil, if_false]
  have e : Idf.bundleDrills [b, c] = if (opCircle (edgeOf b) (some c) false).ret = true then
      some (opCircle (edgeOf b) (some c) false).out else none := by
    show Idf.joinDrills (edgeOf b) (Idf.sortDrills (Idf.gap b) [c]) = _
    rw [sort_one]
    rfl
  unfold Idf.bundleAll
  rw [e]
  by_cases hr : (opCircle (edgeOf b) (some c) false).ret = true
  · rw [if_pos hr, if_pos hr]; rfl
  · rw [if_neg hr, if_neg hr]

/-- a hole at a place given by numbers -/
theorem hole_at {x y r : ℝ} (hx : x ^ 2 + y ^ 2 ≤ 100) (hr : 1e-4 < r ∧ r ≤ 100) :
    Made (Idf.convertDrill ⟨x, y⟩ (2 * r)) ∧ (Idf.convertDrill ⟨x, y⟩ (2 * r)).kind = .circle ∧
      (Idf.convertDrill ⟨x, y⟩ (2 * r)).center = pt x y ∧ (Idf.convertDrill ⟨x, y⟩ (2 * r)).radius = r := by
  obtain ⟨s, h, hk, hc, hr'⟩ := OutlineOps.ex_hole hx hr
  have e : Idf.convertDrill ⟨x, y⟩ (2 * r) = s := by
    unfold Idf.convertDrill Idf.P2.flat
    simp only
    rw [show x + 0.5 * (2 * r) = x + r by ring]
    unfold pt at h
    rw [h]
  rw [e]
  exact ⟨.arc h, hk, hc, hr'⟩

/-- the outline that is a circle about the origin -/
def round (r : ℝ) : Idf.Seg := ⟨⟨r, 0⟩, ⟨r, 0⟩, ⟨0, 0⟩, 360, 0, r⟩

theorem board_at {r : ℝ} (hr : 1e-4 < r ∧ r ≤ 100) :
    ∃ b, Idf.convertAll [[round r]] = some [edgeOf b] ∧ Made b ∧ b.kind = .circle ∧ b.center = pt 0 0 ∧ b.radius = r := by
  obtain ⟨s, h, hk, hc, hr'⟩ := ex_circle (x := 0) (r := r) (by norm_num) hr
  have e : Idf.convertSeg (round r) = s := by
    unfold Idf.convertSeg Idf.P2.flat
    have : (round r).isCircle = true := by
      unfold Idf.Seg.isCircle Idf.fullTurn Idf.minAng round
      norm_num
    rw [if_pos this]
    simp only [round]
    unfold pt at h
    rw [h]
  have t : (addSegment Outline.new (some s)).2 = true := by unfold addSegment; simp [hk, Outline.new]
  refine ⟨s, ?_, .arc h, hk, hc, hr'⟩
  unfold Idf.convertAll Idf.convertOln
  simp only [List.cons_ne_nil, if_false]
  unfold Idf.convertSegs
  rw [e]
  simp only [t, if_true]
  simp [Idf.convertSegs, Idf.convertAll, edgeOf]

theorem sqrt_line (x x' : ℝ) : √(planar2 (pt x 0) (pt x' 0)) = |x - x'| := by
  unfold planar2 pt
  simp only [sub_self]
  rw [show (x - x') ^ 2 + (0 : ℝ) ^ 2 = (x - x') ^ 2 by ring, Real.sqrt_sq_eq_abs]

end Drills

open Drills in
/-- C88. Two holes that cross become one cutout, which is their union, and no hole is left; the conditions are those of
`C83_two_circles`. -/
theorem C88_pair {b c : Seg} (cutouts : List Outline) (hb : Made b) (kb : b.kind = .circle) (hc : Made c) (kc : c.kind = .circle)
    (hm : HolesCross b c) (hap : ∀ x y, Common [b] c x → Common [b] c y → PointMatches x y 1e-8 = true → x = y)
    (hfar : ∀ x, Common [b] c x → PointMatches c.center x 1e-8 = false)
    (hs : -10 ^ 7 ≤ (edgeOf b).lo.x ∧ (edgeOf b).hi.x ≤ 10 ^ 7) (hy : ∀ y, Covers c y → |y.y| ≤ 10 ^ 7)
    (hlevel : ∀ y, Covers c y → (∀ x x', Common [b] c x → Common [b] c x' → planar2 y x = planar2 y x') →
      y.x < (edgeOf b).lo.x ∨ (edgeOf b).hi.x < y.x ∨ 1e-8 ≤ |b.radius ^ 2 - (y.y - b.center.y) ^ 2|) :
    ∃ o, Idf.mergeDrills [b, c] cutouts = .returns [] (cutouts ++ [o]) true ∧ o.closed = true ∧ Round o.segs ∧ Proper o.segs ∧
      ∀ x, OffBorder o.segs x → planar2 x c.center ≠ c.radius ^ 2 → (Inside o.segs x ↔ InHole b x ∨ InHole c x) := by
  have hmeet := (meet_cross kb kc ((made_ok hb).circle kb).1 ((made_ok hc).circle kc).1).2 hm
  have hret : (intersections b c).ret = true := by
    by_contra h
    unfold Idf.meet at hmeet
    rw [if_neg h] at hmeet
    split at hmeet <;> cases hmeet
  obtain ⟨h1, -, h3, h4, h5, -, h6⟩ := C83_two_circles false (edge_of hb kb).2.2.2 hb kb hc kc hret hap hfar hs hy hlevel
  refine ⟨_, by rw [merge_pair hmeet, if_pos h1], h3, h4, h5, fun x hx hx' => ?_⟩
  rw [h6 x hx hx']
  rfl

open Drills in
/-- C88 (counterexample). Two holes that overlap and whose edges cross in two points: `MakeBoard` goes on with an outline that
has been deleted, for every board whose outlines are accepted. -/
theorem C88_dangling (outlines : List (List Idf.Seg)) (main : Outline) (cs : List Outline)
    (h : Idf.convertAll outlines = some (main :: cs)) :
    Idf.makePlate outlines [(⟨0.5, 0⟩, 2 * 1), (⟨17 / 24, 1 / 2⟩, 2 * (13 / 24))] = .undefined := by
  obtain ⟨hb, kb, cb, rb⟩ := hole_at (x := 0.5) (y := 0) (r := 1) (by norm_num) (by norm_num)
  obtain ⟨hc, kc, cc, rc⟩ := hole_at (x := 17 / 24) (y := 1 / 2) (r := 13 / 24) (by norm_num) (by norm_num)
  unfold Idf.makePlate
  rw [h]
  simp only [List.map_cons, List.map_nil]
  generalize Idf.convertDrill ⟨0.5, 0⟩ (2 * 1) = b at *
  generalize Idf.convertDrill ⟨17 / 24, 1 / 2⟩ (2 * (13 / 24)) = c at *
  have hm : (intersections b c).ret = true := by
    rw [C62_meet_iff kb kc (by rw [rb]; norm_num) (by rw [rc]; norm_num), cb, cc, rb, rc]
    have e : planar2 (pt 0.5 0) (pt (17 / 24) (1 / 2)) = (13 / 24) ^ 2 := by norm_num [planar2, pt]
    have far : PointMatches (pt 0.5 0) (pt (17 / 24) (1 / 2)) 1e-3 = false := by apart
    rw [e, Real.sqrt_sq (by norm_num), far, abs_of_nonneg (by norm_num)]
    norm_num
  have hmeet : Idf.meet b c = .crossing := by unfold Idf.meet; rw [if_pos hm]
  obtain ⟨-, -, hr, -, -⟩ := TwoCircles.unjoined false (edge_of hb kb).2.2.2 hb kb cb rb hc kc cc rc hm
  rw [merge_pair hmeet, if_neg (by rw [hr]; simp)]

open Drills in
/-- C88 (counterexample). Two holes overlap, and another hole is in the list twice.  The two holes that overlap are not in the
board that is made: there is material at a point that is in both of them. -/
theorem C88_lost : ∃ p x, Idf.makePlate [[round 100]] [(⟨0, 0⟩, 2 * 1), (⟨1, 0⟩, 2 * 1), (⟨10, 0⟩, 2 * 1), (⟨10, 0⟩, 2 * 1)] = .plate p ∧
    InHole (Idf.convertDrill ⟨0, 0⟩ (2 * 1)) x ∧ InHole (Idf.convertDrill ⟨1, 0⟩ (2 * 1)) x ∧ Material p x := by
  obtain ⟨ha, ka, ca, ra⟩ := hole_at (x := 0) (y := 0) (r := 1) (by norm_num) (by norm_num)
  obtain ⟨hb, kb, cb, rb⟩ := hole_at (x := 1) (y := 0) (r := 1) (by norm_num) (by norm_num)
  obtain ⟨hc, kc, cc, rc⟩ := hole_at (x := 10) (y := 0) (r := 1) (by norm_num) (by norm_num)
  obtain ⟨m, em, hm, km, cm, rm⟩ := board_at (r := 100) (by norm_num)
  unfold Idf.makePlate
  rw [em]
  simp only [List.map_cons, List.map_nil]
  generalize Idf.convertDrill ⟨0, 0⟩ (2 * 1) = a at *
  generalize Idf.convertDrill ⟨1, 0⟩ (2 * 1) = b at *
  generalize Idf.convertDrill ⟨10, 0⟩ (2 * 1) = c at *
  have mab : Idf.meet a b = .crossing := by
    rw [meet_cross ka kb (by rw [ra]; norm_num) (by rw [rb]; norm_num)]
    unfold HolesCross
    have far : PointMatches (pt 0 0) (pt 1 0) 1e-3 = false := by apart
    rw [ca, cb, ra, rb, sqrt_line, far]
    norm_num
  have mac : Idf.meet a c = .apart := by
    rw [meet_apart ka kc]; unfold HolesApart; rw [ca, cc, ra, rc, sqrt_line]; norm_num [abs_of_neg]
  have mbc : Idf.meet b c = .apart := by
    rw [meet_apart kb kc]; unfold HolesApart; rw [cb, cc, rb, rc, sqrt_line]; norm_num [abs_of_neg]
  have mcc : Idf.meet c c = .flagged := by
    have hi : intersections c c = ⟨[], .ident, false⟩ := by
      unfold intersections
      rw [kc]
      simp only
      unfold checkCircles
      simp only
      rw [if_neg, if_pos]
      · exact ⟨C51_reflexive _ _, by norm_num⟩
      · rw [hyp_planar, cc, sqrt_line, rc]; norm_num
    unfold Idf.meet
    rw [hi]
    simp
  have hf : Idf.findBundles [] [a, b, c, c] = .flagged [c, c] := by
    have e : Idf.firstMeet a [b, c, c] = .found [] b [c, c] := by unfold Idf.firstMeet; rw [mab]
    have e2 : Idf.firstMeet c [c] = .flagged := by unfold Idf.firstMeet; rw [mcc]
    have e3 : Idf.firstMeet a [c, c] = .clear := by simp [Idf.firstMeet, mac]
    have e4 : Idf.findBundles [] [c, c] = .flagged [c, c] := by
      rw [Idf.findBundles]
      split
      · rename_i g; rw [e2] at g; cases g
      · rfl
      · rename_i g; rw [e2] at g; cases g
    rw [Idf.findBundles]
    split
    · rename_i g; rw [e] at g; cases g
    · rename_i g; rw [e] at g; cases g
    · rename_i g
      rw [e] at g
      cases g
      simp [Idf.growBundle, Idf.sweep, mac, mbc, e3, e4]
  have hmg : Idf.mergeDrills [a, b, c, c] [] = .returns [c, c] [] false := by unfold Idf.mergeDrills; rw [hf]
  obtain ⟨s1, s2, -, -⟩ := edge_of hm km
  have refuse : ∀ o : Outline, o.segs = [m] → o.closed = true → (opCircle o (some c) true).ret = false ∧
      (opCircle o (some c) true).error = false ∧ (opCircle o (some c) true).out.segs = [m] ∧ (opCircle o (some c) true).out.closed = true := by
    intro o ho hcl
    obtain ⟨r1, r2, r3⟩ := (C83_circles_refused true ho hcl km kc (by rw [rm]; norm_num) (by rw [rc]; norm_num)).2.1
      (by rw [cm, cc, rm, rc, sqrt_line]; norm_num) (by rw [rc]; norm_num) (by rw [rm, rc]; norm_num)
    exact ⟨r1, r2, r3, (C82_untouched o _ true r1 r2).2.trans hcl⟩
  obtain ⟨u1, u2, u3, u4⟩ := refuse _ s1 s2
  obtain ⟨v1, v2, v3, v4⟩ := refuse _ u3 u4
  have hcut : ∃ o, Idf.cutEdge (edgeOf m) [c, c] = some (o, [c, c]) ∧ o.segs = [m] := by
    refine ⟨(opCircle (opCircle (edgeOf m) (some c) true).out (some c) true).out, ?_, v3⟩
    simp [Idf.cutEdge, subCircle, u1, u2, v1, v2]
  obtain ⟨o, h1, h2⟩ := hcut
  have hx : planar2 (pt 0.5 0) m.center < m.radius ^ 2 := by rw [cm, rm]; norm_num [planar2, pt]
  refine ⟨⟨o, [], [c, c]⟩, pt 0.5 0, ?_, ?_, ?_, ?_, by simp, ?_⟩
  · rw [hmg]
    simp only
    rw [h1]
    simp [Idf.growCutouts, Idf.addCutouts, Idf.addDrills, addHole, kc]
  · unfold InHole; rw [ca, ra]; norm_num [planar2, pt]
  · unfold InHole; rw [cb, rb]; norm_num [planar2, pt]
  · simp only
    rw [h2, Disc.inside km hx.ne]
    exact hx
  · intro d hd
    have : d = c := by simpa using hd
    subst this
    unfold InHole
    rw [cc, rc]
    norm_num [planar2, pt]

open Drills in
/-- The conditions of `C88_pair` are met by the circle about (0,0) and the one about (1,0), both of radius 1. -/
example : ∃ o, Idf.mergeDrills [Idf.convertDrill ⟨0, 0⟩ (2 * 1), Idf.convertDrill ⟨1, 0⟩ (2 * 1)] [] = .returns [] [o] true := by
  obtain ⟨hb, kb, cb, rb⟩ := hole_at (x := 0) (y := 0) (r := 1) (by norm_num) (by norm_num)
  obtain ⟨hc, kc, cc, rc⟩ := hole_at (x := 1) (y := 0) (r := 1) (by norm_num) (by norm_num)
  generalize Idf.convertDrill ⟨0, 0⟩ (2 * 1) = b at *
  generalize Idf.convertDrill ⟨1, 0⟩ (2 * 1) = c at *
  obtain ⟨h1, h2, h3, h4, h5, h6⟩ := TwoCircles.two (edge_of hb kb).2.2.2 kb cb rb kc cc rc
  obtain ⟨o, h, -⟩ := C88_pair [] hb kb hc kc ((C62_meet_iff kb kc (by rw [rb]; norm_num) (by rw [rc]; norm_num)).1 h1) h2 h3 h4 h5 h6
  exact ⟨o, h⟩

open Drills in
/-- The conditions of `C88_board_partial` are met by a round board and a hole across its edge. -/
example : ∃ p, Idf.makePlate [[round 1]] [(⟨1, 0⟩, 2 * 1)] = .plate p ∧
    ∃ main d, Idf.convertAll [[round 1]] = some [main] ∧ d = Idf.convertDrill ⟨1, 0⟩ (2 * 1) ∧ (opCircle main (some d) true).ret = true ∧
    ∀ x, (∀ s ∈ stages true main [d], OffBorder s.segs x) → planar2 x d.center ≠ d.radius ^ 2 →
      (Material p x ↔ Inside main.segs x ∧ ¬ InHole d x) := by
  obtain ⟨b, em, hb, kb, cb, rb⟩ := board_at (r := 1) (by norm_num)
  obtain ⟨hc, kc, cc, rc⟩ := hole_at (x := 1) (y := 0) (r := 1) (by norm_num) (by norm_num)
  obtain ⟨s1, s2, s3, s4⟩ := edge_of hb kb
  have hmg : ∀ c : Seg, Idf.mergeDrills [c] [] = .returns [c] [] false := by
    intro c
    simp [Idf.mergeDrills, Idf.findBundles, Idf.firstMeet]
  have none : ∀ {c f : Seg} {l l' : List Seg}, ¬ Order [c] f l l' := by
    rintro c f l l' ⟨⟨al, bs, hB, hmem⟩, -, -⟩
    have h1 := hB.all.length_eq
    have h2 := hB.size _ hmem
    have h3 : (f :: l).length ≤ bs.flatten.length := by
      rw [List.length_flatten]
      exact List.single_le_sum (by simp) _ (List.mem_map_of_mem hmem)
    simp only [List.length_append, List.length_cons, List.length_nil] at h1 h2 h3
    omega
  generalize hd : Idf.convertDrill ⟨1, 0⟩ (2 * 1) = d at *
  obtain ⟨h1, h2, h3, h4, h5, h6⟩ := TwoCircles.two s4 kb cb rb kc cc rc
  obtain ⟨r1, r2, -⟩ := C83_two_circles true s4 hb kb hc kc h1 h2 h3 h4 h5 h6
  obtain ⟨-, -, hj⟩ := TwoCircles.judged s4 hb kb hc kc h1 h4 h5 h6
  obtain ⟨p, e, hp⟩ := C88_board_partial (drills := [(⟨1, 0⟩, 2 * 1)]) (holes := [d]) em (by rw [List.map_cons, List.map_nil, hd]) (hmg d)
    (by simpa using ⟨s3, s2⟩) (by simpa using ⟨hc, kc⟩) (by simp) (fun f l l' h => absurd h none)
    ⟨r2, fun _ => Or.inl ⟨b, s1, kb, hj⟩, trivial⟩ trivial (by simp [finalAll]) (by simp [finalAll])
  refine ⟨p, e, edgeOf b, d, em, rfl, r1, fun x hx hxd => ?_⟩
  rw [hp x (fun f l l' h => absurd h none) (by simpa [stagesAll] using hx) (by simpa using hxd)]
  simp

open Drills in
/-- The conditions of `C88_bundles` are met by three holes, two of which cross. -/
example : ∃ alone bundles, Bundled [Idf.convertDrill ⟨0, 0⟩ (2 * 1), Idf.convertDrill ⟨10, 0⟩ (2 * 1), Idf.convertDrill ⟨1, 0⟩ (2 * 1)] alone bundles ∧
    HolesCross (Idf.convertDrill ⟨0, 0⟩ (2 * 1)) (Idf.convertDrill ⟨1, 0⟩ (2 * 1)) := by
  obtain ⟨ha, ka, ca, ra⟩ := hole_at (x := 0) (y := 0) (r := 1) (by norm_num) (by norm_num)
  obtain ⟨hb, kb, cb, rb⟩ := hole_at (x := 1) (y := 0) (r := 1) (by norm_num) (by norm_num)
  obtain ⟨hc, kc, cc, rc⟩ := hole_at (x := 10) (y := 0) (r := 1) (by norm_num) (by norm_num)
  generalize Idf.convertDrill ⟨0, 0⟩ (2 * 1) = a at *
  generalize Idf.convertDrill ⟨1, 0⟩ (2 * 1) = b at *
  generalize Idf.convertDrill ⟨10, 0⟩ (2 * 1) = c at *
  have far : PointMatches (pt 0 0) (pt 1 0) 1e-3 = false := by apart
  have h1 : HolesCross a b := by unfold HolesCross; rw [ca, cb, ra, rb, sqrt_line, far]; norm_num
  have h2 : HolesApart a c := by unfold HolesApart; rw [ca, cc, ra, rc, sqrt_line]; norm_num [abs_of_neg]
  have h3 : HolesApart c b := by unfold HolesApart; rw [cb, cc, rb, rc, sqrt_line]; norm_num [abs_of_neg]
  obtain ⟨al, bs, h, -⟩ := C88_bundles [a, c, b] [] (by simp [ka, kb, kc, ra, rb, rc]) (by simp [h1, h2, h3])
  exact ⟨al, bs, h, h1⟩

end Iges.Props
