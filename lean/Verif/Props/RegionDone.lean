import Verif.Lemmas.MergeDone
import Verif.Props.Inside
import Verif.Props.Region
import Verif.Props.RegionCircle
/-
C83: when a circle can be cut out of an outline of lines and arcs, or joined to it.
-/
namespace Iges.Props
open Iges.Geo Iges.Spec Iges.Turn Real

namespace RegionDone

theorem hits_done {c : Seg} {opsub : Bool} {l : List Seg} {k : ℕ} (h : Clean l [c]) : ∃ r, circleHits c opsub k l = .points r := by
  induction l generalizing k with
  | nil => exact ⟨_, rfl⟩
  | cons s l ih =>
    obtain ⟨h1, h2⟩ := h s (by simp) c (by simp)
    obtain ⟨r, hr⟩ := ih (k := k + 1) fun s hs => h s (by simp [hs])
    unfold circleHits
    simp only
    cases e : (intersections s c).ret with
    | true =>
      rw [if_pos rfl, if_neg (by rw [h1 e]; simp), hr]
      exact ⟨_, rfl⟩
    | false =>
      rw [if_neg (by simp), if_pos (h2 e)]
      exact ⟨_, hr⟩

/-- every point that is found is a common point, and every common point is found -/
theorem found {c : Seg} {opsub : Bool} {l : List Seg} {hits : List (Point ℝ × ℕ)} (hx : Crossed l c)
    (h : circleHits c opsub 0 l = .points hits) :
    (∀ y ∈ distinct [] hits, Common l c y.1) ∧ ∀ x, Common l c x → ∃ y ∈ distinct [] hits, y.1 = x := by
  have sh : ∀ y ∈ distinct [] hits, Common l c y.1 := by
    intro y hy
    obtain ⟨n, s, -, h1, h2, h3, -⟩ := circleHits_spec h y (by simpa using distinct_sub [] hits y hy)
    have hs := List.mem_of_getElem? h1
    obtain ⟨c1, c2⟩ := (hx.found s hs y.1).2 ⟨h3, h2⟩
    exact ⟨c2, s, hs, c1⟩
  refine ⟨sh, ?_⟩
  rintro x ⟨c2, s, hs, c1⟩
  obtain ⟨n, hn⟩ := List.mem_iff_getElem?.1 hs
  obtain ⟨r1, r2⟩ := (hx.found s hs x).1 ⟨c1, c2⟩
  obtain ⟨y, hy, hyx⟩ := distinct_complete [] hits _ (Or.inr (circleHits_complete h hn r1 r2))
  exact ⟨y, hy, hx.apart _ _ (sh y hy) ⟨c2, s, hs, c1⟩ hyx⟩

/-- there are as many as there are common points -/
theorem two {d : List (Point ℝ × ℕ)} {p q : Point ℝ} (hpq : p ≠ q) (pw : d.Pairwise fun x y => PointMatches x.1 y.1 1e-8 = false)
    (sub : ∀ y ∈ d, y.1 = p ∨ y.1 = q) (hp : ∃ y ∈ d, y.1 = p) (hq : ∃ y ∈ d, y.1 = q) : ∃ a b, d = [a, b] := by
  have refl : ∀ x : Point ℝ, PointMatches x x 1e-8 = true := fun x => C51_reflexive x _
  obtain ⟨a, ha, ea⟩ := hp
  obtain ⟨b, hb, eb⟩ := hq
  match d, pw, sub, ha, hb with
  | [], _, _, ha, _ => simp at ha
  | [x], _, _, ha, hb =>
    simp only [List.mem_cons, List.not_mem_nil, or_false] at ha hb
    exact absurd (by rw [← ea, ← eb, ha, hb]) hpq
  | [x, y], _, _, _, _ => exact ⟨x, y, rfl⟩
  | x :: y :: z :: r, pw, sub, _, _ =>
    exfalso
    have h1 := sub x (by simp)
    have h2 := sub y (by simp)
    have h3 := sub z (by simp)
    simp only [List.pairwise_cons, List.mem_cons, forall_eq_or_imp] at pw
    obtain ⟨⟨xy, xz, -⟩, ⟨yz, -⟩, -⟩ := pw
    rcases h1 with e1 | e1 <;> rcases h2 with e2 | e2 <;> rcases h3 with e3 | e3 <;> rw [e1] at xy xz <;> rw [e2] at xy yz <;>
      rw [e3] at xz yz <;> simp [refl] at xy xz yz

theorem splitOne_done {X Y : List Seg} {s : Seg} {i : ℕ} {p : Point ℝ} (hi : i = X.length) (p1 : PointMatches p s.start 1e-8 = false)
    (p2 : PointMatches p s.stop 1e-8 = false) (hs : Fit s) (hp : Covers s p) :
    ∃ s1 s2, splitOne (X ++ s :: Y) i p = (X ++ s1 :: s2 :: Y, true) ∧ s1.stop = p ∧ s2.start = p := by
  obtain ⟨⟨s1, lst⟩, e⟩ := split_done (pts := [p]) hs (Or.inl rfl) (by simpa using hp) ⟨p, by simp, p1, p2⟩
  obtain ⟨s2, rfl, -, a2, a3, -, -⟩ := split_one hs hp e
  refine ⟨s1, s2, ?_, a2, a3⟩
  unfold splitOne
  rw [at_append hi]
  simp only [Option.bind_some, e]
  subst hi
  simp

theorem erase_done {l : List Seg} {i : ℕ} {q : Point ℝ} {sp t : Seg} (ht : t ∈ l) (hq : t.start = q) : ∃ r, eraseTo l i q sp = some r := by
  unfold eraseTo
  simp only
  have hd : ∀ m : List Seg, t ∈ m → m.dropWhile (fun s => !PointMatches s.start q 1e-8) ≠ [] := by
    intro m hm e
    have hm' := hm
    rw [← List.takeWhile_append_dropWhile (p := fun s : Seg => !PointMatches s.start q 1e-8) (l := m), e, List.append_nil] at hm'
    have := takeWhile_all hm'
    simp [hq, C51_reflexive] at this
  split
  · exact ⟨_, rfl⟩
  · rename_i h
    push Not at h
    have ht' : t ∈ l.take (i + 1) ++ l.drop (i + 1) := by rw [List.take_append_drop]; exact ht
    rcases List.mem_append.1 ht' with m | m
    · rw [if_neg (hd _ m)]; exact ⟨_, rfl⟩
    · exact absurd h (hd _ m)

theorem join_done {o : Outline} {l : List Seg} {i : ℕ} {p q : Point ℝ} {sp s t : Seg} (hs : l[i]? = some s) (hp : s.stop = p)
    (ht : t ∈ l) (hq : t.start = q) :
    (joinArc o l i p q sp).ret = true ∧ (joinArc o l i p q sp).error = false ∧ (joinArc o l i p q sp).out.closed = o.closed := by
  have h1 : (l[i]?.map fun s : Seg => PointMatches s.stop p 1e-8).getD false = true := by
    rw [hs]; simp [hp, C51_reflexive]
  obtain ⟨r, hr⟩ := erase_done (i := i) (sp := sp) ht hq
  unfold joinArc
  simp only [h1, if_true, Bool.true_eq_false, if_false, hr]
  simp

theorem splits_done {o : Outline} {i j : ℕ} {p q : Point ℝ} {s u sp : Seg} (hf : ∀ t ∈ o.segs, Fit t)
    (hi : o.segs[i]? = some s) (hj : o.segs[j]? = some u) (hij : i ≠ j) (cs : Covers s p) (cu : Covers u q)
    (p1 : PointMatches p s.start 1e-8 = false) (p2 : PointMatches p s.stop 1e-8 = false)
    (q1 : PointMatches q u.start 1e-8 = false) (q2 : PointMatches q u.stop 1e-8 = false) :
    (splitAndJoin o i j p q false false sp).ret = true ∧ (splitAndJoin o i j p q false false sp).error = false ∧
      (splitAndJoin o i j p q false false sp).out.closed = o.closed := by
  unfold splitAndJoin
  simp only [Bool.false_eq_true, if_false, true_and]
  generalize o.segs = l at *
  rcases lt_or_gt_of_ne hij with hlt | hgt
  · obtain ⟨hl, hlen⟩ := getElem?_decomp hi
    generalize hX : l.take i = X at *
    generalize hW : l.drop (i + 1) = W at *
    have hiX : i = X.length := by rw [← hX, List.length_take]; omega
    have hjW : W[j - (i + 1)]? = some u := by
      rw [← hW, List.getElem?_drop, show i + 1 + (j - (i + 1)) = j by omega]; exact hj
    obtain ⟨hl2, hlen2⟩ := getElem?_decomp hjW
    generalize hY : W.take (j - (i + 1)) = Y at *
    generalize hZ : W.drop (j - (i + 1) + 1) = Z at *
    have hYl : Y.length = j - (i + 1) := by rw [← hY, List.length_take]; omega
    subst hl2
    subst hl
    clear hX hW hY hZ
    obtain ⟨s1, s2, e1, e2, -⟩ := splitOne_done (Y := Y ++ u :: Z) hiX p1 p2 (hf s (by simp)) cs
    rw [e1]
    simp only [Bool.true_eq_false, if_false, hlt, if_true]
    have e3 : X ++ s1 :: s2 :: (Y ++ u :: Z) = (X ++ s1 :: s2 :: Y) ++ u :: Z := by simp
    rw [e3]
    obtain ⟨u1, u2, e4, -, e5⟩ := splitOne_done (X := X ++ s1 :: s2 :: Y) (i := j + 1) (Y := Z) (by simp; omega) q1 q2
      (hf u (by simp)) cu
    rw [e4]
    simp only [Bool.true_eq_false, if_false, show ¬ (j + 1 < i) by omega]
    refine join_done (s := s1) (t := u2) ?_ e2 (by simp) e5
    rw [List.append_assoc, List.getElem?_append_right (by omega), ← hiX]
    simp
  · obtain ⟨hl, hlen⟩ := getElem?_decomp hj
    generalize hX : l.take j = X at *
    generalize hW : l.drop (j + 1) = W at *
    have hjX : j = X.length := by rw [← hX, List.length_take]; omega
    have hiW : W[i - (j + 1)]? = some s := by
      rw [← hW, List.getElem?_drop, show j + 1 + (i - (j + 1)) = i by omega]; exact hi
    obtain ⟨hl2, hlen2⟩ := getElem?_decomp hiW
    generalize hY : W.take (i - (j + 1)) = Y at *
    generalize hZ : W.drop (i - (j + 1) + 1) = Z at *
    have hYl : Y.length = i - (j + 1) := by rw [← hY, List.length_take]; omega
    subst hl2
    subst hl
    clear hX hW hY hZ
    have e0 : X ++ u :: (Y ++ s :: Z) = (X ++ u :: Y) ++ s :: Z := by simp
    rw [e0]
    obtain ⟨s1, s2, e1, e2, -⟩ := splitOne_done (X := X ++ u :: Y) (i := i) (Y := Z) (by simp; omega) p1 p2 (hf s (by simp)) cs
    rw [e1]
    simp only [Bool.true_eq_false, if_false, show ¬ i < j by omega]
    have e3 : (X ++ u :: Y) ++ s1 :: s2 :: Z = X ++ u :: (Y ++ s1 :: s2 :: Z) := by simp
    rw [e3]
    obtain ⟨u1, u2, e4, -, e5⟩ := splitOne_done (Y := Y ++ s1 :: s2 :: Z) hjX q1 q2 (hf u (by simp)) cu
    rw [e4]
    simp only [Bool.true_eq_false, if_false, show j < i from hgt, if_true]
    refine join_done (s := s1) (t := u2) ?_ e2 (by simp) e5
    have e5 : X ++ u1 :: u2 :: (Y ++ s1 :: s2 :: Z) = (X ++ u1 :: u2 :: Y) ++ s1 :: s2 :: Z := by simp
    rw [e5, List.getElem?_append_right (by simp; omega)]
    have : i + 1 - (X ++ u1 :: u2 :: Y).length = 0 := by simp; omega
    rw [this]
    simp

/-- the last step succeeds -/
theorem change {o : Outline} {c s u : Seg} (opsub : Bool) (kc : c.kind = .circle) (hc : Made c) {i j : ℕ} {p q : Point ℝ}
    (hf : ∀ t ∈ o.segs, Fit t) (hi : o.segs[i]? = some s) (hj : o.segs[j]? = some u) (cs : Covers s p) (cu : Covers u q)
    (hp : Covers c p) (hq : Covers c q)
    (hc1 : ∀ x, Covers c x → ∀ t ∈ o.segs, PointMatches x t.start 1e-8 = false ∧ PointMatches x t.stop 1e-8 = false)
    (hne : PointMatches p q 1e-8 = false) (fp : PointMatches c.center p 1e-8 = false)
    (fq : PointMatches c.center q 1e-8 = false) :
    (changeOutline o c opsub (p, i) (q, j) false false).ret = true ∧ (changeOutline o c opsub (p, i) (q, j) false false).error = false ∧
      (changeOutline o c opsub (p, i) (q, j) false false).out.closed = o.closed := by
  have h0 := (covers_on kc).1 hp
  have h1 := (covers_on kc).1 hq
  have hz := ((made_ok hc).circle kc)
  have hrad : ∀ x, OnCircle c.center c.radius x → hyp (x.x - c.center.x) (x.y - c.center.y) = c.radius := by
    intro x hx
    have h1 := hyp_sq (x.x - c.center.x) (x.y - c.center.y)
    have h2 := hx.1
    unfold planar2 at h2
    have h3 := hyp_nonneg (x.x - c.center.x) (x.y - c.center.y)
    nlinarith [hz.1]
  have hsp : (setArc c.center p q opsub).2 = true := by
    unfold setArc
    rw [if_neg (by rw [hz.2.1, h0.2, h1.2]; simp), if_neg (by rw [fp, fq]; simp)]
    simp only [hne, hrad _ h0, hrad _ h1, sub_self, abs_zero]
    norm_num
  have sl := List.mem_of_getElem? hi
  have ul := List.mem_of_getElem? hj
  have hhead : ¬ (o.segs.head?.map Seg.kind) = some .circle := by
    cases e : o.segs with
    | nil => simp
    | cons t r =>
      rcases (hf t (by rw [e]; simp)).kind with k | k <;> simp [k]
  unfold changeOutline
  simp only [hsp, Bool.true_eq_false, if_false, if_neg hhead, true_and]
  split
  · rename_i hij
    subst hij
    obtain rfl : u = s := by rw [hi] at hj; exact (Option.some.inj hj).symm
    obtain ⟨⟨s', lst⟩, e⟩ := split_done (pts := [p, q]) (hf u ul) (Or.inr rfl) (by simp [cs, cu]) ⟨p, by simp, (hc1 p hp u ul).1, (hc1 p hp u ul).2⟩
    obtain ⟨m, t, rfl⟩ := split_len (hf u ul) cs cu hne (hc1 p hp u ul).1 (hc1 p hp u ul).2 (hc1 q hq u ul).1 (hc1 q hq u ul).2 e
    simp only [hi, Option.bind_some, e]
    simp
  · rename_i hij
    exact splits_done hf hi hj hij cs cu (hc1 p hp s sl).1 (hc1 p hp s sl).2 (hc1 q hq u ul).1 (hc1 q hq u ul).2

/-- a circle that has points inside and outside and meets the border in two points: the points halfway between them are on
different sides -/
theorem halves {l : List Seg} {c : Seg} (kc : c.kind = .circle) (hr : 0 < c.radius) (hf : ∀ s ∈ l, Fit s) (hround : Round l)
    {p q : Point ℝ} (hcom : ∀ x, Common l c x → x = p ∨ x = q) {a b : ℝ} (ep : plane p = rim (plane c.center) c.radius a)
    (eq : plane q = rim (plane c.center) c.radius b) (hab : a < b) (hba : b < a + 2 * π)
    (hcross : ∃ x y, Covers c x ∧ Covers c y ∧ OffBorder l x ∧ OffBorder l y ∧ Inside l x ∧ ¬ Inside l y) :
    Inside l (pointAt c ((a + b) / 2)) ↔ ¬ Inside l (pointAt c ((a + b) / 2 + π)) := by
  obtain ⟨z, hz⟩ := hround
  have hl := linked_of_joined hf hz
  have on : ∀ φ, Covers c (pointAt c φ) := by
    intro φ
    rw [covers_on kc]
    refine ⟨?_, rfl⟩
    rw [← d2_plane, plane_pointAt, d2_rim]
  have off : ∀ φ, (a < φ ∧ φ < b) ∨ (b < φ ∧ φ < a + 2 * π) → OffBorder l (pointAt c φ) := by
    intro φ hφ
    refine ⟨rfl, fun s hs hcov => ?_⟩
    rcases hcom _ ⟨on φ, s, hs, hcov⟩ with e | e
    · have e := congrArg plane e
      rw [plane_pointAt, ep] at e
      rcases hφ with h | h
      · exact rim_ne hr h.1 (by linarith) e.symm
      · exact rim_ne hr (by linarith) h.2 e.symm
    · have e := congrArg plane e
      rw [plane_pointAt, eq] at e
      rcases hφ with h | h
      · exact rim_ne hr h.2 (by linarith) e
      · exact rim_ne hr h.1 (by linarith) e.symm
  have off' : ∀ φ, (a < φ ∧ φ < b) ∨ (b < φ ∧ φ < a + 2 * π) → Off (l.map curve) (rim (plane c.center) c.radius φ) := by
    intro φ hφ
    rw [← plane_pointAt, off_map hf rfl]
    exact off φ hφ
  obtain ⟨vA, hA⟩ := side_one hl (ok_map hf) (k := .arc (plane c.center) c.radius a b) (by
    intro t ht
    refine off' _ (Or.inl ⟨?_, ?_⟩)
    · nlinarith [ht.1]
    · nlinarith [ht.2])
  obtain ⟨vB, hB⟩ := side_one hl (ok_map hf) (k := .arc (plane c.center) c.radius b (a + 2 * π)) (by
    intro t ht
    refine off' _ (Or.inr ⟨?_, ?_⟩)
    · nlinarith [ht.1]
    · nlinarith [ht.2])
  have inA : ∀ φ, a ≤ φ → φ ≤ b → rim (plane c.center) c.radius φ ∈ (Curve.arc (plane c.center) c.radius a b).trace := fun φ h1 h2 =>
    ⟨φ, by rw [Set.uIcc_of_le hab.le]; exact ⟨h1, h2⟩, rfl⟩
  have inB : ∀ φ, b ≤ φ → φ ≤ a + 2 * π → rim (plane c.center) c.radius φ ∈ (Curve.arc (plane c.center) c.radius b (a + 2 * π)).trace :=
    fun φ h1 h2 => ⟨φ, by rw [Set.uIcc_of_le hba.le]; exact ⟨h1, h2⟩, rfl⟩
  have each : ∀ x, Covers c x → OffBorder l x → turns (l.map curve) (plane x) = vA ∨ turns (l.map curve) (plane x) = vB := by
    intro x hx ho
    have e := onCircle_rim hr ((covers_on kc).1 hx)
    have e' : plane x = rim (plane c.center) c.radius (toIcoMod two_pi_pos a (atan2 (x.y - c.center.y) (x.x - c.center.x))) := by
      rw [e]
      unfold rim toIcoMod
      rw [zsmul_eq_mul, Real.cos_sub_int_mul_two_pi, Real.sin_sub_int_mul_two_pi]
    have hm := toIcoMod_mem_Ico two_pi_pos a (atan2 (x.y - c.center.y) (x.x - c.center.x))
    have ho' := (off_map hf ho.1).2 ho
    rw [e'] at ho' ⊢
    generalize toIcoMod two_pi_pos a (atan2 (x.y - c.center.y) (x.x - c.center.x)) = φ at *
    rcases le_total φ b with h | h
    · exact Or.inl (hA _ (inA φ hm.1 h) ho')
    · exact Or.inr (hB _ (inB φ h hm.2.le) ho')
  have m1 : OffBorder l (pointAt c ((a + b) / 2)) := off _ (Or.inl ⟨by linarith, by linarith⟩)
  have m2 : OffBorder l (pointAt c ((a + b) / 2 + π)) := off _ (Or.inr ⟨by linarith [pi_pos], by linarith⟩)
  have e1 : turns (l.map curve) (plane (pointAt c ((a + b) / 2))) = vA :=
    hA _ (inA _ (by linarith) (by linarith)) (off' _ (Or.inl ⟨by linarith, by linarith⟩))
  have e2 : turns (l.map curve) (plane (pointAt c ((a + b) / 2 + π))) = vB :=
    hB _ (inB _ (by linarith) (by linarith)) (off' _ (Or.inr ⟨by linarith, by linarith⟩))
  rw [inside_odd hf ⟨z, hz⟩ m1, inside_odd hf ⟨z, hz⟩ m2, e1, e2]
  obtain ⟨x, y, cx, cy, ox, oy, ix, iy⟩ := hcross
  rw [inside_odd hf ⟨z, hz⟩ ox] at ix
  rw [inside_odd hf ⟨z, hz⟩ oy] at iy
  rcases each x cx ox with ex | ex <;> rcases each y cy oy with ey | ey <;> rw [ex] at ix <;> rw [ey] at iy <;> tauto

end RegionDone

open RegionDone in
/-- C83. A closed outline is made of lines and arcs; a circle meets it in exactly two points, away from its corners, and has
points inside of the region and points outside; `GetIntersections` finds the common points and reports no overlap of segments,
the points are apart by more than the tolerance from each other and from the centre of the circle, and `IsInside` is right
about the two points of the circle halfway between them.  Then cutting the circle out, or joining it, succeeds.  So whatever
`C83_region_partial` says holds.  What is missing: circles through corners. -/
theorem C83_success_partial {o : Outline} {c : Seg} (opsub : Bool) (hk : ∀ s ∈ o.segs, s.kind = .line ∨ s.kind = .arc)
    (hm : ∀ s ∈ o.segs, Made s) (hs : ∀ s ∈ o.segs, Sharp s) (hc : Made c) (kc : c.kind = .circle) (hround : Round o.segs)
    (hx : Crossed o.segs c) (hj : Judged o c) (hcl : o.closed = true) (hclean : Clean o.segs [c])
    (h2 : ∃ p q, p ≠ q ∧ ∀ x, Common o.segs c x ↔ x = p ∨ x = q)
    (hfar : ∀ x, Common o.segs c x → PointMatches c.center x 1e-8 = false)
    (hcross : ∃ x y, Covers c x ∧ Covers c y ∧ OffBorder o.segs x ∧ OffBorder o.segs y ∧ Inside o.segs x ∧ ¬ Inside o.segs y) :
    (opCircle o (some c) opsub).ret = true ∧ (opCircle o (some c) opsub).error = false ∧
      (opCircle o (some c) opsub).out.closed = true := by
  have hf : ∀ s ∈ o.segs, Fit s := fun s h => ⟨hk s h, hm s h, hs s h⟩
  have hr := ((made_ok hc).circle kc).1
  obtain ⟨hits, hh⟩ := hits_done (opsub := opsub) (k := 0) hclean
  obtain ⟨f1, f2⟩ := found hx hh
  obtain ⟨p0, q0, hne0, hS⟩ := h2
  obtain ⟨p, q, hd⟩ := two hne0 (distinct_pairwise [] hits List.Pairwise.nil) (fun y hy => (hS _).1 (f1 y hy))
    (f2 p0 ((hS _).2 (Or.inl rfl))) (f2 q0 ((hS _).2 (Or.inr rfl)))
  have hpq : PointMatches p.1 q.1 1e-8 = false := by
    have := distinct_pairwise [] hits List.Pairwise.nil
    rw [hd] at this
    simpa using this
  have hne : p.1 ≠ q.1 := by intro e; rw [e, C51_reflexive] at hpq; cases hpq
  have comp := f1 p (by rw [hd]; simp)
  have comq := f1 q (by rw [hd]; simp)
  have hcom : ∀ x, Common o.segs c x → x = p.1 ∨ x = q.1 := by
    intro x hx'
    obtain ⟨y, hy, rfl⟩ := f2 x hx'
    rw [hd] at hy
    simp only [List.mem_cons, List.not_mem_nil, or_false] at hy
    rcases hy with rfl | rfl <;> simp
  obtain ⟨i, s, hi, h1, h2, h3, -⟩ := circleHits_spec hh p (by simpa using distinct_sub [] hits p (by rw [hd]; simp))
  obtain ⟨j, u, hj', h1', h2', h3', -⟩ := circleHits_spec hh q (by simpa using distinct_sub [] hits q (by rw [hd]; simp))
  rw [zero_add] at hi hj'
  obtain ⟨cs, cp⟩ := (hx.found s (List.mem_of_getElem? h1) p.1).2 ⟨h3, h2⟩
  obtain ⟨cu, cq⟩ := (hx.found u (List.mem_of_getElem? h1') q.1).2 ⟨h3', h2'⟩
  have meets : Meets o.segs c.center c.radius p.1 q.1 :=
    ⟨hf, hround, ((covers_on kc).1 cp).1, ((covers_on kc).1 cq).1, fun t ht x hz hxc => hx.corner t ht x ((covers_on kc).2 ⟨hxc, hz⟩)⟩
  have corners : ∀ x, Covers c x → ∀ t ∈ o.segs, PointMatches x t.start 1e-8 = false ∧ PointMatches x t.stop 1e-8 = false := by
    intro x hcx t ht
    have z := (covers_on kc).1 hcx
    exact ⟨hx.corner t ht x hcx, meets.stopCorner ht z.2 z.1⟩
  have ends : ∀ x, Covers c x → isEndOf o.segs hits x = false := by
    intro x hcx
    unfold isEndOf
    rw [List.any_eq_false]
    intro y _
    cases hy : o.segs[y.2]? with
    | none => simp
    | some t =>
      obtain ⟨a1, a2⟩ := corners x hcx t (List.mem_of_getElem? hy)
      have ee : (t.getStart = t.start ∨ t.getStart = t.stop) ∧ (t.getEnd = t.start ∨ t.getEnd = t.stop) := by
        unfold Seg.getStart Seg.getEnd
        cases t.cw <;> simp
      have b1 : PointMatches x t.getStart 1e-8 = false := by
        rcases ee.1 with e | e <;> rw [e] <;> assumption
      have b2 : PointMatches x t.getEnd 1e-8 = false := by
        rcases ee.2 with e | e <;> rw [e] <;> assumption
      simp [b1, b2]
  obtain ⟨α, β, ea, eb, hab, hba, hmid⟩ := mid_angle hr ((covers_on kc).1 cp) ((covers_on kc).1 cq) hne
  have hopp := halves kc hr hf hround hcom ea eb hab hba hcross
  have hsome : ∀ y, ∃ i, isInside { o with boxOk := false } y = some i := by
    intro y
    rw [← Option.ne_none_iff_exists']
    intro e
    have e := (Inside.C68_error _ _).1 e
    rw [show ({ o with boxOk := false } : Outline).closed = o.closed from rfl, hcl] at e
    cases e
  obtain ⟨k, hk1⟩ := hsome (pointAt c ((α + β) / 2))
  obtain ⟨k', hk2⟩ := hsome (pointAt c ((α + β) / 2 + π))
  have j1 := (halfway kc hr hj hcom ea eb hab hba (Or.inl rfl)).2 k hk1
  have j2 := (halfway kc hr hj hcom ea eb hab hba (Or.inr rfl)).2 k' hk2
  have hkk : k' = !k := by
    rw [← j1, ← j2] at hopp
    revert hopp
    cases k <;> cases k' <;> simp
  subst hkk
  have fp := hfar _ comp
  have fq := hfar _ comq
  unfold opCircle
  simp only [hcl, Bool.true_eq_false, if_false, kc, ne_eq, not_true_eq_false, hh, hd, hmid]
  simp only [hcl] at hk1 hk2
  rw [hk1, hk2, ends _ cp, ends _ cq, show p = (p.1, i) by rw [← hi], show q = (q.1, j) by rw [← hj']]
  cases k with
  | true =>
    simp only [Bool.not_true, Bool.false_eq_true, if_false, if_true]
    have := change (o := { o with boxOk := false }) opsub kc hc hf h1' h1 cu cs cq cp corners (by rw [C51_symmetric]; exact hpq) fq fp
    simp only [hcl] at this
    exact this
  | false =>
    simp only [Bool.not_false, Bool.true_eq_false, Bool.false_eq_true, if_false]
    have := change (o := { o with boxOk := false }) opsub kc hc hf h1 h1' cs cu cp cq corners hpq fp fq
    simp only [hcl] at this
    exact this

open RegionDone in
/-- C83. A closed outline is made of lines and arcs; `GetIntersections` finds the points that it has in common with a circle and
reports no overlap of segments; different common points are not within the tolerance.  If there are common points but not exactly two,
then cutting the circle out and joining it report an error; if there are none, no error.  The outline stays as it is. -/
theorem C83_number {o : Outline} {c : Seg} (opsub : Bool) (kc : c.kind = .circle) (hx : Crossed o.segs c) (hcl : o.closed = true)
    (hclean : Clean o.segs [c]) (h2 : ¬ ∃ p q, p ≠ q ∧ ∀ x, Common o.segs c x ↔ x = p ∨ x = q) :
    (opCircle o (some c) opsub).ret = false ∧ ((opCircle o (some c) opsub).error = true ↔ ∃ x, Common o.segs c x) ∧
      (opCircle o (some c) opsub).out.segs = o.segs ∧ (opCircle o (some c) opsub).out.closed = true := by
  obtain ⟨hits, hh⟩ := hits_done (opsub := opsub) (k := 0) hclean
  obtain ⟨f1, f2⟩ := found hx hh
  have pw := distinct_pairwise [] hits List.Pairwise.nil
  unfold opCircle
  simp only [hcl, Bool.true_eq_false, if_false, kc, ne_eq, not_true_eq_false, hh]
  generalize distinct [] hits = d at *
  match d, pw, f1, f2 with
  | [], _, _, f2 =>
    refine ⟨rfl, ?_, rfl, rfl⟩
    simp only [Bool.false_eq_true, false_iff, not_exists]
    intro x hx
    obtain ⟨y, hy, -⟩ := f2 x hx
    simp at hy
  | [x], _, f1, _ => exact ⟨rfl, ⟨fun _ => ⟨x.1, f1 x (by simp)⟩, fun _ => rfl⟩, rfl, rfl⟩
  | [x, y], pw, f1, f2 =>
    refine absurd ⟨x.1, y.1, ?_, fun z => ⟨fun hz => ?_, ?_⟩⟩ h2
    · intro e
      have := pw
      simp only [List.pairwise_cons, List.mem_singleton, forall_eq] at this
      have := this.1
      rw [e, C51_reflexive] at this
      cases this
    · obtain ⟨w, hw, e⟩ := f2 z hz
      simp only [List.mem_cons, List.not_mem_nil, or_false] at hw
      rcases hw with rfl | rfl
      · exact Or.inl e.symm
      · exact Or.inr e.symm
    · rintro (rfl | rfl)
      · exact f1 x (by simp)
      · exact f1 y (by simp)
  | x :: y :: z :: r, _, f1, _ => exact ⟨rfl, ⟨fun _ => ⟨x.1, f1 x (by simp)⟩, fun _ => rfl⟩, rfl, rfl⟩

open RegionDone in
/-- C83. The circle meets the outline in exactly two points, but is on one side of it otherwise: nothing happens and no error is
reported. -/
theorem C83_one_side {o : Outline} {c : Seg} (opsub : Bool) (hc : Made c) (kc : c.kind = .circle) (hx : Crossed o.segs c)
    (hj : Judged o c) (hcl : o.closed = true) (hclean : Clean o.segs [c])
    (h2 : ∃ p q, p ≠ q ∧ ∀ x, Common o.segs c x ↔ x = p ∨ x = q)
    (hside : ∀ x y, Covers c x → Covers c y → OffBorder o.segs x → OffBorder o.segs y → (Inside o.segs x ↔ Inside o.segs y)) :
    (opCircle o (some c) opsub).ret = false ∧ (opCircle o (some c) opsub).error = false ∧
      (opCircle o (some c) opsub).out.segs = o.segs ∧ (opCircle o (some c) opsub).out.closed = true := by
  have hr := ((made_ok hc).circle kc).1
  obtain ⟨hits, hh⟩ := hits_done (opsub := opsub) (k := 0) hclean
  obtain ⟨f1, f2⟩ := found hx hh
  obtain ⟨p0, q0, hne0, hS⟩ := h2
  obtain ⟨p, q, hd⟩ := two hne0 (distinct_pairwise [] hits List.Pairwise.nil) (fun y hy => (hS _).1 (f1 y hy))
    (f2 p0 ((hS _).2 (Or.inl rfl))) (f2 q0 ((hS _).2 (Or.inr rfl)))
  have hpq : PointMatches p.1 q.1 1e-8 = false := by
    have := distinct_pairwise [] hits List.Pairwise.nil
    rw [hd] at this
    simpa using this
  have hne : p.1 ≠ q.1 := by intro e; rw [e, C51_reflexive] at hpq; cases hpq
  have hcom : ∀ x, Common o.segs c x → x = p.1 ∨ x = q.1 := by
    intro x hx'
    obtain ⟨y, hy, rfl⟩ := f2 x hx'
    rw [hd] at hy
    simp only [List.mem_cons, List.not_mem_nil, or_false] at hy
    rcases hy with rfl | rfl <;> simp
  have cp := (f1 p (by rw [hd]; simp)).1
  have cq := (f1 q (by rw [hd]; simp)).1
  obtain ⟨α, β, ea, eb, hab, hba, hmid⟩ := mid_angle hr ((covers_on kc).1 cp) ((covers_on kc).1 cq) hne
  have hsome : ∀ y, ∃ i, isInside { o with boxOk := false } y = some i := by
    intro y
    rw [← Option.ne_none_iff_exists']
    intro e
    have e := (Inside.C68_error _ _).1 e
    rw [show ({ o with boxOk := false } : Outline).closed = o.closed from rfl, hcl] at e
    cases e
  obtain ⟨k, hk1⟩ := hsome (pointAt c ((α + β) / 2))
  obtain ⟨k', hk2⟩ := hsome (pointAt c ((α + β) / 2 + π))
  obtain ⟨o1, j1⟩ := halfway kc hr hj hcom ea eb hab hba (Or.inl rfl)
  obtain ⟨o2, j2⟩ := halfway kc hr hj hcom ea eb hab hba (Or.inr rfl)
  have j1 := j1 k hk1
  have j2 := j2 k' hk2
  have on : ∀ φ, Covers c (pointAt c φ) := by
    intro φ
    rw [covers_on kc]
    refine ⟨?_, rfl⟩
    rw [← d2_plane, plane_pointAt, d2_rim]
  have hkk : k' = k := by
    have := hside _ _ (on _) (on _) o1 o2
    rw [← j1, ← j2] at this
    revert this
    cases k <;> cases k' <;> simp
  subst hkk
  unfold opCircle
  simp only [hcl, Bool.true_eq_false, if_false, kc, ne_eq, not_true_eq_false, hh, hd, hmid]
  simp only [hcl] at hk1 hk2
  rw [hk1, hk2]
  simp

end Iges.Props
