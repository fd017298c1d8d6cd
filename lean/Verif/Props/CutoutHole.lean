import Verif.Props.Cutout
import Verif.Props.CutoutCases
import Verif.Props.RegionNumberCases
/-
C85: when a hole is accepted, where it goes, and when it is refused.
-/
namespace Iges.Props
open Iges.Geo Iges.Spec OutlineOps

/-- A closed outline made of lines and arcs that runs once, counterclockwise, round its region and is crossed by the circle, if at
all, away from its corners; every segment of it can be compared with the circle. -/
def HoleReady (o : Outline) (c : Seg) : Prop :=
  o.closed = true ∧ Clean o.segs [c] ∧ (∀ s ∈ o.segs, s.kind = .line ∨ s.kind = .arc) ∧ (∀ s ∈ o.segs, Made s) ∧
    (∀ s ∈ o.segs, Sharp s) ∧ Round o.segs ∧ Proper o.segs ∧ Crossed o.segs c

/-- The circle crosses the outline at exactly two points, neither of them at its own centre, and runs on both sides; `IsInside` is
right about the two points of the circle halfway between them. -/
def CrossesOnce (o : Outline) (c : Seg) : Prop :=
  Judged o c ∧ (∃ p q, p ≠ q ∧ ∀ x, Common o.segs c x ↔ x = p ∨ x = q) ∧ (∀ x, Common o.segs c x → PointMatches c.center x 1e-8 = false) ∧
    ∃ x y, Covers c x ∧ Covers c y ∧ OffBorder o.segs x ∧ OffBorder o.segs y ∧ Inside o.segs x ∧ ¬ Inside o.segs y

/-- The circle has no point in common with the outline, or touches it at two points, is on one side of it otherwise, and `IsInside` is
right about the two points of the circle halfway between them. -/
def OneSided (o : Outline) (c : Seg) : Prop :=
  (∀ x, ¬ Common o.segs c x) ∨ Judged o c ∧ (∃ p q, p ≠ q ∧ ∀ x, Common o.segs c x ↔ x = p ∨ x = q) ∧
    ∀ x y, Covers c x → Covers c y → OffBorder o.segs x → OffBorder o.segs y → (Inside o.segs x ↔ Inside o.segs y)

namespace CutoutHole

theorem not_both {o : Outline} {c : Seg} (h1 : OneSided o c) (h2 : CrossesOnce o c) : False := by
  obtain ⟨-, ⟨p, q, -, hh⟩, -, x, y, a1, a2, a3, a4, a5, a6⟩ := h2
  rcases h1 with h1 | ⟨-, -, h1⟩
  · exact h1 p ((hh p).2 (Or.inl rfl))
  · exact a6 ((h1 x y a1 a2 a3 a4).1 a5)

theorem apart_op {o : Outline} {c : Seg} (opsub : Bool) (hc : Made c) (kc : c.kind = .circle) (h : HoleReady o c) (hn : OneSided o c) :
    (opCircle o (some c) opsub).ret = false ∧ (opCircle o (some c) opsub).error = false ∧
      (opCircle o (some c) opsub).out.segs = o.segs := by
  obtain ⟨hcl, hclean, -, -, -, -, -, hx⟩ := h
  rcases hn with hn | ⟨hj, hn1, hn2⟩
  swap
  · obtain ⟨g1, g2, g3, -⟩ := C83_one_side opsub hc kc hx hj hcl hclean hn1 hn2
    exact ⟨g1, g2, g3⟩
  obtain ⟨g1, g2, g3, -⟩ := C83_number opsub kc hx hcl hclean (by
    rintro ⟨p, q, -, hh⟩
    exact hn p ((hh p).2 (Or.inl rfl)))
  refine ⟨g1, ?_, g3⟩
  cases he : (opCircle o (some c) opsub).error with
  | false => rfl
  | true => obtain ⟨x, hx⟩ := g2.1 he; exact absurd hx (hn x)

theorem cross_op {o : Outline} {c : Seg} (opsub : Bool) (hc : Made c) (kc : c.kind = .circle) (h : HoleReady o c)
    (hn : CrossesOnce o c) : (opCircle o (some c) opsub).ret = true ∧ (opCircle o (some c) opsub).error = false := by
  obtain ⟨hcl, hclean, hk, hm, hs, hr, -, hx⟩ := h
  obtain ⟨g1, g2, -⟩ := C83_success_partial opsub hk hm hs hc kc hr hx hn.1 hcl hclean hn.2.1 hn.2.2.1 hn.2.2.2
  exact ⟨g1, g2⟩

theorem join_apart {l : List Outline} {c : Seg} (hc : Made c) (kc : c.kind = .circle)
    (h : ∀ o ∈ l, HoleReady o c ∧ OneSided o c) :
    (joinHole l c).2 = (false, false) ∧ (joinHole l c).1.map (·.segs) = l.map (·.segs) := by
  induction l with
  | nil => exact ⟨rfl, rfl⟩
  | cons o l ih =>
    obtain ⟨g1, g2, g3⟩ := apart_op false hc kc (h o (by simp)).1 (h o (by simp)).2
    obtain ⟨i1, i2⟩ := ih fun o ho => h o (by simp [ho])
    unfold joinHole addCircle
    simp only [g1, g2, Bool.false_eq_true, or_self, if_false]
    exact ⟨i1, by simp [g3, i2]⟩

theorem join_some {l : List Outline} {c : Seg} (hc : Made c) (kc : c.kind = .circle)
    (h : ∀ o ∈ l, HoleReady o c ∧ (OneSided o c ∨ CrossesOnce o c))
    (h1 : ∃ o ∈ l, CrossesOnce o c) : (joinHole l c).2 = (true, false) := by
  induction l with
  | nil => obtain ⟨o, ho, -⟩ := h1; cases ho
  | cons o l ih =>
    obtain ⟨a, b⟩ := h o (by simp)
    rcases b with b | b
    · obtain ⟨g1, g2, -⟩ := apart_op false hc kc a b
      have : ∃ o ∈ l, CrossesOnce o c := by
        obtain ⟨o', ho', hx⟩ := h1
        rcases List.mem_cons.1 ho' with rfl | ho'
        · exact (not_both b hx).elim
        · exact ⟨o', ho', hx⟩
      unfold joinHole addCircle
      simp only [g1, g2, Bool.false_eq_true, or_self, if_false]
      exact ih (fun o ho => h o (by simp [ho])) this
    · obtain ⟨g1, g2⟩ := cross_op false hc kc a b
      unfold joinHole addCircle
      simp only [g1, g2, true_or, if_true]

/-- cutting the circle out of the outline, or joining it, if it is done, is right -/
def Right (o : Outline) (c : Seg) (opsub : Bool) : Prop :=
  (opCircle o (some c) opsub).ret = true → ∀ x, OffBorder (opCircle o (some c) opsub).out.segs x → planar2 x c.center ≠ c.radius ^ 2 →
    (Inside (opCircle o (some c) opsub).out.segs x ↔
      if opsub then Inside o.segs x ∧ c.radius ^ 2 < planar2 x c.center else Inside o.segs x ∨ planar2 x c.center < c.radius ^ 2)

/-- the loop over the cutouts -/
theorem join_right {l : List Outline} {c : Seg} (h : ∀ o ∈ l, Right o c false ∧ (opCircle o (some c) false).error = false) :
    (joinHole l c).2.2 = false ∧
    ((joinHole l c).2.1 = false → (joinHole l c).1.map (·.segs) = l.map (·.segs)) ∧
    ((joinHole l c).2.1 = true → ∀ x, (∀ o ∈ (joinHole l c).1, OffBorder o.segs x) → planar2 x c.center ≠ c.radius ^ 2 →
      ((∀ o ∈ (joinHole l c).1, ¬ Inside o.segs x) ↔ (∀ o ∈ l, ¬ Inside o.segs x) ∧ ¬ InHole c x)) := by
  induction l with
  | nil => exact ⟨rfl, fun _ => rfl, fun h => by simp [joinHole] at h⟩
  | cons o l ih =>
    obtain ⟨hr, herr⟩ := h o (by simp)
    unfold joinHole addCircle
    simp only
    cases hret : (opCircle o (some c) false).ret with
    | true =>
      simp only [herr, true_or, if_true]
      refine ⟨trivial, fun e => (by cases e), fun _ x hx hxc => ?_⟩
      have g := hr hret x (hx _ (by simp)) hxc
      simp only [Bool.false_eq_true, if_false] at g
      simp only [List.mem_cons, forall_eq_or_imp, g, InHole]
      tauto
    | false =>
      obtain ⟨g1, -⟩ := C82_untouched o (some c) false hret herr
      simp only [herr, Bool.false_eq_true, or_self, if_false]
      obtain ⟨i0, i1, i2⟩ := ih (fun o ho => h o (by simp [ho]))
      refine ⟨i0, fun e => by simp [g1, i1 e], fun e x hx hxc => ?_⟩
      have := i2 e x (fun o ho => hx o (by simp [ho])) hxc
      simp only [List.mem_cons, forall_eq_or_imp, g1, this]
      tauto

/-- a board with its cutouts, when each step is right and reports no error -/
theorem hole_right {p : Plate} {c : Seg} (kc : c.kind = .circle) (hm : Right p.main c true ∧ (opCircle p.main (some c) true).error = false)
    (hl : ∀ o ∈ p.cutouts, Right o c false ∧ (opCircle o (some c) false).error = false) :
    (addHole p (some c) true).2 = (true, false) ∧
    ∀ x, OffBorders (addHole p (some c) true).1 x → planar2 x c.center ≠ c.radius ^ 2 →
      (Material (addHole p (some c) true).1 x ↔ Material p x ∧ ¬ InHole c x) := by
  obtain ⟨hr, herr⟩ := hm
  unfold addHole subCircle
  simp only [kc, ne_eq, not_true_eq_false, if_false, Bool.true_eq_false]
  cases hret : (opCircle p.main (some c) true).ret with
  | true =>
    simp only [herr, true_or, if_true]
    refine ⟨trivial, fun x hx hxc => ?_⟩
    have g := hr hret x hx.1 hxc
    simp only [if_true] at g
    unfold Material InHole
    simp only [g]
    have : ¬ planar2 x c.center < c.radius ^ 2 ↔ c.radius ^ 2 < planar2 x c.center :=
      ⟨fun h => lt_of_le_of_ne (not_lt.1 h) (Ne.symm hxc), fun h => not_lt.2 h.le⟩
    rw [this]
    tauto
  | false =>
    obtain ⟨g1, -⟩ := C82_untouched p.main (some c) true hret herr
    obtain ⟨i0, i1, i2⟩ := join_right hl
    simp only [herr, Bool.false_eq_true, or_self, if_false, i0, or_false]
    cases hj : (joinHole p.cutouts c).2.1 with
    | true =>
      simp only [if_true]
      refine ⟨Prod.ext hj i0, fun x hx hxc => ?_⟩
      have := i2 hj x hx.2 hxc
      unfold Material
      simp only [g1, this]
      tauto
    | false =>
      simp only [Bool.false_eq_true, if_false]
      refine ⟨trivial, fun x _ _ => ?_⟩
      unfold Material
      simp only [g1, none_map (i1 hj) x, List.mem_append, List.mem_singleton, or_imp, forall_and, forall_eq]
      tauto

theorem ready_right {o : Outline} {c : Seg} (opsub : Bool) (hc : Made c) (kc : c.kind = .circle)
    (h : HoleReady o c ∧ (OneSided o c ∨ CrossesOnce o c)) : Right o c opsub ∧ (opCircle o (some c) opsub).error = false := by
  obtain ⟨h, hs⟩ := h
  rcases hs with hs | hs
  · obtain ⟨g1, g2, -⟩ := apart_op opsub hc kc h hs
    exact ⟨fun e => (by rw [g1] at e; cases e), g2⟩
  · refine ⟨fun hret => ?_, (cross_op opsub hc kc h hs).2⟩
    obtain ⟨-, -, h1, h2, h3, h4, h5, h6⟩ := h
    exact (C83_region_partial h1 h2 h3 hc h4 h5 h6 hs.1 hret).2.2.2

end CutoutHole
open CutoutHole

/-- C85. A circle is added as a hole and overlaps are to be treated.  Each of the outlines of the board and of its cutouts has no
point in common with the circle, or is touched or crossed by it at two points.  Then the hole is accepted.  If it crosses none of the
outlines, they all stay as they are and the circle is put at the end of the holes; if it crosses one, the list of holes stays as it
is.  In each case there is, afterwards, material at a point that is on no border exactly if there was and the point is not in the
hole.  What is missing is said at `C85_hole_partial`. -/
theorem C85_hole_accepted_partial {p : Plate} {c : Seg} (hc : Made c) (kc : c.kind = .circle)
    (h : ∀ o ∈ p.main :: p.cutouts, HoleReady o c ∧ (OneSided o c ∨ CrossesOnce o c)) :
    (addHole p (some c) true).2 = (true, false) ∧
    ((∀ o ∈ p.main :: p.cutouts, OneSided o c) →
      (addHole p (some c) true).1.holes = p.holes ++ [c] ∧ (addHole p (some c) true).1.main.segs = p.main.segs ∧
        (addHole p (some c) true).1.cutouts.map (·.segs) = p.cutouts.map (·.segs)) ∧
    ((∃ o ∈ p.main :: p.cutouts, CrossesOnce o c) → (addHole p (some c) true).1.holes = p.holes) ∧
    ∀ x, OffBorders (addHole p (some c) true).1 x → planar2 x c.center ≠ c.radius ^ 2 →
      (Material (addHole p (some c) true).1 x ↔ Material p x ∧ ¬ InHole c x) := by
  obtain ⟨m1, m2⟩ := h p.main (by simp)
  have key : (addHole p (some c) true).2 = (true, false) ∧
    ((∀ o ∈ p.main :: p.cutouts, OneSided o c) →
      (addHole p (some c) true).1.holes = p.holes ++ [c] ∧ (addHole p (some c) true).1.main.segs = p.main.segs ∧
        (addHole p (some c) true).1.cutouts.map (·.segs) = p.cutouts.map (·.segs)) ∧
    ((∃ o ∈ p.main :: p.cutouts, CrossesOnce o c) → (addHole p (some c) true).1.holes = p.holes) := by
    rcases m2 with m2 | m2
    · obtain ⟨g1, g2, g3⟩ := apart_op true hc kc m1 m2
      by_cases hs : ∃ o ∈ p.cutouts, CrossesOnce o c
      · have j := join_some hc kc (fun o ho => h o (by simp [ho])) hs
        have e : addHole p (some c) true = (⟨(opCircle p.main (some c) true).out, (joinHole p.cutouts c).1, p.holes⟩, true, false) := by
          unfold addHole subCircle
          simp [kc, g1, g2, j]
        rw [e]
        refine ⟨rfl, fun hn => ?_, fun _ => rfl⟩
        obtain ⟨o, ho, hx⟩ := hs
        exact (not_both (hn o (by simp [ho])) hx).elim
      · have j := join_apart (l := p.cutouts) hc kc fun o ho => ⟨(h o (by simp [ho])).1, (h o (by simp [ho])).2.resolve_right
          fun hx => hs ⟨o, ho, hx⟩⟩
        have e : addHole p (some c) true =
            (⟨(opCircle p.main (some c) true).out, (joinHole p.cutouts c).1, p.holes ++ [c]⟩, true, false) := by
          unfold addHole subCircle
          simp [kc, g1, g2, j.1]
        rw [e]
        refine ⟨rfl, fun _ => ⟨rfl, g3, j.2⟩, ?_⟩
        rintro ⟨o, ho, hx⟩
        rcases List.mem_cons.1 ho with rfl | ho
        · exact (not_both m2 hx).elim
        · exact absurd ⟨o, ho, hx⟩ hs
    · obtain ⟨g1, g2⟩ := cross_op true hc kc m1 m2
      have e : addHole p (some c) true = (⟨(opCircle p.main (some c) true).out, p.cutouts, p.holes⟩, true, false) := by
        unfold addHole subCircle
        simp [kc, g1, g2]
      rw [e]
      refine ⟨rfl, fun hn => ?_, fun _ => rfl⟩
      exact (not_both (hn p.main (by simp)) m2).elim
  refine ⟨key.1, key.2.1, key.2.2, ?_⟩
  exact (hole_right kc (ready_right true hc kc (h _ (by simp))) fun o ho => ready_right false hc kc (h o (by simp [ho]))).2

/-- C85. A circle that has a number of points in common with the outline of the board that is neither none nor two is refused
with an error: the board keeps its outline, its cutouts and its holes. -/
theorem C85_hole_refused {p : Plate} {c : Seg} (kc : c.kind = .circle) (hx : Crossed p.main.segs c) (hcl : p.main.closed = true)
    (hclean : Clean p.main.segs [c]) (h1 : ∃ x, Common p.main.segs c x)
    (h2 : ¬ ∃ a b, a ≠ b ∧ ∀ x, Common p.main.segs c x ↔ x = a ∨ x = b) :
    (addHole p (some c) true).2 = (false, true) ∧ (addHole p (some c) true).1.main.segs = p.main.segs ∧
      (addHole p (some c) true).1.cutouts = p.cutouts ∧ (addHole p (some c) true).1.holes = p.holes := by
  obtain ⟨g1, g2, g3, -⟩ := C83_number true kc hx hcl hclean h2
  have g2 := g2.2 h1
  have e : addHole p (some c) true = (⟨(opCircle p.main (some c) true).out, p.cutouts, p.holes⟩, false, true) := by
    unfold addHole subCircle
    simp [kc, g1, g2]
  rw [e]
  exact ⟨rfl, g3, rfl, rfl⟩

/-- the square and the circle about the middle of its right side meet the conditions, and the circle crosses the outline -/
example : ∃ p c, Made c ∧ c.kind = .circle ∧
    (∀ o ∈ p.main :: p.cutouts, HoleReady o c ∧ (OneSided o c ∨ CrossesOnce o c)) ∧
    p.main.segs.length = 4 ∧ (∃ o ∈ p.main :: p.cutouts, CrossesOnce o c) ∧ (addHole p (some c) true).2 = (true, false) := by
  obtain ⟨o, c, h1, h2, h3, h4, h5, h6, h7, h8, h9, h10, h11, h12, h13, h14, kc, hcl, hclean, g1, g2, g3⟩ := ex_region true
  have hx : CrossesOnce o c := ⟨h8, g1, g2, g3⟩
  have hh : ∀ o' ∈ (⟨o, [], []⟩ : Plate).main :: (⟨o, [], []⟩ : Plate).cutouts,
      HoleReady o' c ∧ (OneSided o' c ∨ CrossesOnce o' c) := by
    intro o' ho'
    simp only [List.mem_cons, List.not_mem_nil, or_false] at ho'
    subst ho'
    exact ⟨⟨hcl, hclean, h1, h2, h3, h5, h6, h7⟩, Or.inr hx⟩
  exact ⟨⟨o, [], []⟩, c, h4, kc, hh, h10, ⟨o, by simp, hx⟩, (C85_hole_accepted_partial h4 kc hh).1⟩

/-- the circle that touches the bottom of the square from the inside is refused -/
example : ∃ p c, c.kind = .circle ∧ Crossed p.main.segs c ∧ p.main.closed = true ∧ Clean p.main.segs [c] ∧
    (∃ x, Common p.main.segs c x) ∧ (¬ ∃ a b, a ≠ b ∧ ∀ x, Common p.main.segs c x ↔ x = a ∨ x = b) ∧
    (addHole p (some c) true).2 = (false, true) := by
  obtain ⟨o, c, kc, h1, h2, h3, h4, h5, -⟩ := ex_touching true
  exact ⟨⟨o, [], []⟩, c, kc, h1, h2, h3, h5, h4, (C85_hole_refused (p := ⟨o, [], []⟩) kc h1 h2 h3 h5 h4).1⟩

end Iges.Props
