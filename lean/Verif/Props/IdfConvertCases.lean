import Verif.Props.IdfConvert
/-
C87: concrete outlines, and outlines that are not converted as they should be.
-/
namespace Iges.Props
open Iges.Geo Iges.Spec Iges.Idf Iges.Idf.Spec Real IdfOutline

namespace IdfConvert

/-- points that are close to the origin and not to each other -/
theorem far_apart {p q : Idf.P2} (hp : norm2 p.flat ≤ 10 ^ 15) (hq : norm2 q.flat ≤ 10 ^ 15) (h : 1e-14 < gap2 p q) :
    PointMatches p.flat q.flat 1e-8 = false := by
  rw [← Bool.not_eq_true, C51_match_iff _ _ _ hp hq]
  unfold gap2 at h
  unfold dist2 Idf.P2.flat
  simp only
  norm_num at h ⊢
  linarith

/-- a quarter of a circle, a circle and a line -/
example : (Item.arc ⟨1, 0⟩ ⟨0, 1⟩ 90).Valid ∧ (Item.circle ⟨0, 0⟩ ⟨1, 0⟩ (-360)).Valid ∧ (Item.line ⟨1, 0⟩ ⟨0, 1⟩).Valid := by
  refine ⟨⟨by norm_num, by norm_num, ?_, ?_⟩, ⟨by norm_num, ?_⟩, ?_⟩
  · exact far_apart (by norm_num [norm2, Idf.P2.flat]) (by norm_num [norm2, Idf.P2.flat]) (by norm_num [gap2])
  · intro c hc
    have h0 : turnDeg ⟨0, 0⟩ 90 ⟨1, 0⟩ = ⟨0, 1⟩ := by
      unfold turnDeg
      rw [show (90 : ℝ) * π / 180 = π / 2 by ring, Real.cos_pi_div_two, Real.sin_pi_div_two]
      norm_num
    have := centre_unique (by norm_num) (by norm_num) hc h0
    subst this
    constructor <;>
      exact far_apart (by norm_num [norm2, Idf.P2.flat]) (by norm_num [norm2, Idf.P2.flat]) (by norm_num [gap2])
  · intro q hq
    have h1 : q.x ^ 2 + q.y ^ 2 = 1 := by unfold gap2 at hq; norm_num at hq; exact hq
    refine far_apart (by norm_num [norm2, Idf.P2.flat]) ?_ ?_
    · unfold norm2 Idf.P2.flat; simp only; norm_num; linarith
    · unfold gap2; norm_num; linarith
  · exact far_apart (by norm_num [norm2, Idf.P2.flat]) (by norm_num [norm2, Idf.P2.flat]) (by norm_num [gap2])

theorem ln_item (a b c d : ℚ) : (ln a b c d).item = .line ⟨a, b⟩ ⟨c, d⟩ := by
  unfold QSeg.item ln; rw [if_pos rfl]; rfl

theorem ln_valid {a b c d : ℚ} (h : |a| ≤ 10 ∧ |b| ≤ 10 ∧ |c| ≤ 10 ∧ |d| ≤ 10) (hd : 1 / 10 ^ 14 < (a - c) ^ 2 + (b - d) ^ 2) :
    (ln a b c d).item.Valid ∧ (ln a b c d).small := by
  obtain ⟨h1, h2, h3, h4⟩ := h
  have hs : (ln a b c d).small := ⟨h1.trans (by norm_num), h2.trans (by norm_num), h3.trans (by norm_num), h4.trans (by norm_num)⟩
  refine ⟨?_, hs⟩
  rw [ln_item]
  refine far_apart (p := Pt.real ⟨a, b⟩) (q := Pt.real ⟨c, d⟩) (small_norm hs.1 hs.2.1) (small_norm hs.2.2.1 hs.2.2.2) ?_
  unfold gap2 Pt.real
  simp only
  have : ((1 / 10 ^ 14 : ℚ) : ℝ) < (((a - c) ^ 2 + (b - d) ^ 2 : ℚ) : ℝ) := by exact_mod_cast hd
  push_cast at this
  norm_num at this ⊢
  exact this

end IdfConvert

open IdfConvert

/-- a triangle -/
example (ccw : List QSeg → Bool) :
    ∃ ls' rest, readOutlines false false ccw .mm .v3 .start (ls "0 0 0 0\n0 1 0 0\n0 0 1 0\n0 0 0 0\n.END_BOARD_OUTLINE\n") = some (ls', rest) ∧
    ∃ l ∈ ls', (∀ s ∈ l, s.item.Valid) ∧ (∀ s ∈ l, s.small) ∧
    ∃ o, convertOln (l.map QSeg.real) = some o ∧ o.closed = true := by
  have hr : readOutlines false false ccw .mm .v3 .start (ls "0 0 0 0\n0 1 0 0\n0 0 1 0\n0 0 0 0\n.END_BOARD_OUTLINE\n") =
      some ([[ln 0 0 1 0, ln 1 0 0 1, ln 0 1 0 0]], ls ".END_BOARD_OUTLINE\n") := read_any _ _ (by decide) (by decide +kernel)
  have hv : ∀ s ∈ [ln 0 0 1 0, ln 1 0 0 1, ln 0 1 0 0], s.item.Valid ∧ s.small := by
    intro s hs
    simp only [List.mem_cons, List.not_mem_nil, or_false] at hs
    rcases hs with rfl | rfl | rfl <;> exact ln_valid (by norm_num) (by norm_num)
  refine ⟨_, _, hr, _, List.mem_singleton_self _, fun s hs => (hv s hs).1, fun s hs => (hv s hs).2, ?_⟩
  obtain ⟨o, ho, -, -, hc⟩ := C87_outline_partial false ccw .mm .v3 _ _ _ hr _ (List.mem_singleton_self _) (fun s hs => (hv s hs).1) (fun s hs => (hv s hs).2)
  exact ⟨o, ho, hc.2 (.inr ⟨_, _, rfl, rfl, C51_reflexive _ _⟩)⟩

/-- C87 (counterexample). A board whose last point is a millionth of a millimetre away from the first one is accepted as closed by the reader.
The outline that the converter makes of it is not closed. -/
theorem C87_open (ccw : List QSeg → Bool) :
    ∃ l rest, readOutlines false false ccw .mm .v3 .start (ls "0 0 0 0\n0 1 0 0\n0 0 1 0\n0 0 0.000001 0\n.END_BOARD_OUTLINE\n") = some ([l], rest) ∧
    ClosedLoop l ∧ ∃ o, convertOln (l.map QSeg.real) = some o ∧ o.closed = false := by
  have hr : readOutlines false false ccw .mm .v3 .start (ls "0 0 0 0\n0 1 0 0\n0 0 1 0\n0 0 0.000001 0\n.END_BOARD_OUTLINE\n") =
      some ([[ln 0 0 1 0, ln 1 0 0 1, ln 0 1 0 (1 / 1000000)]], ls ".END_BOARD_OUTLINE\n") := read_any _ _ (by decide) (by decide +kernel)
  have hv : ∀ s ∈ [ln 0 0 1 0, ln 1 0 0 1, ln 0 1 0 (1 / 1000000)], s.item.Valid ∧ s.small := by
    intro s hs
    simp only [List.mem_cons, List.not_mem_nil, or_false] at hs
    rcases hs with rfl | rfl | rfl <;> refine ln_valid (by norm_num [abs_le]) (by norm_num)
  refine ⟨_, _, hr, (C78_closed false ccw .mm .v3 _ _ _ hr 0 _ rfl).1, ?_⟩
  obtain ⟨o, ho, -, -, hc⟩ := C87_outline_partial false ccw .mm .v3 _ _ _ hr _ (List.mem_singleton_self _) (fun s hs => (hv s hs).1) (fun s hs => (hv s hs).2)
  refine ⟨o, ho, ?_⟩
  rw [← Bool.not_eq_true, hc]
  rintro (⟨s, hs, -⟩ | ⟨f, e, hf, he, hm⟩)
  · simp at hs
  · rw [List.head?_cons, Option.some.injEq] at hf
    subst hf
    have he : ln 0 1 0 (1 / 1000000) = e := Option.some.inj he
    subst he
    have : PointMatches (Pt.real ⟨0, 1 / 1000000⟩).flat (Pt.real ⟨0, 0⟩).flat 1e-8 = false :=
      far_apart (small_norm (by norm_num) (by norm_num [abs_le])) (small_norm (by norm_num) (by norm_num)) (by unfold gap2 Pt.real; norm_num)
    exact absurd (hm.symm.trans this) (by simp)

/-- C87 (counterexample). A board file with the same point twice in succession is accepted by the reader.  Its outline is not converted at all. -/
theorem C87_repeated (ccw : List QSeg → Bool) :
    ∃ l rest, readOutlines false false ccw .mm .v3 .start (ls "0 0 0 0\n0 1 0 0\n0 1 0 0\n0 0 1 0\n0 0 0 0\n.END_BOARD_OUTLINE\n") = some ([l], rest) ∧
    ClosedLoop l ∧ convertOln (l.map QSeg.real) = none := by
  have hr : readOutlines false false ccw .mm .v3 .start (ls "0 0 0 0\n0 1 0 0\n0 1 0 0\n0 0 1 0\n0 0 0 0\n.END_BOARD_OUTLINE\n") =
      some ([[ln 0 0 1 0, ln 1 0 1 0, ln 1 0 0 1, ln 0 1 0 0]], ls ".END_BOARD_OUTLINE\n") := read_any _ _ (by decide) (by decide +kernel)
  refine ⟨_, _, hr, (C78_closed false ccw .mm .v3 _ _ _ hr 0 _ rfl).1, ?_⟩
  have hz : (convertSeg (ln 1 0 1 0).real).kind = .none := by
    have e : (ln 1 0 1 0).real = lineSeg ⟨1, 0⟩ ⟨1, 0⟩ := by unfold QSeg.real ln; rw [if_pos rfl]; norm_num [Pt.real]
    rw [e]
    have h1 : (lineSeg ⟨1, 0⟩ ⟨1, 0⟩).isCircle = false := by
      unfold Idf.Seg.isCircle Idf.fullTurn Idf.minAng Idf.lineSeg; norm_num
    unfold convertSeg
    rw [h1]
    simp only [Bool.false_eq_true, if_false, lineSeg, gt_iff_lt, lt_irrefl]
    unfold setLine
    rw [if_neg (by simp [Idf.P2.flat]), C51_reflexive]
    rfl
  unfold convertOln
  rw [if_neg (by simp)]
  simp only [List.map_cons, List.map_nil]
  rw [convertSegs]
  split
  · rw [convertSegs, if_neg]
    intro h
    obtain ⟨s, hs, -, h⟩ := (Outlines.C67_accepts _ _).1 h
    cases hs
    rw [hz] at h
    simp at h
  · rfl

end Iges.Props
