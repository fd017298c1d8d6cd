import Verif.Spec.IdfHoleSection
import Verif.Props.IdfHole
/-
C75, reading: the section with the holes is read as its words say, in both versions of the format.
-/
namespace Iges.Props.IdfDrill
open Iges.Idf Iges.Idf.Spec

namespace Holes

private theorem least_of {u : Iges.Idf.Unit} {d : ℚ} (h : LeastHole u d) : minDia u = d := by
  rcases h with ⟨rfl, rfl⟩ | ⟨rfl, rfl⟩ | ⟨rfl, rfl⟩ <;> rfl

private theorem read_hole {u : Iges.Idf.Unit} {v : Version} {f : ℚ} (hf : InMM u v f) {raw : Str} {d : Drill} (h : HoleLine u v f raw d)
    (rest : List Str) : readDrill u v (raw :: rest) = .item d rest := by
  obtain ⟨line, wd, wx, wy, ws, dia, x, y, least, e, hw, hd, hx, hy, hl, hmin, hend, ht, e1, e2, e3⟩ := h
  have h := C75_words u v (raw :: rest) rest line wd wx wy ws dia x y f d.plated d.ref d.hole d.owner (by rw [nextLine, e]) hw hd hx hy
    (by rw [least_of hl]; exact hmin) hend ht hf
  rw [h, ← e1, ← e2, ← e3]

private theorem skip {u : Iges.Idf.Unit} {v : Version} {raw : Str} (h : fetchLine raw = none) (rest : List Str) :
    readDrill u v (raw :: rest) = readDrill u v rest := by
  unfold readDrill
  rw [nextLine, h]

private theorem read_all {u : Iges.Idf.Unit} {v : Version} {f : ℚ} (hf : InMM u v f) {raws : List Str} {ds : List Drill}
    (h : HoleLines u v f raws ds) {s rest : List Str} (he : readDrill u v s = .finish rest) :
    ∀ n, raws.length < n → readAll (readDrill u v) n (raws ++ s) = some (ds, rest) := by
  induction h with
  | nil =>
    intro n hn
    obtain ⟨m, rfl⟩ := Nat.exists_eq_succ_of_ne_zero (by omega : n ≠ 0)
    rw [List.nil_append, readAll, he]
  | hole raw n raws ns hl _ ih =>
    intro m hm
    obtain ⟨m, rfl⟩ := Nat.exists_eq_succ_of_ne_zero (by omega : m ≠ 0)
    rw [List.cons_append, readAll, read_hole hf hl]
    simp only [ih m (by simp at hm; omega), Option.map_some]
  | blank raw raws ns hb _ ih =>
    intro m hm
    have h1 := ih m (by simp at hm; omega)
    obtain ⟨m, rfl⟩ := Nat.exists_eq_succ_of_ne_zero (by omega : m ≠ 0)
    rw [readAll] at h1
    rw [List.cons_append, readAll, skip hb]
    exact h1

end Holes
open Holes

/-- **C75_section**: lines that are holes, with blank lines between them, followed by a line that begins with `.END_DRILLED_HOLES`, are read as these holes, in
millimetres and in order, in both versions and for all units they have. -/
theorem C75_section (u : Iges.Idf.Unit) (v : Version) (f : ℚ) (hf : InMM u v f) (raws : List Str) (ds : List Drill) (h : HoleLines u v f raws ds)
    (e t w r : Str) (he : fetchLine e = some ⟨t, false⟩) (hw : FirstWord t w false r) (hend : w.map Char.toUpper = ".END_DRILLED_HOLES".toList)
    (rest : List Str) : readDrills u v (raws ++ e :: rest) = some (ds, rest) := by
  have hne : t ≠ [] := by
    rintro rfl
    have := getWord_first hw
    cases this
  have hfin : readDrill u v (e :: rest) = .finish rest := by
    have hc : compareToken ".END_DRILLED_HOLES" w = true := by unfold compareToken; rw [hend]; simp
    unfold readDrill
    rw [nextLine, he]
    simp only [hne, getWord_first hw, hc, Bool.false_eq_true, or_self, if_false, if_true]
  unfold readDrills
  exact read_all hf h hfin _ (by simp; omega)

/-- **C75_least_differs** (against "the least diameter is the same in all units", idf_helpers.h:33-35): a hole of 0.0009 mm is refused in a file in millimetres,
and so is one of 90 tens of nanometres, while one of a thousandth of a thousandth of an inch, which is more than thirty times smaller, is read. -/
theorem C75_least_differs : ∃ d : Drill, readDrill .thou .v2 ["0.001 0 0 PIN BOARD".toList] = .item d [] ∧ 30 * d.dia < 9 / 10000 ∧
    readDrill .mm .v2 ["0.0009 0 0 PIN BOARD".toList] = .error ∧ readDrill .tnm .v2 ["90 0 0 PIN BOARD".toList] = .error :=
  ⟨⟨254 / 10000000, 0, 0, true, .board, .pin, .unowned⟩, by decide +kernel, by norm_num, by decide +kernel, by decide +kernel⟩

/-- Two holes of a version 2 file, and a blank line. -/
example : readDrills .tnm .v2 ["300000 100000 -200000 mtg U1".toList, [], "100 0 0 PIN board more".toList, ".end_drilled_holes".toList] =
    some ([⟨3, 1, -2, true, .refdes "U1".toList, .mtg, .unowned⟩, ⟨1 / 1000, 0, 0, true, .board, .pin, .unowned⟩], []) := by
  decide +kernel

/-- The first of them meets the conditions. -/
example : HoleLine .tnm .v2 (1 / 100000) "300000 100000 -200000 mtg U1".toList ⟨3, 1, -2, true, .refdes "U1".toList, .mtg, .unowned⟩ := by
  have hb : Blank [' '] := by intro c hc; simp at hc; subst hc; decide
  have hn : Blank [] := by intro c hc; cases hc
  refine ⟨"300000 100000 -200000 mtg U1".toList, "300000".toList, "100000".toList, "-200000".toList, [("mtg".toList, false), ("U1".toList, false)],
    300000, 100000, -200000, 100, by decide +kernel, ?_, by decide +kernel, by decide +kernel, by decide +kernel, .inr (.inr ⟨rfl, rfl⟩), by norm_num,
    by decide, .v2 _ _ [] _ _ (.name (by decide)) (.mtg (by decide)), by norm_num, by norm_num, by norm_num⟩
  refine .cons _ _ _ " 100000 -200000 mtg U1".toList _ ⟨[], hn, by decide⟩ ?_
  refine .cons _ _ _ " -200000 mtg U1".toList _ ⟨[' '], hb, by decide⟩ ?_
  refine .cons _ _ _ " mtg U1".toList _ ⟨[' '], hb, by decide⟩ ?_
  refine .cons _ _ _ " U1".toList _ ⟨[' '], hb, by decide⟩ ?_
  exact .cons _ _ _ [] _ ⟨[' '], hb, by decide⟩ (.nil _ hn)

end Iges.Props.IdfDrill
