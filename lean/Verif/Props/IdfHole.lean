import Verif.Spec.IdfHole
import Verif.Props.IdfDrill
/-
C75, reading: the record of a hole is read as its words say, in both versions of the format.
-/
namespace Iges.Props.IdfDrill
open Iges.Idf Iges.Idf.Spec

namespace Holes

private theorem tok {w : String} {t : Str} (h : t.map Char.toUpper = w.toList) : compareToken w t = true := by
  unfold compareToken; rw [h]; simp

private theorem notTok {w : String} {t : Str} (h : t.map Char.toUpper ≠ w.toList) : compareToken w t = false := by
  unfold compareToken; simpa using h

private theorem ref_of {t : Str} {r : Ref} (h : RefWord t r) : parseRef t = r := by
  unfold parseRef
  cases h with
  | board h => rw [if_pos (tok h)]
  | norefdes h => rw [if_neg (by rw [notTok (by rw [h]; decide)]; decide), if_pos (tok h)]
  | panel h =>
    rw [if_neg (by rw [notTok (by rw [h]; decide)]; decide), if_neg (by rw [notTok (by rw [h]; decide)]; decide), if_pos (tok h)]
  | name h =>
    simp only [List.mem_cons, List.not_mem_nil, or_false, not_or] at h
    rw [notTok h.1, notTok h.2.1, notTok h.2.2]; rfl

private theorem hole_of {t : Str} {k : Hole} (h : HoleWord t k) : parseHole t = k := by
  unfold parseHole
  cases h with
  | pin h => rw [if_pos (tok h)]
  | via h => rw [if_neg (by rw [notTok (by rw [h]; decide)]; decide), if_pos (tok h)]
  | mtg h =>
    rw [if_neg (by rw [notTok (by rw [h]; decide)]; decide), if_neg (by rw [notTok (by rw [h]; decide)]; decide), if_pos (tok h)]
  | tool h =>
    rw [if_neg (by rw [notTok (by rw [h]; decide)]; decide), if_neg (by rw [notTok (by rw [h]; decide)]; decide),
      if_neg (by rw [notTok (by rw [h]; decide)]; decide), if_pos (tok h)]
  | name h =>
    simp only [List.mem_cons, List.not_mem_nil, or_false, not_or] at h
    rw [notTok h.1, notTok h.2.1, notTok h.2.2.1, notTok h.2.2.2]; rfl

private theorem owner_of {t : Str} {o : Owner} (h : OwnerWord t o) : parseOwner t = some o := by
  unfold parseOwner compareToken
  cases h with
  | mcad h => rw [h]; decide
  | ecad h => rw [h]; decide
  | unowned h => rw [h]; decide

private theorem plating_of {t : Str} {b : Bool} (h : PlatingWord t b) :
    (if compareToken "PTH" t then some true else if compareToken "NPTH" t then some false else none) = some b := by
  unfold compareToken
  cases h with
  | plated h => rw [h]; decide
  | bare h => rw [h]; decide

private theorem tail_of {v : Version} {s : Str} {ws : List (Str × Bool)} {p : Bool} {r : Ref} {k : Hole} {o : Owner}
    (hw : Words s ws) (h : HoleTail v ws p r k o) : readHoleWords v s = some (p, r, k, o) := by
  cases h with
  | v3 wp wr wh wo more _ _ _ _ h1 h2 h3 h4 =>
    obtain ⟨wp, qp⟩ := wp; obtain ⟨wr, qr⟩ := wr; obtain ⟨wh, qh⟩ := wh; obtain ⟨wo, qo⟩ := wo
    cases hw with
    | cons _ _ _ s1 _ f1 hw =>
    cases hw with
    | cons _ _ _ s2 _ f2 hw =>
    cases hw with
    | cons _ _ _ s3 _ f3 hw =>
    cases hw with
    | cons _ _ _ s4 _ f4 hw =>
    unfold readHoleWords
    simp only [getWord_first f1, plating_of h1, getWord_first f2, getWord_first f3, getWord_first f4, owner_of h4, ref_of h2,
      hole_of h3, Option.map_some]
  | v2 wh wr more _ _ h2 h3 =>
    obtain ⟨wr, qr⟩ := wr; obtain ⟨wh, qh⟩ := wh
    cases hw with
    | cons _ _ _ s1 _ f1 hw =>
    cases hw with
    | cons _ _ _ s2 _ f2 hw =>
    unfold readHoleWords
    simp only [getWord_first f1, getWord_first f2, ref_of h2, hole_of h3]

private theorem num_of {s a r : Str} {x : ℚ} (f : FirstWord s a false r) (h : readNum a = some x) : numWord s = some (x, r) := by
  unfold numWord
  rw [getWord_first f]
  simp [h]

private theorem unit_of {u : Iges.Idf.Unit} {v : Version} {f : ℚ} (h : InMM u v f) : unitFactor u v = some f := by
  cases h <;> rfl

end Holes
open Holes

/-- **C75_words**: a line of words - diameter, X and Y as numbers without quote marks, then the words of the version - is
read as the hole it describes, in millimetres, if the diameter is not below the least one.  This holds in both versions and for
all units they have; words behind the record are ignored. -/
theorem C75_words (u : Iges.Idf.Unit) (v : Version) (input rest : List Str) (l : Str) (a b c : Str) (ws : List (Str × Bool))
    (dia x y f : ℚ) (plated : Bool) (ref : Ref) (hole : Hole) (owner : Owner)
    (hl : nextLine input = (⟨l, false⟩, rest)) (hw : Words l ((a, false) :: (b, false) :: (c, false) :: ws))
    (ha : readNum a = some dia) (hb : readNum b = some x) (hc : readNum c = some y) (hmin : minDia u ≤ dia)
    (hend : a.map Char.toUpper ≠ ".END_DRILLED_HOLES".toList) (ht : HoleTail v ws plated ref hole owner) (hf : InMM u v f) :
    readDrill u v input = .item ⟨dia * f, x * f, y * f, plated, ref, hole, owner⟩ rest := by
  cases hw with
  | cons _ _ _ s1 _ f1 hw =>
  cases hw with
  | cons _ _ _ s2 _ f2 hw =>
  cases hw with
  | cons _ _ _ s3 _ f3 hw =>
  have hne : l ≠ [] := by
    rintro rfl
    have := getWord_first f1
    cases this
  have hnot : compareToken ".END_DRILLED_HOLES" a = false := by unfold compareToken; simpa using hend
  unfold readDrill
  rw [hl]
  simp only
  rw [if_neg (by simp [hne]), getWord_first f1]
  simp only [Bool.false_eq_true, if_false, hnot, ha, if_neg (not_lt.2 hmin), num_of f2 hb, num_of f3 hc, tail_of hw ht, unit_of hf]

/-- A line of a version 2 file: a mounting hole of the component U1, 300000 tens of nanometres wide. -/
example : readDrill .tnm .v2 ["300000 100000 -200000 mtg U1".toList] = .item ⟨3, 1, -2, true, .refdes "U1".toList, .mtg, .unowned⟩ [] := by
  decide +kernel

example : HoleTail .v2 [("mtg".toList, false), ("U1".toList, false)] true (.refdes "U1".toList) .mtg .unowned :=
  .v2 _ _ [] _ _ (.name (by decide)) (.mtg (by decide))

example : HoleTail .v3 [("NPTH".toList, false), ("Board".toList, true), ("a b".toList, true), ("ecad".toList, false)]
    false .board (.other "a b".toList) .ecad :=
  .v3 _ _ _ _ [] _ _ _ _ (.bare (by decide)) (.board (by decide)) (.name (by decide)) (.ecad (by decide))

end Iges.Props.IdfDrill
