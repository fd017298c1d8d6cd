import Verif.Spec.IdfPlaceWords
import Verif.Props.IdfPlace
/-
C76, reading: the record of a part is read as its words say, in both versions of the format.
-/
namespace Iges.Props.IdfPlace
open Iges.Idf Iges.Idf.Spec

namespace Rec

private theorem tok {w : String} {t : Str} (h : t.map Char.toUpper = w.toList) : compareToken w t = true := by
  unfold compareToken; rw [h]; simp

private theorem notTok {w : String} {t : Str} (h : t.map Char.toUpper ≠ w.toList) : compareToken w t = false := by
  unfold compareToken; simpa using h

private theorem side_of {t : Str} {s : Side} (h : SideWord t s) : parseSide t = some s := by
  unfold parseSide compareToken
  cases h with
  | top h => rw [h]; decide
  | bottom h => rw [h]; decide

private theorem status_of {t : Str} {c : Cad} {v : Version} {p : Placement} (h : StatusWord t c v p) :
    parsePlacement c v t = some p := by
  unfold parsePlacement compareToken
  cases h with
  | placed _ _ h => rw [h]; rfl
  | unplaced _ _ h => rw [h]; rfl
  | mcad _ h => rw [h]; rfl
  | ecad _ h => rw [h]; rfl
  | fixedElec h => rw [h]; rfl
  | fixedMech h => rw [h]; rfl

private theorem num_of {s a r : Str} {q : Bool} {x : ℚ} (f : FirstWord s a q r) (h : readNum a = some x) :
    numWordQ s = some (x, r) := by
  unfold numWordQ
  rw [getWord_first f]
  simp [h]

private theorem num1_of {s a r : Str} {x : ℚ} (f : FirstWord s a false r) (h : readNum a = some x) : numWord s = some (x, r) := by
  unfold numWord
  rw [getWord_first f]
  simp [h]

private theorem names_of {s t n g : Str} {q1 q2 : Bool} {r1 r2 : Str} {ref : Option Str} (f1 : FirstWord s t q1 r1)
    (f2 : FirstWord r1 n q2 r2) (h : PartWord n ref) : parseNames g s = some (g, t, ref) := by
  unfold parseNames
  rw [getWord_first f1]
  simp only
  rw [getWord_first f2]
  simp only
  cases h with
  | norefdes h => rw [if_pos (tok h)]
  | name h h0 =>
    simp only [List.mem_cons, List.not_mem_nil, or_false, not_or] at h
    rw [notTok h.1, notTok h.2.1, notTok h.2.2]
    simp [h0]

private theorem tail_of {cad : Cad} {v : Version} {r : Str} {s t : Str × Bool} {more : List (Str × Bool)} {sd : Side}
    {p : Placement} (hw : Words r (s :: t :: more)) (hs : SideWord s.1 sd) (ht : StatusWord t.1 cad v p) :
    parseStatus cad v r = some (sd, p) := by
  obtain ⟨ws, qs⟩ := s; obtain ⟨wt, qt⟩ := t
  cases hw with
  | cons _ _ _ r1 _ f1 hw =>
  cases hw with
  | cons _ _ _ r2 _ f2 hw =>
  unfold parseStatus
  simp only [getWord_first f1, getWord_first f2, side_of hs, status_of ht, Option.map_some]

private theorem pos_of {cad : Cad} {u : Iges.Idf.Unit} {v : Version} {l : Str} {ws more : List (Str × Bool)} {s t : Str × Bool}
    {x y z a : ℚ} {sd : Side} {p : Placement} (hw : Words l ws) (hn : PlaceNumbers v ws x y z a (s :: t :: more))
    (hs : SideWord s.1 sd) (ht : StatusWord t.1 cad v p) :
    parsePos cad u v l = if u = .thou then some (x * thouToMM, y * thouToMM, z * thouToMM, a, sd, p) else some (x, y, z, a, sd, p) := by
  cases hn with
  | v3 wx wy wz wa _ _ _ _ _ h1 h2 h3 h4 =>
    obtain ⟨wy, qy⟩ := wy; obtain ⟨wz, qz⟩ := wz; obtain ⟨wa, qa⟩ := wa
    cases hw with
    | cons _ _ _ r1 _ f1 hw =>
    cases hw with
    | cons _ _ _ r2 _ f2 hw =>
    cases hw with
    | cons _ _ _ r3 _ f3 hw =>
    cases hw with
    | cons _ _ _ r4 _ f4 hw =>
    unfold parsePos parseRest
    simp only [num1_of f1 h1, num_of f2 h2, num_of f3 h3, num_of f4 h4, Option.map_some, tail_of hw hs ht]
  | v2 wx wy wa _ _ _ _ h1 h2 h4 =>
    obtain ⟨wy, qy⟩ := wy; obtain ⟨wa, qa⟩ := wa
    cases hw with
    | cons _ _ _ r1 _ f1 hw =>
    cases hw with
    | cons _ _ _ r2 _ f2 hw =>
    cases hw with
    | cons _ _ _ r4 _ f4 hw =>
    unfold parsePos parseRest
    simp only [num1_of f1 h1, num_of f2 h2, num_of f4 h4, Option.map_some, tail_of hw hs ht]

private theorem first_of {v : Version} {ws m : List (Str × Bool)} {x y z a : ℚ} (h : PlaceNumbers v ws x y z a m) :
    ∃ w ws', ws = (w, false) :: ws' := by
  cases h <;> exact ⟨_, _, rfl⟩

private theorem rec_of {cad : Cad} {u : Iges.Idf.Unit} {v : Version} {input mid rest : List Str} {l1 l2 : Str}
    {ws1 ws2 : List (Str × Bool)} {r : PlaceRec} (hl1 : nextLine input = (⟨l1, false⟩, mid))
    (hl2 : nextLine mid = (⟨l2, false⟩, rest)) (hend : rest ≠ []) (hw1 : Words l1 ws1) (hw2 : Words l2 ws2)
    (hr : PlaceSays cad v ws1 ws2 r) :
    readPlaceRec cad u v input = .item (if u = .thou then scaled thouToMM r else r) rest := by
  obtain ⟨⟨⟨g, qg⟩, ⟨p, qp⟩, ⟨n, qn⟩, more, rfl, e1, e2, hp, hne⟩, s, t, more2, hnum, hs, ht⟩ := hr
  simp only at e1 e2 hp hne
  have h2 : l2 ≠ [] := by
    rintro rfl
    obtain ⟨w, ws, rfl⟩ := first_of hnum
    cases hw2 with
    | cons _ _ _ _ _ f _ => have := getWord_first f; cases this
  cases hw1 with
  | cons _ _ _ r1 _ f1 hw1 =>
  cases hw1 with
  | cons _ _ _ r2 _ f2 hw1 =>
  cases hw1 with
  | cons _ _ _ r3 _ f3 hw1 =>
  have h1 : l1 ≠ [] := by
    rintro rfl
    have := getWord_first f1; cases this
  have hnot : ¬ (qg = false ∧ compareToken ".END_PLACEMENT" g = true) := by
    rintro ⟨a, b⟩
    refine hne ⟨a, ?_⟩
    unfold compareToken at b
    simpa using b
  unfold readPlaceRec
  rw [hl1]
  simp only
  rw [if_neg (by simp [h1]), getWord_first f1]
  simp only
  rw [if_neg hnot, names_of f2 f3 hp]
  simp only
  rw [hl2]
  simp only
  rw [if_neg (by simp [h2, hend]), pos_of hw2 hnum hs ht]
  by_cases hu : u = .thou
  · rw [if_pos hu, if_pos hu]; subst e1; subst e2; rfl
  · rw [if_neg hu, if_neg hu]; subst e1; subst e2; rfl

end Rec
open Rec

/-- **C76_words_partial**: the two lines of a record - names and reference; numbers, side and status - are read as the part
they describe, in millimetres, in both versions.  Partial: files in tens of nanometres are not converted
(`C76_tnm_not_converted`).  Something must follow the record in the file. -/
theorem C76_words_partial (cad : Cad) (u : Iges.Idf.Unit) (v : Version) (f : ℚ) (input mid rest : List Str) (l1 l2 : Str)
    (ws1 ws2 : List (Str × Bool)) (r : PlaceRec) (hl1 : nextLine input = (⟨l1, false⟩, mid))
    (hl2 : nextLine mid = (⟨l2, false⟩, rest)) (hend : rest ≠ []) (hw1 : Words l1 ws1) (hw2 : Words l2 ws2)
    (hr : PlaceSays cad v ws1 ws2 r) (hf : InMM u v f) (hu : u ≠ .tnm) :
    readPlaceRec cad u v input = .item (scaled f r) rest := by
  rw [rec_of hl1 hl2 hend hw1 hw2 hr]
  cases hf with
  | mm => simp [scaled]
  | thou => rfl
  | tnm => exact absurd rfl hu

/-- **C76_tnm_not_converted** (against "parts lie where the file says"): in a version 2 file in tens of nanometres the numbers of a
record are taken for millimetres, whatever they are, while the holes of the same file are converted (`C75_words`): parts are a
hundred thousand times as far from the origin as they should be. -/
theorem C76_tnm_not_converted (cad : Cad) (f : ℚ) (input mid rest : List Str) (l1 l2 : Str)
    (ws1 ws2 : List (Str × Bool)) (r : PlaceRec) (hl1 : nextLine input = (⟨l1, false⟩, mid))
    (hl2 : nextLine mid = (⟨l2, false⟩, rest)) (hend : rest ≠ []) (hw1 : Words l1 ws1) (hw2 : Words l2 ws2)
    (hr : PlaceSays cad .v2 ws1 ws2 r) (hf : InMM .tnm .v2 f) (hoff : r.x ≠ 0 ∨ r.y ≠ 0) :
    readPlaceRec cad .tnm .v2 input = .item r rest ∧ r ≠ scaled f r := by
  refine ⟨by rw [rec_of hl1 hl2 hend hw1 hw2 hr]; rfl, ?_⟩
  cases hf
  intro e
  have hx : r.x = r.x * (1 / 100000) := congrArg PlaceRec.x e
  have hy : r.y = r.y * (1 / 100000) := congrArg PlaceRec.y e
  rcases hoff with h | h
  · apply h; linarith
  · apply h; linarith

/-- A part of a version 2 file in tens of nanometres, at (20, 10) millimetres, is read at (2000000, 1000000). -/
example : readPlaceRec .elec .tnm .v2 ["SO8 \"part 1\" U1".toList, "2000000 1000000 90 TOP FIXED".toList, []] =
    .item ⟨"SO8".toList, "part 1".toList, some "U1".toList, 2000000, 1000000, 0, 90, .top, .mcad⟩ [[]] := by decide +kernel

/-- The words of such a record. -/
example : PlaceSays .elec .v2 [("SO8".toList, false), ("part 1".toList, true), ("U1".toList, false)]
    [("2000000".toList, false), ("1000000".toList, false), ("90".toList, false), ("top".toList, false), ("Fixed".toList, false)]
    ⟨"SO8".toList, "part 1".toList, some "U1".toList, 2000000, 1000000, 0, 90, .top, .mcad⟩ :=
  ⟨⟨_, _, _, [], rfl, rfl, rfl, .name (by decide) (by decide), by decide⟩,
   ⟨_, _, [], .v2 _ _ _ _ _ _ _ (by decide +kernel) (by decide +kernel) (by decide +kernel), .top (by decide), .fixedElec (by decide)⟩⟩

end Iges.Props.IdfPlace
