import Verif.Spec.IdfPlaceSection
import Verif.Props.IdfPlaceWords
/-
C76, reading: the placement section is read as its words say, in both versions of the format.
-/
namespace Iges.Props.IdfPlace
open Iges.Idf Iges.Idf.Spec

namespace Sect

private theorem gap_line {gap : List Str} (h : ∀ g ∈ gap, fetchLine g = none) {raw l : Str} (e : fetchLine raw = some ⟨l, false⟩) (rest : List Str) :
    nextLine (gap ++ raw :: rest) = (⟨l, false⟩, rest) := by
  induction gap with
  | nil => rw [List.nil_append, nextLine, e]
  | cons g gap ih =>
    rw [List.cons_append, nextLine, h g (by simp)]
    exact ih fun x hx => h x (by simp [hx])

private theorem skip {cad : Cad} {u : Iges.Idf.Unit} {v : Version} {raw : Str} (h : fetchLine raw = none) (rest : List Str) :
    readPlaceRec cad u v (raw :: rest) = readPlaceRec cad u v rest := by
  unfold readPlaceRec
  rw [nextLine, h]

private theorem store_new {noSub : Bool} {b : PBoard} {r : PlaceRec} {n : Str} (hr : r.ref = some n) (hn : b.comps.find n = none) :
    ∃ b' c, storePlace noSub b r = some b' ∧ b'.cad = b.cad ∧ IsPart r n c ∧
      ∀ m, SMap.find m b'.comps = if m = n then some c else SMap.find m b.comps := by
  refine ⟨⟨b.cad, (findOutline noSub b.lib r.geom r.part).2, b.comps.add n
    ⟨n, some ⟨r.x, r.y, r.a, r.side⟩, some r.placement, [⟨(findOutline noSub b.lib r.geom r.part).1, 0, 0, r.z, 0⟩], []⟩, b.next⟩,
    ⟨n, some ⟨r.x, r.y, r.a, r.side⟩, some r.placement, [⟨(findOutline noSub b.lib r.geom r.part).1, 0, 0, r.z, 0⟩], []⟩, ?_, rfl,
    ⟨rfl, rfl, rfl, rfl, _, rfl⟩, fun m => find_add _ _ _ hn m⟩
  unfold storePlace
  rw [hr]
  simp only [hn]

private theorem read_all {u : Iges.Idf.Unit} {v : Version} {f : ℚ} {cad : Cad} (noSub : Bool) (hf : InMM u v f) (hu : u ≠ .tnm) {raws : List Str}
    {rs : List PlaceRec} (h : PlaceLines cad v f raws rs) {s rest : List Str} (hs : s ≠ [])
    (he : readPlaceRec cad u v s = .finish rest) :
    ∀ (k : ℕ) (b : PBoard), raws.length < k → b.cad = cad → (∀ r ∈ rs, ∃ n, r.ref = some n ∧ b.comps.find n = none) →
      (rs.map PlaceRec.ref).Nodup →
    ∃ b', readPlacement u v noSub k b (raws ++ s) = some (b', rest) ∧
      (∀ r ∈ rs, ∀ n, r.ref = some n → ∃ c, b'.comps.find n = some c ∧ IsPart r n c) ∧
      ∀ m, (∀ r ∈ rs, r.ref ≠ some m) → b'.comps.find m = b.comps.find m := by
  induction h with
  | nil =>
    intro k b hk hc _ _
    obtain ⟨k, rfl⟩ := Nat.exists_eq_succ_of_ne_zero (by omega : k ≠ 0)
    refine ⟨b, ?_, by simp, fun _ _ => rfl⟩
    rw [List.nil_append, readPlacement, hc, he]
  | part raw1 raw2 l1 l2 gap ws1 ws2 r raws rs e1 hg e2 w1 w2 hr _ ih =>
    intro k b hk hc hfree hnd
    obtain ⟨k, rfl⟩ := Nat.exists_eq_succ_of_ne_zero (by omega : k ≠ 0)
    obtain ⟨n, hn, hfind⟩ := hfree (scaled f r) (by simp)
    obtain ⟨b1, c, st, hcad, hpart, hother⟩ := store_new (noSub := noSub) hn hfind
    rw [List.map_cons, List.nodup_cons] at hnd
    have hne : ∀ r' ∈ rs, r'.ref ≠ some n := by
      intro r' hr' e
      exact hnd.1 (by rw [hn, ← e]; exact List.mem_map_of_mem hr')
    obtain ⟨b2, g1, g2, g3⟩ := ih k b1 (by simp at hk; omega) (hcad.trans hc) (by
      intro r' hr'
      obtain ⟨m, hm, hf'⟩ := hfree r' (by simp [hr'])
      refine ⟨m, hm, ?_⟩
      rw [hother, if_neg, hf']
      rintro rfl
      exact hne r' hr' hm) hnd.2
    refine ⟨b2, ?_, ?_, ?_⟩
    · have hread := C76_words_partial cad u v f (raw1 :: (gap ++ raw2 :: raws) ++ s) (gap ++ raw2 :: (raws ++ s)) (raws ++ s) l1 l2 ws1 ws2 r
        (by rw [List.cons_append, nextLine, e1]; simp) (gap_line hg e2 _) (by simp [hs]) w1 w2 hr hf hu
      rw [readPlacement, hc, hread]
      simp only [st, g1]
    · intro r' hr' m hm
      rcases List.mem_cons.1 hr' with rfl | hr'
      · rw [hn] at hm
        cases hm
        refine ⟨c, ?_, hpart⟩
        rw [g3 n hne, hother, if_pos rfl]
      · exact g2 r' hr' m hm
    · intro m hm
      rw [g3 m fun r' hr' => hm r' (by simp [hr']), hother, if_neg]
      rintro rfl
      exact hm (scaled f r) (by simp) hn
  | blank raw raws rs hb _ ih =>
    intro k b hk hc hfree hnd
    obtain ⟨b', h1, h2⟩ := ih k b (by simp at hk; omega) hc hfree hnd
    obtain ⟨k, rfl⟩ := Nat.exists_eq_succ_of_ne_zero (by omega : k ≠ 0)
    refine ⟨b', ?_, h2⟩
    rw [readPlacement] at h1
    rw [List.cons_append, readPlacement, skip hb]
    exact h1

end Sect
open Sect

/-- **C76_section_partial**: a placement section whose records name different parts, none of them known to the board before, is accepted; each part
is then on the board, where and as its record says, and nothing else has changed among the components.  This holds in both versions.  Partial: files in
tens of nanometres (`C76_tnm_not_converted`); parts without a name and parts with more than one record are in `C76_roundtrip_partial` only. -/
theorem C76_section_partial (u : Iges.Idf.Unit) (v : Version) (f : ℚ) (hf : InMM u v f) (hu : u ≠ .tnm) (noSub : Bool) (b : PBoard)
    (raws : List Str) (rs : List PlaceRec) (h : PlaceLines b.cad v f raws rs)
    (hnew : ∀ r ∈ rs, ∃ n, r.ref = some n ∧ b.comps.find n = none) (hdiff : (rs.map PlaceRec.ref).Nodup)
    (e t w rest' : Str) (he : fetchLine e = some ⟨t, false⟩) (hw : FirstWord t w false rest') (hend : w.map Char.toUpper = ".END_PLACEMENT".toList)
    (rest : List Str) :
    ∃ b', readPlacement u v noSub ((raws ++ e :: rest).length + 1) b (raws ++ e :: rest) = some (b', rest) ∧
      (∀ r ∈ rs, ∀ n, r.ref = some n → ∃ c, b'.comps.find n = some c ∧ IsPart r n c) ∧
      ∀ m, (∀ r ∈ rs, r.ref ≠ some m) → b'.comps.find m = b.comps.find m := by
  have hne : t ≠ [] := by
    rintro rfl
    have := getWord_first hw
    cases this
  have hfin : readPlaceRec b.cad u v (e :: rest) = .finish rest := by
    have hc : compareToken ".END_PLACEMENT" w = true := by unfold compareToken; rw [hend]; simp
    unfold readPlaceRec
    rw [nextLine, he]
    simp only [hne, getWord_first hw, hc, Bool.false_eq_true, or_self, if_false, and_self, if_true]
  exact read_all noSub hf hu h (by simp) hfin _ b (by simp; omega) rfl hnew hdiff

/-- A fixed part of a version 2 file in thousandths of an inch meets the conditions. -/
example : PlaceLines .elec .v2 (254 / 10000) ["cap 10uF C1".toList, [], "1000 -2000 90 BOTTOM fixed".toList]
    [⟨"cap".toList, "10uF".toList, some "C1".toList, 254 / 10, -508 / 10, 0, 90, .bottom, .mcad⟩] := by
  have hb : Blank [' '] := by intro c hc; simp at hc; subst hc; decide
  have hn : Blank [] := by intro c hc; cases hc
  have h := PlaceLines.part (cad := .elec) (v := .v2) (f := 254 / 10000) "cap 10uF C1".toList "1000 -2000 90 BOTTOM fixed".toList "cap 10uF C1".toList
    "1000 -2000 90 BOTTOM fixed".toList [[]] [("cap".toList, false), ("10uF".toList, false), ("C1".toList, false)]
    [("1000".toList, false), ("-2000".toList, false), ("90".toList, false), ("BOTTOM".toList, false), ("fixed".toList, false)]
    ⟨"cap".toList, "10uF".toList, some "C1".toList, 1000, -2000, 0, 90, .bottom, .mcad⟩ [] [] (by decide +kernel) (by simp; decide +kernel)
    (by decide +kernel)
    (.cons _ _ _ " 10uF C1".toList _ ⟨[], hn, by decide⟩ (.cons _ _ _ " C1".toList _ ⟨[' '], hb, by decide⟩
      (.cons _ _ _ [] _ ⟨[' '], hb, by decide⟩ (.nil _ hn))))
    (.cons _ _ _ " -2000 90 BOTTOM fixed".toList _ ⟨[], hn, by decide⟩ (.cons _ _ _ " 90 BOTTOM fixed".toList _ ⟨[' '], hb, by decide⟩
      (.cons _ _ _ " BOTTOM fixed".toList _ ⟨[' '], hb, by decide⟩ (.cons _ _ _ " fixed".toList _ ⟨[' '], hb, by decide⟩
        (.cons _ _ _ [] _ ⟨[' '], hb, by decide⟩ (.nil _ hn))))))
    ⟨⟨_, _, _, [], rfl, rfl, rfl, .name (by decide) (by decide), by decide⟩,
      ⟨("BOTTOM".toList, false), ("fixed".toList, false), [], .v2 _ _ _ _ _ _ _ (by decide +kernel) (by decide +kernel) (by decide +kernel),
        .bottom (by decide), .fixedElec (by decide)⟩⟩ .nil
  unfold scaled at h
  norm_num at h ⊢
  exact h

end Iges.Props.IdfPlace
