import Verif.Spec.IdfPart
import Verif.Props.IdfLib
/-
C95: component outlines loaded from files of their own.
-/
namespace Iges.Props.IdfPart
open Iges.Idf Iges.Idf.Spec Iges.Props.IdfNotes Iges.Props.IdfDrill Iges.Props.IdfOutline Iges.Props.IdfBoard Iges.Props.IdfLib Iges.Props.IdfPlace

/-! ### Comparing outlines -/

theorem close_iff (p q : Pt) : p.close q = true ↔ Within p q := by
  unfold Pt.close Within
  rw [decide_eq_true_iff]
  constructor <;> intro h <;> nlinarith [h]

theorem matchSegs_iff : ∀ (l m : List QSeg), l.length = m.length →
    (matchSegs l m = true ↔ List.Forall₂ (fun s t : QSeg => Within s.start t.start ∧ Within s.stop t.stop) l m)
  | [], [], _ => by simp [matchSegs]
  | s :: l, t :: m, h => by
    rw [matchSegs, Bool.and_eq_true, Bool.and_eq_true, close_iff, close_iff, matchSegs_iff l m (by simpa using h), List.forall₂_cons]

theorem match_iff (a b : CompOln) : matchComp a b = true ↔ SameCorners a b := by
  unfold matchComp SameCorners
  rw [Bool.and_eq_true, Bool.and_eq_true, decide_eq_true_iff, decide_eq_true_iff, and_assoc]
  refine and_congr_right fun _ => and_congr_right fun hl => ?_
  cases ha : a.outlines with
  | nil =>
    cases hb : b.outlines with
    | nil => simp
    | cons m bs => rw [ha, hb] at hl; cases hl
  | cons l as =>
    cases hb : b.outlines with
    | nil => rw [ha, hb] at hl; cases hl
    | cons m bs =>
      simp only [Bool.and_eq_true, decide_eq_true_iff, List.head?_cons, Option.some.injEq]
      constructor
      · rintro ⟨h1, h2⟩ l' m' rfl rfl
        exact (matchSegs_iff _ _ h1).1 h2
      · intro h
        have := h l m rfl rfl
        exact ⟨this.length_eq, (matchSegs_iff _ _ this.length_eq).2 this⟩

/-! ### C95 -/

/-- C95: a file that was not loaded before is accepted exactly if it can be read and the board has no other outline of that name; the outline returned is filed under the
name of the one in the file. -/
theorem C95_accepted (ccw : List QSeg → Bool) (S : PartStore) (f : Str) (hf : S.files.find f = none) (input : List Str) (k : Str) :
    (GetComponentOutline ccw S f (some input)).1 = some k ↔
      ∃ o, loadPart ccw S.version [] input = some o ∧ k = o.uid ∧ ∀ o', S.parts.find k = some o' → SameCorners o o' := by
  unfold GetComponentOutline
  simp only [hf]
  cases hl : loadPart ccw S.version [] input with
  | none => simp
  | some o =>
    simp only [Option.some.injEq]
    cases hp : SMap.find o.uid S.parts with
    | none =>
      simp only [Option.some.injEq]
      constructor
      · rintro rfl
        exact ⟨o, rfl, rfl, fun o' h => by rw [hp] at h; cases h⟩
      · rintro ⟨o1, rfl, rfl, -⟩
        rfl
    | some o' =>
      simp only
      by_cases hm : matchComp o o' = true
      · simp only [hm, if_true, Option.some.injEq]
        constructor
        · rintro rfl
          exact ⟨o, rfl, rfl, fun o1 h => by rw [hp] at h; cases h; exact (match_iff _ _).1 hm⟩
        · rintro ⟨o1, rfl, rfl, -⟩
          rfl
      · simp only [hm]
        constructor
        · intro h; cases h
        · rintro ⟨o1, rfl, rfl, h⟩
          exact absurd ((match_iff _ _).2 (h o' hp)) hm

/-- C95: whatever the result, every outline in the board before is still there, unchanged; if the result is NULL nothing has changed at all; otherwise the outline
returned is in the board, and it is the one of the file or was there before with the same corners. -/
theorem C95_partial (ccw : List QSeg → Bool) (S : PartStore) (f : Str) (content : Option (List Str)) :
    (∀ k o, S.parts.find k = some o → (GetComponentOutline ccw S f content).2.parts.find k = some o) ∧
    ((GetComponentOutline ccw S f content).1 = none → (GetComponentOutline ccw S f content).2 = S) ∧
    ∀ k, (GetComponentOutline ccw S f content).1 = some k →
      ∃ o', (GetComponentOutline ccw S f content).2.parts.find k = some o' ∧
        (S.files.find f = none → ∃ input o, content = some input ∧ loadPart ccw S.version [] input = some o ∧ k = o.uid ∧
          ((S.parts.find k = none ∧ o' = o) ∨ (S.parts.find k = some o' ∧ SameCorners o o'))) := by
  unfold GetComponentOutline
  cases content with
  | none => exact ⟨fun _ _ h => h, fun _ => rfl, fun k h => by cases h⟩
  | some input =>
    simp only
    cases hf : SMap.find f S.files with
    | some uid =>
      refine ⟨fun _ _ h => h, fun _ => rfl, fun k h => ?_⟩
      obtain ⟨o', h1, h2⟩ := Option.map_eq_some_iff.1 h
      subst h2
      exact ⟨o', h1, fun h => by cases h⟩
    | none =>
      simp only
      cases hl : loadPart ccw S.version [] input with
      | none => exact ⟨fun _ _ h => h, fun _ => rfl, fun k h => by cases h⟩
      | some o =>
        simp only
        cases hp : SMap.find o.uid S.parts with
        | none =>
          simp only
          refine ⟨fun k o1 h => ?_, fun h => (by cases h), fun k h => ?_⟩
          · rw [find_add _ _ _ hp, if_neg]
            · exact h
            · rintro rfl; rw [hp] at h; cases h
          · cases h
            exact ⟨o, by rw [find_add _ _ _ hp, if_pos rfl], fun _ => ⟨input, o, rfl, hl, rfl, .inl ⟨hp, rfl⟩⟩⟩
        | some o' =>
          simp only
          by_cases hm : matchComp o o' = true
          · simp only [hm, if_true]
            refine ⟨fun k o1 h => h, fun h => (by cases h), fun k h => ?_⟩
            cases h
            exact ⟨o', hp, fun _ => ⟨input, o, rfl, hl, rfl, .inr ⟨hp, (match_iff _ _).1 hm⟩⟩⟩
          · simp only [hm]
            exact ⟨fun k o1 h => h, fun _ => rfl, fun k h => by cases h⟩

/-- a remembered file stays remembered and its outline stays in the board -/
theorem step_known {ccw : List QSeg → Bool} {S T : PartStore} {c : PartCall} {r : Option Str} (h : Step ccw S c r T) {f uid : Str}
    (hf : S.files.find f = some uid) (hp : ∃ o, S.parts.find uid = some o) : T.files.find f = some uid ∧ ∃ o, T.parts.find uid = some o := by
  cases h with
  | grow parts version hg =>
    obtain ⟨o, ho⟩ := hp
    exact ⟨hf, hg _ _ ho⟩
  | load g content =>
    refine ⟨?_, ?_⟩
    · unfold GetComponentOutline
      cases content with
      | none => exact hf
      | some input =>
        simp only
        cases hg : SMap.find g S.files with
        | some u => exact hf
        | none =>
          have hadd : ∀ x : Str, SMap.find f (SMap.add g x S.files) = some uid := by
            intro x
            rw [find_add _ _ _ hg, if_neg]
            · exact hf
            · rintro rfl; rw [hg] at hf; cases hf
          simp only
          repeat' split
          all_goals first | exact hf | exact hadd _
    · obtain ⟨o, ho⟩ := hp
      exact ⟨o, (C95_partial ccw S g content).1 _ _ ho⟩

/-- C95: once a file has been loaded, asking for it again gives the same outline and changes nothing, whatever has been read in between. -/
theorem C95_again (ccw : List QSeg → Bool) (S T : PartStore) (f : Str) (input : List Str) (k : Str)
    (h : (GetComponentOutline ccw S f (some input)).1 = some k) (hs : Steps ccw (GetComponentOutline ccw S f (some input)).2 T) (input' : List Str) :
    GetComponentOutline ccw T f (some input') = (some k, T) := by
  have h0 : (GetComponentOutline ccw S f (some input)).2.files.find f = some k ∧ ∃ o, (GetComponentOutline ccw S f (some input)).2.parts.find k = some o := by
    refine ⟨?_, ?_⟩
    · revert h
      unfold GetComponentOutline
      simp only
      cases hf : SMap.find f S.files with
      | some uid =>
        intro h
        obtain ⟨o', h1, h2⟩ := Option.map_eq_some_iff.1 h
        subst h2
        exact hf
      | none =>
        simp only
        repeat' split
        all_goals intro h
        all_goals first | cases h; done | (cases h; rw [find_add _ _ _ hf, if_pos rfl])
    · obtain ⟨o', h1, -⟩ := (C95_partial ccw S f (some input)).2.2 k h
      exact ⟨o', h1⟩
  have h1 : T.files.find f = some k ∧ ∃ o, T.parts.find k = some o := by
    generalize (GetComponentOutline ccw S f (some input)).2 = U at hs h0
    induction hs with
    | refl => exact h0
    | step _ hstep ih => exact step_known hstep ih.1 ih.2
  unfold GetComponentOutline
  obtain ⟨o, ho⟩ := h1.2
  simp only [h1.1, ho]
  rfl

/-- C95: what can be loaded has a class, a name and at most one outline; if it has no properties the outline is a circle or a closed chain. -/
theorem C95_loaded (ccw : List QSeg → Bool) (v : Version) : ∀ (input : List Str) (cs : List Str) (o : CompOln), loadPart ccw v cs input = some o →
    o.cls ≠ none ∧ ¬ (o.geom = [] ∧ o.part = []) ∧ o.refs = 0 ∧ o.outlines.length ≤ 1 ∧ (o.props = [] → ∀ l ∈ o.outlines, ClosedLoop l)
  | [], _, _, h => by cases h
  | raw :: rest, cs, o, h => by
    unfold loadPart at h
    repeat' split at h
    · exact C95_loaded ccw v rest cs o h
    · cases h
    · exact C95_loaded ccw v rest _ o h
    · cases h
    · obtain ⟨p, hp, e⟩ := Option.map_eq_some_iff.1 h
      obtain ⟨h1, h2, h3, h4, h5, -⟩ := comp_accepted ccw v _ rest p.2 p.1 hp
      subst e
      exact ⟨by simp [h1], h2, h3, h4, h5⟩

/-! ### Round trip -/

theorem load_comments {ccw : List QSeg → Bool} {v : Version} {cs : List Str} (cs' : List Str) (h : ∀ c ∈ cs', CommentOk c ∧ c ≠ []) (after : Str) :
    loadPart ccw v cs (lines (commentText cs' ++ after)) = loadPart ccw v (cs ++ cs') (lines after) := by
  induction cs' generalizing cs with
  | nil => simp [commentText]
  | cons c cs' ih =>
    have hc := h c (by simp)
    have e : lines (commentText (c :: cs') ++ after) = ('#' :: ' ' :: c) :: lines (commentText cs' ++ after) := by
      rw [← lines_line (a := '#' :: ' ' :: c)]
      · simp [commentText]
      · simp only [List.mem_cons, not_or]
        exact ⟨by decide, by decide, hc.1.1⟩
    rw [e, loadPart, fetch_comment hc.1]
    simp only [lines_ne_nil, if_false, if_true]
    rw [ih (fun c h' => h c (by simp [h']))]
    simp

/-- C95: a part in use, written as in a library file but to a file of its own, is loaded from it into a board that has no part of that name: class, names, unit, comments
and properties are the same, height and outline up to the places written. -/
theorem C95_roundtrip_partial (ccw : List QSeg → Bool) {g : ℚ} (hg : 0 ≤ g) {o : CompOln} (h : PartOk g o) (hr : o.refs ≠ 0) (S : PartStore) (hv : S.version = .v3)
    (f : Str) (hf : S.files.find f = none) (hk : S.parts.find o.uid = none) :
    ∃ t o', compText ccw o = .text t ∧ PartBack g o o' ∧
      GetComponentOutline ccw S f (some (lines t)) = (some o.uid, ⟨S.parts.add o.uid o', S.files.add f o.uid, .v3⟩) := by
  obtain ⟨c, hc⟩ := Option.ne_none_iff_exists'.1 h.cls
  obtain ⟨t, o', w, r, b, -⟩ := comp_read (ccw := ccw) hg h hr hc []
  obtain ⟨-, k2, k3, k4⟩ := comp_key c
  refine ⟨_, { o' with comments := o.comments }, w, b, ?_⟩
  have hload : loadPart ccw S.version [] (lines (commentText o.comments ++ (('.' :: c.name.toList) ++ '\n' :: partBody o c t []))) =
      some { o' with comments := o.comments } := by
    rw [hv, load_comments _ h.comments]
    generalize ('.' :: c.name.toList) = hd at *
    rw [lines_line k2, loadPart, k4]
    simp only [lines_ne_nil, Bool.false_eq_true, if_false, k3, r, List.nil_append, Option.map_some]
    rw [filter_nonempty h.comments]
  have hu : ({ o' with comments := o.comments } : CompOln).uid = o.uid := uid_back b
  rw [hv] at hload
  unfold GetComponentOutline
  simp only [hf, hv, hload, hu, hk]

/-! ### The version of the board -/

theorem outlines_version (comp : Bool) (ccw : List QSeg → Bool) {u : Iges.Idf.Unit} (hu : u ≠ .tnm) (v v' : Version) : ∀ (input : List Str) (st : OutState),
    readOutlines true comp ccw u v st input = readOutlines true comp ccw u v' st input
  | [], _ => rfl
  | raw :: input, st => by
    have hf : unitFactor u v = unitFactor u v' := by cases u <;> first | rfl | exact absurd rfl hu
    have hl : ∀ s, outlineLine true comp ccw u v st s = outlineLine true comp ccw u v' st s := by
      intro s
      unfold outlineLine
      simp only [hf]
    rw [readOutlines, readOutlines]
    simp only [hl, outlines_version comp ccw hu v v' input]

theorem record_version {s : Str} {r : Str × Str × Iges.Idf.Unit × ℚ} (h : compRecord .v3 s = some r) : r.2.2.1 ≠ .tnm ∧ compRecord .v2 s = some r := by
  unfold compRecord at h ⊢
  split at h
  · split at h
    · split at h
      · cases h
      rename_i hne
      rw [if_neg hne]
      split at h
      · rename_i t _ _ _
        cases hu : compUnit .v3 t with
        | none => rw [hu] at h; cases h
        | some u =>
          have hu2 : compUnit .v2 t = some u ∧ u ≠ .tnm := by
            unfold compUnit at hu ⊢
            split at hu
            · rename_i h1
              cases hu; exact ⟨by rw [if_pos h1], by decide⟩
            · rename_i h1
              split at hu
              · rename_i h2
                cases hu; exact ⟨by rw [if_neg h1, if_pos h2], by decide⟩
              · split at hu
                · rename_i hx; cases hx.1
                · cases hu
          rw [hu] at h
          simp only [hu2.1] at h ⊢
          split at h
          · split at h
            · cases h
            · have hf : unitFactor u .v2 = unitFactor u .v3 := by cases u <;> first | rfl | exact absurd rfl hu2.2
              rw [hf]
              refine ⟨?_, h⟩
              obtain ⟨f, -, e⟩ := Option.map_eq_some_iff.1 h
              rw [← e]
              exact hu2.2
          · cases h
      · cases h
    · cases h
  · cases h

theorem props_next : ∀ (rest : List Str) {m : SMap Str} {rest' : List Str}, readProps [] rest = some (m, rest') →
    (m = [] ∧ nextLine rest = nextLine rest') ∨ (m ≠ [] ∧ compareToken (".END_" ++ CompClass.elec.name) (nextLine rest).1.text = false)
  | [], m, rest', h => by cases h; exact .inl ⟨rfl, rfl⟩
  | raw :: rest, m, rest', h => by
    rw [readProps] at h
    cases hf : fetchLine raw with
    | none =>
      rw [hf] at h
      rw [nextLine, hf]
      exact props_next rest h
    | some l =>
      rw [hf] at h
      simp only at h
      split at h
      · cases h
      split at h
      · rename_i t q s hw
        split at h
        · cases h
        rename_i hq
        rw [Bool.not_eq_true] at hq
        subst hq
        split at h
        · cases h; exact .inl ⟨rfl, rfl⟩
        · split at h
          · cases h
          · rename_i hp
            rw [Bool.not_eq_false] at hp
            right
            refine ⟨?_, ?_⟩
            · repeat' split at h
              all_goals first | cases h | skip
              exact props_grow _ h (by simp [SMap.add])
            · rw [nextLine, hf]
              exact prop_not_end .elec hw hp
      · cases h

theorem comp_version {ccw : List QSeg → Bool} {c : CompClass} {input rest : List Str} {o : CompOln} (h : readComp ccw .v3 c input = some (o, rest)) :
    readComp ccw .v2 c input = if o.props = [] then some (o, rest) else none := by
  unfold readComp at h ⊢
  cases hh : headLine input with
  | none => rw [hh] at h; cases h
  | some p =>
    rw [hh] at h
    simp only at h ⊢
    cases hr : compRecord .v3 p.1 with
    | none => rw [hr] at h; cases h
    | some r =>
      obtain ⟨hu, hr2⟩ := record_version hr
      rw [hr] at h
      rw [hr2]
      simp only at h ⊢
      rw [outlines_version true ccw hu .v2 .v3]
      cases ho : readOutlines true true ccw r.2.2.1 .v3 .start p.2 with
      | none => rw [ho] at h; cases h
      | some q =>
        rw [ho] at h
        simp only at h ⊢
        cases c with
        | mech =>
          simp only [reduceCtorEq, false_and, if_false] at h ⊢
          split at h
          · cases h
          · rename_i h1
            split at h
            · cases h
            · rename_i h2
              cases h
              rw [if_neg h1, if_neg h2]
              rfl
        | elec =>
          simp only [true_and, if_true, reduceCtorEq, if_false] at h ⊢
          cases hp : readProps [] q.2 with
          | none => rw [hp] at h; cases h
          | some m =>
            rw [hp] at h
            simp only at h
            rcases props_next q.2 hp with ⟨h1, h2⟩ | ⟨h1, h2⟩
            · rw [h2]
              rw [h1] at h
              have : o.props = [] := by
                split at h
                · cases h
                · split at h
                  · cases h
                  · cases h; rfl
              rw [if_pos this]
              exact h
            · have : o.props ≠ [] := by
                split at h
                · cases h
                · split at h
                  · cases h
                  · cases h; exact h1
              rw [if_neg this]
              split
              · rfl
              · rfl

/-- C95, what fails: which files can be loaded depends on the version of the board file read last.  With version 2 the files that are accepted otherwise are
accepted exactly if the part has no properties. -/
theorem C95_version (ccw : List QSeg → Bool) : ∀ (input : List Str) (cs : List Str) (o : CompOln), loadPart ccw .v3 cs input = some o →
    loadPart ccw .v2 cs input = if o.props = [] then some o else none
  | [], _, _, h => by cases h
  | raw :: rest, cs, o, h => by
    unfold loadPart at h ⊢
    cases hf : fetchLine raw with
    | none =>
      rw [hf] at h
      exact C95_version ccw rest cs o h
    | some l =>
      rw [hf] at h
      simp only at h ⊢
      split at h
      · cases h
      rename_i h1
      rw [if_neg h1]
      split at h
      · rename_i h2
        rw [if_pos h2]
        exact C95_version ccw rest _ o h
      · rename_i h2
        rw [if_neg h2]
        cases hk : compKey l.text with
        | none => rw [hk] at h; cases h
        | some c =>
          rw [hk] at h
          simp only at h ⊢
          obtain ⟨p, hp, e⟩ := Option.map_eq_some_iff.1 h
          subst e
          rw [comp_version (rest := p.2) hp]
          simp only
          split <;> rfl

/-! ### What the comparison does not see -/

theorem load_ccw (ccw ccw' : List QSeg → Bool) (v : Version) : ∀ (input : List Str) (cs : List Str), loadPart ccw v cs input = loadPart ccw' v cs input
  | [], _ => rfl
  | raw :: input, cs => by
    rw [loadPart, loadPart]
    simp only [readComp, outlines_ccw true ccw ccw', load_ccw ccw ccw' v input]

theorem get_ccw (ccw ccw' : List QSeg → Bool) (S : PartStore) (f : Str) (content : Option (List Str)) :
    GetComponentOutline ccw S f content = GetComponentOutline ccw' S f content := by
  unfold GetComponentOutline
  simp only [load_ccw ccw ccw']

/-- a file with one part -/
def part (names height third : String) (props : String := "") : List Str :=
  lines ("# made by hand\n.ELECTRICAL\n" ++ names ++ " MM " ++ height ++ "\n0 0 0 0\n0 5 0 0\n0 5 5 " ++ third ++ "\n0 0 0 0\n" ++ props ++ ".END_ELECTRICAL\n").toList

/-- an empty board -/
def store (v : Version) : PartStore := ⟨[], [], v⟩

/-- height, angles and number of properties of the outlines -/
def seen (r : Option Str × PartStore) : Option Str × List (Str × ℚ × List ℚ × ℕ) :=
  (r.1, r.2.parts.map fun e => (e.1, e.2.thickness, e.2.outlines.flatMap (·.map (·.angle)), e.2.props.length))

/-- C95, what fails: the outline returned need not be the one in the file.  A file with another height, an arc instead of a line and a property gives the outline
loaded first, ... -/
theorem C95_other_height (ccw : List QSeg → Bool) :
    seen (GetComponentOutline ccw (store .v3) "b".toList (some (part "A B" "2" "90" "PROP C D\n"))) = (some "A_B".toList, [("A_B".toList, 2, [0, 90, 0], 1)]) ∧
    seen (GetComponentOutline ccw (GetComponentOutline ccw (store .v3) "a".toList (some (part "A B" "1" "0"))).2 "b".toList (some (part "A B" "2" "90" "PROP C D\n"))) =
      (some "A_B".toList, [("A_B".toList, 1, [0, 0, 0], 0)]) := by
  rw [get_ccw ccw fun _ => true, get_ccw ccw fun _ => true, get_ccw ccw fun _ => true]
  constructor <;> decide +kernel

/-- ... and so does a file with other names. -/
theorem C95_other_names (ccw : List QSeg → Bool) :
    (GetComponentOutline ccw (GetComponentOutline ccw (store .v3) "a".toList (some (part "A B_C" "1" "0"))).2 "b".toList (some (part "A_B C" "1" "0"))).1 =
      some "A_B_C".toList ∧
    ((GetComponentOutline ccw (GetComponentOutline ccw (store .v3) "a".toList (some (part "A B_C" "1" "0"))).2 "b".toList (some (part "A_B C" "1" "0"))).2.parts.map
      fun e => (e.2.geom, e.2.part)) = [("A".toList, "B_C".toList)] := by
  rw [get_ccw ccw fun _ => true, get_ccw ccw fun _ => true]
  constructor <;> decide +kernel

/-! ### Examples -/

/-- the hypotheses of `C95_accepted`, `C95_again`, `C95_loaded` and `C95_version` can be met; a file that has changed in between is not read again -/
example : (store .v3).files.find "a".toList = none ∧
    (GetComponentOutline (fun _ => true) (store .v3) "a".toList (some (part "A B" "1" "0"))).1 = some "A_B".toList ∧
    seen (GetComponentOutline (fun _ => true) (GetComponentOutline (fun _ => true) (store .v3) "a".toList (some (part "A B" "1" "0"))).2 "a".toList
      (some (part "X Y" "7" "0"))) = (some "A_B".toList, [("A_B".toList, 1, [0, 0, 0], 0)]) ∧
    (loadPart (fun _ => true) .v3 [] (part "A B" "1" "0" "PROP C D\n")).map (fun o => (o.props, o.comments)) =
      some ([("C".toList, "D".toList)], ["made by hand".toList]) ∧
    (loadPart (fun _ => true) .v2 [] (part "A B" "1" "0" "PROP C D\n")).isNone = true ∧
    (loadPart (fun _ => true) .v2 [] (part "A B" "1" "0")).map (fun o => o.props) = some [] := by
  refine ⟨rfl, ?_, ?_, ?_, ?_, ?_⟩ <;> decide +kernel

/-- another outline of the same name is refused -/
example : (GetComponentOutline (fun _ => true) (GetComponentOutline (fun _ => true) (store .v3) "a".toList (some (part "A B" "1" "0"))).2 "b".toList
    (some (IdfLib.section' "A B" "MM 1" "5" |>.toList |> lines))).1 = none := by
  decide +kernel

/-- `C95_roundtrip_partial` for the part of C81 -/
example : ∃ t o', compText (fun _ => true) part1 = .text t ∧ PartBack 0 part1 o' ∧
    GetComponentOutline (fun _ => true) (store .v3) "a".toList (some (lines t)) =
      (some part1.uid, ⟨SMap.add part1.uid o' [], SMap.add "a".toList part1.uid [], .v3⟩) :=
  C95_roundtrip_partial _ le_rfl (demoLib_ok.parts ("g_p".toList, part1) (by simp [demoLib]) (by decide)) (by decide) (store .v3) rfl _ rfl rfl

end Iges.Props.IdfPart
