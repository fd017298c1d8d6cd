import Verif.Lemmas.IdfLib
/-
C81: library files, and a board together with its library.
-/
namespace Iges.Props.IdfLib
open Iges.Idf Iges.Idf.Spec Iges.Props.IdfNotes Iges.Props.IdfDrill Iges.Props.IdfOutline Iges.Props.IdfBoard

/-! ### Round trip -/

/-- C81: the parts in use, written to a library file and read into a library which has no parts of those names, come back: class, names, unit, comments and
properties are the same, height and outline up to the places written.  Parts that no component uses are not in the file, and the other parts of the library
read into stay.  Partial: see `PartOk` and DESIGN.md. -/
theorem C81_roundtrip_partial (ccw : List QSeg → Bool) {g : ℚ} (hg : 0 ≤ g) {L : Library} (hL : LibOk g L) {now ours : Str} (hn : WordOk now) (ho : Plain ours)
    (L0 : Library) (h0 : ∀ k o, L.parts.find k = some o → o.refs ≠ 0 → L0.parts.find k = none) :
    ∃ text L', writeLibFile ccw now ours L = .text text ∧ readLibFile ccw L0 (lines text) = some L' ∧ LibBack g L L0 L' := by
  have hfind : ∀ e ∈ L.parts, L.parts.find e.1 = some e.2 := by
    intro e he
    have hk := hL.keys.1
    revert he hk
    generalize L.parts = m
    intro he hk
    induction m with
    | nil => cases he
    | cons x m ih =>
      rw [List.map_cons, List.nodup_cons] at hk
      rw [SMap.find]
      rcases List.mem_cons.1 he with rfl | h
      · rw [if_pos rfl]
      · rw [if_neg (fun e' => hk.1 (List.mem_map.2 ⟨e, h, e'.symm⟩))]
        exact ih h hk.2
  obtain ⟨t, lib', w, r, h1, h2⟩ := parts_read (ccw := ccw) hg L.parts hL.keys.1 hL.keys.2 hL.parts L0.parts
    (fun e he hr => h0 e.1 e.2 (hfind e he) hr)
  refine ⟨libHeaderText now ours L ++ t, { parts := lib', source := sourceText ours, date := now, fileVersion := L.fileVersion + 1 }, ?_, ?_, rfl, h1, h2⟩
  · unfold writeLibFile
    rw [writeList, w]; rfl
  · unfold readLibFile
    rw [libHeader_read now ours hn ho L L0 hL.fileVersion.1 hL.fileVersion.2]
    simp only
    rw [List.length_cons, libs_blank (lines_ne_nil _), r _ le_rfl]
    rfl

/-- C81: parts that no component uses make no difference to the file: `WriteFile` loses them. -/
theorem C81_unused_lost (ccw : List QSeg → Bool) (now ours : Str) (L : Library) :
    writeLibFile ccw now ours L = writeLibFile ccw now ours { L with parts := L.parts.filter fun e => e.2.refs ≠ 0 } := by
  have h : ∀ m : SMap CompOln, writeList (m.map fun e => compText ccw e.2) = writeList ((m.filter fun e => e.2.refs ≠ 0).map fun e => compText ccw e.2) := by
    intro m
    induction m with
    | nil => rfl
    | cons e m ih =>
      rw [List.filter_cons, List.map_cons, writeList, ih]
      by_cases hr : e.2.refs = 0
      · have : compText ccw e.2 = .text [] := by unfold compText; rw [if_pos hr]
        rw [this, if_neg (by simp [hr])]
        generalize writeList _ = w
        cases w <;> rfl
      · rw [if_pos (by simp [hr])]; rfl
  unfold writeLibFile
  rw [writeList, h, writeList]
  rfl

/-- C81: the properties of mechanical parts make no difference to the file: `WriteFile` loses them. -/
theorem C81_mechanical_props_lost (ccw : List QSeg → Bool) (now ours : Str) (L : Library) (props : SMap Str) :
    writeLibFile ccw now ours L =
      writeLibFile ccw now ours { L with parts := L.parts.map fun e => (e.1, if e.2.cls = some .mech then { e.2 with props := props } else e.2) } := by
  have h : ∀ o : CompOln, compText ccw o = compText ccw (if o.cls = some .mech then { o with props := props } else o) := by
    intro o
    split
    · rename_i hc
      unfold compText
      simp only [hc]
      rfl
    · rfl
  unfold writeLibFile
  rw [List.map_map]
  congr 2
  exact List.map_congr_left fun e _ => h e.2

/-! ### Both files -/

theorem find_partNames (m : SMap CompOln) (k : Str) : SMap.find k (partNames m) = (SMap.find k m).map fun o => (o.geom, o.part) := by
  induction m with
  | nil => rfl
  | cons e m ih =>
    unfold partNames at *
    rw [List.map_cons, SMap.find, SMap.find]
    split
    · rfl
    · exact ih

theorem find_count (before after : SMap Comp) (m : SMap CompOln) (k : Str) :
    SMap.find k (countUses before after m) = (SMap.find k m).map fun o => { o with refs := o.refs + (uses after k - uses before k) } := by
  induction m with
  | nil => rfl
  | cons e m ih =>
    unfold countUses at *
    rw [List.map_cons, SMap.find, SMap.find]
    split
    · rename_i h; cases h; rfl
    · exact ih

theorem find_some_mem {m : SMap Comp} {k : Str} {c : Comp} (h : SMap.find k m = some c) : (k, c) ∈ m := by
  induction m with
  | nil => cases h
  | cons e m ih =>
    obtain ⟨k', c'⟩ := e
    rw [SMap.find] at h
    split at h
    · rename_i hk; cases h; subst hk; simp
    · exact List.mem_cons_of_mem _ (ih h)

theorem outs_same {u : Iges.Idf.Unit} {p p' : CompPos} {a b : List OutData} (h : List.Forall₂ (OutNear u p p') a b) {o : OutData} (ho : o ∈ a) :
    ∃ x ∈ b, x.outline = o.outline := by
  induction h with
  | nil => cases ho
  | cons hab _ ih =>
    rcases List.mem_cons.1 ho with rfl | h
    · exact ⟨_, List.mem_cons_self .., hab.outline⟩
    · obtain ⟨x, hx, e⟩ := ih h
      exact ⟨x, List.mem_cons_of_mem _ hx, e⟩

/-- C81: a board and its library, written and read back into a new board object.  The library holds the parts in use, the board is the board of C80, every
outline of a component is found in the library under its name, no matter whether missing outlines are replaced, and every part that a component uses counts
as used, so that it is written again.  Partial: see `BoardOk`, `PartOk`, and C80_unit_reversed for the unit. -/
theorem C81_files_partial (noSub unitMM force : Bool) {g : ℚ} (hg : 0 ≤ g) {L : Library} {b : Board}
    (hL : LibOk g (if force then L.inUnit (writeUnit unitMM) else L)) (hb : BoardOk g { b with unit := writeUnit unitMM })
    (hi : ∀ e ∈ b.place.comps, InLibrary L e.2) {now ours : Str} (hn : WordOk now) (ho : Plain ours)
    (L0 : Library) (h0 : L0.parts = []) (b0 : Board) (hf : Fresh b0) :
    ∃ libText text L' b', writeFiles ccwOf now ours unitMM force L b = (.text libText, .text text) ∧
      readFiles ccwOf noSub L0 b0 (some (lines libText)) (lines text) = some (L', b') ∧
      BoardBack g { b with unit := writeUnit unitMM } b' ∧ L'.fileVersion = L.fileVersion + 1 ∧
      (∀ k o, L.parts.find k = some o → o.refs ≠ 0 → ∃ o', L'.parts.find k = some o' ∧
        PartBack g (if force then { o with unit := writeUnit unitMM } else o) o') ∧
      (∀ k, (∀ o, L.parts.find k = some o → o.refs = 0) → L'.parts.find k = none) ∧
      (∀ e ∈ b.place.comps, ∀ o ∈ e.2.outs, ∀ n, o.outline = some n → ∃ p, L'.parts.find (uidOf n.1 n.2) = some p ∧ p.refs ≠ 0) := by
  -- the library written
  have hconv : ∀ k, (if force then L.inUnit (writeUnit unitMM) else L).parts.find k =
      (L.parts.find k).map fun o => if force then { o with unit := writeUnit unitMM } else o := by
    intro k
    cases force
    · simp
    · simp only [if_true]
      unfold Library.inUnit
      simp only
      generalize L.parts = m
      induction m with
      | nil => rfl
      | cons e m ih =>
        rw [List.map_cons, SMap.find, SMap.find]
        split
        · rfl
        · exact ih
  have hver : (if force then L.inUnit (writeUnit unitMM) else L).fileVersion = L.fileVersion := by cases force <;> rfl
  obtain ⟨t1, L1, w1, r1, l1, l2, l3⟩ := C81_roundtrip_partial ccwOf hg hL hn ho L0 (by intro k o _ _; rw [h0]; rfl)
  have hused : ∀ k o, L.parts.find k = some o → o.refs ≠ 0 → ∃ o', L1.parts.find k = some o' ∧
      PartBack g (if force then { o with unit := writeUnit unitMM } else o) o' := by
    intro k o hk hr
    obtain ⟨o', h1, h2, -⟩ := l2 k _ (by rw [hconv, hk]; rfl) (by cases force <;> exact hr)
    exact ⟨o', h1, h2⟩
  have hnames : ∀ o : CompOln, (if force then { o with unit := writeUnit unitMM } else o).geom = o.geom ∧
      (if force then { o with unit := writeUnit unitMM } else o).part = o.part := by
    intro o; cases force <;> exact ⟨rfl, rfl⟩
  -- the board
  obtain ⟨t2, b', w2, r2, h2⟩ := C80_roundtrip_partial noSub hg hb hn ho { b0 with place := { b0.place with lib := partNames L1.parts } } hf (by
    intro e he o ho' g' q' hout
    obtain ⟨p, p1, p2, p3, p4⟩ := hi e he o ho' g' q' hout
    obtain ⟨o', f1, f2⟩ := hused _ _ p1 p2
    show SMap.find (uidOf g' q') (partNames L1.parts) = _
    rw [find_partNames, f1, Option.map_some, f2.geom, f2.part, (hnames p).1, (hnames p).2, p3, p4])
  have hcount : ∀ k o', L1.parts.find k = some o' →
      (countUses b0.place.comps b'.place.comps L1.parts).find k = some { o' with refs := o'.refs + uses b'.place.comps k } := by
    intro k o' hk
    rw [find_count, hk, Option.map_some]
    have : uses b0.place.comps k = 0 := by rw [hf.2.2.1]; rfl
    rw [this, Nat.sub_zero]
  refine ⟨t1, t2, { L1 with parts := countUses b0.place.comps b'.place.comps L1.parts }, b', ?_, ?_, h2, ?_, ?_, ?_, ?_⟩
  · unfold writeFiles
    rw [w1]
    unfold writeFile
    rw [w2]
  · unfold readFiles
    simp only [r1, r2]
    rfl
  · show L1.fileVersion = _
    rw [l1, hver]
  · intro k o hk hr
    obtain ⟨o', f1, f2⟩ := hused k o hk hr
    exact ⟨_, hcount k o' f1, ⟨f2.cls, f2.geom, f2.part, f2.unit, f2.thickness, f2.outlines, f2.comments, f2.props⟩⟩
  · intro k hk
    show SMap.find k (countUses b0.place.comps b'.place.comps L1.parts) = none
    rw [find_count, l3 k, h0]
    · rfl
    · intro o ho'
      rw [hconv] at ho'
      obtain ⟨p, hp, e⟩ := Option.map_eq_some_iff.1 ho'
      have := hk p hp
      subst e
      cases force <;> exact this
  · intro e he o ho' n hout
    obtain ⟨p, p1, p2, p3, p4⟩ := hi e he o ho' n.1 n.2 hout
    obtain ⟨o', f1, f2⟩ := hused _ _ p1 p2
    refine ⟨_, hcount _ _ f1, ?_⟩
    have hne : ¬ (e.2.outs = [] ∧ e.2.drills = []) := fun h => by rw [h.1] at ho'; cases ho'
    have hfind : SMap.find e.1 b.place.comps = some e.2 := (find_mem b.place.comps hb.keys.1 e.1 e.2).2 he
    obtain ⟨c', q1, -, -, q2⟩ := h2.comps e.1 e.2 hfind hne
    obtain ⟨-, -, pp, pp', -, -, -, q3⟩ := q2 (fun h => by rw [h] at ho'; cases ho')
    obtain ⟨x, hx, hxo⟩ := outs_same q3 ho'
    have hpos : 0 < uses b'.place.comps (uidOf n.1 n.2) := by
      unfold uses
      apply List.length_pos_of_mem (a := x)
      rw [List.mem_filter]
      refine ⟨List.mem_flatMap.2 ⟨_, find_some_mem q1, hx⟩, ?_⟩
      rw [hxo, hout]
      simp
    show o'.refs + uses b'.place.comps (uidOf n.1 n.2) ≠ 0
    omega

/-! ### Reading, whatever the text -/

/-- a single outline at most -/
theorem outlines_single (comp : Bool) (ccw : List QSeg → Bool) (u : Iges.Idf.Unit) (v : Version) : ∀ (input : List Str) (st : OutState), st.done = [] →
    ∀ {ls : List (List QSeg)} {rest : List Str}, readOutlines true comp ccw u v st input = some (ls, rest) → ls.length ≤ 1
  | [], _, _, _, _, h => by cases h
  | raw :: input, st, hd, ls, rest, h => by
    have hloops : st.loops.length ≤ 1 := by
      unfold OutState.loops
      split
      · simp
      · rw [hd]; simp
    rw [readOutlines] at h
    split at h
    · exact outlines_single comp ccw u v input st hd h
    · split at h
      · cases h
      · split at h
        · cases h
        · cases h; exact hloops
      · cases h; exact hloops
      · rename_i st' hst
        refine outlines_single comp ccw u v input st' ?_ h
        unfold outlineLine at hst
        repeat' split at hst
        all_goals cases hst
        rename_i st1 hnew _ _ _ _ _ _ _ _ _ _ _ _ _ _ _ _ _ _ _ hadd
        have h1 : st1.done = [] := by
          unfold newLoop at hnew
          repeat' split at hnew
          all_goals cases hnew
          all_goals first | exact hd | simp_all
        unfold addPoint at hadd
        simp only at hadd
        repeat' split at hadd
        all_goals cases hadd
        all_goals exact h1

/-- the outlines of a part are read as those of a board, unless a property comes next -/
theorem outlines_comp (single : Bool) (ccw : List QSeg → Bool) (u : Iges.Idf.Unit) (v : Version) : ∀ (input : List Str) (st : OutState),
    ∀ {ls : List (List QSeg)} {rest : List Str}, readOutlines single true ccw u v st input = some (ls, rest) →
      readOutlines single false ccw u v st input = some (ls, rest) ∨
      ∃ raw r l t s, rest = raw :: r ∧ fetchLine raw = some l ∧ getWord l.text = .word t false s ∧ compareToken "PROP" t = true
  | [], _, _, _, h => by cases h
  | raw :: input, st, ls, rest, h => by
    have key : ∀ s, outlineLine single true ccw u v st s = outlineLine single false ccw u v st s ∨
        (outlineLine single true ccw u v st s = .props ∧ ∃ t r, getWord s = .word t false r ∧ compareToken "PROP" t = true) := by
      intro s
      unfold outlineLine
      cases hw : getWord s with
      | word t q r =>
        simp only
        cases q
        · by_cases h5 : 5 ≤ t.length ∧ compareToken ".END_" (t.take 5) = true
          · left; simp only [Bool.false_eq_true, if_false, if_pos h5]
          · simp only [Bool.false_eq_true, if_false, if_neg h5]
            cases scanInt (st.left ++ t) with
            | none =>
              simp only
              by_cases hp : compareToken "PROP" t = true
              · right
                simp only [hp, and_self, if_true, true_and]
                exact ⟨t, r, rfl, hp⟩
              · left; simp [hp]
            | some p => left; rfl
        · left; rfl
      | _ => left; rfl
    rw [readOutlines] at h ⊢
    split at h
    · rename_i hf
      exact outlines_comp single ccw u v input st h
    · rename_i l hf
      rcases key l.text with e | ⟨e, t, r, hw, hp⟩
      · rw [e] at h
        cases ho : outlineLine single false ccw u v st l.text with
        | error => rw [ho] at h; cases h
        | finish => rw [ho] at h; exact .inl h
        | props => rw [ho] at h; exact .inl h
        | next st' => rw [ho] at h; exact outlines_comp single ccw u v input st' h
      · rw [e] at h
        cases h
        exact .inr ⟨_, _, l, t, r, rfl, hf, hw, hp⟩

theorem prop_not_end (c : CompClass) {s t r : Str} (h : getWord s = .word t false r) (hp : compareToken "PROP" t = true) :
    compareToken (".END_" ++ c.name) s = false := by
  by_contra he
  rw [Bool.not_eq_false] at he
  have hi := word_infix h
  unfold compareToken at he hp
  rw [beq_iff_eq] at he hp
  have : t.map Char.toUpper <:+: s.map Char.toUpper := by
    obtain ⟨a, b, e⟩ := hi
    exact ⟨a.map Char.toUpper, b.map Char.toUpper, by rw [← e]; simp⟩
  rw [he, hp] at this
  revert this
  cases c <;> decide

/-- the properties are not lost -/
theorem props_grow (m : SMap Str) : ∀ {input rest : List Str} {m' : SMap Str}, readProps m input = some (m', rest) → m ≠ [] → m' ≠ [] := by
  intro input
  induction input generalizing m with
  | nil => intro rest m' h; cases h; exact id
  | cons raw input ih =>
    intro rest m' h hm
    rw [readProps] at h
    repeat' split at h
    all_goals first | cases h | skip
    · exact ih m h hm
    · exact hm
    · refine ih _ h ?_
      cases m with
      | nil => simp [SMap.add]
      | cons e m => obtain ⟨k, c⟩ := e; rw [SMap.add]; split <;> simp

/-- C81: whatever the text, a part that is accepted has a class, a name and at most one outline, and if it has no properties the outline is a circle or a closed
chain of at least two segments. -/
theorem comp_accepted (ccw : List QSeg → Bool) (v : Version) (c : CompClass) (input rest : List Str) (o : CompOln)
    (h : readComp ccw v c input = some (o, rest)) :
    o.cls = some c ∧ ¬ (o.geom = [] ∧ o.part = []) ∧ o.refs = 0 ∧ o.outlines.length ≤ 1 ∧ (o.props = [] → ∀ l ∈ o.outlines, ClosedLoop l) ∧ (c = .mech → o.props = []) := by
  unfold readComp at h
  split at h
  · cases h
  split at h
  · cases h
  rename_i geom part u ht hrec
  split at h
  · cases h
  rename_i ls rest1 hout
  split at h
  · cases h
  rename_i props rest2 hprops
  simp only at h
  split at h
  · cases h
  rename_i hend
  split at h
  · cases h
  rename_i htok
  cases h
  refine ⟨rfl, ?_, rfl, outlines_single _ _ _ _ _ _ rfl hout, ?_, ?_⟩
  · unfold compRecord at hrec
    repeat' split at hrec
    all_goals first | cases hrec | skip
    rename_i hne _ _ _ _ _ _ _ _ _ _ _ _ _ _ _ _
    obtain ⟨f, -, e⟩ := Option.map_eq_some_iff.1 hrec
    cases e
    exact fun hh => hne ⟨hh.2, hh.1⟩
  · intro hp l hl
    simp only at hp hl
    rcases outlines_comp _ _ _ _ _ _ hout with hb | ⟨raw, r, ln, t, s, rfl, hf, hw, hpr⟩
    · obtain ⟨k, hk⟩ := List.getElem?_of_mem hl
      exact (C78_closed true ccw u v _ _ ls hb k l hk).1
    · exfalso
      split at hprops
      · -- a property has been read
        rw [readProps, hf] at hprops
        simp only at hprops
        split at hprops
        · cases hprops
        rw [hw] at hprops
        simp only [Bool.false_eq_true, if_false] at hprops
        have h5 : ¬ (5 ≤ t.length ∧ compareToken ".END_" (t.take 5) = true) := by
          intro h5
          have : (t.map Char.toUpper).length = 4 := by
            unfold compareToken at hpr; rw [beq_iff_eq] at hpr; rw [hpr]; rfl
          rw [List.length_map] at this
          omega
        rw [if_neg h5, if_neg (by simp [hpr])] at hprops
        repeat' split at hprops
        all_goals first | cases hprops | skip
        exact props_grow _ hprops (by simp [SMap.add]) hp
      · cases hprops
        rw [nextLine, hf] at htok
        exact htok (prop_not_end c hw hpr)
  · intro hc
    simp only
    rw [hc, if_neg (by simp)] at hprops
    cases hprops
    rfl

/-- what a library may contain after reading -/
def Grown (L L' : SMap CompOln) : Prop :=
  (∀ k o, SMap.find k L = some o → SMap.find k L' = some o) ∧
  ∀ k o, SMap.find k L' = some o → SMap.find k L = some o ∨
    (k = o.uid ∧ o.cls ≠ none ∧ ¬ (o.geom = [] ∧ o.part = []) ∧ o.refs = 0 ∧ o.outlines.length ≤ 1 ∧ (o.props = [] → ∀ l ∈ o.outlines, ClosedLoop l) ∧
      (o.cls = some .mech → o.props = []))

theorem Grown.refl (L : SMap CompOln) : Grown L L := ⟨fun _ _ h => h, fun _ _ h => .inl h⟩

theorem Grown.trans {L M N : SMap CompOln} (h : Grown L M) (h' : Grown M N) : Grown L N :=
  ⟨fun k o hk => h'.1 k o (h.1 k o hk), fun k o hk => by
    rcases h'.2 k o hk with h1 | h1
    · exact h.2 k o h1
    · exact .inr h1⟩

theorem section_grown (ccw : List QSeg → Bool) (v : Version) (lib : SMap CompOln) : ∀ (input : List Str) (cs : List Str) {lib' : SMap CompOln} {rest : List Str},
    readLibSection ccw v lib cs input = some (lib', rest) → Grown lib lib'
  | [], _, _, _, h => by cases h; exact Grown.refl _
  | raw :: input, cs, lib', rest, h => by
    rw [readLibSection] at h
    split at h
    · exact section_grown ccw v lib input cs h
    · split at h
      · cases h; exact Grown.refl _
      · split at h
        · exact section_grown ccw v lib input _ h
        · split at h
          · split at h
            · cases h
            · split at h
              · cases h
              · rename_i c _
                split at h
                · cases h
                · rename_i o r hc
                  obtain ⟨p, hp, e⟩ := Option.map_eq_some_iff.1 h
                  cases e
                  obtain ⟨a1, a2, a3, a4, a5, a6⟩ := comp_accepted _ _ _ _ _ _ hc
                  unfold addComp at hp
                  split at hp
                  · rename_i hf
                    cases hp
                    refine ⟨fun k x hx => ?_, fun k x hx => ?_⟩
                    · rw [find_add _ _ _ hf, if_neg]
                      · exact hx
                      · rintro rfl
                        have := hf.symm.trans hx
                        cases this
                    · rw [find_add _ _ _ hf] at hx
                      split at hx
                      · rename_i hk
                        cases hx
                        refine .inr ⟨hk, ?_, a2, a3, a4, a5, ?_⟩
                        · show o.cls ≠ none
                          rw [a1]; simp
                        · intro hm
                          refine a6 ?_
                          have hm : o.cls = some .mech := hm
                          rw [a1] at hm
                          cases hm; rfl
                      · exact .inl hx
                  · split at hp
                    · cases hp; exact Grown.refl _
                    · cases hp
          · cases h

theorem sections_grown (ccw : List QSeg → Bool) (v : Version) : ∀ (n : ℕ) (lib : SMap CompOln) (input : List Str) {lib' : SMap CompOln},
    readLibSections ccw v n lib input = some lib' → Grown lib lib'
  | 0, _, _, _, h => by cases h
  | n + 1, lib, input, lib', h => by
    rw [readLibSections] at h
    split at h
    · cases h; exact Grown.refl _
    · split at h
      · cases h
      · rename_i hs
        exact (section_grown _ _ _ _ _ hs).trans (sections_grown ccw v n _ _ h)

/-- C81: whatever the text, reading a library file leaves every part of the library as it was, even if the file has a part of the same name; and every new part
is filed under its unique name, has a class, a name and at most one outline, which is closed unless the part has properties. -/
theorem C81_reading (ccw : List QSeg → Bool) (L L' : Library) (input : List Str) (h : readLibFile ccw L input = some L') : Grown L.parts L'.parts := by
  unfold readLibFile at h
  split at h
  · cases h
  rename_i v L1 rest hh
  obtain ⟨m, hm, e⟩ := Option.map_eq_some_iff.1 h
  subst e
  have : L1.parts = L.parts := by
    unfold readLibHeader at hh
    repeat' split at hh
    all_goals first | cases hh | skip
    obtain ⟨p, -, e⟩ := Option.map_eq_some_iff.1 hh
    cases e; rfl
  rw [← this]
  exact sections_grown _ _ _ _ _ hm

/-! ### Every round of the loop reads a line -/

theorem outlines_suffix (single comp : Bool) (ccw : List QSeg → Bool) (u : Iges.Idf.Unit) (v : Version) : ∀ (input : List Str) (st : OutState),
    ∀ {ls : List (List QSeg)} {rest : List Str}, readOutlines single comp ccw u v st input = some (ls, rest) → rest <:+ input
  | [], _, _, _, h => by cases h
  | raw :: input, st, ls, rest, h => by
    rw [readOutlines] at h
    split at h
    · exact (outlines_suffix single comp ccw u v input st h).trans (List.suffix_cons ..)
    · split at h
      · cases h
      · split at h
        · cases h
        · cases h; exact List.suffix_refl _
      · cases h; exact List.suffix_refl _
      · exact (outlines_suffix single comp ccw u v input _ h).trans (List.suffix_cons ..)

theorem props_suffix : ∀ {input rest : List Str} {m m' : SMap Str}, readProps m input = some (m', rest) → rest <:+ input := by
  intro input
  induction input with
  | nil => intro rest m m' h; cases h; exact List.suffix_refl _
  | cons raw input ih =>
    intro rest m m' h
    rw [readProps] at h
    repeat' split at h
    all_goals first | cases h | skip
    · exact (ih h).trans (List.suffix_cons ..)
    · exact List.suffix_refl _
    · exact (ih h).trans (List.suffix_cons ..)

theorem comp_suffix {ccw : List QSeg → Bool} {v : Version} {c : CompClass} {input rest : List Str} {o : CompOln}
    (h : readComp ccw v c input = some (o, rest)) : rest <:+ input := by
  unfold readComp at h
  split at h
  · cases h
  rename_i h1
  split at h
  · cases h
  split at h
  · cases h
  rename_i h2
  split at h
  · cases h
  rename_i h3
  simp only at h
  split at h
  · cases h
  split at h
  · cases h
  cases h
  refine (((next_suffix _).trans ?_).trans (outlines_suffix _ _ _ _ _ _ _ h2)).trans (headLine_suffix h1)
  split at h3
  · exact props_suffix h3
  · cases h3; exact List.suffix_refl _

theorem section_shorter (ccw : List QSeg → Bool) (v : Version) (lib : SMap CompOln) : ∀ (input : List Str) (raw : Str) (cs : List Str) {lib' : SMap CompOln} {rest : List Str},
    readLibSection ccw v lib cs (raw :: input) = some (lib', rest) → rest.length ≤ input.length
  | input, raw, cs, lib', rest, h => by
    have rec' : ∀ cs, readLibSection ccw v lib cs input = some (lib', rest) → rest.length ≤ input.length := by
      intro cs h
      cases input with
      | nil => cases h; exact le_refl _
      | cons r i => exact (section_shorter ccw v lib i r cs h).trans (by simp)
    rw [readLibSection] at h
    split at h
    · exact rec' _ h
    · split at h
      · cases h; exact le_refl _
      · split at h
        · exact rec' _ h
        · repeat' split at h
          all_goals first | cases h | skip
          rename_i hc
          obtain ⟨p, -, e⟩ := Option.map_eq_some_iff.1 h
          cases e
          exact (comp_suffix hc).length_le

/-- the number of rounds allowed to the loop makes no difference: it ends by itself -/
theorem sections_fuel (ccw : List QSeg → Bool) (v : Version) : ∀ (n m : ℕ) (lib : SMap CompOln) (input : List Str), input.length < n → input.length < m →
    readLibSections ccw v n lib input = readLibSections ccw v m lib input
  | 0, _, _, _, h, _ => absurd h (by omega)
  | _ + 1, 0, _, _, _, h => absurd h (by omega)
  | n + 1, m + 1, lib, input, h1, h2 => by
    cases input with
    | nil => rw [readLibSections, readLibSections, if_pos rfl, if_pos rfl]
    | cons raw input =>
      rw [lib_step (by simp), lib_step (by simp)]
      cases hs : readLibSection ccw v lib [] (raw :: input) with
      | none => rfl
      | some r =>
        have := section_shorter ccw v lib input raw [] hs
        rw [List.length_cons] at h1 h2
        exact sections_fuel ccw v n m r.1 r.2 (by omega) (by omega)

/-! ### What goes wrong -/

/-- C81: an empty comment before a part makes the comments before it disappear. -/
theorem C81_comment_lost (ccw : List QSeg → Bool) (L L1 : Library) {now ours : Str} (hn : WordOk now) (ho : Plain ours)
    (h0 : 0 ≤ L1.fileVersion ∧ L1.fileVersion < 2147483647) (cs : List Str) (hc : ∀ c ∈ cs, CommentOk c ∧ c ≠ []) (rest : Str) :
    readLibFile ccw L (lines (libHeaderText now ours L1 ++ (commentText cs ++ '#' :: '\n' :: rest))) =
      readLibFile ccw L (lines (libHeaderText now ours L1 ++ rest)) := by
  unfold readLibFile
  rw [libHeader_read now ours hn ho L1 L h0.1 h0.2, libHeader_read now ours hn ho L1 L h0.1 h0.2]
  simp only
  rw [List.length_cons, List.length_cons, libs_blank (lines_ne_nil _), libs_blank (lines_ne_nil _), lib_step (lines_ne_nil _), lib_comments cs hc]
  have e : lines ('#' :: '\n' :: rest) = ['#'] :: lines rest := lines_line (a := ['#']) (by decide) rest
  have e2 : readLibSection ccw .v3 L.parts ([] ++ cs) (['#'] :: lines rest) = some (L.parts, lines rest) := by
    rw [readLibSection]; rfl
  rw [e, e2]
  simp only [Option.bind_some]
  congr 1
  apply sections_fuel
  · have h1 := lines_append_length (commentText cs) ('#' :: '\n' :: rest)
    have h2 : (lines ('#' :: '\n' :: rest)).length = (lines rest).length + 1 := by rw [e]; rfl
    have h3 := List.length_pos_of_ne_nil (lines_ne_nil (commentText cs))
    omega
  · omega

/-- C81: in files of version 2 the unit TNM, which is the one of that version, is refused, and any word that is no unit stands for it. -/
theorem C81_tnm (ccw : List QSeg → Bool) (c : CompClass) {geom part w h : Str} (hg : Plain geom) (hp : Plain part) (hw : WordOk w) (hh : WordOk h) (rest : Str) :
    (compareToken "TNM" w = true → readComp ccw .v2 c (lines ('"' :: geom ++ '"' :: ' ' :: '"' :: part ++ '"' :: ' ' :: w ++ ' ' :: h ++ '\n' :: rest)) = none) ∧
    (compareToken "MM" w = false → compareToken "THOU" w = false → compareToken "TNM" w = false → ∀ o r,
      readComp ccw .v2 c (lines ('"' :: geom ++ '"' :: ' ' :: '"' :: part ++ '"' :: ' ' :: w ++ ' ' :: h ++ '\n' :: rest)) = some (o, r) → o.unit = .tnm) := by
  have e1 := getWord_quoted (ws := []) (t := geom) (rest := ' ' :: (('"' :: part ++ ['"']) ++ (' ' :: (w ++ (' ' :: (h ++ [])))))) (by intro c hc; cases hc) hg.1
  rw [List.nil_append] at e1
  have e2 := quoted_word part hp.1 (' ' :: (w ++ (' ' :: (h ++ []))))
  have e3 := space_word hw (' ' :: (h ++ [])) (space_head _)
  let line := '"' :: (geom ++ '"' :: (' ' :: (('"' :: part ++ ['"']) ++ (' ' :: (w ++ (' ' :: (h ++ [])))))))
  have hline : '"' :: geom ++ '"' :: ' ' :: '"' :: part ++ '"' :: ' ' :: w ++ ' ' :: h ++ '\n' :: rest = line ++ '\n' :: rest := by simp [line]
  have hnl : '\n' ∉ line := by
    simp only [line, List.mem_append, List.mem_cons, not_or, List.not_mem_nil, not_false_eq_true, and_true, List.cons_append]
    exact ⟨by decide, hg.2, by decide, by decide, by decide, ⟨hp.2, by decide⟩, by decide, word_noeol hw, by decide, word_noeol hh⟩
  have hfetch : fetchLine line = some ⟨line, false⟩ := by
    apply fetch_plain
    · simp [line]
    · intro x hx
      have : x = '"' := by simpa [line] using hx.symm
      subst this; decide
    · have : line = ('"' :: (geom ++ '"' :: (' ' :: (('"' :: part ++ ['"']) ++ (' ' :: (w ++ [' '])))))) ++ h := by simp [line]
      rw [this]
      exact last_append hh.1 hh.2.2
  have hread : ∀ {o r}, readComp ccw .v2 c (lines (line ++ '\n' :: rest)) = some (o, r) → compUnit .v2 w = some o.unit := by
    intro o r hr
    unfold readComp at hr
    rw [lines_line hnl, head_line hfetch _ (lines_ne_nil _)] at hr
    simp only at hr
    split at hr
    · cases hr
    rename_i hrec
    have hu : compUnit .v2 w = some o.unit := by
      unfold compRecord at hrec
      simp only [line] at hrec
      rw [e1] at hrec
      simp only at hrec
      rw [e2] at hrec
      simp only at hrec
      split at hrec
      · cases hrec
      rw [e3] at hrec
      simp only at hrec
      split at hrec
      · cases hrec
      rename_i u hu
      split at hrec
      · split at hrec
        · cases hrec
        · obtain ⟨f, -, e⟩ := Option.map_eq_some_iff.1 hrec
          cases e
          repeat' split at hr
          all_goals cases hr
          exact hu
      · cases hrec
    exact hu
  rw [hline]
  constructor
  · intro ht
    cases hr : readComp ccw .v2 c (lines (line ++ '\n' :: rest)) with
    | none => rfl
    | some p =>
      exfalso
      have hu := hread (o := p.1) (r := p.2) hr
      have hm : compareToken "MM" w = false := by
        unfold compareToken at ht ⊢
        rw [beq_iff_eq] at ht
        rw [ht]; decide
      have hth : compareToken "THOU" w = false := by
        unfold compareToken at ht ⊢
        rw [beq_iff_eq] at ht
        rw [ht]; decide
      unfold compUnit at hu
      simp [hm, hth, ht] at hu
  · intro h1 h2 h3 o r hr
    have hu := hread hr
    unfold compUnit at hu
    simp [h1, h2, h3] at hu
    exact hu.symm

/-! The winding makes no difference to parts, as they have one outline. -/

theorem newLoop_single (ccw ccw' : List QSeg → Bool) (st : OutState) (i : ℤ) : newLoop true ccw st i = newLoop true ccw' st i := by
  unfold newLoop
  simp

theorem outlines_ccw (comp : Bool) (ccw ccw' : List QSeg → Bool) (u : Iges.Idf.Unit) (v : Version) : ∀ (input : List Str) (st : OutState),
    readOutlines true comp ccw u v st input = readOutlines true comp ccw' u v st input
  | [], _ => rfl
  | raw :: input, st => by
    have hl : ∀ s, outlineLine true comp ccw u v st s = outlineLine true comp ccw' u v st s := by
      intro s
      unfold outlineLine
      simp only [newLoop_single ccw ccw']
    rw [readOutlines, readOutlines]
    simp only [hl, outlines_ccw comp ccw ccw' u v input]

theorem section_ccw (ccw ccw' : List QSeg → Bool) (v : Version) (lib : SMap CompOln) : ∀ (input : List Str) (cs : List Str),
    readLibSection ccw v lib cs input = readLibSection ccw' v lib cs input
  | [], _ => rfl
  | raw :: input, cs => by
    rw [readLibSection, readLibSection]
    simp only [readComp, outlines_ccw true ccw ccw', section_ccw ccw ccw' v lib input]

theorem libFile_ccw (ccw ccw' : List QSeg → Bool) (L : Library) (input : List Str) : readLibFile ccw L input = readLibFile ccw' L input := by
  have h : ∀ v n lib input, readLibSections ccw v n lib input = readLibSections ccw' v n lib input := by
    intro v n
    induction n with
    | zero => intros; rfl
    | succ n ih =>
      intro lib input
      rw [readLibSections, readLibSections]
      simp only [section_ccw ccw ccw', ih]
  unfold readLibFile
  simp only [h]

set_option synthInstance.maxSize 512

/-- an empty library -/
def none' : Library := ⟨[], [], [], 1⟩

/-- a library file with the given sections -/
def file (version body : String) : List Str := lines (".HEADER\nLIBRARY_FILE " ++ version ++ " \"Other 1\" 2020/1/1.0:0:0 1\n.END_HEADER\n" ++ body).toList

/-- names, unit and height of the parts, and how many outlines and properties they have -/
def summary (L : Library) : List (Str × Str × Iges.Idf.Unit × ℚ × ℕ × ℕ) :=
  L.parts.map fun e => (e.2.geom, e.2.part, e.2.unit, e.2.thickness, e.2.outlines.length, e.2.props.length)

/-- a part -/
def section' (names unit : String) (size : String) (props : String := "") : String :=
  ".ELECTRICAL\n" ++ names ++ " " ++ unit ++ "\n0 0 0 0\n0 " ++ size ++ " 0 360\n" ++ props ++ ".END_ELECTRICAL\n"

/-- C81, against "a part is what the file says": the height and the properties of a second part of the same name are dropped without an error, ... -/
theorem C81_second_dropped (ccw : List QSeg → Bool) :
    (readLibFile ccw none' (file "3.0" (section' "A B" "MM 1" "5" ++ section' "A B" "MM 2" "5" "PROP C D\n"))).map summary =
      some [("A".toList, "B".toList, .mm, 1, 1, 0)] := by
  rw [libFile_ccw ccw fun _ => true]
  decide +kernel

/-- ... so is a part whose names differ but have the same unique name, ... -/
theorem C81_names_clash (ccw : List QSeg → Bool) :
    (readLibFile ccw none' (file "3.0" (section' "A B_C" "MM 1" "5" ++ section' "A_B C" "MM 1" "5"))).map summary =
      some [("A".toList, "B_C".toList, .mm, 1, 1, 0)] ∧
    readLibFile ccw none' (file "3.0" (section' "A B_C" "MM 1" "5" ++ section' "A_B C" "MM 1" "6")) = none := by
  constructor
  · rw [libFile_ccw ccw fun _ => true]
    decide +kernel
  · rw [libFile_ccw ccw fun _ => true]
    have : (readLibFile (fun _ => true) none' (file "3.0" (section' "A B_C" "MM 1" "5" ++ section' "A_B C" "MM 1" "6"))).map summary = none := by decide +kernel
    exact Option.map_eq_none_iff.1 this

/-- ... an outline that is not closed is accepted if a property follows it, ... -/
theorem C81_open_accepted (ccw : List QSeg → Bool) :
    (readLibFile ccw none' (file "3.0" ".ELECTRICAL\nA B MM 1\n0 0 0 0\n0 5 0 0\nPROP C D\n.END_ELECTRICAL\n")).map (fun L => L.parts.map fun e => e.2.outlines) =
      some [[[ln 0 0 5 0]]] := by
  rw [libFile_ccw ccw fun _ => true]
  decide +kernel

/-- ... and in version 2 an inch is a hundred-thousandth of a millimetre, and TNM is refused. -/
theorem C81_tnm_example (ccw : List QSeg → Bool) :
    (readLibFile ccw none' (file "2.0" (section' "A B" "INCH 1" "5"))).map summary = some [("A".toList, "B".toList, .tnm, 1 / 100000, 1, 0)] ∧
    (readLibFile ccw none' (file "2.0" (section' "A B" "TNM 100" "5"))).map summary = none := by
  rw [libFile_ccw ccw fun _ => true, libFile_ccw ccw fun _ => true]
  constructor <;> decide +kernel

/-! ### Examples -/

/-- a part with an outline, a comment and two properties, used once -/
def part1 : CompOln := ⟨some .elec, "g".toList, "p".toList, .mm, 3, [square], [("CAPACITANCE".toList, "100".toList), ("TOL".toList, "5 %".toList)], ["chip".toList], 1⟩

/-- a mechanical part without an outline, not used -/
def part2 : CompOln := ⟨some .mech, "h".toList, [], .thou, 1, [], [], [], 0⟩

/-- a library with both -/
def demoLib : Library := ⟨[("g_p".toList, part1), ("h_".toList, part2)], [], [], 4⟩

theorem demoLib_ok : LibOk 0 demoLib := by
  refine ⟨by decide, ⟨by decide, ?_⟩, ?_⟩
  · intro e he
    simp only [demoLib, List.mem_cons, List.not_mem_nil, or_false] at he
    rcases he with rfl | rfl <;> decide
  · intro e he hr
    simp only [demoLib, List.mem_cons, List.not_mem_nil, or_false] at he
    rcases he with rfl | rfl
    · refine ⟨by decide, ⟨⟨by decide, by decide⟩, ⟨by decide, by decide⟩, by decide⟩, by decide, big1 (by norm_num [part1]), .inr ⟨square, rfl, square_good⟩, ?_,
        by decide, ?_⟩
      · intro c hc
        rcases List.mem_singleton.1 hc with rfl
        exact ⟨⟨by decide, by decide, by decide⟩, by decide⟩
      · intro e he
        simp only [part1, List.mem_cons, List.not_mem_nil, or_false] at he
        rcases he with rfl | rfl <;> exact ⟨⟨by decide, by decide⟩, ⟨by decide, by decide⟩⟩
    · exact absurd rfl hr

/-- the hypotheses of `C81_roundtrip_partial` hold of `demoLib`, and those of `C81_files_partial` of it and the board of C80 -/
example : (∃ text L', writeLibFile ccwOf "2026/11/15.10:30:00".toList [] demoLib = .text text ∧ readLibFile ccwOf none' (lines text) = some L' ∧
      LibBack 0 demoLib none' L') ∧
    ∃ libText text L' b', writeFiles ccwOf "2026/11/15.10:30:00".toList [] false false demoLib (demo [("U1".toList, demoComp)]) = (.text libText, .text text) ∧
      readFiles ccwOf true none' empty (some (lines libText)) (lines text) = some (L', b') ∧ BoardBack 0 (demo [("U1".toList, demoComp)]) b' ∧
      ∃ p, L'.parts.find "g_p".toList = some p ∧ p.refs ≠ 0 := by
  refine ⟨C81_roundtrip_partial ccwOf le_rfl demoLib_ok now_ok ⟨by decide, by decide⟩ none' (fun _ _ _ _ => rfl), ?_⟩
  obtain ⟨t1, t2, L', b', h1, h2, h3, -, -, -, h4⟩ := C81_files_partial true false false (L := demoLib) (b := demo [("U1".toList, demoComp)]) le_rfl demoLib_ok
    (demo_ok _ (.inr rfl)) (by
      intro e he o ho g q h
      rcases List.mem_singleton.1 he with rfl
      rcases List.mem_singleton.1 ho with rfl
      cases h
      exact ⟨part1, rfl, by decide, rfl, rfl⟩) now_ok (ours := []) ⟨by decide, by decide⟩ none' rfl empty empty_fresh
  exact ⟨t1, t2, L', b', h1, h2, h3, h4 _ (List.mem_singleton.2 rfl) _ (List.mem_singleton.2 rfl) _ rfl⟩

/-- the hypotheses of `C81_reading`, `C81_comment_lost` and `C81_tnm` can be met -/
example : (∃ L', readLibFile (fun _ => true) none' (file "3.0" (section' "A B" "MM 1" "5")) = some L' ∧ L'.parts ≠ []) ∧
    (∀ c ∈ ["a comment".toList], CommentOk c ∧ c ≠ []) ∧
    (∃ o r, readComp (fun _ => true) .v2 .mech (lines ('"' :: "A".toList ++ '"' :: ' ' :: '"' :: "B".toList ++ '"' :: ' ' :: "INCH".toList ++ ' ' :: "1".toList ++
      '\n' :: ".END_MECHANICAL\n".toList)) = some (o, r)) := by
  refine ⟨?_, ?_, ?_⟩
  · have h : (readLibFile (fun _ => true) none' (file "3.0" (section' "A B" "MM 1" "5"))).map summary = some [("A".toList, "B".toList, .mm, 1, 1, 0)] := by decide +kernel
    obtain ⟨L', h1, h2⟩ := Option.map_eq_some_iff.1 h
    refine ⟨L', h1, fun e => ?_⟩
    unfold summary at h2
    rw [e] at h2
    cases h2
  · intro c hc
    rcases List.mem_singleton.1 hc with rfl
    exact ⟨⟨by decide, by decide, by decide⟩, by decide⟩
  · have h : ((readComp (fun _ => true) .v2 .mech (lines ('"' :: "A".toList ++ '"' :: ' ' :: '"' :: "B".toList ++ '"' :: ' ' :: "INCH".toList ++ ' ' :: "1".toList ++
      '\n' :: ".END_MECHANICAL\n".toList))).map fun p => p.1.unit) = some .tnm := by decide +kernel
    obtain ⟨p, h1, -⟩ := Option.map_eq_some_iff.1 h
    exact ⟨p.1, p.2, h1⟩

end Iges.Props.IdfLib
