import Verif.Lemmas.IdfBoard
import Verif.Props.IdfWords
/-
C80: whole board files.
-/
namespace Iges.Props.IdfBoard
open Iges.Idf Iges.Idf.Spec Iges.Props.IdfWords Iges.Props.IdfNotes Iges.Props.IdfDrill Iges.Props.IdfOutline

theorem kinds_filter (s : OlnKind → List (List Str × OlnSect)) (k : OlnKind) :
    ((olnKinds.flatMap fun j => (s j).map (Prod.mk j)).filter fun p => decide (p.1 = k)).map Prod.snd = s k := by
  have h : ∀ j, (((s j).map (Prod.mk j)).filter fun p => decide (p.1 = k)) = if j = k then (s j).map (Prod.mk j) else [] := by
    intro j
    split
    · rename_i e
      rw [List.filter_eq_self]
      intro p hp
      obtain ⟨x, -, rfl⟩ := List.mem_map.1 hp
      simp [e]
    · rename_i e
      rw [List.filter_eq_nil_iff]
      intro p hp
      obtain ⟨x, -, rfl⟩ := List.mem_map.1 hp
      simp [e]
  unfold olnKinds
  simp only [List.flatMap_cons, List.flatMap_nil, List.append_nil, List.filter_append, h]
  cases k <;> simp [Function.comp_def]

theorem kinds_sorted (s : OlnKind → List (List Str × OlnSect)) (h : (s .region).Pairwise fun x y => strLt y.2.ident x.2.ident = false) :
    (olnKinds.flatMap fun j => (s j).map (Prod.mk j)).Pairwise
      fun p q => p.1 = .region → q.1 = .region → strLt q.2.2.ident p.2.2.ident = false := by
  have hno : ∀ j, j ≠ .region → ∀ p ∈ (s j).map (Prod.mk j), p.1 ≠ .region := by
    intro j hj p hp
    obtain ⟨x, -, rfl⟩ := List.mem_map.1 hp
    exact hj
  have hlist : ∀ l : List OlnKind, .region ∉ l → (l.flatMap fun j => (s j).map (Prod.mk j)).Pairwise
      fun p q => p.1 = .region → q.1 = .region → strLt q.2.2.ident p.2.2.ident = false := by
    intro l hl
    rw [List.pairwise_iff_forall_sublist]
    intro p q hpq hpr
    have hp := hpq.subset (List.mem_cons_self ..)
    obtain ⟨j, hj, hp⟩ := List.mem_flatMap.1 hp
    exact absurd hpr (hno j (fun e => hl (e ▸ hj)) p hp)
  have e : olnKinds = [.other, .route, .place, .routeKo, .via, .placeKo] ++ [.region] := rfl
  rw [e, List.flatMap_append, List.pairwise_append]
  refine ⟨hlist _ (by decide), ?_, ?_⟩
  · simp only [List.flatMap_cons, List.flatMap_nil, List.append_nil]
    rw [List.pairwise_map]
    exact h.imp fun h _ _ => h
  · intro p hp q _ hpr
    obtain ⟨j, hj, hp⟩ := List.mem_flatMap.1 hp
    exact absurd hpr (hno j (by rintro rfl; revert hj; decide) p hp)

/-- The end of `readBoardFile`. -/
def finish (st : FState) (b : Board) (rest : List Str) : Option Board :=
  if rest = [] then (if st = .header then none else some b) else if trailing rest then some b else none

/-- The whole file, with what follows it: if there is a placement section, blank lines and comments may follow. -/
theorem board_read (noSub : Bool) {g : ℚ} (hg : 0 ≤ g) {b : Board} (hb : BoardOk g b) {now ours : Str} (hn : WordOk now) (ho : Plain ours)
    (b0 : Board) (hf : Fresh b0) (hk : ∀ e ∈ b.place.comps, Known b0.place e.2) (after : Str) :
    ∃ text b', writeBoardFile ccwOf now ours b = .text text ∧ BoardBack g b b' ∧ b'.source = sourceText ours ∧ b'.date = now ∧
      ((after = [] ∨ ∃ e ∈ b.place.comps, e.2.outs ≠ []) →
        readBoardFile ccwOf noSub b0 (lines (text ++ after)) = if trailing (lines after) then some b' else none) ∧
      (b.place.comps = [] → ∃ q, readBoardFile ccwOf noSub b0 (lines (text ++ after)) =
        (readSections ccwOf noSub (q + 2) .outline b' (lines after)).bind fun r => finish r.1 r.2.1 r.2.2) := by
  obtain ⟨f1, f2, f3, f4, f5, f6, f7, f8, f9⟩ := hf
  have hu : (if b.unit = .mm then Iges.Idf.Unit.mm else .thou) = b.unit := by
    have := hb.unit
    cases h : b.unit <;> simp_all
  have hname : nameText b.name = b.name := by unfold nameText; rw [if_neg hb.name.2]
  -- the placement and what follows
  let c1 : Board := { b0 with version := .v3, source := sourceText ours, date := now, fileVersion := b.fileVersion + 1, name := b.name, unit := b.unit }
  let P := olnKinds.flatMap fun k => (b.sects k).map (Prod.mk k)
  have hP : ∀ p ∈ P, (∀ c ∈ p.2.1, CommentOk c ∧ c ≠ []) ∧ p.1 ≠ .other ∧ SectOk p.1 p.2.2 ∧ ∃ l, p.2.2.outlines = [l] ∧ GoodLoop b.unit g l := by
    intro p hp
    obtain ⟨k, -, hp⟩ := List.mem_flatMap.1 hp
    obtain ⟨x, hx, rfl⟩ := List.mem_map.1 hp
    exact ⟨hb.comments.2.1 k x hx, hb.sects k x hx⟩
  -- the text of the placement does not depend on what is read
  obtain ⟨t5, w5⟩ : ∃ t5, placeText b = .text t5 := by
    by_cases hp : ∃ e ∈ b.place.comps, e.2.outs ≠ []
    · obtain ⟨t, -, w, -⟩ := place_step (ccw := ccwOf) (noSub := noSub) hb { b with version := .v3, place := { b0.place with comps := [] } } rfl rfl hp
        (by intro r x h; cases h) (fun e he => hk e he) []
      exact ⟨t, w⟩
    · obtain ⟨t, w, -⟩ := finish_step (ccw := ccwOf) (noSub := noSub) hb.comments.2.2.2.2 (by
        intro e he; by_contra h; exact hp ⟨e, he, h⟩) b
      exact ⟨t, w⟩
  obtain ⟨t1, o', w1, hlen1, holn, step1⟩ := oln_step (noSub := noSub) hg hb c1 rfl rfl f8
    (match writeList (P.map fun p => sectText ccwOf b.unit p.1 p.2) with
      | .text t => t ++ (holesText b ++ (notesText b ++ (t5 ++ after)))
      | _ => [])
  obtain ⟨t2, S, w2, hlen2, step2, hS⟩ := sects_read (ccw := ccwOf) (noSub := noSub) hb.unit hg P hP (kinds_sorted _ hb.regions)
    { c1 with oln := (b.oln.1, o') } rfl rfl (by
      intro p _ _ y hy
      have : y ∈ b0.sects .region := hy
      rw [f1] at this; cases this) (holesText b ++ (notesText b ++ (t5 ++ after)))
  rw [w2] at step1
  simp only at step1
  obtain ⟨ds', hds, step3⟩ := holes_step (ccw := ccwOf) (noSub := noSub) hb { { c1 with oln := (b.oln.1, o') } with sects := S } rfl rfl (notesText b ++ (t5 ++ after))
  obtain ⟨m, hm, hfind⟩ := addHoles_eq ds' { { c1 with oln := (b.oln.1, o') } with sects := S }
  rw [hm] at step3
  obtain ⟨ns', ncs, hns, hncs, step4⟩ := notes_step (ccw := ccwOf) (noSub := noSub) hb
    { { c1 with oln := (b.oln.1, o'), sects := S, holes := b0.holes ++ ds'.filter ofBoard, place := { b0.place with comps := m } } with
      drillComments := b0.drillComments ++ b.drillComments } rfl rfl (t5 ++ after)
  -- what has been read of the holes
  have hsorted := holes_sorted b.holes b.place.comps (fun d h => (hb.holes d h).1)
    (fun e he d hd => ⟨((hb.comps e he).1 d hd).1, ((hb.comps e he).1 d hd).2.1⟩) hb.keys.1
  have hholes : List.Forall₂ (DrillNear b.unit) b.holes (ds'.filter ofBoard) := by
    have := near_filter hds ofBoard fun d d' h => by unfold ofBoard; rw [near_text h]
    rwa [hsorted.1] at this
  have hfor : ∀ r, List.Forall₂ (DrillNear b.unit) ((SMap.find r b.place.comps).elim [] (·.drills)) (holesFor r ds') := by
    intro r
    have := near_filter hds (fun d => !ofBoard d && decide (d.refText = r)) fun d d' h => by unfold ofBoard; rw [near_text h]
    rw [show (b.holes ++ b.place.comps.flatMap fun e => e.2.drills).filter (fun d => !ofBoard d && decide (d.refText = r)) =
      holesFor r (b.holes ++ b.place.comps.flatMap fun e => e.2.drills) from rfl, hsorted.2 r] at this
    exact this
  have hfind' : ∀ r, SMap.find r m = if holesFor r ds' = [] then none else some ⟨r, none, none, [], holesFor r ds'⟩ := by
    intro r
    rw [hfind]
    show withHoles r _ (SMap.find r b0.place.comps) = _
    rw [f3]
    rfl
  have hsectsBack : ∀ k, List.Forall₂ (SectNear b.unit g) (b.sects k) (S k) := by
    intro k
    obtain ⟨l, h1, h2⟩ := hS k
    have h1' : S k = b0.sects k ++ l := h1
    rw [f1, List.nil_append] at h1'
    rw [h1']
    rw [show (P.filter fun p => decide (p.1 = k)).map Prod.snd = b.sects k from kinds_filter b.sects k] at h2
    exact h2
  -- the text
  have hwrite : writeBoardFile ccwOf now ours b = .text (headerText now ours b ++ (t1 ++ (t2 ++ (holesText b ++ (notesText b ++ t5))))) := by
    have e : (olnKinds.flatMap fun k => (b.sects k).map (sectText ccwOf b.unit k)) = P.map fun p => sectText ccwOf b.unit p.1 p.2 := by
      show _ = (olnKinds.flatMap fun k => (b.sects k).map (Prod.mk k)).map _
      rw [List.map_flatMap]
      simp only [List.map_map]
      rfl
    unfold writeBoardFile
    rw [writeList_append, writeList_append, e, w2, w1, w5]
    simp only [writeList, Written.seq, List.append_nil, List.append_assoc]
  -- fuel
  let T := t1 ++ (t2 ++ (holesText b ++ (notesText b ++ (t5 ++ after))))
  have hT : headerText now ours b ++ (t1 ++ (t2 ++ (holesText b ++ (notesText b ++ t5)))) ++ after = headerText now ours b ++ T := by
    simp only [T, List.append_assoc]
  have hread0 := header_read now ours hn ho b b0 hb.name.1 hb.fileVersion.1 hb.fileVersion.2 T
  have hholelen : 1 < (lines (holesText b)).length := by
    unfold holesText
    have h1 := lines_append_length (commentText b.drillComments ++ ".DRILLED_HOLES\n".toList) (writeDrills b.unit (b.holes ++ b.place.comps.flatMap fun e => e.2.drills))
    have h2 := lines_append_length (commentText b.drillComments) ".DRILLED_HOLES\n".toList
    have h3 : (lines ".DRILLED_HOLES\n".toList).length = 2 := by decide
    have h4 := List.length_pos_of_ne_nil (lines_ne_nil (commentText b.drillComments))
    have h5 := List.length_pos_of_ne_nil (lines_ne_nil (writeDrills b.unit (b.holes ++ b.place.comps.flatMap fun e => e.2.drills)))
    omega
  have hfuel : ∃ j, (lines T).length + 2 = (P.length + (j + 4)) + 1 := by
    have h1 := lines_append_length t1 (t2 ++ (holesText b ++ (notesText b ++ (t5 ++ after))))
    have h2 := lines_append_length t2 (holesText b ++ (notesText b ++ (t5 ++ after)))
    have h3 := lines_append_length (holesText b) (notesText b ++ (t5 ++ after))
    have h4 := List.length_pos_of_ne_nil (lines_ne_nil (notesText b ++ (t5 ++ after)))
    have h5 : (lines T).length = (lines (t1 ++ (t2 ++ (holesText b ++ (notesText b ++ (t5 ++ after)))))).length := rfl
    exact ⟨(lines T).length + 2 - (P.length + 5), by omega⟩
  obtain ⟨j, hj⟩ := hfuel
  have hsec : readSections ccwOf noSub ((lines T).length + 2) .header c1 ([] :: lines T) =
      readSections ccwOf noSub (j + 4) .outline { c1 with oln := (b.oln.1, o'), sects := S } (lines (holesText b ++ (notesText b ++ (t5 ++ after)))) := by
    rw [hj, sections_blank (by simp) (lines_ne_nil _), show P.length + (j + 4) + 1 = (P.length + (j + 3)) + 2 by omega]
    show readSections ccwOf noSub _ .header c1 (lines (t1 ++ (t2 ++ (holesText b ++ (notesText b ++ (t5 ++ after)))))) = _
    rw [step1, show P.length + (j + 3) + 1 = P.length + ((j + 3) + 1) by omega, step2]
  obtain ⟨m', hm', step4'⟩ := step4 (j + 1)
  obtain ⟨q, hq⟩ : ∃ q, m' + 1 = q + 2 := ⟨m' - 1, by omega⟩
  rw [hq] at step4'
  have hcomps : ∀ r c, SMap.find r b.place.comps = some c → List.Forall₂ (DrillNear b.unit) c.drills (holesFor r ds') ∧ c.refdes = r := by
    intro r c hc
    have := hfor r
    rw [hc] at this
    exact ⟨this, (hb.keys.2 (r, c) ((find_mem _ hb.keys.1 r c).1 hc)).symm⟩
  have hnone : ∀ r, (∀ c, SMap.find r b.place.comps = some c → c.drills = []) → holesFor r ds' = [] := by
    intro r h
    have := hfor r
    cases hx : SMap.find r b.place.comps with
    | none => rw [hx] at this; exact List.forall₂_nil_left_iff.1 this
    | some c => rw [hx, Option.elim_some, h c hx] at this; exact List.forall₂_nil_left_iff.1 this
  let c4 : Board := { c1 with oln := (b.oln.1, o'), sects := S, holes := b0.holes ++ ds'.filter ofBoard, place := { b0.place with comps := m },
                              drillComments := b0.drillComments ++ b.drillComments, notes := b0.notes ++ ns', noteComments := b0.noteComments ++ ncs }
  have hsec2 : readSections ccwOf noSub ((lines T).length + 2) .header c1 ([] :: lines T) = readSections ccwOf noSub (q + 2) .outline c4 (lines (t5 ++ after)) := by
    rw [hsec, show j + 4 = (j + 2) + 2 by omega, step3, show j + 2 + 1 = (j + 1) + 2 by omega]
    exact step4'
  have hback : ∀ b' : Board, (∃ pb pcs, b' = { c4 with place := pb, placeComments := pcs } ∧
      ((∃ e ∈ b.place.comps, e.2.outs ≠ []) → pcs = b.placeComments) ∧
      (∀ r x, (r, x) ∈ b.place.comps → x.outs ≠ [] → ∃ x', pb.comps.find r = some x' ∧ CompNear b.unit x x' ∧ x'.drills = holesOf c4.place r) ∧
      ∀ r, (∀ x, (r, x) ∈ b.place.comps → x.outs = []) → pb.comps.find r = SMap.find r m) → BoardBack g b b' := by
    rintro b' ⟨pb, pcs, rfl, hpc, hin, hout⟩
    refine ⟨rfl, rfl, rfl, rfl, rfl, holn, hsectsBack, ?_, ?_, ?_, ?_, ?_, ?_, hpc⟩
    · show List.Forall₂ _ _ (b0.holes ++ _)
      rw [f2]; exact hholes
    · show List.Forall₂ _ _ (b0.notes ++ _)
      rw [f4]; exact hns
    · intro r c hc hne
      obtain ⟨hd, href⟩ := hcomps r c hc
      have hmem := (find_mem _ hb.keys.1 r c).1 hc
      by_cases hco : c.outs = []
      · have hx := hout r (by
          intro x hx
          have := (find_mem _ hb.keys.1 r x).2 hx
          rw [hc] at this; cases this; exact hco)
        rw [hfind', if_neg (by
          intro h
          rw [h] at hd
          have : c.drills = [] := by cases h' : c.drills with
            | nil => rfl
            | cons d l => rw [h'] at hd; cases hd
          exact hne ⟨hco, this⟩)] at hx
        exact ⟨_, hx, hd, fun _ => by rw [href], fun h => absurd hco h⟩
      · obtain ⟨x', h1, h2, h3⟩ := hin r c hmem hco
        refine ⟨x', h1, ?_, fun h => absurd h hco, fun _ => h2⟩
        rw [h3]
        unfold holesOf
        show List.Forall₂ _ _ ((SMap.find r m).elim [] _)
        rw [hfind']
        split
        · rename_i e; rw [e] at hd; exact hd
        · exact hd
    · intro r h
      have hx := hout r (fun x hx => (h x ((find_mem _ hb.keys.1 r x).2 hx)).1)
      rw [hfind', hnone r (fun c hc => (h c hc).2), if_pos rfl] at hx
      exact hx
    · show b0.drillComments ++ _ = _
      rw [f5, List.nil_append]
    · intro h
      show b0.noteComments ++ _ = _
      rw [f6, List.nil_append, hncs h]
  have hfinal : readBoardFile ccwOf noSub b0 (lines (headerText now ours b ++ T)) =
      (readSections ccwOf noSub ((lines T).length + 2) .header c1 ([] :: lines T)).bind fun r => finish r.1 r.2.1 r.2.2 := by
    unfold readBoardFile
    rw [hread0, hu, hname]
    simp only [List.length_cons]
    rw [show (lines T).length + 1 + 1 = (lines T).length + 2 by omega]
    rw [show ({ b0 with version := .v3, source := sourceText ours, date := now, fileVersion := b.fileVersion + 1, name := b.name, unit := b.unit } : Board) = c1 from rfl]
    cases readSections ccwOf noSub ((lines T).length + 2) .header c1 ([] :: lines T) <;> rfl
  rw [← hT] at hfinal
  by_cases hp : ∃ e ∈ b.place.comps, e.2.outs ≠ []
  · obtain ⟨t, pb, w, step5, hin, hout⟩ := place_step (ccw := ccwOf) (noSub := noSub) hb c4 rfl rfl hp (by
      intro r x hx
      have hx' : SMap.find r m = some x := hx
      rw [hfind'] at hx'
      split at hx'
      · cases hx'
      · cases hx'; rfl) (fun e he => hk e he) after
    rw [w5] at w; cases w
    rw [step5 q] at hsec2
    refine ⟨_, { c4 with place := pb, placeComments := c4.placeComments ++ b.placeComments }, hwrite, ?_, rfl, rfl, fun _ => ?_, ?_⟩
    · exact hback _ ⟨pb, _, rfl, fun _ => by show b0.placeComments ++ _ = _; rw [f7, List.nil_append], hin, hout⟩
    · rw [hfinal, hsec2, Option.bind_some, finish, if_neg (lines_ne_nil _)]
    · intro h
      obtain ⟨e, he, -⟩ := hp
      rw [h] at he; cases he
  · have hall : ∀ e ∈ b.place.comps, e.2.outs = [] := by intro e he; by_contra h; exact hp ⟨e, he, h⟩
    obtain ⟨t, w, step5⟩ := finish_step (ccw := ccwOf) (noSub := noSub) hb.comments.2.2.2.2 hall c4
    rw [w5] at w; cases w
    refine ⟨_, c4, hwrite, ?_, rfl, rfl, ?_, ?_⟩
    · exact hback _ ⟨c4.place, c4.placeComments, rfl, fun h => absurd h hp,
        fun r x hx h => absurd (hall _ hx) h, fun _ _ => rfl⟩
    · intro ha
      have ha' : after = [] := by
        rcases ha with h | h
        · exact h
        · exact absurd h hp
      subst ha'
      rw [List.append_nil, step5 q] at hsec2
      rw [hfinal, hsec2, Option.bind_some, finish, if_pos rfl, if_neg (by simp)]
      rfl
    · intro h
      have h5 : t5 = [] := by
        unfold placeText at w5
        rw [if_pos h] at w5
        cases w5; rfl
      rw [h5, List.nil_append] at hsec2
      exact ⟨q, by rw [hfinal, hsec2]⟩

/-! ### Round trip -/

/-- C80: a board written to a file and read back, into a board to which nothing has been added, is the same board, up to the places
written, except for what `BoardBack` leaves out.  Partial: see `BoardOk` and DESIGN.md. -/
theorem C80_roundtrip_partial (noSub : Bool) {g : ℚ} (hg : 0 ≤ g) {b : Board} (hb : BoardOk g b) {now ours : Str} (hn : WordOk now) (ho : Plain ours)
    (b0 : Board) (hf : Fresh b0) (hk : ∀ e ∈ b.place.comps, Known b0.place e.2) :
    ∃ text b', writeBoardFile ccwOf now ours b = .text text ∧ readBoardFile ccwOf noSub b0 (lines text) = some b' ∧ BoardBack g b b' := by
  obtain ⟨t, b', h1, h2, -, -, h3, -⟩ := board_read noSub hg hb hn ho b0 hf hk []
  exact ⟨t, b', h1, by rw [List.append_nil] at h3; exact h3 (.inl rfl), h2⟩

/-- C80: behind the placement section there may be blank lines and comments, and nothing else. -/
theorem C80_after_placement (noSub : Bool) {g : ℚ} (hg : 0 ≤ g) {b : Board} (hb : BoardOk g b) {now ours : Str} (hn : WordOk now) (ho : Plain ours)
    (b0 : Board) (hf : Fresh b0) (hk : ∀ e ∈ b.place.comps, Known b0.place e.2) (hp : ∃ e ∈ b.place.comps, e.2.outs ≠ []) (after : Str) :
    ∃ text, writeBoardFile ccwOf now ours b = .text text ∧
      ((∀ l ∈ lines after, l.head? = some '#' ∨ Blank l) → ∃ b', readBoardFile ccwOf noSub b0 (lines (text ++ after)) = some b' ∧ BoardBack g b b') ∧
      ((∃ pre l post, lines after = pre ++ l :: post ∧ (∀ l ∈ pre, (l.head? = some '#' ∧ ¬ Blank l.tail) ∨ Blank l) ∧ ¬ Blank l ∧ l.head? ≠ some '#') →
        readBoardFile ccwOf noSub b0 (lines (text ++ after)) = none) ∧
      ((∃ pre l post, lines after = pre ++ l :: post ∧ (∀ l ∈ pre, (l.head? = some '#' ∧ ¬ Blank l.tail) ∨ Blank l) ∧ l.head? = some '#' ∧ Blank l.tail) →
        ∃ b', readBoardFile ccwOf noSub b0 (lines (text ++ after)) = some b' ∧ BoardBack g b b') := by
  have htrim : ∀ l, Blank l → trim l = [] := fun l h => by
    obtain ⟨a, c, e, -, -, hh, -⟩ := trim_split l
    cases ht : trim l with
    | nil => rfl
    | cons x y =>
      rw [ht] at hh e
      have h1 := hh x rfl
      have h2 := h x (by rw [e]; simp)
      rw [h1] at h2; cases h2
  have hnone : ∀ l, Blank l → fetchLine l = none := fun l h => by
    have ht := htrim l h
    unfold fetchLine
    split
    · rename_i r
      have h1 := h '#' (List.mem_cons_self ..)
      rw [show isSpaceC '#' = false from rfl] at h1; cases h1
    · rw [if_pos ht]
  have hblank : ∀ l, trim l = [] → Blank l := fun l h => by
    obtain ⟨a, c, e, ha, hc, -⟩ := trim_split l
    rw [h, List.append_nil] at e
    rw [e]
    intro x hx
    rcases List.mem_append.1 hx with h | h
    · exact ha x h
    · exact hc x h
  have hcom : ∀ l : Str, l.head? = some '#' → fetchLine l = some ⟨trim l.tail, true⟩ := by
    intro l h
    cases l with
    | nil => cases h
    | cons a r => cases h; rfl
  have hskip : ∀ pre post : List Str, (∀ l ∈ pre, (l.head? = some '#' ∧ ¬ Blank l.tail) ∨ Blank l) → trailing (pre ++ post) = trailing post := by
    intro pre post h
    induction pre with
    | nil => rfl
    | cons l pre ih =>
      rw [List.cons_append, trailing]
      rcases h l (List.mem_cons_self ..) with ⟨h1, h2⟩ | h1
      · rw [hcom l h1]
        simp only [if_true]
        rw [if_neg (fun e => h2 (hblank _ e))]
        exact ih fun x hx => h x (List.mem_cons_of_mem _ hx)
      · rw [hnone l h1]
        exact ih fun x hx => h x (List.mem_cons_of_mem _ hx)
  obtain ⟨t, b', h1, h2, -, -, h3, -⟩ := board_read noSub hg hb hn ho b0 hf hk after
  have h3 := h3 (.inr hp)
  refine ⟨t, h1, fun h => ⟨b', ?_, h2⟩, fun ⟨pre, l, post, e, hpre, hl, hl'⟩ => ?_, fun ⟨pre, l, post, e, hpre, hl, hl'⟩ => ⟨b', ?_, h2⟩⟩
  · rw [h3, if_pos]
    generalize lines after = L at h
    induction L with
    | nil => rfl
    | cons l L ih =>
      have ih := ih fun x hx => h x (List.mem_cons_of_mem _ hx)
      rw [trailing]
      rcases h l (List.mem_cons_self ..) with h | h
      · rw [hcom l h]
        simp only [if_true, ih, ite_self]
      · rw [hnone l h]
        exact ih
  · rw [h3, e, hskip _ _ hpre, trailing]
    have : fetchLine l = some ⟨trim l, false⟩ := by
      unfold fetchLine
      split
      · exact absurd rfl hl'
      · rw [if_neg (fun h => hl (hblank _ h))]
    rw [this]
    simp only [if_neg (fun h => hl (hblank _ h)), Bool.false_eq_true, if_false]
  · rw [h3, e, hskip _ _ hpre, trailing, hcom l hl]
    simp only [htrim _ hl', if_true]

/-! ### Lines that are not sections -/

theorem lines_single : ∀ l : Str, '\n' ∉ l → lines l = [l]
  | [], _ => rfl
  | a :: l, hl => by
    rw [lines, if_neg (fun e : a = '\n' => hl (e ▸ List.mem_cons_self ..)), lines_single l fun h => hl (List.mem_cons_of_mem _ h)]

/-- C80: the last line of a file is not looked at if no line end follows it. -/
theorem C80_last_line (noSub : Bool) {g : ℚ} (hg : 0 ≤ g) {b : Board} (hb : BoardOk g b) {now ours : Str} (hn : WordOk now) (ho : Plain ours)
    (b0 : Board) (hf : Fresh b0) (hc : b.place.comps = []) (l : Str) (hl : '\n' ∉ l) :
    ∃ text b', writeBoardFile ccwOf now ours b = .text text ∧ readBoardFile ccwOf noSub b0 (lines (text ++ l)) = some b' ∧ BoardBack g b b' := by
  obtain ⟨t, b', h1, h2, -, -, -, h3⟩ := board_read noSub hg hb hn ho b0 hf (by rw [hc]; intro e he; cases he) l
  obtain ⟨q, h3⟩ := h3 hc
  refine ⟨t, b', h1, ?_, h2⟩
  rw [h3, lines_single l hl, sections_step (by simp) (by simp), readSection]
  cases fetchLine l with
  | none => rw [readSection]; rfl
  | some x => rfl

theorem junk_skips (ccw : List QSeg → Bool) (noSub : Bool) (st : FState) (b : Board) (tok : Str) (idx : ℕ) (htok : sectionKey tok = none) :
    ∀ (L : List Str) (cs : List Str), (∀ l ∈ L, l.length ≤ idx) → readSection ccw noSub st b tok idx cs L = some (st, b, [])
  | [], _, _ => rfl
  | raw :: L, cs, h => by
    have ih := fun cs => junk_skips ccw noSub st b tok idx htok L cs fun l hl => h l (List.mem_cons_of_mem _ hl)
    rw [readSection]
    cases hf : fetchLine raw with
    | none => exact ih cs
    | some l =>
      simp only
      split_ifs
      · rfl
      · exact ih _
      · have hlen : l.text.length ≤ idx := by
          refine le_trans ?_ (h raw (List.mem_cons_self ..))
          obtain ⟨a, c, e, -⟩ := trim_split raw
          have h1 : (trim raw).length ≤ raw.length := by
            have := congrArg List.length e
            simp only [List.length_append] at this
            omega
          unfold fetchLine at hf
          split at hf
          · rename_i r
            cases hf
            obtain ⟨a, c, e, -⟩ := trim_split r
            have := congrArg List.length e
            simp only [List.length_append, List.length_cons] at this ⊢
            omega
          · split at hf
            · cases hf
            · cases hf; exact h1
        have hk : keyWord l.text tok idx = some (tok, idx) := by
          unfold keyWord
          rw [if_pos hlen]
        rw [hk]
        simp only [htok]
        exact ih _

/-- C80: a line with one word that does not begin a section makes the reader skip every line that follows and is not longer than the word, whatever it
says, and the file is accepted: a board whose sections follow such a line loses them. -/
theorem C80_junk_loses (noSub : Bool) {g : ℚ} (hg : 0 ≤ g) {b : Board} (hb : BoardOk g b) {now ours : Str} (hn : WordOk now) (ho : Plain ours)
    (b0 : Board) (hf : Fresh b0) (hc : b.place.comps = []) {w : Str} (hw : WordOk w) (hw2 : w.head? ≠ some '#') (hw3 : sectionKey w = none)
    (rest : Str) (hr : ∀ l ∈ lines rest, l.length ≤ w.length) :
    ∃ text b', writeBoardFile ccwOf now ours b = .text text ∧ readBoardFile ccwOf noSub b0 (lines (text ++ (w ++ '\n' :: rest))) = some b' ∧ BoardBack g b b' := by
  obtain ⟨t, b', h1, h2, -, -, -, h3⟩ := board_read noSub hg hb hn ho b0 hf (by rw [hc]; intro e he; cases he) (w ++ '\n' :: rest)
  obtain ⟨q, h3⟩ := h3 hc
  refine ⟨t, b', h1, ?_, h2⟩
  have hnl : '\n' ∉ w := fun h => by have := hw.2.2 _ h; revert this; decide
  have hfetch : fetchLine w = some ⟨w, false⟩ := by
    apply fetch_plain hw.1
    · intro c hc'
      exact ⟨hw.2.2 c (List.mem_of_mem_head? hc'), fun e => hw2 (by rw [← e]; exact hc')⟩
    · intro c hc'
      exact hw.2.2 c (List.mem_of_mem_getLast? hc')
  have hkey : keyWord w [] 0 = some (w, w.length) := by
    have := getWord_bare (ws := []) (t := w) (rest := []) (by intro c hc; cases hc) hw.1 hw.2.1 hw.2.2 (by intro c hc; cases hc)
    rw [List.nil_append, List.append_nil] at this
    unfold keyWord
    rw [if_neg (by have := List.length_pos_of_ne_nil hw.1; omega), List.drop_zero, this]
    rfl
  rw [h3, lines_line hnl, sections_step (by simp) (by simp), readSection, hfetch]
  simp only [if_neg (lines_ne_nil _), Bool.false_eq_true, if_false, hkey, hw3]
  rw [junk_skips _ _ _ _ _ _ hw3 _ _ hr]
  rfl

/-! ### Order of the sections -/

theorem word_infix {s t rest : Str} {q : Bool} (h : getWord s = .word t q rest) : t <:+: s := by
  unfold getWord at h
  have hs : s.dropWhile isSpaceC <:+ s := List.dropWhile_suffix _
  split at h
  · cases h
  · rename_i c r e
    rw [e] at hs
    split at h
    · split at h
      · cases h
      · cases h
        exact (((List.takeWhile_prefix _).isInfix).trans (List.suffix_cons ..).isInfix).trans hs.isInfix
    · cases h
      exact (List.takeWhile_prefix _).isInfix.trans hs.isInfix

theorem fetch_infix {raw : Str} {l : Line} (h : fetchLine raw = some l) : l.text <:+: raw := by
  have ht : ∀ s, trim s <:+: s := fun s => by
    obtain ⟨a, c, e, -⟩ := trim_split s
    exact ⟨a, c, e.symm⟩
  unfold fetchLine at h
  split at h
  · cases h
    exact (ht _).trans (List.suffix_cons ..).isInfix
  · split at h
    · cases h
    · cases h; exact ht _

theorem key_infix {line tok t : Str} {idx i : ℕ} (h : keyWord line tok idx = some (t, i)) : t = tok ∨ t <:+: line := by
  unfold keyWord at h
  split at h
  · cases h; exact .inl rfl
  · split at h
    · cases h; exact .inl rfl
    · cases h
    · rename_i hw
      split at h
      · cases h
      · cases h
        exact .inr ((word_infix hw).trans (List.drop_suffix _ _).isInfix)

theorem key_not_board {t : Str} {key : Key} (h : compareToken ".BOARD_OUTLINE" t = false) (hk : sectionKey t = some key) : key ≠ .board := by
  rintro rfl
  unfold sectionKey at hk
  rw [h] at hk
  generalize compareToken ".PANEL_OUTLINE" t = a0 at hk
  generalize compareToken ".OTHER_OUTLINE" t = a1 at hk
  generalize compareToken ".ROUTE_OUTLINE" t = a2 at hk
  generalize compareToken ".PLACE_OUTLINE" t = a3 at hk
  generalize compareToken ".ROUTE_KEEPOUT" t = a4 at hk
  generalize compareToken ".VIA_KEEPOUT" t = a5 at hk
  generalize compareToken ".PLACE_KEEPOUT" t = a6 at hk
  generalize compareToken ".PLACE_REGION" t = a7 at hk
  generalize compareToken ".DRILLED_HOLES" t = a8 at hk
  generalize compareToken ".NOTES" t = a9 at hk
  generalize compareToken ".PLACEMENT" t = a10 at hk
  clear h
  revert a0 a1 a2 a3 a4 a5 a6 a7 a8 a9 a10
  decide

theorem header_first (ccw : List QSeg → Bool) (noSub : Bool) (b : Board) : ∀ (L : List Str) (tok : Str) (idx : ℕ) (cs : List Str),
    (∀ l ∈ L, ¬ ".BOARD_OUTLINE".toList <:+: l.map Char.toUpper) → compareToken ".BOARD_OUTLINE" tok = false →
    readSection ccw noSub .header b tok idx cs L = none ∨ readSection ccw noSub .header b tok idx cs L = some (.header, b, [])
  | [], _, _, _, _, _ => .inr rfl
  | raw :: L, tok, idx, cs, h, ht => by
    have hL := fun l hl => h l (List.mem_cons_of_mem _ hl)
    rw [readSection]
    cases hf : fetchLine raw with
    | none => exact header_first ccw noSub b L _ _ _ hL ht
    | some l =>
      simp only
      split_ifs
      · exact .inr rfl
      · exact header_first ccw noSub b L _ _ _ hL ht
      · cases hk : keyWord l.text tok idx with
        | none => exact .inl rfl
        | some r =>
          obtain ⟨t, i⟩ := r
          have ht' : compareToken ".BOARD_OUTLINE" t = false := by
            rcases key_infix hk with e | e
            · rw [e]; exact ht
            · rw [Bool.eq_false_iff]
              intro hc
              unfold compareToken at hc
              have hc := beq_iff_eq.1 hc
              apply h raw (List.mem_cons_self ..)
              rw [← hc]
              exact (e.trans (fetch_infix hf)).map _
          cases hs : sectionKey t with
          | none => simp only [hs]; exact header_first ccw noSub b L _ _ _ hL ht'
          | some key =>
            simp only [hs]
            have := key_not_board ht' hs
            left
            cases key <;> first | rfl | exact absurd rfl this

theorem next_suffix (input : List Str) : (nextLine input).2 <:+ input := by
  induction input with
  | nil => exact List.suffix_refl _
  | cons r rs ih =>
    rw [nextLine]
    split
    · exact List.suffix_cons ..
    · exact ih.trans (List.suffix_cons ..)

theorem headLine_suffix {input rest : List Str} {s : Str} (h : headLine input = some (s, rest)) : rest <:+ input := by
  unfold headLine at h
  simp only at h
  split at h
  · cases h
  · cases h; exact next_suffix _

theorem header_suffix {b b' : Board} {input rest : List Str} (h : readHeader b input = some (b', rest)) : rest <:+ input := by
  unfold readHeader at h
  split at h
  · cases h
  rename_i h1
  split at h
  · cases h
  split at h
  · cases h
  rename_i h2
  split at h
  · cases h
  split at h
  · cases h
  rename_i h3
  split at h
  · cases h
  obtain ⟨r, h4, e⟩ := Option.map_eq_some_iff.1 h
  cases e
  refine ((List.IsSuffix.trans ?_ (headLine_suffix h3)).trans (headLine_suffix h2)).trans (headLine_suffix h1)
  unfold endHeader at h4
  simp only at h4
  split at h4
  · cases h4
  · cases h4; exact next_suffix _

/-- C80: a file in which no line has the word `.BOARD_OUTLINE` is refused: no other section can come first, and none is enough. -/
theorem C80_needs_outline (ccw : List QSeg → Bool) (noSub : Bool) (b : Board) (input : List Str)
    (h : ∀ l ∈ input, ¬ ".BOARD_OUTLINE".toList <:+: l.map Char.toUpper) : readBoardFile ccw noSub b input = none := by
  unfold readBoardFile
  cases hh : readHeader b input with
  | none => rfl
  | some r =>
    obtain ⟨b1, rest⟩ := r
    have hL : ∀ l ∈ rest, ¬ ".BOARD_OUTLINE".toList <:+: l.map Char.toUpper := fun l hl => h l ((header_suffix hh).subset hl)
    simp only
    cases rest with
    | nil => rfl
    | cons x rest =>
      rw [sections_step (by simp) (by simp)]
      rcases header_first ccw noSub b1 (x :: rest) [] 0 [] hL (by decide) with e | e
      · rw [e]; rfl
      · rw [e]; rfl

/-! ### What is not in the file, and what is in it twice -/

/-- C80: comments on placement are not in the file if there are no components, nor comments on notes if there are no notes. -/
theorem C80_comments_lost (ccw : List QSeg → Bool) (now ours : Str) (b : Board) (cs : List Str) :
    (b.place.comps = [] → writeBoardFile ccw now ours { b with placeComments := cs } = writeBoardFile ccw now ours b) ∧
    (b.notes = [] → writeBoardFile ccw now ours { b with noteComments := cs } = writeBoardFile ccw now ours b) := by
  constructor
  · intro h
    have : placeText { b with placeComments := cs } = placeText b := by
      unfold placeText
      simp only [h, if_true]
    unfold writeBoardFile
    rw [this]; rfl
  · intro h
    have : notesText { b with noteComments := cs } = notesText b := by
      unfold notesText
      simp only [h, if_true]
    unfold writeBoardFile
    rw [this]; rfl

/-- C80: `WriteFile( name, true )`, in millimetres according to its header file, writes thousandths of an inch, and `WriteFile( name, false )` millimetres. -/
theorem C80_unit_reversed (noSub : Bool) {g : ℚ} (hg : 0 ≤ g) {b : Board} {now ours : Str} (hn : WordOk now) (ho : Plain ours)
    (b0 : Board) (hf : Fresh b0) (hk : ∀ e ∈ b.place.comps, Known b0.place e.2) :
    (BoardOk g { b with unit := .thou } →
      ∃ text b', writeFile ccwOf now ours true b = .text text ∧ readBoardFile ccwOf noSub b0 (lines text) = some b' ∧ b'.unit = .thou) ∧
    (BoardOk g { b with unit := .mm } →
      ∃ text b', writeFile ccwOf now ours false b = .text text ∧ readBoardFile ccwOf noSub b0 (lines text) = some b' ∧ b'.unit = .mm) := by
  constructor
  · intro hb
    obtain ⟨t, b', h1, h2, h3⟩ := C80_roundtrip_partial noSub hg hb hn ho b0 hf hk
    exact ⟨t, b', h1, h2, h3.unit⟩
  · intro hb
    obtain ⟨t, b', h1, h2, h3⟩ := C80_roundtrip_partial noSub hg hb hn ho b0 hf hk
    exact ⟨t, b', h1, h2, h3.unit⟩

/-- What was in the board is still in it, except for the outline of the board, of which only the comments are kept. -/
def Keeps (b b' : Board) : Prop :=
  b.notes <+: b'.notes ∧ b.holes <+: b'.holes ∧ (∀ k, (b.sects k).Sublist (b'.sects k)) ∧ b.drillComments <+: b'.drillComments ∧
  b.noteComments <+: b'.noteComments ∧ b.placeComments <+: b'.placeComments ∧ b.oln.1 <+: b'.oln.1

theorem Keeps.refl (b : Board) : Keeps b b :=
  ⟨List.prefix_refl _, List.prefix_refl _, fun _ => List.Sublist.refl _, List.prefix_refl _, List.prefix_refl _, List.prefix_refl _,
    List.prefix_refl _⟩

theorem Keeps.trans {a b c : Board} (h : Keeps a b) (k : Keeps b c) : Keeps a c :=
  ⟨h.1.trans k.1, h.2.1.trans k.2.1, fun j => (h.2.2.1 j).trans (k.2.2.1 j), h.2.2.2.1.trans k.2.2.2.1, h.2.2.2.2.1.trans k.2.2.2.2.1,
    h.2.2.2.2.2.1.trans k.2.2.2.2.2.1, h.2.2.2.2.2.2.trans k.2.2.2.2.2.2⟩

theorem insertBy_sublist (key : α → Str) (x : α) (l : List α) : l.Sublist (insertBy key x l) := by
  induction l with
  | nil => exact List.nil_sublist _
  | cons y l ih =>
    rw [insertBy]
    split
    · exact List.sublist_cons_self ..
    · exact ih.cons_cons _

theorem addSect_keeps {b b' : Board} {k : OlnKind} {cs : List Str} {s : OlnSect} (h : addSect b k cs s = some b') : Keeps b b' := by
  have hset : ∀ l, (b.sects k).Sublist l → Keeps b { b with sects := fun j => if j = k then l else b.sects j } := by
    intro l hl
    refine ⟨List.prefix_refl _, List.prefix_refl _, fun j => ?_, List.prefix_refl _, List.prefix_refl _, List.prefix_refl _, List.prefix_refl _⟩
    show (b.sects j).Sublist (if j = k then l else b.sects j)
    split
    · rename_i e; rw [e]; exact hl
    · exact List.Sublist.refl _
  unfold addSect at h
  simp only at h
  split at h
  · split at h
    · cases h
    · cases h; exact hset _ (insertBy_sublist ..)
  · cases h; exact hset _ (insertBy_sublist ..)
  · cases h; exact hset _ (List.sublist_append_left ..)

theorem body_keeps {ccw : List QSeg → Bool} {noSub : Bool} {key : Key} {st st' : FState} {b b' : Board} {cs : List Str} {line : Str}
    {rest rest' : List Str} (h : readBody ccw noSub key st b cs line rest = some (st', b', rest')) : Keeps b b' := by
  unfold readBody at h
  split at h
  · split at h
    · cases h
    · obtain ⟨p, -, e⟩ := Option.map_eq_some_iff.1 h
      cases e
      exact ⟨List.prefix_refl _, List.prefix_refl _, fun _ => List.Sublist.refl _, List.prefix_refl _, List.prefix_refl _, List.prefix_refl _,
        List.prefix_append ..⟩
  · cases h
  · split at h
    · cases h
    · split at h
      · cases h
      · obtain ⟨p, hp, e⟩ := Option.map_eq_some_iff.1 h
        cases e
        exact addSect_keeps hp
  · split at h
    · cases h
    · obtain ⟨p, -, e⟩ := Option.map_eq_some_iff.1 h
      obtain ⟨m, hm, -⟩ := addHoles_eq p.1 b
      simp only [hm] at e
      cases e
      exact ⟨List.prefix_refl _, List.prefix_append .., fun _ => List.Sublist.refl _, List.prefix_append .., List.prefix_refl _, List.prefix_refl _,
        List.prefix_refl _⟩
  · split at h
    · cases h
    · split at h
      · cases h
      · obtain ⟨p, -, e⟩ := Option.map_eq_some_iff.1 h
        cases e
        exact ⟨List.prefix_append .., List.prefix_refl _, fun _ => List.Sublist.refl _, List.prefix_refl _, List.prefix_append .., List.prefix_refl _,
        List.prefix_refl _⟩
  · split at h
    · cases h
    · obtain ⟨p, -, e⟩ := Option.map_eq_some_iff.1 h
      cases e
      exact ⟨List.prefix_refl _, List.prefix_refl _, fun _ => List.Sublist.refl _, List.prefix_refl _, List.prefix_refl _, List.prefix_append ..,
        List.prefix_refl _⟩

theorem section_keeps (ccw : List QSeg → Bool) (noSub : Bool) (st : FState) (b : Board) : ∀ (L : List Str) (tok : Str) (idx : ℕ) (cs : List Str)
    {st' : FState} {b' : Board} {rest : List Str}, readSection ccw noSub st b tok idx cs L = some (st', b', rest) → Keeps b b'
  | [], _, _, _, _, _, _, h => by cases h; exact Keeps.refl _
  | raw :: L, tok, idx, cs, st', b', rest, h => by
    rw [readSection] at h
    split at h
    · exact section_keeps ccw noSub st b L _ _ _ h
    · split at h
      · cases h; exact Keeps.refl _
      · split at h
        · exact section_keeps ccw noSub st b L _ _ _ h
        · split at h
          · cases h
          · split at h
            · exact section_keeps ccw noSub st b L _ _ _ h
            · exact body_keeps h

theorem sections_keep (ccw : List QSeg → Bool) (noSub : Bool) : ∀ (n : ℕ) (st : FState) (b : Board) (L : List Str)
    {st' : FState} {b' : Board} {rest : List Str}, readSections ccw noSub n st b L = some (st', b', rest) → Keeps b b'
  | 0, _, _, _, _, _, _, h => by cases h
  | n + 1, st, b, L, st', b', rest, h => by
    rw [readSections] at h
    split at h
    · cases h; exact Keeps.refl _
    · split at h
      · cases h
      · rename_i hs
        exact (section_keeps _ _ _ _ _ _ _ _ hs).trans (sections_keep ccw noSub n _ _ _ h)

/-- C80: reading a file does not empty the board first: what was read before is still there (of the outline of the board, only its comments), so that
a file read twice is in the board twice, whatever the file is. -/
theorem C80_reading_adds (ccw : List QSeg → Bool) (noSub : Bool) (b : Board) (input : List Str) {b' : Board}
    (h : readBoardFile ccw noSub b input = some b') : Keeps b b' := by
  unfold readBoardFile at h
  split at h
  · cases h
  rename_i b1 rest hh
  have h0 : Keeps b b1 := by
    unfold readHeader at hh
    repeat' split at hh
    all_goals first | cases hh | skip
    obtain ⟨p, -, e⟩ := Option.map_eq_some_iff.1 hh
    cases e
    exact Keeps.refl _
  split at h
  · cases h
  rename_i hs
  have h1 := sections_keep _ _ _ _ _ _ hs
  split at h
  · split at h
    · cases h
    · cases h; exact h0.trans h1
  · split at h
    · cases h; exact h0.trans h1
    · cases h

/-! ### Examples -/

theorem square_good : GoodLoop .mm 0 square := by
  refine ⟨?_, .inr ⟨_, _, rfl, by simp, by simp [ln, Chained, PtNear], by intro s hs; left; simp [square, ln] at hs; rcases hs with rfl | rfl | rfl | rfl <;> rfl, ?_⟩⟩
  · intro s hs
    simp only [square, ln, List.mem_cons, List.not_mem_nil, or_false] at hs
    rcases hs with rfl | rfl | rfl | rfl <;> (refine ⟨⟨big1 ?_, big1 ?_⟩, big1 ?_, big1 ?_⟩ <;> norm_num)
  · intro s hs
    simp only [List.dropLast, List.mem_cons, List.not_mem_nil, or_false] at hs
    rcases hs with rfl | rfl <;> (unfold Apart lengthTol ln; norm_num)

/-- a component with an outline and a hole -/
def demoComp : Comp := ⟨"U1".toList, some ⟨10, 20, 45, .top⟩, some .mcad, [IdfPlace.outAt 1 0], [⟨1, 2, 3, true, .refdes "U1".toList, .pin, .ecad⟩]⟩

/-- a board with a keepout, two regions, holes, a note, comments and a component -/
def demo (comps : SMap Comp) : Board where
  name := "DEMO".toList
  unit := .mm
  version := .v3
  source := []
  date := []
  fileVersion := 3
  oln := (["by hand".toList], ⟨.mcad, 16 / 10, [square]⟩)
  sects := fun
    | .routeKo => [(["no tracks".toList], ⟨.ecad, some .inner, 0, [], [square]⟩)]
    | .region => [([], ⟨.ecad, some .top, 0, "A".toList, [square]⟩), ([], ⟨.ecad, some .top, 0, "B".toList, [square]⟩)]
    | _ => []
  holes := [⟨3, 1, 1, false, .board, .mtg, .mcad⟩]
  place := ⟨.elec, IdfPlace.known, comps, 0⟩
  notes := [⟨1, 2, 3, 4, "hello world".toList⟩]
  drillComments := ["holes".toList, []]
  noteComments := []
  placeComments := ["parts".toList]

/-- a board as it is before anything is read, with a library of one part -/
def empty : Board where
  name := []
  unit := .mm
  version := .v3
  source := []
  date := []
  fileVersion := 1
  oln := ([], ⟨.unowned, 16 / 10, []⟩)
  sects := fun _ => []
  holes := []
  place := ⟨.elec, IdfPlace.known, [], 0⟩
  notes := []
  drillComments := []
  noteComments := []
  placeComments := []

theorem demo_ok (comps : SMap Comp) (h : comps = [] ∨ comps = [("U1".toList, demoComp)]) : BoardOk 0 (demo comps) := by
  have hs : ∀ x : ℚ, |x| ≤ 1000 → |x| ≤ 10 ^ 299 := by
    intro x h
    refine le_trans h ?_
    rw [show (1000 : ℚ) = 10 ^ 3 by norm_num]
    exact pow_le_pow_right₀ (by norm_num) (by norm_num)
  have hc : ∀ s ∈ ["by hand".toList, "no tracks".toList, "holes".toList, "parts".toList], CommentOk s ∧ s ≠ [] := by
    intro s hs
    simp only [List.mem_cons, List.not_mem_nil, or_false] at hs
    rcases hs with rfl | rfl | rfl | rfl <;> exact ⟨⟨by decide, by decide, by decide⟩, by decide⟩
  constructor
  · show Iges.Idf.Unit.mm ≠ .tnm
    decide
  · show Plain "DEMO".toList ∧ "DEMO".toList ≠ []
    exact ⟨⟨by decide, by decide⟩, by decide⟩
  · show (0 : ℤ) ≤ 3 ∧ (3 : ℤ) < 2147483647
    exact ⟨by decide, by decide⟩
  · refine ⟨?_, ?_, ?_, ?_, ?_⟩
    · intro c h
      rcases List.mem_singleton.1 h with rfl
      exact hc _ (by simp)
    · intro k x hx c h
      cases k <;> simp only [demo, List.mem_cons, List.not_mem_nil, or_false] at hx
      · rcases hx with rfl
        rcases List.mem_singleton.1 h with rfl
        exact hc _ (by simp)
      · rcases hx with rfl | rfl <;> cases h
    · intro c h
      simp only [demo, List.mem_cons, List.not_mem_nil, or_false] at h
      rcases h with rfl | rfl
      · exact (hc _ (by simp)).1
      · exact ⟨by decide, by decide, by decide⟩
    · intro c h; cases h
    · intro c h
      rcases List.mem_singleton.1 h with rfl
      exact (hc _ (by simp)).1
  · simp [demo]
  · exact ⟨big1 (by norm_num [demo]), by norm_num [demo, lengthTol]⟩
  · intro k l hk
    match k with
    | 0 => cases hk; rw [square_oriented]; exact ⟨square_good, fun h => absurd h (by simp [demo])⟩
    | k + 1 => cases hk
  · intro k x hx
    cases k <;> simp only [demo, List.mem_cons, List.not_mem_nil, or_false] at hx
    · rcases hx with rfl
      exact ⟨by decide, ⟨⟨_, rfl⟩, rfl, rfl⟩, _, rfl, square_good⟩
    · rcases hx with rfl | rfl <;> exact ⟨by decide, ⟨⟨_, rfl, by simp [Sided]⟩, rfl, by decide, by decide⟩, _, rfl, square_good⟩
  · show List.Pairwise _ [_, _]
    simp only [List.pairwise_cons, List.mem_cons, List.not_mem_nil, or_false, forall_eq, List.Pairwise.nil, and_true, false_imp_iff, implies_true]
    decide
  · intro d hd
    rcases List.mem_singleton.1 hd with rfl
    refine ⟨.inl rfl, ⟨⟨?_, ?_⟩, ⟨big1 (by norm_num), big1 (by norm_num), big1 (by norm_num)⟩, by norm_num⟩⟩
    · intro n h; cases h
    · intro n h; cases h
  · rcases h with rfl | rfl
    · exact ⟨by simp [demo], by intro e he; cases he⟩
    · exact ⟨by simp [demo], by intro e he; rcases List.mem_singleton.1 he with rfl; rfl⟩
  · intro e he
    rcases h with rfl | rfl
    · cases he
    · rcases List.mem_singleton.1 he with rfl
      refine ⟨?_, .inr ⟨⟨10, 20, 45, .top⟩, ⟨rfl, ⟨by decide, by decide, by decide, by decide, by decide, by unfold NotWord; decide⟩, by simp [demoComp], ?_,
        hs _ (by norm_num), hs _ (by norm_num), hs _ (by norm_num), ?_⟩, by simp⟩⟩
      · intro d hd
        rcases List.mem_singleton.1 hd with rfl
        refine ⟨.inl rfl, ⟨⟨?_, ?_⟩, ⟨big1 (by norm_num), big1 (by norm_num), big1 (by norm_num)⟩, by norm_num⟩⟩
        · intro n h; cases h; exact ⟨⟨by decide, by decide⟩, by unfold NotWord; decide⟩
        · intro n h; cases h
      · intro o ho
        rcases List.mem_singleton.1 ho with rfl
        exact ⟨_, _, rfl, ⟨by decide, by decide⟩, ⟨by decide, by decide⟩, by decide⟩
      · intro o ho
        rcases List.mem_singleton.1 ho with rfl
        exact ⟨hs _ (by norm_num [IdfPlace.outAt]), hs _ (by norm_num [IdfPlace.outAt]), hs _ (by norm_num [IdfPlace.outAt]), hs _ (by norm_num [IdfPlace.outAt])⟩
  · intro n hn
    rcases List.mem_singleton.1 hn with rfl
    exact ⟨⟨by decide, by decide⟩, big1 (by norm_num), big1 (by norm_num), big1 (by norm_num), big1 (by norm_num)⟩

theorem empty_fresh : Fresh empty := ⟨fun _ => rfl, rfl, rfl, rfl, rfl, rfl, rfl, rfl, rfl⟩

theorem demo_known : ∀ e ∈ (demo [("U1".toList, demoComp)]).place.comps, Known empty.place e.2 := by
  intro e he o ho g q h
  rcases List.mem_singleton.1 he with rfl
  rcases List.mem_singleton.1 ho with rfl
  cases h; rfl

theorem now_ok : WordOk "2026/11/15.10:30:00".toList := ⟨by decide, by decide, by decide⟩
theorem ours_ok : Plain "demo 1.0".toList := ⟨by decide, by decide⟩

/-- the hypotheses of `C80_roundtrip_partial` and `C80_after_placement` hold of `demo` with its component -/
example : (∃ text b', writeBoardFile ccwOf "2026/11/15.10:30:00".toList "demo 1.0".toList (demo [("U1".toList, demoComp)]) = .text text ∧
      readBoardFile ccwOf true empty (lines text) = some b' ∧ BoardBack 0 (demo [("U1".toList, demoComp)]) b') ∧
    ∃ text, writeBoardFile ccwOf "2026/11/15.10:30:00".toList "demo 1.0".toList (demo [("U1".toList, demoComp)]) = .text text ∧
      readBoardFile ccwOf true empty (lines (text ++ "# the end\n.NOTES\n".toList)) = none := by
  refine ⟨C80_roundtrip_partial true le_rfl (demo_ok _ (.inr rfl)) now_ok ours_ok empty empty_fresh demo_known, ?_⟩
  obtain ⟨t, h1, -, h2, -⟩ := C80_after_placement true le_rfl (demo_ok _ (.inr rfl)) now_ok ours_ok empty empty_fresh demo_known
    ⟨_, List.mem_singleton.2 rfl, by simp [demoComp]⟩ "# the end\n.NOTES\n".toList
  refine ⟨t, h1, h2 ⟨["# the end".toList], ".NOTES".toList, [[]], by decide, ?_, ?_, by decide⟩⟩
  · intro l hl
    rcases List.mem_singleton.1 hl with rfl
    exact .inl ⟨by decide, fun h => by have := h 't' (by decide); revert this; decide⟩
  · intro h; have := h '.' (by decide); revert this; decide

/-- the hypotheses of `C80_last_line` and `C80_junk_loses` hold of `demo` without components: the notes at the end are lost in silence -/
example : (∃ text b', writeBoardFile ccwOf "2026/11/15.10:30:00".toList [] (demo []) = .text text ∧
      readBoardFile ccwOf true empty (lines (text ++ ".PLACEMENT".toList)) = some b' ∧ BoardBack 0 (demo []) b') ∧
    ∃ text b', writeBoardFile ccwOf "2026/11/15.10:30:00".toList [] (demo []) = .text text ∧
      readBoardFile ccwOf true empty (lines (text ++ (".TEST_POINTS_AND_FIDUCIALS".toList ++ '\n' :: ".NOTES\n1 1 1 1 \"check me\"\n.END_NOTES\n".toList))) =
        some b' ∧ BoardBack 0 (demo []) b' :=
  ⟨C80_last_line true le_rfl (demo_ok _ (.inl rfl)) now_ok ⟨by decide, by decide⟩ empty empty_fresh rfl _ (by decide),
   C80_junk_loses true le_rfl (demo_ok _ (.inl rfl)) now_ok ⟨by decide, by decide⟩ empty empty_fresh rfl ⟨by decide, by decide, by decide⟩ (by decide) (by decide) _
    (by decide)⟩

/-- a file in the form other programs write -/
def sample (extra : String) : List Str :=
  lines (".HEADER\nboard_file 3.0 \"Other 1\" 2020/1/1.0:0:0 1\nPCB THOU\n.END_HEADER\n.BOARD_OUTLINE ECAD\n62.0\n0 0 0 0\n0 1000 0 360\n.END_BOARD_OUTLINE\n" ++ extra ++
    ".NOTES\n1 1 1 1 \"check me\"\n.END_NOTES\n").toList

/-- an unknown section before the notes makes them disappear, a short one does not; reading twice gives the notes twice and the outline once; without an outline the file is
refused -/
example : (readBoardFile (fun _ => true) true empty (sample "")).map (fun b => b.notes.map (·.text)) = some ["check me".toList] ∧
    (readBoardFile (fun _ => true) true empty (sample ".TEST_POINTS_AND_FIDUCIALS\n")).map (fun b => b.notes) = some [] ∧
    ((readBoardFile (fun _ => true) true empty (sample "")).bind fun b => (readBoardFile (fun _ => true) true b (sample "")).map (fun b => b.notes.map (·.text))) =
      some ["check me".toList, "check me".toList] ∧
    ((readBoardFile (fun _ => true) true empty (sample "")).bind fun b => (readBoardFile (fun _ => true) true b (sample "")).map (fun b => b.oln.2.outlines.length)) =
      some 1 ∧
    (∀ l ∈ ls ".HEADER\nBOARD_FILE 3.0 \"Other 1\" 2020/1/1.0:0:0 1\nPCB THOU\n.END_HEADER\n.NOTES\n.END_NOTES\n",
      ¬ ".BOARD_OUTLINE".toList <:+: l.map Char.toUpper) := by
  refine ⟨by decide +kernel, by decide +kernel, by decide +kernel, by decide +kernel, by decide +kernel⟩

end Iges.Props.IdfBoard
