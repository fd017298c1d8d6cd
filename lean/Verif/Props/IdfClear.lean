import Verif.Spec.IdfClear
import Verif.Props.IdfLib
/-
C94: a board object used for several files.
-/
namespace Iges.Props.IdfClear
open Iges.Idf Iges.Idf.Spec

/-! ### Reading does not look at the outline -/

/-- Two boards that differ in the outline of the board only, whose comments begin with `old` in the first; after the outline has been read, they agree in the rest
of it. -/
def Rel (old : List Str) (st : FState) (b c : Board) : Prop :=
  ∃ x : BoardOln, b = { c with oln := (old ++ c.oln.1, x) } ∧ (st ≠ .header → x = c.oln.2)

/-- The results of a step. -/
def RelR (old : List Str) : Option (FState × Board × List Str) → Option (FState × Board × List Str) → Prop
  | none, none => True
  | some (st, b, r), some (st', c, r') => st = st' ∧ r = r' ∧ Rel old st b c
  | _, _ => False

/-- the outline is not looked at when a hole is stored -/
theorem addHole_oln (o : List Str × BoardOln) (c : Board) (d : Drill) : addHole { c with oln := o } d = { addHole c d with oln := o } := by
  unfold addHole
  simp only
  split
  · rfl
  · split <;> rfl

/-- the same for several holes -/
theorem addHoles_oln (o : List Str × BoardOln) : ∀ (ds : List Drill) (c : Board), ds.foldl addHole { c with oln := o } = { ds.foldl addHole c with oln := o }
  | [], _ => rfl
  | d :: ds, c => by
    rw [List.foldl_cons, List.foldl_cons, addHole_oln, addHoles_oln]

/-- nor does storing a hole change it -/
theorem addHole_same (c : Board) (d : Drill) : (addHole c d).oln = c.oln := by
  unfold addHole
  split
  · rfl
  · split <;> rfl

/-- nor several -/
theorem addHoles_same : ∀ (ds : List Drill) (c : Board), (ds.foldl addHole c).oln = c.oln
  | [], _ => rfl
  | d :: ds, c => by rw [List.foldl_cons, addHoles_same, addHole_same]

/-- the outline is not looked at when a section is stored -/
theorem addSect_oln (o : List Str × BoardOln) (c : Board) (k : OlnKind) (cs : List Str) (s : OlnSect) :
    addSect { c with oln := o } k cs s = (addSect c k cs s).map fun c => { c with oln := o } := by
  unfold addSect
  cases k <;> simp only <;> first | rfl | (split <;> rfl)

/-- nor changed -/
theorem addSect_same {c c' : Board} {k : OlnKind} {cs : List Str} {s : OlnSect} (h : addSect c k cs s = some c') : c'.oln = c.oln := by
  unfold addSect at h
  simp only at h
  split at h
  · split at h
    · cases h
    · cases h; rfl
  · cases h; rfl
  · cases h; rfl

/-- one section -/
theorem body_rel (ccw : List QSeg → Bool) (noSub : Bool) (key : Key) (st : FState) {old : List Str} {b c : Board} (h : Rel old st b c) (cs : List Str) (line : Str)
    (rest : List Str) : RelR old (readBody ccw noSub key st b cs line rest) (readBody ccw noSub key st c cs line rest) := by
  obtain ⟨x, rfl, hx⟩ := h
  unfold readBody
  cases key with
  | board =>
    simp only
    split
    · trivial
    · cases readBoardOutline ccw c.unit c.version line rest with
      | none => trivial
      | some p => exact ⟨rfl, rfl, p.1, by simp [List.append_assoc], fun _ => rfl⟩
  | panel => trivial
  | sect k =>
    simp only
    split
    · trivial
    · rename_i hst
      have hst' : st = .outline := by by_contra hn; exact hst hn
      cases readSect k ccw c.unit c.version line rest with
      | none => trivial
      | some p =>
        simp only [addSect_oln]
        cases hs : addSect c k cs p.1 with
        | none => trivial
        | some c' =>
          have e := addSect_same hs
          exact ⟨rfl, rfl, x, by rw [e], fun _ => by rw [e]; exact hx (by rw [hst']; decide)⟩
  | drills =>
    simp only
    split
    · trivial
    · rename_i hst
      have hst' : st = .outline := by by_contra hn; exact hst hn
      cases readDrills c.unit c.version rest with
      | none => trivial
      | some p =>
        have e := addHoles_same p.1 c
        refine ⟨rfl, rfl, x, ?_, fun _ => ?_⟩
        · show ({ (p.1.foldl addHole { c with oln := (old ++ c.oln.1, x) }) with drillComments := _ } : Board) = _
          rw [addHoles_oln]
          simp only [e]
        · show x = (p.1.foldl addHole c).oln.2
          rw [e]; exact hx (by rw [hst']; decide)
  | notes =>
    simp only
    split
    · trivial
    · rename_i hst
      have hst' : st = .outline := by by_contra hn; exact hst hn
      split
      · trivial
      · cases readNotes c.unit rest with
        | none => trivial
        | some p => exact ⟨rfl, rfl, x, rfl, fun _ => hx (by rw [hst']; decide)⟩
  | placement =>
    simp only
    split
    · trivial
    · rename_i hst
      have hst' : st = .outline := by by_contra hn; exact hst hn
      cases readPlacement c.unit c.version noSub (rest.length + 1) c.place rest with
      | none => trivial
      | some p => exact ⟨rfl, rfl, x, rfl, fun _ => hx (by rw [hst']; decide)⟩

/-- one call of the reader of sections -/
theorem section_rel (ccw : List QSeg → Bool) (noSub : Bool) (st : FState) {old : List Str} {b c : Board} (h : Rel old st b c) :
    ∀ (l : List Str) (tok : Str) (idx : ℕ) (cs : List Str), RelR old (readSection ccw noSub st b tok idx cs l) (readSection ccw noSub st c tok idx cs l)
  | [], _, _, _ => ⟨rfl, rfl, h⟩
  | raw :: rest, tok, idx, cs => by
    unfold readSection
    split
    · exact section_rel ccw noSub st h rest tok idx cs
    · rename_i l hl
      split
      · exact ⟨rfl, rfl, h⟩
      · split
        · exact section_rel ccw noSub st h rest tok idx _
        · split
          · trivial
          · split
            · exact section_rel ccw noSub st h rest _ _ cs
            · exact body_rel ccw noSub _ st h cs _ _

/-- all sections -/
theorem sections_rel (ccw : List QSeg → Bool) (noSub : Bool) {old : List Str} : ∀ (n : ℕ) (st : FState) {b c : Board} (_ : Rel old st b c) (l : List Str),
    RelR old (readSections ccw noSub n st b l) (readSections ccw noSub n st c l)
  | 0, _, _, _, _, _ => trivial
  | n + 1, st, b, c, h, l => by
    unfold readSections
    split
    · exact ⟨rfl, rfl, h⟩
    · have := section_rel ccw noSub st h l [] 0 []
      revert this
      cases readSection ccw noSub st b [] 0 [] l with
      | none =>
        cases readSection ccw noSub st c [] 0 [] l with
        | none => exact fun _ => trivial
        | some q => exact fun h => h.elim
      | some p =>
        cases readSection ccw noSub st c [] 0 [] l with
        | none => exact fun h => h.elim
        | some q =>
          obtain ⟨st1, b1, r1⟩ := p
          obtain ⟨st2, c2, r2⟩ := q
          rintro ⟨rfl, rfl, h⟩
          exact sections_rel ccw noSub n st1 h r1

/-- sections that begin with the header state and leave it have read an outline; what follows a state other than header is the placement section -/
theorem sections_left (ccw : List QSeg → Bool) (noSub : Bool) : ∀ (n : ℕ) (st : FState) (b : Board) (l : List Str) {st' : FState} {b' : Board} {r : List Str},
    readSections ccw noSub n st b l = some (st', b', r) → r = [] ∨ st' = .placement
  | 0, _, _, _, _, _, _, h => by cases h
  | n + 1, st, b, l, st', b', r, h => by
    unfold readSections at h
    split at h
    · rename_i hh
      cases h
      rcases hh with hh | hh
      · exact .inr hh
      · exact .inl hh
    · split at h
      · cases h
      · exact sections_left ccw noSub n _ _ _ h

/-- the board files -/
theorem file_rel (ccw : List QSeg → Bool) (noSub : Bool) {old : List Str} {b c : Board}
    (h : ∃ (x : BoardOln) (v : Version), b = { c with oln := (old ++ c.oln.1, x), version := v }) (input : List Str) :
    match readBoardFile ccw noSub b input, readBoardFile ccw noSub c input with
    | none, none => True
    | some b', some c' => b' = { c' with oln := (old ++ c'.oln.1, c'.oln.2) }
    | _, _ => False := by
  obtain ⟨x, v, rfl⟩ := h
  have hh : (readHeader c input = none ∧ readHeader { c with oln := (old ++ c.oln.1, x), version := v } input = none) ∨
      ∃ c1 r, readHeader c input = some (c1, r) ∧ readHeader { c with oln := (old ++ c.oln.1, x), version := v } input =
        some ({ c1 with oln := (old ++ c1.oln.1, x) }, r) := by
    unfold readHeader
    repeat' split
    all_goals first | exact .inl ⟨rfl, rfl⟩ | skip
    generalize endHeader _ = e
    cases e with
    | none => exact .inl ⟨rfl, rfl⟩
    | some r => exact .inr ⟨_, _, rfl, rfl⟩
  unfold readBoardFile
  rcases hh with ⟨h1, h2⟩ | ⟨c1, r, h1, h2⟩
  · rw [h1, h2]; trivial
  · rw [h1, h2]
    simp only
    have := sections_rel ccw noSub (old := old) (r.length + 1) .header (b := { c1 with oln := (old ++ c1.oln.1, x) }) (c := c1) ⟨x, rfl, fun h => absurd rfl h⟩ r
    revert this
    have hleft := @sections_left ccw noSub (r.length + 1) .header c1 r
    revert hleft
    generalize readSections ccw noSub (r.length + 1) .header c1 r = q
    generalize readSections ccw noSub (r.length + 1) .header { c1 with oln := (old ++ c1.oln.1, x) } r = p
    intro hleft
    cases p with
    | none =>
      cases q with
      | none => exact fun _ => trivial
      | some q => exact fun h => h.elim
    | some p =>
      cases q with
      | none => exact fun h => h.elim
      | some q =>
        obtain ⟨st1, b1, r1⟩ := p
        obtain ⟨st2, c2, r2⟩ := q
        rintro ⟨rfl, rfl, y, rfl, hy⟩
        simp only
        by_cases hr : r1 = []
        · simp only [hr, if_true]
          by_cases hs : st1 = .header
          · simp [hs]
          · simp only [hs, if_false]
            rw [hy hs]
        · simp only [hr, if_false]
          rcases hleft rfl with h | h
          · exact absurd h hr
          · by_cases ht : trailing r1 = true
            · simp only [ht, if_true]
              rw [hy (by rw [h]; decide)]
            · simp [ht]

/-! ### C94 -/

/-- the cleared board next to a new one -/
theorem clear_new (b : Board) : b.clear = { newBoard b.place.cad with oln := (b.oln.1 ++ (newBoard b.place.cad).oln.1, b.oln.2), version := b.version } := by
  unfold Board.clear newBoard
  simp

/-- C94: whatever is in a board, after `Clear` the next `ReadFile` succeeds exactly if it succeeds with a new board, and the results agree, except that the comments
the board's outline had before are put in front of those of the file.  Partial: the comments should be gone. -/
theorem C94_partial (ccw : List QSeg → Bool) (noSub : Bool) (L : Library) (b : Board) (libInput : Option (List Str)) (input : List Str) :
    BothAlikeBut b.oln.1 (readFiles ccw noSub (Clear (L, b)).1 (Clear (L, b)).2 libInput input)
      (readFiles ccw noSub newLibrary (newBoard b.place.cad) libInput input) := by
  have key : ∀ (L1 : Library) (b1 : Board), readFiles ccw noSub L1 b1 libInput input =
      (match libInput with | none => some L1 | some i => readLibFile ccw L1 i).bind fun L' =>
        (readBoardFile ccw noSub { b1 with place := { b1.place with lib := partNames L'.parts } } input).map fun b' : Board =>
          ({ L' with parts := countUses b1.place.comps b'.place.comps L'.parts }, b') := by
    intro L1 b1
    unfold readFiles
    cases libInput with
    | none => rfl
    | some i =>
      simp only
      cases readLibFile ccw L1 i <;> rfl
  rw [key, key]
  show BothAlikeBut b.oln.1 (Option.bind (match libInput with | none => some newLibrary | some i => readLibFile ccw newLibrary i) _) _
  generalize (match libInput with | none => some newLibrary | some i => readLibFile ccw newLibrary i) = X
  cases X with
  | none => trivial
  | some L' =>
    simp only [Option.bind_some]
    have := file_rel ccw noSub (old := b.oln.1)
      (b := { b.clear with place := { b.clear.place with lib := partNames L'.parts } })
      (c := { newBoard b.place.cad with place := { (newBoard b.place.cad).place with lib := partNames L'.parts } })
      ⟨b.oln.2, b.version, by rw [clear_new]⟩ input
    revert this
    show _ → BothAlikeBut b.oln.1 (Option.map _ (readBoardFile ccw noSub { b.clear with place := { b.clear.place with lib := partNames L'.parts } } input)) _
    cases readBoardFile ccw noSub { b.clear with place := { b.clear.place with lib := partNames L'.parts } } input with
    | none =>
      cases readBoardFile ccw noSub { newBoard b.place.cad with place := { (newBoard b.place.cad).place with lib := partNames L'.parts } } input with
      | none => exact fun _ => trivial
      | some q => exact fun h => h.elim
    | some p =>
      cases readBoardFile ccw noSub { newBoard b.place.cad with place := { (newBoard b.place.cad).place with lib := partNames L'.parts } } input with
      | none => exact fun h => h.elim
      | some q =>
        intro h
        simp only at h
        subst h
        exact ⟨rfl, rfl, rfl, rfl, rfl, rfl, rfl, rfl, rfl, rfl, rfl, rfl, rfl, rfl, rfl, rfl⟩

/-- C94: a failed `ReadFile` clears the board: whatever was in it and wherever the reading stopped, the next `ReadFile` gives what it gives with a new board, except
for comments in front of those of the outline. -/
theorem C94_after_failure_partial (ccw : List QSeg → Bool) (noSub noSub' : Bool) (S : Library × Board) (lib1 : Option (List Str)) (bad : List Str)
    (left : (List Str × BoardOln) × Version) (S' : Library × Board) (h : ReadFile ccw noSub S lib1 bad left = (false, S'))
    (libInput : Option (List Str)) (input : List Str) :
    BothAlikeBut left.1.1 (readFiles ccw noSub' S'.1 S'.2 libInput input) (readFiles ccw noSub' newLibrary (newBoard S.2.place.cad) libInput input) := by
  unfold ReadFile at h
  split at h
  · cases h
  · cases h
    exact C94_partial ccw noSub' S.1 { S.2 with oln := left.1, version := left.2 } libInput input

/-! ### Sequences of calls -/

/-- placement does not change the type of the CAD system -/
theorem placement_cad (u : Idf.Unit) (v : Version) (noSub : Bool) : ∀ (n : ℕ) (b : PBoard) (s : List Str) {b' : PBoard} {r : List Str},
    readPlacement u v noSub n b s = some (b', r) → b'.cad = b.cad
  | 0, _, _, _, _, h => by cases h
  | n + 1, b, s, b', r, h => by
    unfold readPlacement at h
    split at h
    · cases h
    · cases h; rfl
    · split at h
      · cases h
      · rename_i b1 hb
        rw [placement_cad u v noSub n _ _ h]
        unfold storePlace at hb
        simp only at hb
        repeat' split at hb
        all_goals first | cases hb; done | (cases hb; rfl)

/-- holes neither -/
theorem addHole_cad (c : Board) (d : Drill) : (addHole c d).place.cad = c.place.cad := by
  unfold addHole
  split
  · rfl
  · split <;> rfl

/-- several holes -/
theorem addHoles_cad : ∀ (ds : List Drill) (c : Board), (ds.foldl addHole c).place.cad = c.place.cad
  | [], _ => rfl
  | d :: ds, c => by rw [List.foldl_cons, addHoles_cad, addHole_cad]

/-- a section -/
theorem body_cad {ccw : List QSeg → Bool} {noSub : Bool} {key : Key} {st st' : FState} {b b' : Board} {cs : List Str} {line : Str}
    {rest rest' : List Str} (h : readBody ccw noSub key st b cs line rest = some (st', b', rest')) : b'.place.cad = b.place.cad := by
  unfold readBody at h
  split at h
  · split at h
    · cases h
    · obtain ⟨p, -, e⟩ := Option.map_eq_some_iff.1 h
      cases e; rfl
  · cases h
  · split at h
    · cases h
    · split at h
      · cases h
      · obtain ⟨p, hp, e⟩ := Option.map_eq_some_iff.1 h
        cases e
        unfold addSect at hp
        simp only at hp
        repeat' split at hp
        all_goals first | cases hp; done | (cases hp; rfl)
  · split at h
    · cases h
    · obtain ⟨p, -, e⟩ := Option.map_eq_some_iff.1 h
      cases e
      exact addHoles_cad p.1 b
  · split at h
    · cases h
    · split at h
      · cases h
      · obtain ⟨p, -, e⟩ := Option.map_eq_some_iff.1 h
        cases e; rfl
  · split at h
    · cases h
    · obtain ⟨p, hp, e⟩ := Option.map_eq_some_iff.1 h
      cases e
      exact placement_cad _ _ _ _ _ _ hp

/-- a call of the reader of sections -/
theorem section_cad (ccw : List QSeg → Bool) (noSub : Bool) (st : FState) (b : Board) : ∀ (l : List Str) (tok : Str) (idx : ℕ) (cs : List Str)
    {st' : FState} {b' : Board} {rest : List Str}, readSection ccw noSub st b tok idx cs l = some (st', b', rest) → b'.place.cad = b.place.cad
  | [], _, _, _, _, _, _, h => by cases h; rfl
  | raw :: r, tok, idx, cs, _, _, _, h => by
    unfold readSection at h
    split at h
    · exact section_cad ccw noSub st b r tok idx cs h
    · split at h
      · cases h; rfl
      · split at h
        · exact section_cad ccw noSub st b r tok idx _ h
        · split at h
          · cases h
          · split at h
            · exact section_cad ccw noSub st b r _ _ cs h
            · exact body_cad h

/-- all sections -/
theorem sections_cad (ccw : List QSeg → Bool) (noSub : Bool) : ∀ (n : ℕ) (st : FState) (b : Board) (l : List Str) {st' : FState} {b' : Board} {r : List Str},
    readSections ccw noSub n st b l = some (st', b', r) → b'.place.cad = b.place.cad
  | 0, _, _, _, _, _, _, h => by cases h
  | n + 1, st, b, l, st', b', r, h => by
    unfold readSections at h
    split at h
    · cases h; rfl
    · split at h
      · cases h
      · rename_i hs
        exact (sections_cad ccw noSub n _ _ _ h).trans (section_cad ccw noSub _ _ _ _ _ _ hs)

/-- a file -/
theorem file_cad {ccw : List QSeg → Bool} {noSub : Bool} {b b' : Board} {input : List Str} (h : readBoardFile ccw noSub b input = some b') :
    b'.place.cad = b.place.cad := by
  unfold readBoardFile at h
  split at h
  · cases h
  rename_i b1 rest hh
  have h0 : b1.place.cad = b.place.cad := by
    unfold readHeader at hh
    repeat' split at hh
    all_goals first | cases hh | skip
    obtain ⟨p, -, e⟩ := Option.map_eq_some_iff.1 hh
    cases e; rfl
  split at h
  · cases h
  rename_i hs
  have h1 := sections_cad _ _ _ _ _ _ hs
  repeat' split at h
  all_goals first | cases h; done | (cases h; exact h1.trans h0)

/-- a file with its library -/
theorem files_cad {ccw : List QSeg → Bool} {noSub : Bool} {L L' : Library} {b b' : Board} {libInput : Option (List Str)} {input : List Str}
    (h : readFiles ccw noSub L b libInput input = some (L', b')) : b'.place.cad = b.place.cad := by
  unfold readFiles at h
  split at h
  · cases h
  · obtain ⟨p, hp, e⟩ := Option.map_eq_some_iff.1 h
    cases e
    exact (file_cad hp :)

/-- any calls -/
theorem after_cad (ccw : List QSeg → Bool) : ∀ (calls : List Call) (S : Library × Board), (after ccw S calls).2.place.cad = S.2.place.cad
  | [], _ => rfl
  | .clear :: l, S => (after_cad ccw l _).trans rfl
  | .read noSub libInput input left :: l, S => by
    refine (after_cad ccw l _).trans ?_
    unfold ReadFile
    split
    · rename_i S' h
      exact files_cad (L' := S'.1) (b' := S'.2) h
    · rfl

/-- C94: after any sequence of successful and failed readings and of `Clear`, ending with `Clear`, a board reads the next file as a new board does, except for comments
in front of those of the outline.  Partial: the comments should be gone. -/
theorem C94_history_partial (ccw : List QSeg → Bool) (cad : Cad) (calls : List Call) (noSub : Bool) (libInput : Option (List Str)) (input : List Str) :
    BothAlikeBut (after ccw (newLibrary, newBoard cad) calls).2.oln.1
      (readFiles ccw noSub (Clear (after ccw (newLibrary, newBoard cad) calls)).1 (Clear (after ccw (newLibrary, newBoard cad) calls)).2 libInput input)
      (readFiles ccw noSub newLibrary (newBoard cad) libInput input) := by
  have h := C94_partial ccw noSub (after ccw (newLibrary, newBoard cad) calls).1 (after ccw (newLibrary, newBoard cad) calls).2 libInput input
  rwa [after_cad] at h

/-! ### What stays -/

/-- The same file read `n` times, with `Clear` before each reading. -/
def again (ccw : List QSeg → Bool) (noSub : Bool) (libInput : Option (List Str)) (input : List Str) (left : (List Str × BoardOln) × Version) : ℕ → List Call
  | 0 => []
  | n + 1 => again ccw noSub libInput input left n ++ [.clear, .read noSub libInput input left]

/-- calls one after the other -/
theorem after_append (ccw : List QSeg → Bool) : ∀ (l m : List Call) (S : Library × Board), after ccw S (l ++ m) = after ccw (after ccw S l) m
  | [], _, _ => rfl
  | .clear :: l, m, _ => after_append ccw l m _
  | .read .. :: l, m, _ => after_append ccw l m _

/-- C94, what fails: when a file is read again and again with `Clear` before each reading, the comments of its outline are there once for each reading; nothing else
changes. -/
theorem C94_comments_pile_up (ccw : List QSeg → Bool) (cad : Cad) (noSub : Bool) (libInput : Option (List Str)) (input : List Str) {r : Library × Board}
    (h : readFiles ccw noSub newLibrary (newBoard cad) libInput input = some r) (left : (List Str × BoardOln) × Version) (n : ℕ) :
    AlikeBut (List.replicate n r.2.oln.1).flatten (after ccw (newLibrary, newBoard cad) (again ccw noSub libInput input left (n + 1))) r := by
  have step : ∀ m, (after ccw (newLibrary, newBoard cad) (again ccw noSub libInput input left m)).2.oln.1 = (List.replicate m r.2.oln.1).flatten →
      AlikeBut (List.replicate m r.2.oln.1).flatten (after ccw (newLibrary, newBoard cad) (again ccw noSub libInput input left (m + 1))) r := by
    intro m hm
    have k := C94_history_partial ccw cad (again ccw noSub libInput input left m) noSub libInput input
    rw [h, hm] at k
    unfold again
    rw [after_append]
    show AlikeBut _ (ReadFile ccw noSub (Clear (after ccw (newLibrary, newBoard cad) (again ccw noSub libInput input left m))) libInput input left).2 r
    unfold ReadFile
    revert k
    cases readFiles ccw noSub (Clear (after ccw (newLibrary, newBoard cad) (again ccw noSub libInput input left m))).1
      (Clear (after ccw (newLibrary, newBoard cad) (again ccw noSub libInput input left m))).2 libInput input with
    | none => exact fun k => k.elim
    | some S => exact fun k => k
  have all : ∀ m, (after ccw (newLibrary, newBoard cad) (again ccw noSub libInput input left m)).2.oln.1 = (List.replicate m r.2.oln.1).flatten := by
    intro m
    induction m with
    | zero => rfl
    | succ m ih =>
      rw [(step m ih).2.2.2.2.2.2.2.2.2.2.2.2.2.2.2, List.replicate_succ', List.flatten_append]
      simp
  exact step n (all n)

/-- C94, what fails: `Clear` leaves the outline of the board.  If the board is written after it, the file has the outline and its comments. -/
theorem C94_outline_stays (ccw : List QSeg → Bool) (now ours : Str) (unitMM : Bool) (L : Library) (b : Board) {t : Str}
    (h : olnText ccw { b with unit := writeUnit unitMM } = .text t) :
    ∃ s, writeFile ccw now ours unitMM (Clear (L, b)).2 = .text s ∧ t <:+: s := by
  have e : olnText ccw { b.clear with unit := writeUnit unitMM } = .text t := h
  refine ⟨headerText now ours { b.clear with unit := writeUnit unitMM } ++ (t ++ (holesText { b.clear with unit := writeUnit unitMM } ++
      (notesText { b.clear with unit := writeUnit unitMM } ++ []))), ?_, ?_⟩
  · unfold writeFile writeBoardFile
    show writeList ([.text _, olnText ccw { b.clear with unit := writeUnit unitMM }] ++ _ ++ _) = _
    rw [e]
    simp [writeList, Written.seq, Clear, Board.clear, olnKinds, placeText]
  · exact ⟨headerText now ours { b.clear with unit := writeUnit unitMM }, _, by rw [List.append_assoc]⟩

/-! ### Examples -/

/-- a file with a comment on its outline and a note -/
def file (comment extra : String) : List Str :=
  lines (".HEADER\nboard_file 3.0 \"Other 1\" 2020/1/1.0:0:0 1\nPCB THOU\n.END_HEADER\n# " ++ comment ++
    "\n.BOARD_OUTLINE ECAD\n62.0\n0 0 0 0\n0 1000 0 360\n.END_BOARD_OUTLINE\n" ++ extra ++ ".NOTES\n1 1 1 1 \"check me\"\n.END_NOTES\n").toList

/-- a reading that fails after the outline has been read, one that succeeds, `Clear`, and another one: one note, and the comments of both files -/
example :
    let left : (List Str × BoardOln) × Version := ((["bad".toList], ⟨.ecad, 1, []⟩), .v3)
    let S := after (fun _ => true) (newLibrary, newBoard .mech)
      [.read true none (file "bad" ".BOARD_OUTLINE ECAD\n") left, .read true none (file "first" "") left, .clear, .read true none (file "second" "") left]
    S.2.notes.map (·.text) = ["check me".toList] ∧ S.2.oln.1 = ["bad".toList, "first".toList, "second".toList] ∧ S.2.oln.2.outlines.length = 1 := by
  decide +kernel

/-- the hypotheses of `C94_after_failure_partial` and `C94_comments_pile_up` can be met, with comments -/
example : (ReadFile (fun _ => true) true (newLibrary, newBoard .mech) none (file "bad" ".BOARD_OUTLINE ECAD\n") ((["bad".toList], ⟨.ecad, 1, []⟩), .v3)).1 = false ∧
    (readFiles (fun _ => true) true newLibrary (newBoard .mech) none (file "first" "")).map (fun r => r.2.oln.1) = some ["first".toList] := by
  decide +kernel

/-- the hypothesis of `C94_outline_stays` can be met by a board that was read -/
example : (readFiles (fun _ => true) true newLibrary (newBoard .mech) none (file "first" "")).map (fun r =>
    match olnText (fun _ => true) { r.2 with unit := writeUnit false } with | .text t => t.take 8 | _ => []) = some "# first\n".toList := by
  decide +kernel

end Iges.Props.IdfClear
