import Verif.Spec.IdfOutlineWords
import Verif.Spec.IdfSections
/-
Independent specification of the outline sections of IDF files, record by record (C79).
-/
namespace Iges.Idf.Spec

/-- A layer, by its word; letters may be large or small. -/
inductive LayerWord (t : Str) : Layer → Prop
  | top : t.map Char.toUpper = "TOP".toList → LayerWord t .top
  | bottom : t.map Char.toUpper = "BOTTOM".toList → LayerWord t .bottom
  | both : t.map Char.toUpper = "BOTH".toList → LayerWord t .both
  | inner : t.map Char.toUpper = "INNER".toList → LayerWord t .inner
  | all : t.map Char.toUpper = "ALL".toList → LayerWord t .all

/-- The line `raw` consists of the words `ws`. -/
def LineWords (raw : Str) (ws : List (Str × Bool)) : Prop := ∃ text, fetchLine raw = some ⟨text, false⟩ ∧ Words text ws

/-- The second record of a section, none or one line: side or layers, height or thickness, and name.  `f` is the size of the unit in
millimetres.  Height -1 says that no height is given. -/
inductive InfoText (f : ℚ) : OlnKind → Version → List Str → Option Layer → ℚ → Str → Prop
  | via (v : Version) : InfoText f .via v [] none 0 []
  | route2 : InfoText f .route .v2 [] (some .all) 0 []
  | place2 : InfoText f .place .v2 [] (some .top) 0 []
  | other2 (raw name w : Str) (q q' : Bool) (more : List (Str × Bool)) (x : ℚ) : LineWords raw ((name, q) :: (w, q') :: more) →
      readNum w = some x → InfoText f .other .v2 [raw] (some .top) (x * f) name
  | other3 (raw name w s : Str) (q q' q'' : Bool) (more : List (Str × Bool)) (x : ℚ) (l : Layer) :
      LineWords raw ((name, q) :: (w, q') :: (s, q'') :: more) → readNum w = some x → LayerWord s l → l = .top ∨ l = .bottom →
      InfoText f .other .v3 [raw] (some l) (x * f) name
  | route3 (raw s : Str) (more : List (Str × Bool)) (l : Layer) : LineWords raw ((s, false) :: more) → LayerWord s l →
      InfoText f .route .v3 [raw] (some l) 0 []
  | routeKo (v : Version) (raw s : Str) (more : List (Str × Bool)) (l : Layer) : LineWords raw ((s, false) :: more) → LayerWord s l →
      (v = .v2 → l ≠ .inner ∧ l ≠ .all) → InfoText f .routeKo v [raw] (some l) 0 []
  | place3 (raw s w : Str) (q q' : Bool) (more : List (Str × Bool)) (l : Layer) (x : ℚ) : LineWords raw ((s, q) :: (w, q') :: more) →
      LayerWord s l → l ≠ .inner ∧ l ≠ .all → readNum w = some x → 0 ≤ x → InfoText f .place .v3 [raw] (some l) (x * f) []
  | placeBare (raw s : Str) (q : Bool) (l : Layer) : LineWords raw [(s, q)] → LayerWord s l → l ≠ .inner ∧ l ≠ .all →
      InfoText f .place .v3 [raw] (some l) (-1) []
  | placeKo (v : Version) (raw s w : Str) (q q' : Bool) (more : List (Str × Bool)) (l : Layer) (x : ℚ) :
      LineWords raw ((s, q) :: (w, q') :: more) → LayerWord s l → l ≠ .inner ∧ l ≠ .all → readNum w = some x → 0 ≤ x →
      InfoText f .placeKo v [raw] (some l) (x * f) []
  | region (v : Version) (raw s name : Str) (q q' : Bool) (more : List (Str × Bool)) (l : Layer) :
      LineWords raw ((s, q) :: (name, q') :: more) → LayerWord s l → l ≠ .inner ∧ l ≠ .all →
      InfoText f .region v [raw] (some l) 0 name

/-- The records of the outlines of a section: any number from 0 on for other outlines, one with the number 0 or 1 for the other kinds. -/
def SectionLoops (f : ℚ) (k : OlnKind) (raws : List Str) (os : List (List QSeg)) : Prop :=
  if k = .other then OutlineTexts f 0 raws os
  else ∃ i o, i ≤ 1 ∧ OutlineText f i raws o ∧ os = [o]

end Iges.Idf.Spec
