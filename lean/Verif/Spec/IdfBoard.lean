import Verif.Model.IdfBoard
import Verif.Spec.IdfSections
import Verif.Spec.IdfPlace
/-
Specification for whole board files (C80).
-/
namespace Iges.Idf.Spec

/-- A comment that is read as it was written: on one line, without white space at its ends. -/
def CommentOk (c : Str) : Prop := '\n' ∉ c ∧ (∀ x ∈ c.head?, isSpaceC x = false) ∧ ∀ x ∈ c.getLast?, isSpaceC x = false

/-- A word that is read as it was written without quote marks. -/
def WordOk (w : Str) : Prop := w ≠ [] ∧ w.head? ≠ some '"' ∧ ∀ c ∈ w, isSpaceC c = false

/-- Two outlines of a board agree: owner, thickness up to the places written, and the outlines one by one, run through in the
direction they have in files. -/
def OlnNear (u : Unit) (g : ℚ) (a b : BoardOln) : Prop :=
  b.owner = a.owner ∧ |b.thickness - a.thickness| ≤ lengthTol u ∧ b.outlines.length = a.outlines.length ∧
  ∀ (k : ℕ) l, a.outlines[k]? = some l → ∃ l', b.outlines[k]? = some l' ∧ List.Forall₂ (SegNear (lengthTol u + g)) (oriented k l) l'

/-- Two sections agree: comments, owner, side or layers, name, height up to the places written, and the outline. -/
def SectNear (u : Unit) (g : ℚ) (x y : List Str × OlnSect) : Prop :=
  y.1 = x.1 ∧ y.2.owner = x.2.owner ∧ y.2.side = x.2.side ∧ y.2.ident = x.2.ident ∧ |y.2.thickness - x.2.thickness| ≤ lengthTol u ∧
  List.Forall₂ (List.Forall₂ (SegNear (lengthTol u + g))) x.2.outlines y.2.outlines

/-- What a component is in the file read back: its outlines, with the position, if it has any, and its holes. -/
def CompBack (u : Unit) (c c' : Comp) : Prop :=
  List.Forall₂ (DrillNear u) c.drills c'.drills ∧
  (c.outs = [] → c' = ⟨c.refdes, none, none, [], c'.drills⟩) ∧ (c.outs ≠ [] → CompNear u c c')

/-- The board `b'` is the board `b` read back from the file written. -/
structure BoardBack (g : ℚ) (b b' : Board) : Prop where
  name : b'.name = b.name
  unit : b'.unit = b.unit
  version : b'.version = .v3
  fileVersion : b'.fileVersion = b.fileVersion + 1
  comments : b'.oln.1 = b.oln.1
  oln : OlnNear b.unit g b.oln.2 b'.oln.2
  sects : ∀ k, List.Forall₂ (SectNear b.unit g) (b.sects k) (b'.sects k)
  holes : List.Forall₂ (DrillNear b.unit) b.holes b'.holes
  notes : List.Forall₂ (NoteNear b.unit) b.notes b'.notes
  comps : ∀ r c, b.place.comps.find r = some c → ¬ (c.outs = [] ∧ c.drills = []) →
    ∃ c', b'.place.comps.find r = some c' ∧ CompBack b.unit c c'
  others : ∀ r, (∀ c, b.place.comps.find r = some c → c.outs = [] ∧ c.drills = []) → b'.place.comps.find r = none
  drillComments : b'.drillComments = b.drillComments
  noteComments : b.notes ≠ [] → b'.noteComments = b.noteComments
  placeComments : (∃ e ∈ b.place.comps, e.2.outs ≠ []) → b'.placeComments = b.placeComments

/-- A hole that can be written and read. -/
def HoleOk (d : Drill) : Prop := DrillNames d ∧ DrillSize d ∧ 3 / 10 ≤ d.dia

/-- The holes of the component `r` belong to it; holes that belong to no component are kept under NOREFDES. -/
def HoleOf (r : Str) (d : Drill) : Prop := d.ref = .refdes r ∨ (r = "NOREFDES".toList ∧ d.ref = .norefdes)

/-- A board that can be written and read. -/
structure BoardOk (g : ℚ) (b : Board) : Prop where
  unit : b.unit ≠ .tnm
  name : Plain b.name ∧ b.name ≠ []
  fileVersion : 0 ≤ b.fileVersion ∧ b.fileVersion < 2147483647
  comments : (∀ c ∈ b.oln.1, CommentOk c ∧ c ≠ []) ∧ (∀ k, ∀ x ∈ b.sects k, ∀ c ∈ x.1, CommentOk c ∧ c ≠ []) ∧
    (∀ c ∈ b.drillComments, CommentOk c) ∧ (∀ c ∈ b.noteComments, CommentOk c) ∧ ∀ c ∈ b.placeComments, CommentOk c
  olnCount : b.oln.2.outlines.length ≤ 2147483647
  thickness : |b.oln.2.thickness| ≤ 10 ^ 300 ∧ lengthTol b.unit < b.oln.2.thickness
  oln : ∀ (k : ℕ) l, b.oln.2.outlines[k]? = some l →
    GoodLoop b.unit g (oriented k l) ∧ (k + 1 < b.oln.2.outlines.length → Robust b.unit g k (oriented k l))
  sects : ∀ k, ∀ x ∈ b.sects k, k ≠ .other ∧ SectOk k x.2 ∧ ∃ l, x.2.outlines = [l] ∧ GoodLoop b.unit g l
  regions : (b.sects .region).Pairwise fun x y => strLt y.2.ident x.2.ident = false
  holes : ∀ d ∈ b.holes, (d.ref = .board ∨ d.ref = .panel) ∧ HoleOk d
  keys : (b.place.comps.map Prod.fst).Nodup ∧ ∀ e ∈ b.place.comps, e.1 = e.2.refdes
  comps : ∀ e ∈ b.place.comps, (∀ d ∈ e.2.drills, HoleOf e.1 d ∧ HoleOk d) ∧
    (e.2.outs = [] ∨ ∃ p, Writable e.2 p ∧ (p.side = .bottom → ∀ o ∈ e.2.outs, o.x = 0 ∧ o.a = 0))
  notes : ∀ n ∈ b.notes, Plain n.text ∧ NoteSize n

/-- A board as the constructor makes it, except for the library: nothing has been read into it. -/
def Fresh (b : Board) : Prop :=
  (∀ k, b.sects k = []) ∧ b.holes = [] ∧ b.place.comps = [] ∧ b.notes = [] ∧ b.drillComments = [] ∧ b.noteComments = [] ∧ b.placeComments = [] ∧ b.oln.1 = [] ∧
  b.oln.2.outlines = []

end Iges.Idf.Spec
