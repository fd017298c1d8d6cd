import Verif.Props.Graph

/-!
What goes wrong with the calls that `Spec.Careful` excludes: for each of them a legal program
after which the bookkeeping of references is broken or the behaviour is undefined.
-/

namespace Iges.Props

open Iges.Graph Iges.Spec

theorem LegalRun.cons {h : Heap} {c : Call} {l : List Call} (hl : Legal h c)
    {h1 : Heap} {b1 : Bool} (hs : step h c = some (h1, b1)) (hr : LegalRun h1 l) :
    LegalRun h (c :: l) := by
  refine ⟨hl, fun h' b h2 => ?_⟩
  rw [hs] at h2
  cases h2
  exact hr

/-- The last call of a program may be undefined. -/
theorem LegalRun.last {h : Heap} {c : Call} (hl : Legal h c) : LegalRun h [c] :=
  ⟨hl, fun _ _ _ => trivial⟩

/-- A pointer to a destroyed entity remains. -/
def Dangling (h : Heap) : Prop := ∃ p c, 0 < uses h p c ∧ h c = none

theorem Dangling.not_symmetric {h : Heap} (hd : Dangling h) : ¬ Symmetric h := by
  obtain ⟨p, c, h1, h2⟩ := hd
  intro hs
  have := hs p c
  unfold listed at this
  rw [h2] at this
  simp only at this
  omega

/-- **C20, C21 fail** (transformation matrix).  Deleting a property attached to a transformation
matrix as optional entity leaves a dangling pointer: `IGES_ENTITY_124::unlink` looks at the
matrix pointer only (`/repo/src/entities/entity124.cpp:229-252`). -/
theorem C21_fails_matrix_property : ∃ l h, LegalRun emptyHeap l ∧ run l = some h
    ∧ h 2 = none ∧ uses h 1 2 = 1 ∧ Dangling h ∧ ¬ Symmetric h := by
  have key : ∃ h, run [.new 1 124, .new 2 406, .addOptional 1 2, .del 2] = some h
      ∧ h 2 = none ∧ uses h 1 2 = 1 := ⟨_, rfl, rfl, rfl⟩
  obtain ⟨h, h1, h2, h3⟩ := key
  have hd : Dangling h := ⟨1, 2, by omega, h2⟩
  refine ⟨_, h, ?_, h1, h2, h3, hd, hd.not_symmetric⟩
  refine LegalRun.cons rfl rfl ?_
  refine LegalRun.cons rfl rfl ?_
  refine LegalRun.cons ⟨⟨_, rfl, trivial⟩, ⟨_, rfl, trivial⟩⟩ rfl ?_
  exact LegalRun.last ⟨_, rfl, trivial⟩

/-- **C20, C21 fail** (placeholder).  The same for a property attached to an entity of an
unsupported type: `IGES_ENTITY_NULL::unlink` does nothing
(`/repo/src/entities/entityNULL.cpp:183-188`). -/
theorem C21_fails_placeholder_property : ∃ l h, LegalRun emptyHeap l ∧ run l = some h
    ∧ h 2 = none ∧ uses h 1 2 = 1 ∧ Dangling h ∧ ¬ Symmetric h := by
  have key : ∃ h, run [.new 1 116, .new 2 406, .addOptional 1 2, .del 2] = some h
      ∧ h 2 = none ∧ uses h 1 2 = 1 := ⟨_, rfl, rfl, rfl⟩
  obtain ⟨h, h1, h2, h3⟩ := key
  have hd : Dangling h := ⟨1, 2, by omega, h2⟩
  refine ⟨_, h, ?_, h1, h2, h3, hd, hd.not_symmetric⟩
  refine LegalRun.cons rfl rfl ?_
  refine LegalRun.cons rfl rfl ?_
  refine LegalRun.cons ⟨⟨_, rfl, trivial⟩, ⟨_, rfl, trivial⟩⟩ rfl ?_
  exact LegalRun.last ⟨_, rfl, trivial⟩

/-- **C20 fails** (boolean tree).  After one operand of a boolean tree is deleted, the other one
still lists the tree as a user although the tree has no operands any more
(`/repo/src/entities/entity180.cpp:297-327`). -/
theorem C20_fails_boolean_tree : ∃ l h, LegalRun emptyHeap l ∧ run l = some h
    ∧ uses h 1 3 = 0 ∧ listed h 3 1 = 1 ∧ ¬ Symmetric h := by
  have key : ∃ h, run [.new 1 180, .new 2 154, .new 3 154, .addArg 1 (some 2), .addArg 1 (some 3),
      .del 2] = some h ∧ uses h 1 3 = 0 ∧ listed h 3 1 = 1 := ⟨_, rfl, rfl, rfl⟩
  obtain ⟨h, h1, h2, h3⟩ := key
  refine ⟨_, h, ?_, h1, h2, h3, fun hs => by have := hs 1 3; omega⟩
  refine LegalRun.cons rfl rfl ?_
  refine LegalRun.cons rfl rfl ?_
  refine LegalRun.cons rfl rfl ?_
  refine LegalRun.cons ⟨⟨_, rfl, rfl⟩, ?_, by simp⟩ rfl ?_
  · rintro x h; cases h; exact ⟨_, rfl, trivial⟩
  refine LegalRun.cons ⟨⟨_, rfl, rfl⟩, ?_, by simp⟩ rfl ?_
  · rintro x h; cases h; exact ⟨_, rfl, trivial⟩
  exact LegalRun.last ⟨_, rfl, trivial⟩

/-- The consequence: when the tree is deleted next, the stale entry leads the second operand to a
destroyed entity, and deleting that operand is undefined behaviour. -/
theorem C21_fails_boolean_tree_stale : ∃ l, LegalRun emptyHeap l ∧ run l = none := by
  refine ⟨[.new 1 180, .new 2 154, .new 3 154, .addArg 1 (some 2), .addArg 1 (some 3),
    .del 2, .del 1, .del 3], ?_, rfl⟩
  refine LegalRun.cons rfl rfl ?_
  refine LegalRun.cons rfl rfl ?_
  refine LegalRun.cons rfl rfl ?_
  refine LegalRun.cons ⟨⟨_, rfl, rfl⟩, ?_, by simp⟩ rfl ?_
  · rintro x h; cases h; exact ⟨_, rfl, trivial⟩
  refine LegalRun.cons ⟨⟨_, rfl, rfl⟩, ?_, by simp⟩ rfl ?_
  · rintro x h; cases h; exact ⟨_, rfl, trivial⟩
  refine LegalRun.cons ⟨_, rfl, trivial⟩ rfl ?_
  refine LegalRun.cons ⟨_, rfl, trivial⟩ rfl ?_
  exact LegalRun.last ⟨_, rfl, trivial⟩

/-- **C20 fails** (trimmed surface).  `DelPTI` removes an inner boundary without telling it
(`/repo/src/entities/entity144.cpp:868-886`). -/
theorem C20_fails_DelPTI : ∃ l h, LegalRun emptyHeap l ∧ run l = some h
    ∧ uses h 1 2 = 0 ∧ listed h 2 1 = 1 ∧ ¬ Symmetric h := by
  have key : ∃ h, run [.new 1 144, .new 2 142, .addPTI 1 (some 2), .delPTI 1 2] = some h
      ∧ uses h 1 2 = 0 ∧ listed h 2 1 = 1 := ⟨_, rfl, rfl, rfl⟩
  obtain ⟨h, h1, h2, h3⟩ := key
  refine ⟨_, h, ?_, h1, h2, h3, fun hs => by have := hs 1 2; omega⟩
  refine LegalRun.cons rfl rfl ?_
  refine LegalRun.cons rfl rfl ?_
  refine LegalRun.cons ⟨⟨_, rfl, rfl⟩, ?_⟩ rfl ?_
  · rintro x h; cases h; exact ⟨_, rfl, rfl⟩
  exact LegalRun.last ⟨⟨_, rfl, rfl⟩, ⟨_, rfl, rfl⟩⟩

/-- **C20 fails** (subfigure).  `DelDE` removes a member without telling it
(`/repo/src/entities/entity308.cpp:592-610`). -/
theorem C20_fails_DelDE : ∃ l h, LegalRun emptyHeap l ∧ run l = some h
    ∧ uses h 1 2 = 0 ∧ listed h 2 1 = 1 ∧ ¬ Symmetric h := by
  have key : ∃ h, run [.new 1 308, .new 2 110, .addDE 1 (some 2), .delDE 1 2] = some h
      ∧ uses h 1 2 = 0 ∧ listed h 2 1 = 1 := ⟨_, rfl, rfl, rfl⟩
  obtain ⟨h, h1, h2, h3⟩ := key
  refine ⟨_, h, ?_, h1, h2, h3, fun hs => by have := hs 1 2; omega⟩
  refine LegalRun.cons rfl rfl ?_
  refine LegalRun.cons rfl rfl ?_
  refine LegalRun.cons ⟨⟨_, rfl, rfl⟩, ?_⟩ rfl ?_
  · rintro x h; cases h; exact ⟨_, rfl, trivial⟩
  exact LegalRun.last ⟨⟨_, rfl, rfl⟩, ⟨_, rfl, trivial⟩⟩

/-- **C20, C21 fail** (face).  `SetSurface` registers no reference, so that deleting the surface
leaves the face with a dangling pointer (`/repo/src/entities/entity510.cpp:562-573`). -/
theorem C21_fails_face_surface : ∃ l h, LegalRun emptyHeap l ∧ run l = some h
    ∧ h 2 = none ∧ uses h 1 2 = 1 ∧ Dangling h ∧ ¬ Symmetric h := by
  have key : ∃ h, run [.new 1 510, .new 2 128, .setSurface 1 (some 2), .del 2] = some h
      ∧ h 2 = none ∧ uses h 1 2 = 1 := ⟨_, rfl, rfl, rfl⟩
  obtain ⟨h, h1, h2, h3⟩ := key
  have hd : Dangling h := ⟨1, 2, by omega, h2⟩
  refine ⟨_, h, ?_, h1, h2, h3, hd, hd.not_symmetric⟩
  refine LegalRun.cons rfl rfl ?_
  refine LegalRun.cons rfl rfl ?_
  refine LegalRun.cons ⟨⟨_, rfl, rfl⟩, ?_⟩ rfl ?_
  · rintro x h; cases h; exact ⟨_, rfl, trivial⟩
  exact LegalRun.last ⟨_, rfl, trivial⟩

/-- Deleting the face afterwards is undefined behaviour: its destructor calls `delReference` on
the destroyed surface (`/repo/src/entities/entity510.cpp:56-72`). -/
theorem C21_fails_face_delete : ∃ l, LegalRun emptyHeap l ∧ run l = none := by
  refine ⟨[.new 1 510, .new 2 128, .setSurface 1 (some 2), .del 2, .del 1], ?_, rfl⟩
  refine LegalRun.cons rfl rfl ?_
  refine LegalRun.cons rfl rfl ?_
  refine LegalRun.cons ⟨⟨_, rfl, rfl⟩, ?_⟩ rfl ?_
  · rintro x h; cases h; exact ⟨_, rfl, trivial⟩
  refine LegalRun.cons ⟨_, rfl, trivial⟩ rfl ?_
  exact LegalRun.last ⟨_, rfl, trivial⟩

/-- The same for a loop given to `AddBound` (`/repo/src/entities/entity510.cpp:544-559`). -/
theorem C21_fails_face_bound : ∃ l h, LegalRun emptyHeap l ∧ run l = some h
    ∧ h 2 = none ∧ uses h 1 2 = 1 ∧ Dangling h ∧ ¬ Symmetric h := by
  have key : ∃ h, run [.new 1 510, .new 2 508, .addBound 1 (some 2), .del 2] = some h
      ∧ h 2 = none ∧ uses h 1 2 = 1 := ⟨_, rfl, rfl, rfl⟩
  obtain ⟨h, h1, h2, h3⟩ := key
  have hd : Dangling h := ⟨1, 2, by omega, h2⟩
  refine ⟨_, h, ?_, h1, h2, h3, hd, hd.not_symmetric⟩
  refine LegalRun.cons rfl rfl ?_
  refine LegalRun.cons rfl rfl ?_
  refine LegalRun.cons ⟨⟨_, rfl, rfl⟩, ?_⟩ rfl ?_
  · rintro x h; cases h; exact ⟨_, rfl, rfl⟩
  exact LegalRun.last ⟨_, rfl, trivial⟩

/-- **C21, C41 fail** (vertex list in use).  Deleting a vertex list that an edge list uses is
undefined behaviour: the edge list calls a virtual method of the object whose destructor has
already reached the base class (`/repo/src/entities/entity504.cpp:280-343`,
`/repo/src/entities/iges_entity.cpp:131-146`). -/
theorem C21_fails_vertex_list : ∃ l, LegalRun emptyHeap l ∧ run l = none := by
  refine ⟨[.new 1 504, .new 2 502, .new 3 110, .addVertex 2,
    .addEdge 1 (some 3) (some 2) 1 (some 2) 1, .del 2], ?_, rfl⟩
  refine LegalRun.cons rfl rfl ?_
  refine LegalRun.cons rfl rfl ?_
  refine LegalRun.cons rfl rfl ?_
  refine LegalRun.cons ⟨_, rfl, rfl⟩ rfl ?_
  refine LegalRun.cons ⟨⟨_, rfl, rfl⟩, ?_, ?_, ?_⟩ rfl ?_
  · rintro x h; cases h; exact ⟨_, rfl, trivial⟩
  · rintro x h; cases h; exact ⟨_, rfl, rfl⟩
  · rintro x h; cases h; exact ⟨_, rfl, rfl⟩
  exact LegalRun.last ⟨_, rfl, trivial⟩

/-- **C28 fails** (subfigure).  A subfigure definition can be made a member of itself
(`/repo/src/entities/entity308.cpp:503-589`). -/
theorem C28_fails_subfigure_self : ∃ l h, LegalRun emptyHeap l ∧ run l = some h
    ∧ uses h 1 1 = 1 := by
  refine ⟨[.new 1 308, .addDE 1 (some 1)], _, ?_, rfl, rfl⟩
  refine LegalRun.cons rfl rfl ?_
  refine LegalRun.last ⟨⟨_, rfl, rfl⟩, ?_⟩
  rintro x h; cases h; exact ⟨_, rfl, trivial⟩

/-- **C28 fails** (boolean tree).  A boolean tree can be made an operand of itself
(`/repo/src/entities/entity180.cpp:583-623`). -/
theorem C28_fails_boolean_tree_self : ∃ l h, LegalRun emptyHeap l ∧ run l = some h
    ∧ uses h 1 1 = 1 := by
  refine ⟨[.new 1 180, .addArg 1 (some 1)], _, ?_, rfl, rfl⟩
  refine LegalRun.cons rfl rfl ?_
  refine LegalRun.last ⟨⟨_, rfl, rfl⟩, ?_, by simp⟩
  rintro x h; cases h; exact ⟨_, rfl, trivial⟩

/-- **C28 fails** (property).  A property can be made an optional entity of itself
(`/repo/src/entities/iges_entity.cpp:2858-2900`); deleting it then is undefined behaviour: its
destructor calls its own `unlink`, which is pure by then. -/
theorem C28_fails_property_self : ∃ l h, LegalRun emptyHeap l ∧ run l = some h
    ∧ uses h 1 1 = 1 ∧ Legal h (.del 1) ∧ destroy h 1 = none := by
  refine ⟨[.new 1 406, .addOptional 1 1], _, ?_, rfl, rfl, ⟨_, rfl, trivial⟩, rfl⟩
  refine LegalRun.cons rfl rfl ?_
  exact LegalRun.last ⟨⟨_, rfl, trivial⟩, ⟨_, rfl, trivial⟩⟩

/-- **C28, C35 fail** (indirect).  Three transformation matrices can be chained into a circle, so
that resolving the transform of any of them never ends
(`/repo/src/entities/iges_entity.cpp:2205-2259`). -/
theorem C28_fails_transform_circle : ∃ l h, LegalRun emptyHeap l ∧ run l = some h
    ∧ uses h 1 2 = 1 ∧ uses h 2 3 = 1 ∧ uses h 3 1 = 1 := by
  refine ⟨[.new 1 124, .new 2 124, .new 3 124, .setTransform 1 (some 2),
    .setTransform 2 (some 3), .setTransform 3 (some 1)], _, ?_, rfl, rfl, rfl, rfl⟩
  refine LegalRun.cons rfl rfl ?_
  refine LegalRun.cons rfl rfl ?_
  refine LegalRun.cons rfl rfl ?_
  refine LegalRun.cons ⟨⟨_, rfl, trivial⟩, ?_⟩ rfl ?_
  · rintro x h; cases h; exact ⟨_, rfl, trivial⟩
  refine LegalRun.cons ⟨⟨_, rfl, trivial⟩, ?_⟩ rfl ?_
  · rintro x h; cases h; exact ⟨_, rfl, trivial⟩
  refine LegalRun.last ⟨⟨_, rfl, trivial⟩, ?_⟩
  rintro x h; cases h; exact ⟨_, rfl, trivial⟩

end Iges.Props
