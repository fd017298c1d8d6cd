/-
Independent specification of directory entries.  Nothing here refers to the model.
-/
namespace Iges.Spec

/-- The four two-digit groups of a status number, most significant first (IGES 5.3, 2.2.4.4.9):
blank status, subordinate switch, use flag, hierarchy. -/
def statusGroups (blank depends use hier : Nat) : Nat :=
  blank * 1000000 + depends * 10000 + use * 100 + hier

/-- Sequence number of the first directory record of the entity at position `i`. -/
def dirSeq (i : Nat) : Nat := 2 * i + 1

/-- The supported entity types and the form numbers the standard gives them. -/
def formsOf : List (Nat × List Int) :=
  [(100, [0]), (102, [0]), (104, [1, 2, 3]), (110, [0, 1, 2]), (120, [0]), (122, [0]),
   (126, [0, 1, 2, 3, 4, 5]), (128, [0, 1, 2, 3, 4, 5, 6, 7, 8, 9]), (142, [0]), (144, [0]), (154, [0]),
   (164, [0]), (180, [0, 1]), (186, [0]), (308, [0]), (314, [0]), (406, [15]), (408, [0]), (502, [1]),
   (504, [1]), (508, [0, 1]), (510, [1]), (514, [1])]

end Iges.Spec
