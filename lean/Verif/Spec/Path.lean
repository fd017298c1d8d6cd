/-
Independent specification of the parts of a file path.
-/
namespace Iges.Spec

/-- `path` is a directory part (empty or ending in a separator) followed by a file name without
separator. -/
def PathParts (path dir file : List Char) : Prop :=
  path = dir ++ file ∧ '/' ∉ file ∧ (dir = [] ∨ dir.getLast? = some '/')

/-- The base name and the extension of a path. The extension is what follows the last dot of the file
name, provided that something precedes this dot; a file name without such a dot has no extension. -/
inductive NameParts (path : List Char) : List Char → Option (List Char) → Prop
  | dotted (dir b e : List Char) : PathParts path dir (b ++ '.' :: e) → b ≠ [] → '.' ∉ e →
      NameParts path b (some e)
  | hidden (dir r : List Char) : PathParts path dir ('.' :: r) → '.' ∉ r → NameParts path ('.' :: r) none
  | plain (dir file : List Char) : PathParts path dir file → '.' ∉ file → NameParts path file none

/-- The file name is the base name, followed by a dot and the extension if there is one. -/
def fileName (base : List Char) : Option (List Char) → List Char
  | none => base
  | some e => base ++ '.' :: e

end Iges.Spec
