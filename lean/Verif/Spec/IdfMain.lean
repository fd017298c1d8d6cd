import Verif.Spec.Path
/-
Independent specification of the files a converter of boards deals with.
-/
namespace Iges.Spec

/-- The path a user gives, with `\` read as `/`. -/
def nativePath (arg : List Char) : List Char := arg.map fun c => if c = '\\' then '/' else c

/-- `stem` is the path without its extension and the dot before it; a file name without extension is kept. -/
inductive Stem (path : List Char) : List Char → Prop
  | dotted (dir b e : List Char) : PathParts path dir (b ++ '.' :: e) → b ≠ [] → '.' ∉ e → Stem path (dir ++ b)
  | bare (base : List Char) : NameParts path base none → Stem path path

end Iges.Spec
