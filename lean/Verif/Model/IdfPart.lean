import Verif.Model.IdfLib
/-
Component outlines loaded from files of their own: `IDF3_BOARD::GetComponentOutline` (idf/idf_parser.cpp).
-/
namespace Iges.Idf

/-- The members of `IDF3_BOARD` that `GetComponentOutline` works on: `compOutlines`, `uidFileList`, `idfVer`.  The list `uidLibList` is never filled, so that the loop
over it, idf_parser.cpp:3858-3888, does nothing. -/
structure PartStore where
  parts : SMap CompOln
  files : SMap Str
  version : Version

/-- The reading of a file with one part, idf_parser.cpp:3809-3840; `none` is an exception.  Comments come before the part; what follows it is not looked at. -/
def loadPart (ccw : List QSeg → Bool) (v : Version) (cs : List Str) : List Str → Option CompOln
  | [] => none
  | raw :: rest =>
    match fetchLine raw with
    | none => loadPart ccw v cs rest
    | some l =>
      if rest = [] then none
      else if l.comment then loadPart ccw v (cs ++ [l.text]) rest
      else
        match compKey l.text with
        | none => none
        | some c => (readComp ccw v c rest).map fun p => { p.1 with comments := cs.filter (· ≠ []) }

/-- `IDF3_BOARD::GetComponentOutline( aFullFileName )`, idf_parser.cpp:3769-3952.  `content` are the lines of the file, `none` if there is no such file; `f` is its
full name.  The result is the key of the outline in `compOutlines`, which stands for the pointer, or `none` for NULL. -/
def GetComponentOutline (ccw : List QSeg → Bool) (S : PartStore) (f : Str) (content : Option (List Str)) : Option Str × PartStore :=
  match content with
  | none => (none, S)                                                          -- 3775-3783
  | some input =>
    match S.files.find f with
    | some uid => ((S.parts.find uid).map fun _ => uid, S)                     -- 3785-3788
    | none =>
      match loadPart ccw S.version [] input with
      | none => (none, S)                                                      -- 3842-3854
      | some o =>
        match S.parts.find o.uid with
        | none => (some o.uid, { S with parts := S.parts.add o.uid o, files := S.files.add f o.uid })       -- 3893-3900
        | some o' =>
          if matchComp o o' then (some o.uid, { S with files := S.files.add f o.uid })                       -- 3902-3910
          else (none, S)                                                       -- 3912-3938

end Iges.Idf
