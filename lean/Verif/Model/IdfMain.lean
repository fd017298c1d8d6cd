import Verif.Model.Path
/-
The converter of boards, `idf2igs` (idf/idf2igs.cpp): which files it reads and writes, and its exit status.
What the steps in between do is modelled elsewhere (Model/IdfLib.lean, Model/IdfBoard.lean, Model/IdfUse.lean,
Model/File.lean); here only whether they succeed matters.
-/
namespace Iges.IdfMain

/-- How the steps of a run end.
* `isFile`: `MCAD_FILEPATH::FileExists`, iges/mcad_utils.cpp:223-247;
* `libOk`, `boardOk`: `readLibFile` and `readBoardFile` return without an exception;
* `colours`: the result of `initColors`, idf2igs.cpp:789-;
* `made`: the results of `MakeBoard`, `MakeComponents` and `MakeOtherOutlines`;
* `writeOk`: the result of `DLL_IGES::Write`. -/
structure Steps where
  isFile : Str → Bool
  libOk : Str → Bool
  boardOk : Str → Bool
  colours : Bool
  made : Bool × Bool × Bool
  writeOk : Str → Bool

/-- What a run does to files. `wrote f ok` is a call of `Write` that overwrites `f`; `ok` is its result. -/
inductive Event
  | readLib (f : Str)
  | readBoard (f : Str)
  | wrote (f : Str) (ok : Bool)
  deriving Repr, DecidableEq

/-- A path with its extension set: the constructor of `MCAD_FILEPATH` or `SetPath`, then `SetExtension` and
`GetFullPath`; idf_parser.cpp:2746-2753 and idf2igs.cpp:163-166. -/
def named (arg ext : Str) : Res FilePath := (SetExtension (SetPath (some arg)) ext).bind fun (p, _) => .ok p

/-- `IDF3_BOARD::ReadFile`, idf/idf_parser.cpp:2740-2791: the result, and the files that were read. -/
def ReadFile (s : Steps) (arg : Str) : Res (Bool × List Event) :=
  (named arg "emn".toList).bind fun b =>
  (named arg "emp".toList).bind fun l =>
  if s.isFile b.full = false then .ok (false, [])
  else
    let lib := if s.isFile l.full = false then [] else [Event.readLib l.full]
    if lib ≠ [] ∧ s.libOk l.full = false then .ok (false, lib)
    else .ok (s.boardOk b.full, lib ++ [Event.readBoard b.full])

/-- `main`, idf/idf2igs.cpp:110-183; `args` is `argv[1]` and what follows. The result is the exit status, the
name of the model (`globs.basename`) if it was set, and what was done to files. The messages, the locale, the
unit and the resolution are left out. -/
def main (s : Steps) (args : List Str) : Res (Int × Option Str × List Event) :=
  match args with
  | [arg] =>
    if arg = [] then .ok (-1, none, [])
    else
      (ReadFile s arg).bind fun (ok, ev) =>
        if ok = false then .ok (-1, none, ev)
        else if s.colours = false then .ok (-1, none, ev)
        else
          (named arg "igs".toList).bind fun o =>
          (GetBaseName o).bind fun (o, base) =>
            -- the results of the three `Make` functions and of `Write` are not used
            let _ := s.made
            .ok (0, base, ev ++ [Event.wrote o.full (s.writeOk o.full)])
  | _ => .ok (-1, none, [])

end Iges.IdfMain
