import Verif.Commands
import Verif.Overlap
/-
The checks of a new initialisation: `check_dir` (zielen/fstools.py:239-264) and its use in `init`
(zielen/commands/init.py:126-172).
-/
namespace Verif
open Prog OSM Call FSTools WM

/-- `check_dir` (zielen/fstools.py:239-264): true if there is no error message. Every directory is assumed to be
writable, so the two messages about write access do not occur. `os.makedirs` is called without `exist_ok` only if nothing is at
the path, or a dangling link; in both cases the option makes no difference. Listing a directory through a link is not
modelled (`scandir`). -/
def checkDir (path : Path) (expectEmpty : Bool) : OSM Bool := do
  if ← ask (fun fs => fs.pathExists path) then
    if ← ask (fun fs => fs.pathIsDir path) then
      if expectEmpty then do
        let es ← query (fun fs => scandir fs path)
        pure es.isEmpty
      else pure true
    else pure false
  else if expectEmpty then do
    makedirs path
    pure true
  else pure false

/-- The checks of a new initialisation (zielen/commands/init.py:126-137). `prog` is the program directory, `others` are
the local directories of the other profiles. -/
def checkDirs (env : Env) (prog : Str) (others : List Str) (addRemote_ : Bool) : OSM Unit := do
  if ← checkDir env.loc addRemote_ then
    match verifyLocalDir prog others (absStr env.loc) with
    | none => throw .invalid
    | some false => throw .input
    | some true =>
      if ← checkDir env.rem (!addRemote_) then pure () else throw .input
  else throw .input

/-- A new initialisation after the files of the profile have been made (zielen/commands/init.py:126-172), with `init`
of `Commands` for the part after the checks. -/
def initNew (env : Env) (prog : Str) (others : List Str) (addRemote_ : Bool) : WM Unit := do
  sys (checkDirs env prog others addRemote_)
  init env addRemote_

end Verif
