import Verif.Path
import Verif.Config
/-
Which local directories init accepts (zielen/commands/init.py:181-214), and how
a profile is selected (zielen/commandbase.py:73-95).
-/
namespace Verif
open Posix

/-- `os.path.expanduser`. `home` is the value for `~`; `user` the home directory of
another user, if there is one. -/
def expanduser (home : Str) (user : Str → Option Str) (path : Str) : Str :=
  match path with
  | '~' :: s =>
    let name := s.takeWhile (· != '/')
    let rest := s.dropWhile (· != '/')
    match (if name = [] then some home else user name) with
    | none => path
    | some h => let r := rstripSep h ++ rest
      if r = [] then ['/'] else r
  | _ => path

/-- `Profile.local_path` (zielen/profile.py:208-212). -/
def localPath (home : Str) (user : Str → Option Str) (value : Str) : Str :=
  expanduser home user (normpath value)

/-- One comparison of `_verify_local_dir` (zielen/commands/init.py:194-196, 205-207): do the paths overlap? `none` is the
`ValueError` of `commonpath`. -/
def overlaps (a b : Str) : Option Bool :=
  (commonpath a b).map (fun c => decide (c = a ∨ c = b))

/-- One step of the loop over the other profiles (zielen/commands/init.py:199-207): count the overlapping ones. -/
def countOverlap (dir : Str) (acc : Option Nat) (o : Str) : Option Nat :=
  match acc, overlaps o dir with
  | some n, some true => some (n + 1)
  | some n, some false => some n
  | _, _ => none

/-- `_verify_local_dir` (zielen/commands/init.py:181-214): `some true` if the directory is accepted, `some false` if there
is an error message, `none` if there is an exception. `others` are the local
paths of the other profiles that have a config file. -/
def verifyLocalDir (prog : Str) (others : List Str) (dir : Str) : Option Bool :=
  match overlaps dir prog with
  | none => none
  | some true => some false
  | some false =>
    (others.foldl (countOverlap dir) (some 0)).map (fun n => decide (n = 0))

/-- The outcome of `select_profile` (zielen/commandbase.py:73-95). -/
inductive SelectOutcome
  | profile (name : Str)
  | inputError
  | attributeError
deriving DecidableEq, Repr

/-- `select_profile` (zielen/commandbase.py:73-95). `pathExists` says whether
`os.path.abspath(input)` exists. `Profile` has no attribute `cfg`, so the first
iteration of the loop raises `AttributeError`. -/
def selectProfile (profiles : List Str) (pathExists : Str → Bool) (input : Str) : SelectOutcome :=
  if input ∈ profiles then .profile input
  else if pathExists input then
    match profiles with
    | [] => .inputError
    | _ :: _ => .attributeError
  else .inputError

end Verif
