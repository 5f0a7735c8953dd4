import Verif.InitWhole
import Verif.ListCommand
/-
All profiles of a user: the directories in the profiles directory (zielen/commandbase.py:56-66), `list`
(zielen/commands/list.py:30-51), and how `init` reads the other profiles (zielen/commands/init.py:181-214).
-/
namespace Verif
open Prog OSM Call FSTools WM Lifecycle

/-- `self.profiles` (zielen/commandbase.py:58-62): the directories in the profiles directory, in the order of `os.scandir`, with
what is in them. -/
abbrev Profiles := List (Str × Prof)

namespace Profiles

/-- The directory of a profile. -/
def get (ps : Profiles) (n : Str) : Prof := ((ps.find? (fun e => decide (e.1 = n))).map Prod.snd).getD Prof.absent

/-- Change the directory of a profile. The place of a new directory in the order is arbitrary; here it is the last one. -/
def put (ps : Profiles) (n : Str) (p : Prof) : Profiles :=
  if p.dir then
    if n ∈ ps.map Prod.fst then ps.map (fun e => if e.1 = n then (n, p) else e) else ps ++ [(n, p)]
  else ps.filter (fun e => decide (e.1 ≠ n))

end Profiles

/-- How `list` can raise: a `FileParseError` for a config file that cannot be opened, a `TypeError` for an option without a
value. -/
inductive ListErr | parse | type
deriving DecidableEq, Repr

/-- Read the config file of a profile for `list` (zielen/commands/list.py:37-41). The syntax is not checked. -/
def readConfig (e : Str × Prof) : Except ListErr (Str × Str) :=
  match e.2.cfg with
  | some t => .ok (e.1, t)
  | none => .error .parse

/-- The loop of `list` that reads the config files (zielen/commands/list.py:35-41). -/
def readConfigs (ps : Profiles) : Except ListErr (List (Str × Str)) := ps.mapM readConfig

/-- `ListCommand.main` (zielen/commands/list.py:30-51): what is printed, without the final line end. -/
def listCmd (ps : Profiles) : Except ListErr Str :=
  match readConfigs ps with
  | .error e => .error e
  | .ok cs => match listOutput cs with
    | some out => .ok out
    | none => .error .type

/-- `Profile.local_path` (zielen/profile.py:208-212) for a config file. Without a value for the option, `os.path.normpath`
raises a `TypeError`. -/
def cfgLocal (home : Str) (user : Str → Option Str) (t : Str) : Except Err Str :=
  match vals (configRead [] t) "LocalDir".toList with
  | some v => .ok (localPath home user v)
  | none => .error .attribute

/-- The loop over the other profiles in `_verify_local_dir` (zielen/commands/init.py:198-207): how many overlap. A profile
without a config file is skipped, every other one is read. -/
def overlapLoop (home : Str) (user : Str → Option Str) (dir : Str) : List Prof → Nat → Except Err Nat
  | [], n => .ok n
  | p :: ps, n =>
    if p.cfg.isNone then overlapLoop home user dir ps n else
      match readProfile p with
      | .error e => .error e
      | .ok r => match cfgLocal home user r.2 with
        | .error e => .error e
        | .ok l => match overlaps l dir with
          | none => .error .invalid
          | some b => overlapLoop home user dir ps (if b then n + 1 else n)

/-- `_verify_local_dir` (zielen/commands/init.py:181-214): true if there is no error message. -/
def verifyLocal (home : Str) (user : Str → Option Str) (prog : Str) (ps : List Prof) (dir : Str) : Except Err Bool :=
  match overlaps dir prog with
  | none => .error .invalid
  | some true => .ok false
  | some false => match overlapLoop home user dir ps 0 with
    | .error e => .error e
    | .ok n => .ok (decide (n = 0))

/-- The checks of a new initialisation (zielen/commands/init.py:126-137), like `checkDirs`, with the other profiles. -/
def checkDirsP (env : Env) (home : Str) (user : Str → Option Str) (prog : Str) (ps : List Prof) (addRemote_ : Bool) :
    OSM Unit := do
  if ← checkDir env.loc addRemote_ then
    match verifyLocal home user prog ps (absStr env.loc) with
    | .error e => throw e
    | .ok false => throw .input
    | .ok true =>
      if ← checkDir env.rem (!addRemote_) then pure () else throw .input
  else throw .input

/-- The directories that the loop sees: those that were there when the command began (zielen/commandbase.py:58-62). The one of
the profile itself, if it was there, now has the new info file and config file (zielen/commands/init.py:128, 200). -/
def seenDirs (ps : Profiles) (name : Str) (t : Str) (i : PInfo) : List Prof :=
  ps.map (fun e => if e.1 = name then ⟨true, true, some (some i), true, some t⟩ else e.2)

/-- `initActs` with the profiles that were there when the command began. -/
def initActsP (env : Env) (home : Str) (user : Str → Option Str) (prog : Str) (ps : Profiles) (name : Str) (id : Nat) :
    Acts World :=
  { initActs env prog [] with
    check := fun t a => sys (checkDirsP env home user prog (seenDirs ps name t ⟨false, a, id⟩) a) }

/-- The profiles and everything else. -/
structure Machine where
  profs : Profiles
  rest : World

/-- The computer of one user: the settings of each profile, the home directories and the program directory. -/
structure User where
  env : Str → Env
  home : Str
  homes : Str → Option Str
  prog : Str

/-- The id that a command would generate. -/
def Lifecycle.Cmd.id : Cmd → Nat
  | .init o => o.id
  | _ => 0

/-- Run a command with the name of a profile in a new process. It is killed after the first number of changes of the profile
directory, or the second number of changes of anything else. -/
def Machine.run (u : User) (name : Str) (c : Cmd) (x : Nat × Nat) (m : Machine) : Except Err Unit × Machine :=
  let r := freshRun (initActsP (u.env name) u.home u.homes u.prog m.profs name c.id) c x ⟨m.profs.get name, 0, m.rest⟩
  (r.1, ⟨m.profs.put name r.2.prof, r.2.rest⟩)

/-- Run commands one after the other. -/
def Machine.runs (u : User) : List (Str × Cmd × Nat × Nat) → Machine → Machine
  | [], m => m
  | (name, c, x) :: cs, m => Machine.runs u cs (m.run u name c x).2

end Verif
