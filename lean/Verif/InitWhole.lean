import Verif.CheckDir
import Verif.Lifecycle
import Verif.Signal
/-
The command `init` as a whole: the profile directory (`Lifecycle`) and the two sync directories (`Commands`, `CheckDir`).
-/
namespace Verif
open Prog OSM Call FSTools WM Lifecycle

/-- `InitCommand.main` up to where the status is changed (zielen/commands/init.py:139-170). -/
def initSetup (env : Env) (addRemote_ : Bool) : WM Unit := do
  sys (makedirs env.loc)
  sys (makedirs env.exclDir)
  sys (makedirs env.trash)
  if addRemote_ then setupFromRemote env else setupFromLocal env
  sys (addExcludeFile env)
  writeRemote
  let now ← sys time
  modify (fun w => { w with last := now })

/-- The parts of `init`, `sync` and `reset` for one profile (zielen/commands/init.py:126-172, zielen/commands/sync.py,
zielen/commands/reset.py). The config file is taken to be the one that `env` has been read from, and the generated id to be
the one of `env`; the profile is never locked by another process. The info file is written in `Lifecycle`; the time in it
is saved with the database here (zielen/profile.py:125-128). -/
def initActs (env : Env) (prog : Str) (others : List Str) : Acts World where
  lock := pure ()
  check _ a := sys (checkDirs env prog others a)
  setup _ i := initSetup env i.addRemote
  commit := writeProfile
  use _ _ := sync env
  retrieve _ _ := reset env false false
  order := [.info, .cfg, .db, .excl]

/-- Run a command in a new process. It is killed after the first number of changes of the profile directory, or the second number of
changes of anything else. -/
def freshRun (acts : Acts World) (c : Cmd) (x : Nat × Nat) (s : LS World) : Except Err Unit × LS World :=
  Lifecycle.run acts c x.1 { s with rest := s.rest.restart x.2 }

/-- The local directories of the other profiles, as a new initialisation sees them. A directory that an earlier run has left
is one of `self.profiles` (zielen/commandbase.py:58-62); `self.profile` is another object (zielen/commands/init.py:95, 200), and
the new config file is already there (zielen/commands/init.py:128, 200-207). So the local directory is compared with itself. -/
def seen (env : Env) (others : List Str) (p : Prof) : List Str := if p.dir then absStr env.loc :: others else others

/-- Run `init` in a new process. It is killed, or gets a signal, there. -/
def initOnce (env : Env) (prog : Str) (others : List Str) (sg : Option Nat) (o : InitOpts) (x : Nat × Nat) (s : LS World) :
    Except Err Unit × LS World :=
  Lifecycle.sigRun (initActs env prog (seen env others s.prof)) sg o x.1 { s with rest := s.rest.restart x.2 }

/-- Run `init` again and again; each run is killed or gets a signal. -/
def sigRuns (env : Env) (prog : Str) (others : List Str) (o : InitOpts) : List (Option Nat × Nat × Nat) → LS World → LS World
  | [], s => s
  | x :: xs, s => sigRuns env prog others o xs (initOnce env prog others x.1 o x.2 s).2

/-- Run `init` again and again; each run is killed. -/
def initRuns (env : Env) (prog : Str) (others : List Str) (o : InitOpts) : List (Nat × Nat) → LS World → LS World
  | [], s => s
  | x :: xs, s => initRuns env prog others o xs (initOnce env prog others none o x s).2

end Verif
