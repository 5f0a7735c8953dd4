import Verif.Config
import Verif.WP
/-
The profile directory and the commands that make, use and remove it (zielen/profile.py:85-128,
zielen/commandbase.py:97-140, zielen/commands/init.py:56-172, zielen/commands/reset.py:46-109).

What the commands do to the two sync directories is a parameter here; `Commands` has it.
-/
namespace Verif

/-- The info file (zielen/profile.py:420-438) without the times and the version. -/
structure PInfo where
  initialized : Bool
  addRemote : Bool
  id : Nat
deriving DecidableEq, Repr

/-- The profile directory: whether it exists, and its files. The info file may be missing or empty. A config file that
has not been written to yet has the empty text. -/
structure Prof where
  dir : Bool
  excl : Bool
  info : Option (Option PInfo)
  db : Bool
  cfg : Option Str
deriving DecidableEq, Repr

def Prof.absent : Prof := ⟨false, false, none, false, none⟩

/-- The state of a command; `rest` is everything outside the profile directory. -/
structure LS (R : Type) where
  prof : Prof
  fuel : Nat
  rest : R

namespace Lifecycle
open Prog
variable {R α : Type}

/-- One change of the profile directory. -/
def step (f : Prof → Prof) : Prog (LS R) Unit := fun s =>
  match s.fuel with
  | 0 => (.error .killed, s)
  | n + 1 => (.ok (), { s with prof := f s.prof, fuel := n })

/-- Something that does not concern the profile directory. -/
def onRest (m : Prog R α) : Prog (LS R) α := fun s => ((m s.rest).1, { s with rest := (m s.rest).2 })

/-- `Profile.read` (zielen/profile.py:85-93): a missing info file is a FileNotFoundError (zielen/containerbase.py:102-105),
an empty one a JSONDecodeError, a missing config file a FileParseError (zielen/containerbase.py:59-60) like an invalid
one. -/
def readProfile (p : Prof) : Except Err (PInfo × Str) :=
  match p.info with
  | none => .error .notFound
  | some none => .error .json
  | some (some i) => match p.cfg with
    | none => .error .parse
    | some t => if checkAll (configRead [] t) true = [] then .ok (i, t) else .error .parse

def profileRead : Prog (LS R) (PInfo × Str) := fun s => (readProfile s.prof, s)

/-- `JSONFile.write` (zielen/containerbase.py:107-110): opening the file empties it. -/
def writeInfo (i : PInfo) : Prog (LS R) Unit := do
  step (fun p => { p with info := some none })
  step (fun p => { p with info := some (some i) })

/-- `ConfigFile.write` (zielen/containerbase.py:62-85); the text is written at once. -/
def writeCfg (t : Str) : Prog (LS R) Unit := do
  step (fun p => { p with cfg := some [] })
  step (fun p => { p with cfg := some t })

/-- What the user gives to `init`: the text of the new config file or the errors in the template (`templateConfig`,
`masterConfig`), the option `--add-remote`, and the id that is generated. -/
structure InitOpts where
  config : Except (List CheckErr) Str
  addRemote : Bool
  id : Nat

/-- `Profile.generate` (zielen/profile.py:95-123). The exclude file is written in one step. -/
def generate (o : InitOpts) : Prog (LS R) (PInfo × Str) := do
  step (fun p => { p with dir := true })
  step (fun p => { p with excl := true })
  writeInfo ⟨false, o.addRemote, o.id⟩
  step (fun p => { p with db := true })
  match o.config with
  | .error _ => throw .parse
  | .ok t => do
    writeCfg t
    pure (⟨false, o.addRemote, o.id⟩, t)

/-- The files of a profile directory. -/
inductive Member | excl | info | db | cfg
deriving DecidableEq, Repr

def Prof.has (p : Prof) : Member → Bool
  | .excl => p.excl
  | .info => p.info.isSome
  | .db => p.db
  | .cfg => p.cfg.isSome

def Prof.drop (p : Prof) : Member → Prof
  | .excl => { p with excl := false }
  | .info => { p with info := none }
  | .db => { p with db := false }
  | .cfg => { p with cfg := none }

/-- Remove a file if it is there. -/
def dropMember (m : Member) : Prog (LS R) Unit := fun s =>
  if Prof.has s.prof m then step (fun p => Prof.drop p m) s else (.ok (), s)

/-- `shutil.rmtree(self.profile.path)`; the order in which it finds the files is arbitrary. -/
def rmProfile (order : List Member) : Prog (LS R) Unit := fun s =>
  if s.prof.dir then (do each dropMember order; step (fun p => { p with dir := false })) s
  else (.error .notFound, s)

/-- An exit handler: it runs when the command raises, but not when the process is killed; then the exception is
reported. -/
def atExit (handler : Prog (LS R) Unit) (m : Prog (LS R) α) : Prog (LS R) α := fun s =>
  match m s with
  | (.error e, s') =>
    if e = .killed then (.error e, s') else
      match handler s' with
      | (.error e', s'') => (.error (if e' = .killed then .killed else e), s'')
      | (.ok _, s'') => (.error e, s'')
  | r => r

/-- `cleanup_profile` (zielen/commands/init.py:64-69). -/
def cleanupProfile : Prog (LS R) Unit := fun s =>
  if s.prof.dir && !(s.prof.excl || s.prof.info.isSome || s.prof.db || s.prof.cfg.isSome) then
    step (fun p => { p with dir := false }) s
  else (.ok (), s)

/-- What the commands do outside the profile directory. -/
structure Acts (R : Type) where
  /-- `lock` (zielen/commandbase.py:114-133). -/
  lock : Prog R Unit
  /-- `check_dir` and `_verify_local_dir` for the directories of a config file (zielen/commands/init.py:126-137). -/
  check : Str → Bool → Prog R Unit
  /-- Making the objects for both directories, copying, and writing the remote database
  (zielen/commands/init.py:139-161). That making the objects raises nothing is assumed: `delete_profile` is still
  registered then. -/
  setup : Str → PInfo → Prog R Unit
  /-- The commit of the profile's database (zielen/profile.py:128). -/
  commit : Prog R Unit
  /-- What `sync` and `empty-trash` do after `setup_profile`. -/
  use : Str → PInfo → Prog R Unit
  /-- What `reset` does between `setup_profile` and the removal of the profile directory. -/
  retrieve : Str → PInfo → Prog R Unit
  order : List Member

variable (acts : Acts R)

/-- The status as it is read before the profile is locked (zielen/commands/init.py:93-98). -/
def readStatus : Prog (LS R) (Option (PInfo × Str)) := fun s =>
  match readProfile s.prof with
  | .ok r => (.ok (some r), s)
  | .error .notFound => (.ok none, s)
  | .error e => (.error e, s)

/-- A new profile (zielen/commands/init.py:120-148). -/
def newProfile (o : InitOpts) : Prog (LS R) (PInfo × Str) :=
  atExit (rmProfile acts.order) (do
    let r ← generate o
    onRest (acts.check r.2 r.1.addRemote)
    pure r)

/-- The end of an initialisation, new or resumed (zielen/commands/init.py:150-168). -/
def finish (r : PInfo × Str) : Prog (LS R) Unit := do
  onRest (acts.setup r.2 r.1)
  writeInfo { r.1 with initialized := true }
  onRest acts.commit

/-- `InitCommand.main` from the lock on, with the status that has been read (zielen/commands/init.py:100-172). -/
def initLocked (o : InitOpts) : Option (PInfo × Str) → Prog (LS R) Unit
  | some r => if r.1.initialized then throw .input else do
      onRest acts.lock
      finish acts r
  | none => do
      onRest acts.lock
      let r ← newProfile acts o
      finish acts r

/-- `InitCommand.main` (zielen/commands/init.py:56-172) with a valid name. -/
def initCmd (o : InitOpts) : Prog (LS R) Unit := atExit cleanupProfile (do
  let st ← readStatus
  initLocked acts o st)

/-- `setup_profile` (zielen/commandbase.py:97-112), after `select_profile` by name (zielen/commandbase.py:82-84). -/
def setupProfile : Prog (LS R) (PInfo × Str) := fun s =>
  if s.prof.dir then (do
    let r ← profileRead
    onRest acts.lock
    if r.1.initialized then pure r else throw .input) s
  else (.error .input, s)

/-- `SyncCommand.main`, `EmptyTrashCommand.main`. -/
def useCmd : Prog (LS R) Unit := do
  let r ← setupProfile acts
  onRest (acts.use r.2 r.1)

/-- `ResetCommand.main` (zielen/commands/reset.py:46-109). -/
def resetCmd : Prog (LS R) Unit := do
  let r ← setupProfile acts
  onRest (acts.retrieve r.2 r.1)
  rmProfile acts.order

inductive Cmd
  | init (o : InitOpts)
  | use
  | reset

def Cmd.prog : Cmd → Prog (LS R) Unit
  | .init o => initCmd acts o
  | .use => useCmd acts
  | .reset => resetCmd acts

/-- Run a command that is killed after `fuel` changes of the profile directory. -/
def run (c : Cmd) (fuel : Nat) (s : LS R) : Except Err Unit × LS R := c.prog acts { s with fuel := fuel }

end Lifecycle
end Verif
