import Verif.Commands
/-
The file of the remote database, and `init` with it. In `Commands` the remote database is always there.
-/
namespace Verif
open Prog OSM Call FSTools WM

/-- The state of an initialisation and the file `.zielen/remote.db` of its remote directory: whether it is there, and how
many of its tables have been made, in the order `nodes`, `closure`, `collisions`. -/
structure DBWorld where
  world : World
  tables : Option Nat

namespace RemoteFile
variable {α : Type}

/-- Something that does not concern whether the tables are there. -/
def onWorld (m : WM α) : Prog DBWorld α := fun s => ((m s.world).1, { s with world := (m s.world).2 })

/-- A change of the database file that is one transaction. -/
def tableStep (n : Nat) : Prog DBWorld Unit := fun s =>
  match s.world.os.fuel with
  | 0 => (.error .killed, s)
  | f + 1 => (.ok (), ⟨{ s.world with os := { s.world.os with fuel := f } }, some n⟩)

/-- `RemoteDBFile.create` (zielen/userdata.py:263-308) as `RemoteSyncDir.generate` calls it (zielen/userdata.py:173-176):
a file that is there is left alone. `sqlite3.connect` makes an empty file. `executescript` commits before it starts and
then runs each statement in a transaction of its own. -/
def createRemote : Prog DBWorld Unit := fun s =>
  match s.tables with
  | some _ => (.ok (), s)
  | none => (do tableStep 0; tableStep 1; tableStep 2; tableStep 3 : Prog DBWorld Unit) s

/-- The first statement of `RemoteDBFile.add_paths` (zielen/userdata.py:360-366), or the query of `_get_path_id`
(zielen/containerbase.py:201-205), needs the table that is made last. Without it there is a `sqlite3.OperationalError`,
here `integrity`. -/
def needTables : Prog DBWorld Unit := fun s =>
  if s.tables = some 3 then (.ok (), s) else (.error .integrity, s)

/-- `setup_from_local` or `setup_from_remote` up to the first use of the remote database
(zielen/filelogic.py:438-450, 460-499). The result is what is to be added to it. -/
def setupBefore (env : Env) (addRemote_ : Bool) : WM (List Path × List Path) := do
  let unsafe_ ← if addRemote_ then (do
      let r ← scanRemote env
      pure (unsafeLinks env.rem r))
    else (do
      let l ← scanLocal env
      let ex ← exclMatches env
      sys (orRemote env (transferTree env.loc env.rem none (ex ++ unsafeLinks env.loc l) false))
      pure (unsafeLinks env.loc l))
  let r ← scanRemote env
  addLocal (r.nonDirs.keys.filter (fun p => decide (p ∉ unsafe_))) r.dirs.keys false
  pure (r.nonDirs.keys.filter (fun p => decide (p ∉ unsafe_)), r.dirs.keys)

/-- The rest of `init` (zielen/filelogic.py:450-458, zielen/commands/init.py:157-172). -/
def setupAfter (env : Env) (x : List Path × List Path) : WM Unit := do
  addRemote x.1 x.2
  let db ← gets World.db
  let _ ← sys (symlinkTree env.rem env.loc (ADB.paths (ALocal.getPaths db [] (some false) none))
    (ADB.paths (ALocal.getPaths db [] (some true) none)) true)
  sys (addExcludeFile env)
  writeRemote
  let now ← sys time
  modify (fun w => { w with last := now })
  writeProfile

/-- The directories that `init` makes first (zielen/userdata.py:135-137, 168-171). -/
def makeDirs (env : Env) : WM Unit := do
  sys (makedirs env.loc)
  sys (makedirs env.exclDir)
  sys (makedirs env.trash)

/-- `InitCommand.main` after the profile directory has been made (zielen/commands/init.py:108-172), with the file of the
remote database. -/
def initFiles (env : Env) (addRemote_ : Bool) : Prog DBWorld Unit := do
  onWorld (makeDirs env)
  createRemote
  let x ← onWorld (setupBefore env addRemote_)
  needTables
  onWorld (setupAfter env x)

end RemoteFile
end Verif
