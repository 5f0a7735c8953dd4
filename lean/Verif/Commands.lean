import Verif.FilesManager
/-
The commands sync, init, reset and empty-trash. Locks and the status of the profile are modelled in
`Verif.Lock`; here the command holds the lock.
-/
namespace Verif
open Prog OSM Call FSTools WM

/-- `remote_dir.write()` (zielen/userdata.py:178-180). -/
def writeRemote : WM Unit := save (fun w => { w with rdbSaved := w.rdb })

/-- `profile.write()` (zielen/profile.py:125-128): first the info file, then the database. -/
def writeProfile : WM Unit := do
  save (fun w => { w with lastSaved := w.last })
  save (fun w => { w with dbSaved := w.db })

/-- `if self.profile.inflate_priority: self.profile.add_inflated(...)` (zielen/commands/sync.py:86-87,
103-104). -/
def inflateNew (env : Env) (files dirs : List Path) : WM Unit :=
  if env.inflate then addInflated files dirs else pure ()

/-- `SyncCommand.main` up to the deletions (zielen/commands/sync.py:59-89). The result is the deleted, the new
and the modified paths. -/
def syncScan (env : Env) : WM (DeletedPaths × UpdatedPaths × UpdatedPaths) := do
  sys (makedirs env.loc)
  sys (addExcludeFile env)
  let l ← scanLocal env
  let r ← scanRemote env
  let ex ← exclMatches env
  let db ← gets World.db
  let rdb ← gets World.rdb
  let last ← gets World.last
  let new := computeAdded env.loc l r db ex
  let del ← get? .key (computeDeleted l.keys r.keys db rdb env.useTrash)
  let mod := computeModified env.loc l r db rdb last
  let filePaths := l.nonDirs.keys ++ r.nonDirs.keys
  let dirPaths := l.dirs.keys ++ r.dirs.keys
  inflateNew env (new.loc.filter (fun p => decide (p ∉ dirPaths)))
    (new.loc.filter (fun p => decide (p ∉ filePaths)))
  addRemote ((setOf (new.loc ++ new.rem)).filter (fun p => decide (p ∉ dirPaths)))
    ((setOf (new.loc ++ new.rem)).filter (fun p => decide (p ∉ filePaths)))
  addLocal ((setOf (new.loc ++ new.rem)).filter (fun p => decide (p ∉ dirPaths)))
    ((setOf (new.loc ++ new.rem)).filter (fun p => decide (p ∉ filePaths))) true
  pure (del, new, mod)

/-- Deletions, conflicts and the update of the remote directory (zielen/commands/sync.py:91-109). -/
def syncRemote (env : Env) (del : DeletedPaths) (new mod : UpdatedPaths) : WM Unit := do
  rmLocalFiles env del.loc
  rmRemoteFiles env del.rem
  trashFiles env del.trash
  let upd ← handleConflicts env (mod.loc ++ new.loc) (mod.rem ++ new.rem)
  inflateNew env upd.loc []
  addRemote (setOf (upd.loc ++ upd.rem)) []
  addLocal (setOf (upd.loc ++ upd.rem)) [] true
  updateRemote env upd.loc

/-- What stays in the local directory (zielen/commands/sync.py:114-123): the selected paths and the excluded
ones that are in the remote directory. -/
def syncSelect (env : Env) : WM (List Path × List Path) := do
  let ex ← exclMatches env
  let r ← scanRemote env
  let rex := ex.filter (fun p => decide (p ∈ r.keys))
  let l ← scanLocal env
  let exSize ← get? .key (excludedSize l ex)
  let r ← rescanRemote env
  let db ← gets World.db
  let rdb ← gets World.rdb
  let dirs ← get? .key (prioritizeDirs (selEnv env db rdb r) (env.storageLimit - exSize))
  let files ← get? .key (prioritizeFiles (selEnv env db rdb r) dirs.1 dirs.2)
  pure (dirs.2 ++ files.2 ++ rex, rex)

/-- `if self.profile.cleanup_period: fm.cleanup_trash()` (zielen/commands/sync.py:133-135). -/
def syncCleanup (env : Env) : WM Unit :=
  match env.cleanup with
  | none => pure ()
  | some t => if t = 0 then pure () else sys (cleanupTrash env t)

/-- The end of a sync: what is saved (zielen/commands/sync.py:137-141). -/
def syncSave : WM Unit := do
  writeRemote
  let now ← sys time
  modify (fun w => { w with last := now })
  writeProfile

/-- The rest of a sync (zielen/commands/sync.py:125-141). -/
def syncLocal (env : Env) (sel rex : List Path) : WM Unit := do
  updateLocal env sel
  rmExcludedFiles env rex
  syncCleanup env
  syncSave

/-- `SyncCommand.main` (zielen/commands/sync.py:59-141). -/
def sync (env : Env) : WM Unit := do
  let (del, new, mod) ← syncScan env
  syncRemote env del new mod
  let (sel, rex) ← syncSelect env
  syncLocal env sel rex

/-- Start a command: what has not been saved is lost, nothing is memoized. -/
def World.restart (w : World) (fuel : Nat) : World :=
  { w with os := { w.os with fuel := fuel }, db := w.dbSaved, rdb := w.rdbSaved, last := w.lastSaved,
           lmemo := [], rmemo := [], matches_ := none }

/-- `InitCommand.main` after the profile directory has been made (zielen/commands/init.py:108-172); a resumed
initialisation does the same. -/
def init (env : Env) (addRemote_ : Bool) : WM Unit := do
  sys (makedirs env.loc)
  sys (makedirs env.exclDir)
  sys (makedirs env.trash)
  if addRemote_ then setupFromRemote env else setupFromLocal env
  sys (addExcludeFile env)
  writeRemote
  let now ← sys time
  modify (fun w => { w with last := now })
  writeProfile

/-- Removing one entry of the remote directory in a reset (zielen/commands/reset.py:86-90). `entry.is_dir` is
a method and is not called, so the test is always true. -/
def clearOne (env : Env) (e : Path) : OSM Unit := rmtree (env.rem ++ e)

/-- Clearing the remote directory (zielen/commands/reset.py:74-92). -/
def clearRemote (env : Env) : WM Unit := do
  let r ← rescanRemote env
  if r.nonDirs.isEmpty then
    sys (tryCatch (do
        let es ← query (fun fs => scandir fs env.rem)
        each (clearOne env) (env.order es))
      (fun e => if e = .notFound then some (pure ()) else none))
  else throw .transfer

/-- Whether a link made in `full` points into the remote directory (zielen/commands/reset.py:99-105). -/
def pointsToRemote (env : Env) (full : Path) (t : Str) : Bool :=
  let dest := if Posix.isabs t then t else Posix.join (absStr full.dropLast) t
  decide (Posix.commonpath dest (absStr env.rem) = some (absStr env.rem))

/-- One round of the last loop of a reset (zielen/commands/reset.py:98-106). -/
def unlinkOne (env : Env) (p : Path) : OSM Unit := do
  let n ← query (fun fs => fs.lstat (env.loc ++ p))
  match n with
  | .link t _ => if pointsToRemote env (env.loc ++ p) t then remove (env.loc ++ p) else pure ()
  | _ => throw .invalid

/-- Retrieving the files (zielen/commands/reset.py:53-92). That there is enough space is
assumed here; the check is in `Verif.Space`. -/
def resetGet (env : Env) (keepRemote noRetrieve : Bool) : WM Unit :=
  if noRetrieve then pure ()
  else do
    let _ ← scanRemote env
    let rdb ← gets World.rdb
    sys (orRemote env (transferTree env.rem env.loc (some (ADB.paths rdb)) [] (!keepRemote)))
    if keepRemote then pure () else clearRemote env

/-- The end of a reset (zielen/commands/reset.py:94-108). -/
def resetTail (env : Env) : WM Unit := do
  let l ← scanLocal env
  sys (each (unlinkOne env) ((l.filter (fun e => e.2.isLink)).map Prod.fst))
  sys (rmExcludeFile env)

/-- `ResetCommand.main` (zielen/commands/reset.py:44-109). Removing the profile directory, which is not part of
this state, comes last. -/
def reset (env : Env) (keepRemote noRetrieve : Bool) : WM Unit := do
  sys (makedirs env.loc)
  resetGet env keepRemote noRetrieve
  resetTail env

/-- One round of the loop of `empty-trash` (zielen/commands/emptytrash.py:42-50). -/
def emptyOne (env : Env) (e : Path) : OSM Unit :=
  tryCatch (remove (env.trash ++ e)) (rmFailed (env.trash ++ e))

/-- `EmptyTrashCommand.main` (zielen/commands/emptytrash.py:36-51). -/
def emptyTrash (env : Env) : OSM Unit := do
  makedirs env.loc
  let es ← query (fun fs => scandir fs env.trash)
  each (emptyOne env) (env.order es)

end Verif
