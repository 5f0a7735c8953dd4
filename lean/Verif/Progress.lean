import Verif.Commands
/-
The progress bar: `transfer_tree` and the commands that call it if the output goes to a terminal.
-/
namespace Verif
open Prog OSM Call FSTools WM

/-- `os.stat(path).st_size` for every source path (zielen/fstools.py:89). What the size of a node is is a parameter. -/
def sourceSizes (size : Node → Nat) (fs : FS) (source : Path) : List Path → Except Err (List (Path × Nat))
  | [] => .ok []
  | p :: ps => match fs.stat (source ++ p) with
    | .error e => .error e
    | .ok (_, n) => match sourceSizes size fs source ps with
      | .error e => .error e
      | .ok l => .ok ((p, size n) :: l)

/-- `ProgressBar.update` (zielen/utils.py:226-256) as far as it does not concern the layout: it raises `ValueError` or
shows the amount. The argument is `transferred_size / total_source_size`, or 1 if that raises `ZeroDivisionError`
(zielen/fstools.py:109-112), as a rational number. -/
def barUpdate (done total : Nat) : OSM Rat :=
  let x : Rat := if total = 0 then 1 else (done : Rat) / (total : Rat)
  if 1 < x ∨ x < 0 then throw .invalid else pure x

/-- Removing the source if that was asked for (zielen/fstools.py:114-118). -/
def rmIf (rmSource : Bool) (p : Path) : OSM Unit := if rmSource then rmSrc p else pure ()

/-- The loop with a progress bar (zielen/fstools.py:94-118); the result is what the bar has shown. -/
def transferLoop (source dest : Path) (rmSource : Bool) (total : Nat) : Nat → List (Path × Nat) → OSM (List Rat)
  | _, [] => pure []
  | done, (p, n) :: rest => do
    makedirs (dest ++ p).dropLast
    copyEntry (source ++ p) (dest ++ p)
    let x ← barUpdate (done + n) total
    rmIf rmSource (source ++ p)
    let xs ← transferLoop source dest rmSource total (done + n) rest
    pure (x :: xs)

/-- `transfer_tree` if the standard output is a terminal (zielen/fstools.py:33-121). -/
def transferBar (size : Node → Nat) (source dest : Path) (files : Option (List Path)) (exclude : List Path)
    (rmSource : Bool) : OSM (List Rat) := do
  let b ← ask (fun fs => fs.pathExists source)
  if b then do
    let ps ← query (fun fs => listPaths fs source files)
    let ss ← query (fun fs => sourceSizes size fs source (descending (ps.filter (fun p => decide (p ∉ exclude)))))
    transferLoop source dest rmSource (ss.map Prod.snd).sum 0 ss
  else throw .notFound

/-- A way to transfer files. -/
abbrev Transfer := Path → Path → Option (List Path) → List Path → Bool → OSM Unit

/-- At a terminal. -/
def atTerminal (size : Node → Nat) : Transfer := fun source dest files exclude rmSource => do
  let _ ← transferBar size source dest files exclude rmSource
  pure ()

/-- `update_local` (zielen/filelogic.py:360-413) with a way to transfer files. -/
def updateLocalVia (tr : Transfer) (env : Env) (ps : List Path) : WM Unit := do
  let ps := setOf ps
  removeStale env ps
  let rdb ← gets World.rdb
  let new ← sys (orRemote env (do
    let new ← symlinkTree env.rem env.loc (ADB.paths (ARemote.getPaths rdb [] (some false) none))
      (ADB.paths (ARemote.getPaths rdb [] (some true) none)) false
    tr env.rem env.loc (some ps) [] false
    pure new))
  modify (fun w => { w with db := markLocal w.db ps new })

/-- `update_remote` (zielen/filelogic.py:415-436) with a way to transfer files. -/
def updateRemoteVia (tr : Transfer) (env : Env) (ps : List Path) : WM Unit := do
  sys (orRemote env (tr env.loc env.rem (some ps) [] false))
  let now ← sys time
  modify (fun w => { w with rdb := w.rdb.updatePaths ps none (some now) })

/-- zielen/commands/sync.py:91-109. -/
def syncRemoteVia (tr : Transfer) (env : Env) (del : DeletedPaths) (new mod : UpdatedPaths) : WM Unit := do
  rmLocalFiles env del.loc
  rmRemoteFiles env del.rem
  trashFiles env del.trash
  let upd ← handleConflicts env (mod.loc ++ new.loc) (mod.rem ++ new.rem)
  inflateNew env upd.loc []
  addRemote (setOf (upd.loc ++ upd.rem)) []
  addLocal (setOf (upd.loc ++ upd.rem)) [] true
  updateRemoteVia tr env upd.loc

/-- zielen/commands/sync.py:125-141. -/
def syncLocalVia (tr : Transfer) (env : Env) (sel rex : List Path) : WM Unit := do
  updateLocalVia tr env sel
  rmExcludedFiles env rex
  syncCleanup env
  syncSave

/-- `SyncCommand.main` (zielen/commands/sync.py:59-141) with a way to transfer files. -/
def syncVia (tr : Transfer) (env : Env) : WM Unit := do
  let (del, new, mod) ← syncScan env
  syncRemoteVia tr env del new mod
  let (sel, rex) ← syncSelect env
  syncLocalVia tr env sel rex

/-- `setup_from_local` (zielen/filelogic.py:460-488) with a way to transfer files. -/
def setupFromLocalVia (tr : Transfer) (env : Env) : WM Unit := do
  let l ← scanLocal env
  let ex ← exclMatches env
  sys (orRemote env (tr env.loc env.rem none (ex ++ unsafeLinks env.loc l) false))
  setupDir env (unsafeLinks env.loc l)

/-- `InitCommand.main` after the profile directory has been made (zielen/commands/init.py:108-172) with a way to
transfer files. -/
def initVia (tr : Transfer) (env : Env) (addRemote_ : Bool) : WM Unit := do
  sys (makedirs env.loc)
  sys (makedirs env.exclDir)
  sys (makedirs env.trash)
  if addRemote_ then setupFromRemote env else setupFromLocalVia tr env
  sys (addExcludeFile env)
  writeRemote
  let now ← sys time
  modify (fun w => { w with last := now })
  writeProfile

/-- With the transfer of `Verif.FSTools` these are the commands of the other modules. -/
theorem syncVia_transferTree : syncVia transferTree = sync := rfl

theorem initVia_transferTree : initVia transferTree = init := rfl

end Verif
