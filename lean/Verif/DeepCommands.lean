import Verif.DeepFS
/-
The commands with paths that go through symbolic links.

These are the definitions of `Verif.World`, `Verif.FilesManager` and `Verif.Commands` again, with the system calls of
`Verif.DeepFS` instead of those of `Verif.OSM`. What does not look at the file system is not repeated. Paths that go
through a link arise if a directory to which a link leads is listed, or if the user has replaced a directory that is in a
database by a link.
-/
namespace Verif
open Prog OSM Call FSTools WM

namespace Deep

/-- `os.rename`. Links at the ends of the paths are not followed. -/
def rename (p q : Path) : OSM Unit := op (fun fs _ =>
  match lstat fs p with
  | .error e => .error e
  | .ok _ => at_ fs p (fun p' => at_ fs q (fun q' => fs.rename p' q')))

/-- The entries below a directory, or below the one that a link leads to. -/
def under (fs : FS) (p : Path) : List (Path × Node) :=
  match stat fs p with
  | .ok (q, .dir ..) => fs.below q
  | _ => []

/-- Remove one entry of a tree. -/
def rmEntry (p : Path) : OSM Unit := do
  let n ← query (fun fs => lstat fs p)
  if n.isDir then rmdir p else remove p

/-- `shutil.rmtree`, as `Call.rmtree`. -/
def rmtree (p : Path) : OSM Unit := do
  let n ← query (fun fs => lstat fs p)
  match n with
  | .link .. => throw .invalid
  | .file .. => throw .notDir
  | .dir .. => do
    let es ← ask (fun fs => descending ((under fs p).map Prod.fst))
    each (fun e => rmEntry (p ++ e)) es
    rmdir p

/-- `os.scandir`: the entries of a directory. -/
def scandir (fs : FS) (p : Path) : Except Err (List Path) :=
  match scanTree fs p with
  | .ok es => .ok (es.filter (fun e => decide (e.length = 1)))
  | .error e => .error e

/-- Scan a directory tree. -/
def scanNodes (fs : FS) (p : Path) : Except Err Scan :=
  match scanTree fs p with
  | .ok _ => .ok (under fs p)
  | .error e => .error e

/-- `local_dir.scan_paths()` (zielen/userdata.py:47-106). The scan is memoized; an empty one is repeated. -/
def scanLocal (env : Env) : WM Scan := do
  let m ← gets World.lmemo
  if m.isEmpty then do
    let s ← sys (query (fun fs => scanNodes fs env.loc))
    modify (fun w => { w with lmemo := s })
    pure s
  else pure m

/-- `remote_dir.scan_paths(memoize=False)` (zielen/userdata.py:238-249). -/
def rescanRemote (env : Env) : WM Scan := do
  let s ← sys (query (fun fs => scanNodes fs env.rem))
  modify (fun w => { w with rmemo := s })
  pure s.user

/-- `remote_dir.scan_paths()` (zielen/userdata.py:238-249). -/
def scanRemote (env : Env) : WM Scan := do
  let m ← gets World.rmemo
  if m.isEmpty then rescanRemote env else pure m.user

/-- Read an exclude file (zielen/profile.py:331-340). -/
def readPatterns (env : Env) (fs : FS) (p : Path) : Except Err Patterns :=
  match stat fs p with
  | .ok (_, .file c _ _) => .ok (env.patsOf c)
  | .ok _ => .error .isDir
  | .error e => .error e

/-- What `scan_tree` adds for the matches that are links to directories. -/
def linkedMatches (fs : FS) (loc : Path) (pats : Patterns) : List Path :=
  (under fs loc).flatMap (fun m =>
    if m.2.isLink ∧ pats.any (fun g => g m.1) then (under fs (loc ++ m.1)).map (fun e => m.1 ++ e.1) else [])

/-- `_glob` of an exclude file (zielen/profile.py:342-374). `scan_tree` of a match follows a link. That `glob.glob`
itself may look into links is not modelled. -/
def globMatches (fs : FS) (loc : Path) (pats : Patterns) : Except Err (List Path) :=
  match ((under fs loc).map Prod.fst).findSome? (fun m =>
      if pats.any (fun g => g m) then
        match stat fs (loc ++ m) with
        | .error e => if e = .notDir then none else some e
        | .ok _ => none
      else none) with
  | some e => .error e
  | none => .ok (setOf (allMatches pats ((under fs loc).map Prod.fst) ++ linkedMatches fs loc pats))

/-- `profile.all_exclude_matches(local_dir.path)` (zielen/profile.py:342-404), memoized. -/
def exclMatches (env : Env) : WM (List Path) := do
  let m ← gets World.matches_
  match m with
  | some l => pure l
  | none => do
    let pats ← sys (query (fun fs => readPatterns env fs env.excl))
    let l ← sys (query (fun fs => globMatches fs env.loc pats))
    modify (fun w => { w with matches_ := some l })
    pure l

/-- Making a directory in `symlink_tree` (zielen/fstools.py:161-167): `some` if the path goes to
`new_paths`. -/
def linkDir (dest p : Path) : OSM (Option Path) :=
  tryCatch (do mkdir (dest ++ p); pure (some p))
    (fun e => if e = .exists_ then some (pure none) else none)

/-- Making a link (zielen/fstools.py:169-170, 176-177). -/
def linkNew (src dest p : Path) : OSM (Option Path) := do
  symlink (absStr (src ++ p)) (dest ++ p)
  pure (some p)

/-- Replacing an existing file by a link (zielen/fstools.py:171-175). -/
def linkOver (src dest : Path) (overwrite : Bool) (p : Path) : OSM (Option Path) :=
  if overwrite then do
    remove (dest ++ p)
    linkNew src dest p
  else pure none

/-- One round of the loop of `symlink_tree` (zielen/fstools.py:158-177). -/
def linkOne (src dest : Path) (dirs : List Path) (overwrite : Bool) (p : Path) :
    OSM (Option Path) :=
  if p ∈ dirs then linkDir dest p
  else tryCatch (linkNew src dest p)
    (fun e => if e = .exists_ then some (linkOver src dest overwrite p) else none)

/-- The loop of `symlink_tree`. -/
def linkLoop (src dest : Path) (dirs : List Path) (overwrite : Bool) : List Path → OSM (List Path)
  | [] => pure []
  | p :: ps => do
    let o ← linkOne src dest dirs overwrite p
    let l ← linkLoop src dest dirs overwrite ps
    pure (o.toList ++ l)

/-- `symlink_tree` (zielen/fstools.py:124-179). -/
def symlinkTree (src dest : Path) (files dirs : List Path) (overwrite : Bool) :
    OSM (List Path) := do
  makedirs dest
  linkLoop src dest dirs overwrite (DB.sortDepth id (files.foldl (fun acc p => setAdd p acc) dirs))

/-- `except FileNotFoundError:` followed by the check for the util directory (e.g.
zielen/filelogic.py:402-406). -/
def orRemote {α : Type} (env : Env) (m : OSM α) : OSM α :=
  tryCatch m (fun e => if e = .notFound then some (do
    let b ← ask (fun fs => pathIsDir fs env.util)
    throw (if b then .notFound else .remote)) else none)

/-- What `_rm_files` does if `os.remove` fails (zielen/filelogic.py:764-769). -/
def rmFailed (p : Path) (e : Err) : Option (OSM Unit) :=
  match e with
  | .isDir => some (rmtree p)
  | .notFound => some (pure ())
  | _ => none

/-- One round of the loop of `_rm_files` (zielen/filelogic.py:761-769). -/
def rmOne (parent p : Path) : OSM Unit := tryCatch (remove (parent ++ p)) (rmFailed (parent ++ p))

/-- `_rm_files` (zielen/filelogic.py:754-772). -/
def rmFiles (env : Env) (parent : Path) (ps : List Path) : WM Unit := do
  sys (each (rmOne parent) (env.order ps))
  rmBoth ps

/-- `rm_local_files` (zielen/filelogic.py:774-785). -/
def rmLocalFiles (env : Env) (ps : List Path) : WM Unit := do
  let ex ← exclMatches env
  rmFiles env env.loc (ps.filter (fun p => decide (p ∉ ex)))

/-- `rm_remote_files` (zielen/filelogic.py:787-793). -/
def rmRemoteFiles (env : Env) (ps : List Path) : WM Unit := rmFiles env env.rem ps

/-- `all_matches` of the exclude file of a client (zielen/profile.py:391-404). -/
def clientMatches (env : Env) (fs : FS) (c : Path) : Except Err (List Path) :=
  match readPatterns env fs c with
  | .ok pats => globMatches fs env.loc pats
  | .error e => .error e

/-- The inner loop of `check_excluded` (zielen/userdata.py:230-234): whether each of the exclude files matches. The
files after the first one that does not match are not read. -/
def allExclude (env : Env) (fs : FS) (p : Path) : List Path → Except Err Bool
  | [] => .ok true
  | c :: cs =>
    match clientMatches env fs c with
    | .ok l => if p ∈ l then allExclude env fs p cs else .ok false
    | .error e => .error e

/-- The outer loop of `check_excluded` (zielen/userdata.py:228-236). -/
def excludedLoop (env : Env) (fs : FS) (cs : List Path) : List Path → Except Err (List Path)
  | [] => .ok []
  | p :: ps =>
    match allExclude env fs p cs with
    | .ok b =>
      match excludedLoop env fs cs ps with
      | .ok l => .ok (if b then p :: l else l)
      | .error e => .error e
    | .error e => .error e

/-- `check_excluded` (zielen/userdata.py:212-236). -/
def checkExcluded (env : Env) (ps : List Path) (fs : FS) : Except Err (List Path) :=
  match scandir fs env.exclDir with
  | .ok es => excludedLoop env fs (es.map (fun e => env.exclDir ++ e)) (env.order ps)
  | .error e => .error e

/-- `rm_excluded_files` (zielen/filelogic.py:795-807). -/
def rmExcludedFiles (env : Env) (ps : List Path) : WM Unit := do
  let l ← sys (query (checkExcluded env ps))
  let rdb ← gets World.rdb
  rmRemoteFiles env (l.filter (fun p => decide (p ∈ rdb.paths)))

/-- The loop over `os.rename` (zielen/filelogic.py:705-708). -/
def renameAll (parent : Path) (prs : List (Path × Path)) : OSM Unit :=
  each (fun pr => rename (parent ++ pr.1) (parent ++ pr.2)) prs

/-- `rename_local_files` (zielen/filelogic.py:728-736). -/
def renameLocal (env : Env) (prs : List (Path × Path)) : WM Unit := renameFiles (renameAll env.loc prs) prs

/-- `rename_remote_files` (zielen/filelogic.py:738-752). -/
def renameRemote (env : Env) (prs : List (Path × Path)) : WM Unit :=
  renameFiles (orRemote env (renameAll env.rem prs)) prs

/-- `handle_conflicts` (zielen/filelogic.py:501-551). -/
def handleConflicts (env : Env) (lps rps : List Path) : WM UpdatedPaths := do
  let lps := setOf lps
  let rps := setOf rps
  let l ← scanLocal env
  let r ← scanRemote env
  let db ← gets World.db
  let now ← sys time
  let d ← sys (query (fun _ => conflictLoop env db now l r
    (env.order (lps.filter (fun p => decide (p ∈ rps)))) (PathsDiff.init lps, PathsDiff.init rps)))
  renameLocal env (PathsDiff.modPaths d.1)
  renameRemote env (PathsDiff.modPaths d.2)
  pure ⟨setOf (PathsDiff.resPaths d.1), setOf (PathsDiff.resPaths d.2)⟩

/-- `os.mkdir(trash_dir)` with its `except` clauses (zielen/filelogic.py:818-826). -/
def makeTrash (env : Env) : OSM Unit :=
  tryCatch (orRemote env (mkdir env.trash)) (fun e => if e = .exists_ then some (pure ()) else none)

/-- `update_mtime` (zielen/fstools.py:224-236), as `FSTools.updateMtime`. -/
def updateMtime (p : Path) : OSM Unit := do
  let r ← ask (fun fs => stat fs p)
  match r with
  | .error _ => pure ()
  | .ok ([], .dir ..) => pure ()
  | .ok (q, .dir ..) => update q (fun n now => n.touch now)
  | .ok _ => do
    let q ← query (fun fs => place fs p)
    update q (fun n now => n.touch now)

/-- One round of the second loop of `trash_files` (zielen/filelogic.py:846-855). -/
def trashOne (env : Env) (names : List Str) (p : Path) : OSM Unit :=
  tryCatch (do
      rename (env.rem ++ p) (env.trash ++ [trashName names (p.getLastD [])])
      updateMtime (env.trash ++ [trashName names (p.getLastD [])]))
    (fun e => if e = .notFound then some (pure ()) else none)

/-- `trash_files` (zielen/filelogic.py:809-858). The set of names is read once, so that two files of one call
can get the same name. -/
def trashFiles (env : Env) (ps : List Path) : WM Unit := do
  sys (makeTrash env)
  let es ← sys (query (fun fs => scandir fs env.trash))
  sys (each (trashOne env (es.map (fun e => e.getLastD []))) (env.order ps))
  rmBoth ps

/-- One round of the loop of `cleanup_trash` (zielen/filelogic.py:863-868). `entry.stat()` follows links. -/
def cleanOne (env : Env) (cutoff : Int) (e : Path) : OSM Unit := do
  let n ← query (fun fs => stat fs (env.trash ++ e))
  if n.2.mtime ≤ cutoff then
    tryCatch (rmtree (env.trash ++ e)) (fun x => if x = .notDir then some (remove (env.trash ++ e)) else none)
  else pure ()

/-- `cleanup_trash` (zielen/filelogic.py:860-868); `period` is in seconds. The directory is listed before the
loop. -/
def cleanupTrash (env : Env) (period : Int) : OSM Unit := do
  let now ← time
  let es ← query (fun fs => scandir fs env.trash)
  each (cleanOne env (now - period)) (env.order es)

/-- What the stale loop of `update_local` does with a directory (zielen/filelogic.py:383-390). -/
def staleDir (p : Path) (e : Err) : Option (OSM Unit) :=
  if e = .isDir then some (tryCatch (rmdir p) (fun _ => some (pure ()))) else none

/-- `os.path.islink`. -/
def isLink (fs : FS) (p : Path) : Bool :=
  match lstat fs p with | .ok n => n.isLink | .error _ => false

/-- One round of the stale loop (zielen/filelogic.py:376-390). -/
def staleOne (env : Env) (p : Path) : OSM Unit := do
  let b ← ask (fun fs => isLink fs (env.loc ++ p))
  if b then pure () else tryCatch (remove (env.loc ++ p)) (staleDir (env.loc ++ p))

/-- The first part of `update_local` (zielen/filelogic.py:368-390). -/
def removeStale (env : Env) (ps : List Path) : WM Unit := do
  let l ← scanLocal env
  let ex ← exclMatches env
  let db ← gets World.db
  let stale := computeStale (l.keys.filter (fun p => decide (p ∉ ex))) db ps
  sys (each (staleOne env) (leafFirst (env.order stale)))

/-- `update_local` (zielen/filelogic.py:360-413). -/
def updateLocal (env : Env) (ps : List Path) : WM Unit := do
  let ps := setOf ps
  removeStale env ps
  let rdb ← gets World.rdb
  let new ← sys (orRemote env (do
    let new ← symlinkTree env.rem env.loc (ADB.paths (ARemote.getPaths rdb [] (some false) none))
      (ADB.paths (ARemote.getPaths rdb [] (some true) none)) false
    transferTree env.rem env.loc (some ps) [] false
    pure new))
  modify (fun w => { w with db := markLocal w.db ps new })

/-- `update_remote` (zielen/filelogic.py:415-436). -/
def updateRemote (env : Env) (ps : List Path) : WM Unit := do
  sys (orRemote env (transferTree env.loc env.rem (some ps) [] false))
  let now ← sys time
  modify (fun w => { w with rdb := w.rdb.updatePaths ps none (some now) })

/-- `shutil.copy` of a regular file: like `copy2` without the times. -/
def copyPlain (src dst : Path) : OSM Unit := do
  let b ← ask (fun fs => pathIsDir fs dst)
  let dst := if b then dst ++ [src.getLastD []] else dst
  let same ← ask (fun fs => sameFile fs src dst)
  if same then throw .sameFile
  else do
    let r ← query (fun fs => stat fs src)
    match r with
    | (_, .file c _ b) => do
      let q ← query (fun fs => target fs dst)
      truncate q
      update q (fun _ now => .file c now b)
    | _ => throw .isDir

/-- `add_exclude_file` (zielen/userdata.py:186-199). -/
def addExcludeFile (env : Env) : OSM Unit :=
  orRemote env (copyPlain env.excl (env.exclDir ++ [env.id]))

/-- `rm_exclude_file` (zielen/userdata.py:201-210). -/
def rmExcludeFile (env : Env) : OSM Unit :=
  tryCatch (remove (env.exclDir ++ [env.id])) (fun e => if e = .notFound then some (pure ()) else none)

/-- `_setup_dir` (zielen/filelogic.py:438-458). -/
def setupDir (env : Env) (unsafe_ : List Path) : WM Unit := do
  let r ← scanRemote env
  let files := r.nonDirs.keys.filter (fun p => decide (p ∉ unsafe_))
  addLocal files r.dirs.keys false
  addRemote files r.dirs.keys
  let db ← gets World.db
  let _ ← sys (symlinkTree env.rem env.loc (ADB.paths (ALocal.getPaths db [] (some false) none))
    (ADB.paths (ALocal.getPaths db [] (some true) none)) true)
  pure ()

/-- `setup_from_local` (zielen/filelogic.py:460-488). That there is enough space is assumed
here; the check is in `Verif.Space`. -/
def setupFromLocal (env : Env) : WM Unit := do
  let l ← scanLocal env
  let ex ← exclMatches env
  sys (orRemote env (transferTree env.loc env.rem none (ex ++ unsafeLinks env.loc l) false))
  setupDir env (unsafeLinks env.loc l)

/-- `setup_from_remote` (zielen/filelogic.py:490-499). -/
def setupFromRemote (env : Env) : WM Unit := do
  let r ← scanRemote env
  setupDir env (unsafeLinks env.rem r)

/-- `SyncCommand.main` up to the deletions (zielen/commands/sync.py:59-89). The result is the deleted, the new
and the modified paths. -/
def syncScan (env : Env) : WM (DeletedPaths × UpdatedPaths × UpdatedPaths) := do
  sys (makedirs env.loc)
  sys (addExcludeFile env)
  let l ← scanLocal env
  let r ← scanRemote env
  let ex ← exclMatches env
  let db ← gets World.db
  let rdb ← gets World.rdb
  let last ← gets World.last
  let new := computeAdded env.loc l r db ex
  let del ← get? .key (computeDeleted l.keys r.keys db rdb env.useTrash)
  let mod := computeModified env.loc l r db rdb last
  let filePaths := l.nonDirs.keys ++ r.nonDirs.keys
  let dirPaths := l.dirs.keys ++ r.dirs.keys
  inflateNew env (new.loc.filter (fun p => decide (p ∉ dirPaths)))
    (new.loc.filter (fun p => decide (p ∉ filePaths)))
  addRemote ((setOf (new.loc ++ new.rem)).filter (fun p => decide (p ∉ dirPaths)))
    ((setOf (new.loc ++ new.rem)).filter (fun p => decide (p ∉ filePaths)))
  addLocal ((setOf (new.loc ++ new.rem)).filter (fun p => decide (p ∉ dirPaths)))
    ((setOf (new.loc ++ new.rem)).filter (fun p => decide (p ∉ filePaths))) true
  pure (del, new, mod)

/-- Deletions, conflicts and the update of the remote directory (zielen/commands/sync.py:91-109). -/
def syncRemote (env : Env) (del : DeletedPaths) (new mod : UpdatedPaths) : WM Unit := do
  rmLocalFiles env del.loc
  rmRemoteFiles env del.rem
  trashFiles env del.trash
  let upd ← handleConflicts env (mod.loc ++ new.loc) (mod.rem ++ new.rem)
  inflateNew env upd.loc []
  addRemote (setOf (upd.loc ++ upd.rem)) []
  addLocal (setOf (upd.loc ++ upd.rem)) [] true
  updateRemote env upd.loc

/-- The size of one excluded path (zielen/userdata.py:72-79): a path that the scan has not found is looked up. -/
def sizeOf_ (fs : FS) (loc : Path) (l : Scan) (p : Path) : Except Err Nat :=
  match l.find p with
  | some n => .ok (n.blocks * 512)
  | none => match lstat fs (loc ++ p) with
    | .ok n => .ok (n.blocks * 512)
    | .error e => .error e

/-- `get_excluded_size` (zielen/filelogic.py:870-879). -/
def excludedSize (fs : FS) (loc : Path) (l : Scan) : List Path → Except Err Nat
  | [] => .ok 0
  | p :: ps => match sizeOf_ fs loc l p, excludedSize fs loc l ps with
    | .ok a, .ok b => .ok (a + b)
    | .error e, _ => .error e
    | _, .error e => .error e

/-- What stays in the local directory (zielen/commands/sync.py:114-123): the selected paths and the excluded
ones that are in the remote directory. -/
def syncSelect (env : Env) : WM (List Path × List Path) := do
  let ex ← exclMatches env
  let r ← scanRemote env
  let rex := ex.filter (fun p => decide (p ∈ r.keys))
  let l ← scanLocal env
  let exSize ← sys (query (fun fs => excludedSize fs env.loc l ex))
  let r ← rescanRemote env
  let db ← gets World.db
  let rdb ← gets World.rdb
  let dirs ← get? .key (prioritizeDirs (selEnv env db rdb r) (env.storageLimit - exSize))
  let files ← get? .key (prioritizeFiles (selEnv env db rdb r) dirs.1 dirs.2)
  pure (dirs.2 ++ files.2 ++ rex, rex)

/-- `if self.profile.cleanup_period: fm.cleanup_trash()` (zielen/commands/sync.py:133-135). -/
def syncCleanup (env : Env) : WM Unit :=
  match env.cleanup with
  | none => pure ()
  | some t => if t = 0 then pure () else sys (cleanupTrash env t)

/-- The rest of a sync (zielen/commands/sync.py:125-141). -/
def syncLocal (env : Env) (sel rex : List Path) : WM Unit := do
  updateLocal env sel
  rmExcludedFiles env rex
  syncCleanup env
  syncSave

/-- `SyncCommand.main` (zielen/commands/sync.py:59-141). -/
def sync (env : Env) : WM Unit := do
  let (del, new, mod) ← syncScan env
  syncRemote env del new mod
  let (sel, rex) ← syncSelect env
  syncLocal env sel rex

/-- `InitCommand.main` after the profile directory has been made (zielen/commands/init.py:108-172); a resumed
initialisation does the same. -/
def init (env : Env) (addRemote_ : Bool) : WM Unit := do
  sys (makedirs env.loc)
  sys (makedirs env.exclDir)
  sys (makedirs env.trash)
  if addRemote_ then setupFromRemote env else setupFromLocal env
  sys (addExcludeFile env)
  writeRemote
  let now ← sys time
  modify (fun w => { w with last := now })
  writeProfile

/-- Removing one entry of the remote directory in a reset (zielen/commands/reset.py:86-90). `entry.is_dir` is
a method and is not called, so the test is always true. -/
def clearOne (env : Env) (e : Path) : OSM Unit := rmtree (env.rem ++ e)

/-- Clearing the remote directory (zielen/commands/reset.py:74-92). -/
def clearRemote (env : Env) : WM Unit := do
  let r ← rescanRemote env
  if r.nonDirs.isEmpty then
    sys (tryCatch (do
        let es ← query (fun fs => scandir fs env.rem)
        each (clearOne env) (env.order es))
      (fun e => if e = .notFound then some (pure ()) else none))
  else throw .transfer

/-- One round of the last loop of a reset (zielen/commands/reset.py:98-106). -/
def unlinkOne (env : Env) (p : Path) : OSM Unit := do
  let n ← query (fun fs => lstat fs (env.loc ++ p))
  match n with
  | .link t _ => if pointsToRemote env (env.loc ++ p) t then remove (env.loc ++ p) else pure ()
  | _ => throw .invalid

/-- Retrieving the files (zielen/commands/reset.py:53-92). That there is enough space is
assumed here; the check is in `Verif.Space`. -/
def resetGet (env : Env) (keepRemote noRetrieve : Bool) : WM Unit :=
  if noRetrieve then pure ()
  else do
    let _ ← scanRemote env
    let rdb ← gets World.rdb
    sys (orRemote env (transferTree env.rem env.loc (some (ADB.paths rdb)) [] (!keepRemote)))
    if keepRemote then pure () else clearRemote env

/-- The end of a reset (zielen/commands/reset.py:94-108). -/
def resetTail (env : Env) : WM Unit := do
  let l ← scanLocal env
  sys (each (unlinkOne env) ((l.filter (fun e => e.2.isLink)).map Prod.fst))
  sys (rmExcludeFile env)

/-- `ResetCommand.main` (zielen/commands/reset.py:44-109). Removing the profile directory, which is not part of
this state, comes last. -/
def reset (env : Env) (keepRemote noRetrieve : Bool) : WM Unit := do
  sys (makedirs env.loc)
  resetGet env keepRemote noRetrieve
  resetTail env

/-- One round of the loop of `empty-trash` (zielen/commands/emptytrash.py:42-50). -/
def emptyOne (env : Env) (e : Path) : OSM Unit :=
  tryCatch (remove (env.trash ++ e)) (rmFailed (env.trash ++ e))

/-- `EmptyTrashCommand.main` (zielen/commands/emptytrash.py:36-51). -/
def emptyTrash (env : Env) : OSM Unit := do
  makedirs env.loc
  let es ← query (fun fs => scandir fs env.trash)
  each (emptyOne env) (env.order es)

end Deep
end Verif
