import Verif.World
/-
zielen/filelogic.py: the methods of `FilesManager` that change files, and
zielen/userdata.py: the methods of `RemoteSyncDir` that change files.
-/
namespace Verif
open Prog OSM Call FSTools WM

/-- Files and directories of one call of `add_paths`. -/
def batchOf (files dirs : List Path) : List (Path × Bool) :=
  files.map (fun p => (p, false)) ++ dirs.map (fun p => (p, true))

/-- `profile.add_paths` (zielen/profile.py:556-631). -/
def addLocal (files dirs : List Path) (loc : Bool) : WM Unit :=
  modify (fun w => { w with db := w.db.addPaths (batchOf files dirs) 0 loc })

/-- `profile.add_inflated` (zielen/profile.py:633-645). -/
def addInflated (files dirs : List Path) : WM Unit := do
  let db ← gets World.db
  let db ← get? .integrity (db.addInflated (batchOf files dirs))
  modify (fun w => { w with db := db })

/-- `remote_dir.add_paths` (zielen/userdata.py:311-382). -/
def addRemote (files dirs : List Path) : WM Unit := do
  let now ← sys time
  modify (fun w => { w with rdb := w.rdb.addPaths (batchOf files dirs) now })

/-- `rm_paths` of both databases. -/
def rmBoth (ps : List Path) : WM Unit :=
  modify (fun w => { w with db := w.db.rmPaths ps, rdb := w.rdb.rmPaths ps })

/-- `except FileNotFoundError:` followed by the check for the util directory (e.g.
zielen/filelogic.py:402-406). -/
def orRemote {α : Type} (env : Env) (m : OSM α) : OSM α :=
  tryCatch m (fun e => if e = .notFound then some (do
    let b ← ask (fun fs => fs.pathIsDir env.util)
    throw (if b then .notFound else .remote)) else none)

/-! ### Removing -/

/-- What `_rm_files` does if `os.remove` fails (zielen/filelogic.py:764-769). -/
def rmFailed (p : Path) (e : Err) : Option (OSM Unit) :=
  match e with
  | .isDir => some (rmtree p)
  | .notFound => some (pure ())
  | _ => none

/-- One round of the loop of `_rm_files` (zielen/filelogic.py:761-769). -/
def rmOne (parent p : Path) : OSM Unit := tryCatch (remove (parent ++ p)) (rmFailed (parent ++ p))

/-- `_rm_files` (zielen/filelogic.py:754-772). -/
def rmFiles (env : Env) (parent : Path) (ps : List Path) : WM Unit := do
  sys (each (rmOne parent) (env.order ps))
  rmBoth ps

/-- `rm_local_files` (zielen/filelogic.py:774-785). -/
def rmLocalFiles (env : Env) (ps : List Path) : WM Unit := do
  let ex ← exclMatches env
  rmFiles env env.loc (ps.filter (fun p => decide (p ∉ ex)))

/-- `rm_remote_files` (zielen/filelogic.py:787-793). -/
def rmRemoteFiles (env : Env) (ps : List Path) : WM Unit := rmFiles env env.rem ps

/-- `all_matches` of the exclude file of a client (zielen/profile.py:391-404). -/
def clientMatches (env : Env) (fs : FS) (c : Path) : Except Err (List Path) :=
  match readPatterns env fs c with
  | .ok pats => globMatches fs env.loc pats
  | .error e => .error e

/-- The inner loop of `check_excluded` (zielen/userdata.py:230-234): whether each of the exclude files matches. The
files after the first one that does not match are not read. -/
def allExclude (env : Env) (fs : FS) (p : Path) : List Path → Except Err Bool
  | [] => .ok true
  | c :: cs =>
    match clientMatches env fs c with
    | .ok l => if p ∈ l then allExclude env fs p cs else .ok false
    | .error e => .error e

/-- The outer loop of `check_excluded` (zielen/userdata.py:228-236). -/
def excludedLoop (env : Env) (fs : FS) (cs : List Path) : List Path → Except Err (List Path)
  | [] => .ok []
  | p :: ps =>
    match allExclude env fs p cs with
    | .ok b =>
      match excludedLoop env fs cs ps with
      | .ok l => .ok (if b then p :: l else l)
      | .error e => .error e
    | .error e => .error e

/-- `check_excluded` (zielen/userdata.py:212-236). -/
def checkExcluded (env : Env) (ps : List Path) (fs : FS) : Except Err (List Path) :=
  match scandir fs env.exclDir with
  | .ok es => excludedLoop env fs (es.map (fun e => env.exclDir ++ e)) (env.order ps)
  | .error e => .error e

/-- `rm_excluded_files` (zielen/filelogic.py:795-807). -/
def rmExcludedFiles (env : Env) (ps : List Path) : WM Unit := do
  let l ← sys (query (checkExcluded env ps))
  let rdb ← gets World.rdb
  rmRemoteFiles env (l.filter (fun p => decide (p ∈ rdb.paths)))

/-! ### Renaming -/

/-- `_rename_files` (zielen/filelogic.py:695-726). `old_paths` is a generator: `profile.rm_paths` uses it up
before it has collected the parents, and `remote_dir.rm_paths` gets nothing. `moves` is the loop over
`os.rename`. -/
def renameFiles (moves : OSM Unit) (prs : List (Path × Path)) : WM Unit := do
  sys moves
  let db ← gets World.db
  let isD := fun p => (((ADB.info db p).map Entry.directory).getD false : Bool)
  let dirs := (prs.filter (fun pr => isD pr.1)).map Prod.snd
  let files := (prs.filter (fun pr => !isD pr.1)).map Prod.snd
  modify (fun w => { w with db := ADB.rmCore w.db (prs.map Prod.fst) })
  addLocal files dirs true
  addRemote files dirs

/-- The loop over `os.rename` (zielen/filelogic.py:705-708). -/
def renameAll (parent : Path) (prs : List (Path × Path)) : OSM Unit :=
  each (fun pr => rename (parent ++ pr.1) (parent ++ pr.2)) prs

/-- `rename_local_files` (zielen/filelogic.py:728-736). -/
def renameLocal (env : Env) (prs : List (Path × Path)) : WM Unit := renameFiles (renameAll env.loc prs) prs

/-- `rename_remote_files` (zielen/filelogic.py:738-752). -/
def renameRemote (env : Env) (prs : List (Path × Path)) : WM Unit :=
  renameFiles (orRemote env (renameAll env.rem prs)) prs

/-- `timestamp_path(path, keyword="conflict")` as components. -/
def conflictPath (stamp : Str) (p : Path) : Path :=
  Posix.split (timestampPath (toStr p) "conflict".toList stamp)

/-- The two `PathsDiff`s of `handle_conflicts`. -/
abbrev Diffs := PairSet × PairSet

/-- One round of the loop of `handle_conflicts` (zielen/filelogic.py:537-544). -/
def conflictStep (env : Env) (db : ALocal) (now : Int) (l r : Scan) (d : Diffs) (p : Path) :
    Except Err Diffs :=
  if ((ADB.info db p).map Entry.directory).getD false then .ok d
  else match l.find p, r.find p with
    | some a, some b =>
      if a.mtime < b.mtime then .ok (PathsDiff.rename d.1 [(p, conflictPath (env.stamp now) p)], d.2)
      else if b.mtime < a.mtime then .ok (d.1, PathsDiff.rename d.2 [(p, conflictPath (env.stamp now) p)])
      else .ok d
    | _, _ => .error .key

/-- The loop of `handle_conflicts`. The clock is read once. -/
def conflictLoop (env : Env) (db : ALocal) (now : Int) (l r : Scan) : List Path → Diffs → Except Err Diffs
  | [], d => .ok d
  | p :: ps, d =>
    match conflictStep env db now l r d p with
    | .ok d => conflictLoop env db now l r ps d
    | .error e => .error e

/-- `handle_conflicts` (zielen/filelogic.py:501-551). -/
def handleConflicts (env : Env) (lps rps : List Path) : WM UpdatedPaths := do
  let lps := setOf lps
  let rps := setOf rps
  let l ← scanLocal env
  let r ← scanRemote env
  let db ← gets World.db
  let now ← sys time
  let d ← sys (query (fun _ => conflictLoop env db now l r
    (env.order (lps.filter (fun p => decide (p ∈ rps)))) (PathsDiff.init lps, PathsDiff.init rps)))
  renameLocal env (PathsDiff.modPaths d.1)
  renameRemote env (PathsDiff.modPaths d.2)
  pure ⟨setOf (PathsDiff.resPaths d.1), setOf (PathsDiff.resPaths d.2)⟩

/-! ### The trash -/

/-- The candidates for the name of a file in the trash (zielen/filelogic.py:836-844). -/
def trashCand (name : Str) (k : Nat) : Str :=
  if k = 0 then name
  else (Posix.splitext name).1 ++ "(".toList ++ Nat.toDigits 10 k ++ ")".toList ++ (Posix.splitext name).2

/-- The `while` loop of `trash_files`: the first candidate that is not in the trash. It needs at most as many
rounds as there are names (theorem `trashName_fresh`). -/
def trashName (names : List Str) (name : Str) : Str :=
  (((List.range (names.length + 1)).map (trashCand name)).find? (fun n => decide (n ∉ names))).getD name

/-- `os.mkdir(trash_dir)` with its `except` clauses (zielen/filelogic.py:818-826). -/
def makeTrash (env : Env) : OSM Unit :=
  tryCatch (orRemote env (mkdir env.trash)) (fun e => if e = .exists_ then some (pure ()) else none)

/-- One round of the second loop of `trash_files` (zielen/filelogic.py:846-855). -/
def trashOne (env : Env) (names : List Str) (p : Path) : OSM Unit :=
  tryCatch (do
      rename (env.rem ++ p) (env.trash ++ [trashName names (p.getLastD [])])
      updateMtime (env.trash ++ [trashName names (p.getLastD [])]))
    (fun e => if e = .notFound then some (pure ()) else none)

/-- `trash_files` (zielen/filelogic.py:809-858). The set of names is read once, so that two files of one call
can get the same name. -/
def trashFiles (env : Env) (ps : List Path) : WM Unit := do
  sys (makeTrash env)
  let es ← sys (query (fun fs => scandir fs env.trash))
  sys (each (trashOne env (es.map (fun e => e.getLastD []))) (env.order ps))
  rmBoth ps

/-- One round of the loop of `cleanup_trash` (zielen/filelogic.py:863-868). `entry.stat()` follows links. -/
def cleanOne (env : Env) (cutoff : Int) (e : Path) : OSM Unit := do
  let n ← query (fun fs => fs.stat (env.trash ++ e))
  if n.2.mtime ≤ cutoff then
    tryCatch (rmtree (env.trash ++ e)) (fun x => if x = .notDir then some (remove (env.trash ++ e)) else none)
  else pure ()

/-- `cleanup_trash` (zielen/filelogic.py:860-868); `period` is in seconds. The directory is listed before the
loop. -/
def cleanupTrash (env : Env) (period : Int) : OSM Unit := do
  let now ← time
  let es ← query (fun fs => scandir fs env.trash)
  each (cleanOne env (now - period)) (env.order es)

/-! ### Updating -/

/-- What the stale loop of `update_local` does with a directory (zielen/filelogic.py:383-390). -/
def staleDir (p : Path) (e : Err) : Option (OSM Unit) :=
  if e = .isDir then some (tryCatch (rmdir p) (fun _ => some (pure ()))) else none

/-- `os.path.islink`. -/
def isLink (fs : FS) (p : Path) : Bool :=
  match fs.lstat p with | .ok n => n.isLink | .error _ => false

/-- One round of the stale loop (zielen/filelogic.py:376-390). -/
def staleOne (env : Env) (p : Path) : OSM Unit := do
  let b ← ask (fun fs => isLink fs (env.loc ++ p))
  if b then pure () else tryCatch (remove (env.loc ++ p)) (staleDir (env.loc ++ p))

/-- `stale_paths.sort(..., reverse=True)` (zielen/filelogic.py:372-373). -/
def leafFirst (l : List Path) : List Path := sortBy (fun a b => decide (b.length ≤ a.length)) l

/-- The first part of `update_local` (zielen/filelogic.py:368-390). -/
def removeStale (env : Env) (ps : List Path) : WM Unit := do
  let l ← scanLocal env
  let ex ← exclMatches env
  let db ← gets World.db
  let stale := computeStale (l.keys.filter (fun p => decide (p ∉ ex))) db ps
  sys (each (staleOne env) (leafFirst (env.order stale)))

/-- Mark what is below the retained paths as local (zielen/filelogic.py:408-413). -/
def markLocal (db : ALocal) (ps new : List Path) : ALocal :=
  ALocal.updatePaths (ps.foldl (fun db p =>
    ALocal.updatePaths db (ADB.paths (ADB.rows db p)) none none (some true)) db) new none none (some false)

/-- `update_local` (zielen/filelogic.py:360-413). -/
def updateLocal (env : Env) (ps : List Path) : WM Unit := do
  let ps := setOf ps
  removeStale env ps
  let rdb ← gets World.rdb
  let new ← sys (orRemote env (do
    let new ← symlinkTree env.rem env.loc (ADB.paths (ARemote.getPaths rdb [] (some false) none))
      (ADB.paths (ARemote.getPaths rdb [] (some true) none)) false
    transferTree env.rem env.loc (some ps) [] false
    pure new))
  modify (fun w => { w with db := markLocal w.db ps new })

/-- `update_remote` (zielen/filelogic.py:415-436). -/
def updateRemote (env : Env) (ps : List Path) : WM Unit := do
  sys (orRemote env (transferTree env.loc env.rem (some ps) [] false))
  let now ← sys time
  modify (fun w => { w with rdb := w.rdb.updatePaths ps none (some now) })

/-! ### Exclude files and setting up -/

/-- `shutil.copy` of a regular file: like `copy2` without the times. -/
def copyPlain (src dst : Path) : OSM Unit := do
  let b ← ask (fun fs => fs.pathIsDir dst)
  let dst := if b then dst ++ [src.getLastD []] else dst
  let same ← ask (fun fs => sameFile fs src dst)
  if same then throw .sameFile
  else do
    let r ← query (fun fs => fs.stat src)
    match r with
    | (_, .file c _ b) => do
      let q ← query (fun fs => fs.follow 40 dst)
      truncate q
      update q (fun _ now => .file c now b)
    | _ => throw .isDir

/-- `add_exclude_file` (zielen/userdata.py:186-199). -/
def addExcludeFile (env : Env) : OSM Unit :=
  orRemote env (copyPlain env.excl (env.exclDir ++ [env.id]))

/-- `rm_exclude_file` (zielen/userdata.py:201-210). -/
def rmExcludeFile (env : Env) : OSM Unit :=
  tryCatch (remove (env.exclDir ++ [env.id])) (fun e => if e = .notFound then some (pure ()) else none)

/-- The links of a scan that must not be copied (zielen/filelogic.py:462-467, 492-497). -/
def unsafeLinks (root : Path) (s : Scan) : List Path :=
  ((s.filter (fun e => e.2.isLink)).filter (unsafeEntry root)).map Prod.fst

/-- `_setup_dir` (zielen/filelogic.py:438-458). -/
def setupDir (env : Env) (unsafe_ : List Path) : WM Unit := do
  let r ← scanRemote env
  let files := r.nonDirs.keys.filter (fun p => decide (p ∉ unsafe_))
  addLocal files r.dirs.keys false
  addRemote files r.dirs.keys
  let db ← gets World.db
  let _ ← sys (symlinkTree env.rem env.loc (ADB.paths (ALocal.getPaths db [] (some false) none))
    (ADB.paths (ALocal.getPaths db [] (some true) none)) true)
  pure ()

/-- `setup_from_local` (zielen/filelogic.py:460-488). That there is enough space is assumed
here; the check is in `Verif.Space`. -/
def setupFromLocal (env : Env) : WM Unit := do
  let l ← scanLocal env
  let ex ← exclMatches env
  sys (orRemote env (transferTree env.loc env.rem none (ex ++ unsafeLinks env.loc l) false))
  setupDir env (unsafeLinks env.loc l)

/-- `setup_from_remote` (zielen/filelogic.py:490-499). -/
def setupFromRemote (env : Env) : WM Unit := do
  let r ← scanRemote env
  setupDir env (unsafeLinks env.rem r)

/-- `get_excluded_size` (zielen/filelogic.py:870-879). A path that the scan has not found is looked up
(zielen/userdata.py:72-79); that case, which needs a file that appears between two scans, raises `key`. -/
def excludedSize (l : Scan) (ex : List Path) : Option Nat :=
  (ex.mapM (fun p => (l.find p).map (fun n => n.blocks * 512))).map List.sum

/-- What `prioritize_dirs` and `prioritize_files` read. -/
def selEnv (env : Env) (db : ALocal) (rdb : ARemote) (r : Scan) : SelEnv where
  loc := db
  rem := rdb
  stat p := (r.find p).map (fun n => (n.isDir, n.blocks))
  accountForSize := env.accountForSize
  storageLimit := env.storageLimit
  symlinkSize := env.symlinkSize

end Verif
