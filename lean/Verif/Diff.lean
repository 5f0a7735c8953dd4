import Verif.FS
import Verif.ADB
/-
What a sync finds out about the two directories
(zielen/filelogic.py:553-693).
-/
namespace Verif

/-- What `scan_paths` returns: relative paths and `lstat` results. -/
abbrev Scan := List (Path × Node)

namespace Scan
/-- `.keys()`. -/
def keys (s : Scan) : List Path := s.map Prod.fst
/-- The node scanned at a path. -/
def find (s : Scan) (p : Path) : Option Node := (s.find? (fun e => decide (e.1 = p))).map Prod.snd
/-- `scan_paths(dirs=False)` (zielen/userdata.py:92-104). -/
def nonDirs (s : Scan) : Scan := s.filter (fun e => !e.2.isDir)
/-- `scan_paths(files=False, symlinks=False)`. -/
def dirs (s : Scan) : Scan := s.filter (fun e => e.2.isDir)
end Scan

/-- `UpdatedPaths` (zielen/filelogic.py:41-51). -/
structure UpdatedPaths where
  loc : List Path
  rem : List Path
deriving DecidableEq, Repr

/-- `DeletedPaths` (zielen/filelogic.py:33-35). -/
structure DeletedPaths where
  loc : List Path
  rem : List Path
  trash : List Path
deriving DecidableEq, Repr

/-- `is_unsafe_symlink(os.path.join(local_dir.path, path), local_dir.path)` for
a scanned entry; `root` are the components of the absolute path of the local
directory. A `ValueError` cannot occur here (theorem `C26_unsafe_iff`). -/
def unsafeEntry (root : Path) (e : Path × Node) : Bool :=
  (isUnsafeSymlink (Posix.join (absStr root) (toStr e.1)) e.2.target? (absStr root)).getD false

/-- A client's exclude patterns; each pattern is the set of relative paths its
glob would match. What a glob pattern matches is a parameter. -/
abbrev Patterns := List (Path → Bool)

/-- `ProfileExcludeFile.all_matches` over the entries of a directory: every
path at or below a path that a pattern matches (zielen/profile.py:342-404). The
scanned entries are closed under parents. -/
def allMatches (pats : Patterns) (entries : List Path) : List Path :=
  entries.filter (fun p => entries.any (fun m => m.isPrefixOf p && pats.any (fun g => g m)))

/-- `compute_added` (zielen/filelogic.py:590-613). -/
def computeAdded (root : Path) (lscan rscan : Scan) (db : ALocal) (excl : List Path) :
    UpdatedPaths where
  loc := ((lscan.filter (fun e => (ADB.info db e.1).isNone && !unsafeEntry root e)).map
    Prod.fst).filter (fun p => decide (p ∉ excl))
  rem := (rscan.filter (fun e => (ADB.info db e.1).isNone)).map Prod.fst

/-- `compute_modified` (zielen/filelogic.py:615-653). -/
def computeModified (root : Path) (lscan rscan : Scan) (db : ALocal) (rdb : ARemote)
    (lastSync : Int) : UpdatedPaths where
  loc := (lscan.nonDirs.filter (fun e => decide (lastSync < e.2.mtime) &&
    (ADB.info db e.1).isSome && !unsafeEntry root e)).map Prod.fst
  rem := (rscan.nonDirs.filter (fun e => decide (lastSync < e.2.mtime) &&
      (ADB.info db e.1).isSome)).map Prod.fst
    ++ (ARemote.getPaths rdb [] (some false) (some lastSync)).map Entry.path

/-- One of the loops that drop the paths below reported directories: `subs q`
is `get_paths(root=q)`; `none` is the `KeyError` of `sub_paths.remove(path)`. -/
def dropSubs (subs : Path → List Path) : List Path → List Path → Option (List Path)
  | [], del => some del
  | q :: qs, del =>
    if q ∈ subs q then
      dropSubs subs qs (del.filter (fun p => decide (p ∉ subs q ∨ p = q)))
    else none

/-- `compute_deleted` (zielen/filelogic.py:655-693). -/
def computeDeleted (lkeys rkeys : List Path) (db : ALocal) (rdb : ARemote) (useTrash : Bool) :
    Option DeletedPaths := do
  let known := ADB.paths db
  let ldel := known.filter (fun p => decide (p ∉ rkeys))
  let rdel := known.filter (fun p => decide (p ∉ lkeys))
  let ldel ← dropSubs (fun q => ADB.paths (ADB.rows db q)) ldel ldel
  let rdel ← dropSubs (fun q => ADB.paths (ADB.rows rdb q)) rdel rdel
  let trash := if useTrash then
    rdel.filter (fun p => decide (p ∈ ADB.paths (ALocal.getPaths db [] none (some false)))) else []
  pure ⟨ldel, rdel.filter (fun p => decide (p ∉ trash)), trash⟩

/-- `compute_stale` (zielen/filelogic.py:553-588). `lkeys` is the scan of the
local directory without the excluded paths. -/
def computeStale (lkeys : List Path) (db : ALocal) (retained : List Path) : List Path :=
  let allRetained := retained.flatMap (fun p => ADB.paths (ADB.rows db p))
  let all := lkeys.filter (fun p => decide (p ∈ ADB.paths db))
  (all.filter (fun p => decide (p ∉ allRetained))).filter (fun p =>
    !(ADB.paths (ADB.rows db p)).any (fun q => decide (q ∈ allRetained)))

end Verif
