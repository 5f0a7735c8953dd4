import Verif.OSM
/-
zielen/fstools.py: copying trees, linking trees, changing the mtime.
-/
namespace Verif
namespace FSTools
open Prog OSM Call

/-- What `scan_tree(path)` yields, relative to `path` (zielen/fstools.py:182-194). `scandir` follows a
link; scanning a directory through a link is not modelled. -/
def scanTree (fs : FS) (p : Path) : Except Err (List Path) :=
  match fs.stat p with
  | .error e => .error e
  | .ok (q, .dir ..) => if q = p then .ok ((fs.below p).map Prod.fst) else .error .unmodelled
  | .ok _ => .error .notDir

/-- The loop over `files` (zielen/fstools.py:68-74): the set of relative paths. -/
def relPaths (fs : FS) (source : Path) : List Path → List Path → Except Err (List Path)
  | [], acc => .ok acc
  | f :: files, acc =>
    match scanTree fs (source ++ f) with
    | .ok es => relPaths fs source files (es.foldl (fun acc e => setAdd (f ++ e) acc) acc)
    | .error .notDir => relPaths fs source files (setAdd f acc)
    | .error e => .error e

/-- The set of relative paths if `files` may be `None` (zielen/fstools.py:63-74). -/
def listPaths (fs : FS) (source : Path) : Option (List Path) → Except Err (List Path)
  | none => scanTree fs source
  | some files => relPaths fs source files []

/-- The `except` clauses for one path (zielen/fstools.py:98-105). Permissions are not modelled. -/
def copyFailed (src dst : Path) (e : Err) : Option (OSM Unit) :=
  match e with
  | .sameFile | .exists_ => some (do remove dst; copy2 src dst)
  | .isDir => some (makedirs dst)
  | _ => none

/-- The `try` statement for one path (zielen/fstools.py:96-105). -/
def copyEntry (src dst : Path) : OSM Unit := tryCatch (copy2 src dst) (copyFailed src dst)

/-- Removing the source (zielen/fstools.py:115-118). -/
def rmSrc (p : Path) : OSM Unit := tryCatch (remove p) (fun _ => some (rmdir p))

/-- One round of the loop (zielen/fstools.py:94-118). The progress bar is not modelled. -/
def transferOne (source dest : Path) (rmSource : Bool) (p : Path) : OSM Unit := do
  makedirs (dest ++ p).dropLast
  copyEntry (source ++ p) (dest ++ p)
  if rmSource then rmSrc (source ++ p) else pure ()

/-- `transfer_tree` (zielen/fstools.py:33-121). -/
def transferTree (source dest : Path) (files : Option (List Path)) (exclude : List Path)
    (rmSource : Bool) : OSM Unit := do
  let b ← ask (fun fs => fs.pathExists source)
  if b then do
    let ps ← query (fun fs => listPaths fs source files)
    each (transferOne source dest rmSource)
      (descending (ps.filter (fun p => decide (p ∉ exclude))))
  else throw .notFound

/-- Making a directory in `symlink_tree` (zielen/fstools.py:161-167): `some` if the path goes to
`new_paths`. -/
def linkDir (dest p : Path) : OSM (Option Path) :=
  tryCatch (do mkdir (dest ++ p); pure (some p))
    (fun e => if e = .exists_ then some (pure none) else none)

/-- Making a link (zielen/fstools.py:169-170, 176-177). -/
def linkNew (src dest p : Path) : OSM (Option Path) := do
  symlink (absStr (src ++ p)) (dest ++ p)
  pure (some p)

/-- Replacing an existing file by a link (zielen/fstools.py:171-175). -/
def linkOver (src dest : Path) (overwrite : Bool) (p : Path) : OSM (Option Path) :=
  if overwrite then do
    remove (dest ++ p)
    linkNew src dest p
  else pure none

/-- One round of the loop of `symlink_tree` (zielen/fstools.py:158-177). -/
def linkOne (src dest : Path) (dirs : List Path) (overwrite : Bool) (p : Path) :
    OSM (Option Path) :=
  if p ∈ dirs then linkDir dest p
  else tryCatch (linkNew src dest p)
    (fun e => if e = .exists_ then some (linkOver src dest overwrite p) else none)

/-- The loop of `symlink_tree`. -/
def linkLoop (src dest : Path) (dirs : List Path) (overwrite : Bool) : List Path → OSM (List Path)
  | [] => pure []
  | p :: ps => do
    let o ← linkOne src dest dirs overwrite p
    let l ← linkLoop src dest dirs overwrite ps
    pure (o.toList ++ l)

/-- `symlink_tree` (zielen/fstools.py:124-179). -/
def symlinkTree (src dest : Path) (files dirs : List Path) (overwrite : Bool) :
    OSM (List Path) := do
  makedirs dest
  linkLoop src dest dirs overwrite (DB.sortDepth id (files.foldl (fun acc p => setAdd p acc) dirs))

/-- What `update_mtime` does to a path, given the result of `os.stat`. The mtime of the root directory is not
kept. -/
def touchAt (p : Path) : Except Err (Path × Node) → OSM Unit
  | .error _ => pure ()
  | .ok ([], .dir ..) => pure ()
  | .ok (q, .dir ..) => update q (fun n now => n.touch now)
  | .ok _ => update p (fun n now => n.touch now)

/-- `update_mtime` (zielen/fstools.py:224-236). Making and removing a temporary file in a directory is one change
of the mtime here. -/
def updateMtime (p : Path) : OSM Unit := do
  let r ← ask (fun fs => fs.stat p)
  touchAt p r

end FSTools
end Verif
