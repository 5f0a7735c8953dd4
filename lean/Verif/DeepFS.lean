import Verif.Commands
/-
Paths that go through symbolic links.

In `Verif.FS` a path with a link as an inner component fails. Here paths are resolved as the kernel does, component by
component. `transfer_tree` is modelled on that here and the commands in `Verif.DeepCommands`.
-/
namespace Verif
open Prog OSM Call FSTools WM

namespace Deep

/-- Resolve the rest of a path from a directory. `k` goes on after a link. With `fol` a link at the end is followed. -/
def step (fs : FS) (fol : Bool) (k : Path → List Str → Except Err Path) : Path → List Str → Except Err Path
  | b, [] => .ok b
  | b, c :: r =>
    if c = [] ∨ c = ['.'] then step fs fol k b r
    else if c = ['.', '.'] then step fs fol k b.dropLast r
    else match fs.get (b ++ [c]) with
      | some (.link t _) =>
        if r = [] ∧ fol = false then .ok (b ++ [c])
        else k (if Posix.isabs t then [] else b) (Posix.split t ++ r)
      | some (.dir ..) => step fs fol k (b ++ [c]) r
      | some (.file ..) => if r = [] then .ok (b ++ [c]) else .error .notDir
      | none => if r = [] then .ok (b ++ [c]) else .error .notFound

/-- Path resolution with less than the given number of links. -/
def real (fs : FS) (fol : Bool) : Nat → Path → List Str → Except Err Path
  | 0 => fun _ _ => .error .loop
  | n + 1 => step fs fol (real fs fol n)

/-- The place a path leads to; a link at its end is not followed. -/
def place (fs : FS) (p : Path) : Except Err Path := real fs false 41 [] p

/-- The same with a link at its end followed. -/
def target (fs : FS) (p : Path) : Except Err Path := real fs true 41 [] p

/-- A system call for a path, given what it does for a path without links. -/
def at_ {α : Type} (fs : FS) (p : Path) (f : Path → Except Err α) : Except Err α :=
  match place fs p with
  | .error e => .error e
  | .ok q => f q

/-- `os.lstat`. -/
def lstat (fs : FS) (p : Path) : Except Err Node := at_ fs p fs.lstat

/-- `os.stat`, with the place. -/
def stat (fs : FS) (p : Path) : Except Err (Path × Node) :=
  match target fs p with
  | .error e => .error e
  | .ok q => match fs.get q with
    | some n => .ok (q, n)
    | none => .error .notFound

/-- `os.path.exists`. -/
def pathExists (fs : FS) (p : Path) : Bool := match stat fs p with | .ok _ => true | .error _ => false

/-- `os.path.isdir`. -/
def pathIsDir (fs : FS) (p : Path) : Bool := match stat fs p with | .ok (_, n) => n.isDir | .error _ => false

/-- `os.remove`. -/
def remove (p : Path) : OSM Unit := op (fun fs _ => at_ fs p fs.remove)
/-- `os.rmdir`. -/
def rmdir (p : Path) : OSM Unit := op (fun fs _ => at_ fs p fs.rmdir)
/-- `os.mkdir`. -/
def mkdir (p : Path) : OSM Unit := op (fun fs now => at_ fs p (fun q => fs.mkdir q now))
/-- `os.symlink`. -/
def symlink (t : Str) (p : Path) : OSM Unit := op (fun fs now => at_ fs p (fun q => fs.symlink t q now))

/-- As `Call.unlessDir`. -/
def unlessDir (p : Path) (e : Err) : OSM Unit := do
  let b ← ask (fun fs => pathIsDir fs p)
  if b then pure () else throw e

/-- As `Call.mkdirOk`. -/
def mkdirOk (p : Path) : OSM Unit := tryCatch (mkdir p) (fun e => some (unlessDir p e))

/-- `os.makedirs(path, exist_ok=True)`, with the path in reverse. -/
def makedirsRev : Path → OSM Unit
  | [] => mkdirOk []
  | c :: rev => do
    let b ← ask (fun fs => pathExists fs rev.reverse)
    if b then mkdirOk (c :: rev).reverse
    else do
      tryCatch (makedirsRev rev) (fun e => if e = .exists_ then some (pure ()) else none)
      mkdirOk (c :: rev).reverse

def makedirs (p : Path) : OSM Unit := makedirsRev p.reverse

/-- `os.path.samefile`, and `False` if one does not exist. -/
def sameFile (fs : FS) (p q : Path) : Bool :=
  match stat fs p, stat fs q with
  | .ok (a, _), .ok (b, _) => decide (a = b)
  | _, _ => false

/-- Copy a regular file, as `Call.copyFile`. -/
def copyFile (c : Nat) (m : Int) (b : Nat) (dst : Path) : OSM Unit := do
  let q ← query (fun fs => target fs dst)
  truncate q
  update q (fun _ now => .file c now b)
  update q (fun n _ => n.touch m)

/-- Copy a link, as `Call.copyLink`. -/
def copyLink (t : Str) (m : Int) (dst : Path) : OSM Unit := do
  symlink t dst
  let q ← query (fun fs => place fs dst)
  update q (fun n _ => n.touch m)

/-- `shutil.copy2(src, dst, follow_symlinks=False)` for a `dst` that is not a directory. -/
def copyTo (src dst : Path) : OSM Unit := do
  let same ← ask (fun fs => sameFile fs src dst)
  if same then throw .sameFile
  else do
    let r ← ask (fun fs => (lstat fs src, stat fs src))
    match r with
    | (.ok (.link t m), _) => copyLink t m dst
    | (_, .error e) => throw e
    | (_, .ok (_, .file c m b)) => copyFile c m b dst
    | (_, .ok _) => throw .isDir

/-- `shutil.copy2(src, dst, follow_symlinks=False)`. -/
def copy2 (src dst : Path) : OSM Unit := do
  let b ← ask (fun fs => pathIsDir fs dst)
  copyTo src (if b then dst ++ [src.getLastD []] else dst)

/-- `scan_tree` (zielen/fstools.py:182-194); `os.scandir` follows a link. -/
def scanTree (fs : FS) (p : Path) : Except Err (List Path) :=
  match stat fs p with
  | .error e => .error e
  | .ok (q, .dir ..) => .ok ((fs.below q).map Prod.fst)
  | .ok _ => .error .notDir

/-- The loop over `files` (zielen/fstools.py:68-74). -/
def relPaths (fs : FS) (source : Path) : List Path → List Path → Except Err (List Path)
  | [], acc => .ok acc
  | f :: files, acc =>
    match scanTree fs (source ++ f) with
    | .ok es => relPaths fs source files (es.foldl (fun acc e => setAdd (f ++ e) acc) acc)
    | .error .notDir => relPaths fs source files (setAdd f acc)
    | .error e => .error e

/-- The set of relative paths (zielen/fstools.py:63-74). -/
def listPaths (fs : FS) (source : Path) : Option (List Path) → Except Err (List Path)
  | none => scanTree fs source
  | some files => relPaths fs source files []

/-- The `except` clauses for one path (zielen/fstools.py:98-105). -/
def copyFailed (src dst : Path) (e : Err) : Option (OSM Unit) :=
  match e with
  | .sameFile | .exists_ => some (do remove dst; copy2 src dst)
  | .isDir => some (makedirs dst)
  | _ => none

/-- The `try` statement for one path (zielen/fstools.py:96-105). -/
def copyEntry (src dst : Path) : OSM Unit := tryCatch (copy2 src dst) (copyFailed src dst)

/-- Removing the source (zielen/fstools.py:115-118). -/
def rmSrc (p : Path) : OSM Unit := tryCatch (remove p) (fun _ => some (rmdir p))

/-- One round of the loop (zielen/fstools.py:94-118). -/
def transferOne (source dest : Path) (rmSource : Bool) (p : Path) : OSM Unit := do
  makedirs (dest ++ p).dropLast
  copyEntry (source ++ p) (dest ++ p)
  if rmSource then rmSrc (source ++ p) else pure ()

/-- `transfer_tree` (zielen/fstools.py:33-121). -/
def transferTree (source dest : Path) (files : Option (List Path)) (exclude : List Path) (rmSource : Bool) :
    OSM Unit := do
  let b ← ask (fun fs => pathExists fs source)
  if b then do
    let ps ← query (fun fs => listPaths fs source files)
    each (transferOne source dest rmSource) (descending (ps.filter (fun p => decide (p ∉ exclude))))
  else throw .notFound

end Deep
end Verif
