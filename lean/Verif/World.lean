import Verif.FSTools
import Verif.Diff
import Verif.PathsDiff
import Verif.Utils
/-
The state that a command works on: the file system, both databases and the info file.

The databases are not files here: `db` and `rdb` are what the open connections show, `dbSaved` and
`rdbSaved` are the last commits. If the process ends, what has not been saved is lost. Saving is one step
(SQLite commits are atomic; that the info file is not replaced atomically is not modelled).
-/
namespace Verif
open Prog OSM Call FSTools

/-- What a command reads and does not change. `loc` and `rem` are the local and the remote directory, `excl`
is the profile's exclude file and `id` its id; `patsOf` gives the meaning of the contents of an exclude file,
`stamp` the text of a time in a conflict name, and `order` is the order in which Python iterates over a set. -/
structure Env where
  loc : Path
  rem : Path
  excl : Path
  id : Str
  patsOf : Nat → Patterns
  stamp : Int → Str
  order : List Path → List Path
  useTrash : Bool
  inflate : Bool
  accountForSize : Bool
  storageLimit : Int
  cleanup : Option Int
  symlinkSize : Nat

namespace Env

def utilName : Str := ".zielen".toList
/-- `util_dir` (zielen/userdata.py:155). `safe_path`, which is `normpath(util_dir/..)`, is `rem`. -/
def util (env : Env) : Path := env.rem ++ [utilName]
/-- `trash_dir` (zielen/userdata.py:157). -/
def trash (env : Env) : Path := env.util ++ ["Trash".toList]
/-- `_exclude_dir` (zielen/userdata.py:158). -/
def exclDir (env : Env) : Path := env.util ++ ["exclude".toList]

end Env

/-- `lmemo` and `rmemo` are the `_sub_entries` of the two directories, `matches_` the memoized matches of the
profile's exclude file. `last` is the time of the last sync. -/
structure World where
  os : OS
  db : ALocal
  dbSaved : ALocal
  rdb : ARemote
  rdbSaved : ARemote
  last : Int
  lastSaved : Int
  lmemo : Scan
  rmemo : Scan
  matches_ : Option (List Path)

/-- A program on the whole state. -/
abbrev WM (α : Type) : Type := Prog World α

namespace WM
variable {α : Type}

/-- Run a file system program. -/
def sys (m : OSM α) : WM α := fun w => match m w.os with
  | (r, os) => (r, { w with os := os })

def gets (f : World → α) : WM α := fun w => (.ok (f w), w)

def modify (f : World → World) : WM Unit := fun w => (.ok (), f w)

def get? (e : Err) : Option α → WM α
  | some a => pure a
  | none => throw e

/-- Write something to persistent storage other than the two directories. -/
def save (f : World → World) : WM Unit := do
  sys (op (fun fs _ => .ok fs))
  modify f

end WM
open WM

/-- A Python set of the elements of a list. -/
def setOf (l : List Path) : List Path := l.foldl (fun acc p => setAdd p acc) []

/-- `os.scandir`: the entries of a directory. -/
def scandir (fs : FS) (p : Path) : Except Err (List Path) :=
  match scanTree fs p with
  | .ok es => .ok (es.filter (fun e => decide (e.length = 1)))
  | .error e => .error e

/-- Scan a directory tree. -/
def scanNodes (fs : FS) (p : Path) : Except Err Scan :=
  match scanTree fs p with
  | .ok _ => .ok (fs.below p)
  | .error e => .error e

/-- Entries outside the util directory (zielen/userdata.py:246-248). -/
def Scan.user (s : Scan) : Scan := s.filter (fun e => decide (e.1.head? ≠ some Env.utilName))

/-- `local_dir.scan_paths()` (zielen/userdata.py:47-106). The scan is memoized; an empty one is repeated. -/
def scanLocal (env : Env) : WM Scan := do
  let m ← gets World.lmemo
  if m.isEmpty then do
    let s ← sys (query (fun fs => scanNodes fs env.loc))
    modify (fun w => { w with lmemo := s })
    pure s
  else pure m

/-- `remote_dir.scan_paths(memoize=False)` (zielen/userdata.py:238-249). -/
def rescanRemote (env : Env) : WM Scan := do
  let s ← sys (query (fun fs => scanNodes fs env.rem))
  modify (fun w => { w with rmemo := s })
  pure s.user

/-- `remote_dir.scan_paths()` (zielen/userdata.py:238-249). -/
def scanRemote (env : Env) : WM Scan := do
  let m ← gets World.rmemo
  if m.isEmpty then rescanRemote env else pure m.user

/-- Read an exclude file (zielen/profile.py:331-340). -/
def readPatterns (env : Env) (fs : FS) (p : Path) : Except Err Patterns :=
  match fs.stat p with
  | .ok (_, .file c _ _) => .ok (env.patsOf c)
  | .ok _ => .error .isDir
  | .error e => .error e

/-- `_glob` of an exclude file (zielen/profile.py:342-374). `scan_tree` of a match follows a link: a link to a file
raises NotADirectoryError, which is caught; a link that cannot be followed raises an exception that is not. What is in
a directory to which a link points is not added here. -/
def globMatches (fs : FS) (loc : Path) (pats : Patterns) : Except Err (List Path) :=
  match ((fs.below loc).map Prod.fst).findSome? (fun m =>
      if pats.any (fun g => g m) then
        match fs.stat (loc ++ m) with
        | .error e => if e = .notDir then none else some e
        | .ok _ => none
      else none) with
  | some e => .error e
  | none => .ok (allMatches pats ((fs.below loc).map Prod.fst))

/-- `profile.all_exclude_matches(local_dir.path)` (zielen/profile.py:342-404), memoized. -/
def exclMatches (env : Env) : WM (List Path) := do
  let m ← gets World.matches_
  match m with
  | some l => pure l
  | none => do
    let pats ← sys (query (fun fs => readPatterns env fs env.excl))
    let l ← sys (query (fun fs => globMatches fs env.loc pats))
    modify (fun w => { w with matches_ := some l })
    pure l

end Verif
