import Verif.Symlink
/-
A file system: a finite map from absolute paths (lists of components) to nodes,
and the system calls that the program uses.

Simplifications. The root directory `[]` always exists. Hard links, special
files, permissions and full disks do not exist. A symbolic link is followed
when it is the last component of a path, its target being resolved textually;
a path that has a link as an inner component fails with `ENOTDIR` (so symbolic
links to directories are never entered). The mtime of a directory is set when
the directory is made and by `update_mtime`, not when entries come and go. A
directory that the program makes occupies 8 blocks and a link none.
-/
namespace Verif

/-- What is stored under a path. `content` stands for the bytes of the file. -/
inductive Node
  | file (content : Nat) (mtime : Int) (blocks : Nat)
  | dir (mtime : Int) (blocks : Nat)
  | link (target : Str) (mtime : Int)
deriving DecidableEq, Repr

namespace Node
def isDir : Node → Bool | dir .. => true | _ => false
def isFile : Node → Bool | file .. => true | _ => false
def isLink : Node → Bool | link .. => true | _ => false
/-- `st_mtime` of `os.lstat`. -/
def mtime : Node → Int | file _ m _ => m | dir m _ => m | link _ m => m
/-- `st_blocks` of `os.lstat`. -/
def blocks : Node → Nat | file _ _ b => b | dir _ b => b | link .. => 0
/-- `os.readlink`; `none` is its `OSError`. -/
def target? : Node → Option Str | link t _ => some t | _ => none
/-- The same node with another mtime. -/
def touch (m : Int) : Node → Node | file c _ b => file c m b | dir _ b => dir m b | link t _ => link t m
end Node

abbrev FS := List (Path × Node)

/-- Python exceptions, and `killed` for the end of the process. -/
inductive Err
  | notFound | exists_ | notDir | isDir | notEmpty | sameFile | loop | invalid
  | key | integrity | lock | transfer | space | input | remote | attribute | zeroDiv | killed | parse | json
  | unmodelled
deriving DecidableEq, Repr

namespace FS

def get (fs : FS) (p : Path) : Option Node :=
  if p = [] then some (.dir 0 8)
  else (fs.find? (fun e => decide (e.1 = p))).map Prod.snd

def rm (fs : FS) (p : Path) : FS := fs.filter (fun e => decide (e.1 ≠ p))

def set (fs : FS) (p : Path) (n : Node) : FS := (p, n) :: fs.rm p

/-- Remove a path and everything below it. -/
def rmTree (fs : FS) (p : Path) : FS := fs.filter (fun e => !p.isPrefixOf e.1)

/-- The entries strictly below a directory, with paths relative to it. -/
def below (fs : FS) (root : Path) : List (Path × Node) :=
  fs.filterMap (fun e =>
    if root.isPrefixOf e.1 ∧ e.1 ≠ root then some (e.1.drop root.length, e.2) else none)

/-- `p` is a directory. -/
def isDir (fs : FS) (p : Path) : Bool := ((fs.get p).map Node.isDir).getD false

/-- What the kernel finds on the way to the last component of `p`: the error
if some proper parent is not a directory. -/
def pathErr (fs : FS) (p : Path) : Option Err :=
  ((List.range p.length).map p.take).findSome? (fun q =>
    match fs.get q with
    | some (.dir ..) => none
    | some _ => some .notDir
    | none => some .notFound)

/-- `os.lstat`. -/
def lstat (fs : FS) (p : Path) : Except Err Node :=
  match fs.pathErr p with
  | some e => .error e
  | none => match fs.get p with
    | some n => .ok n
    | none => .error .notFound

/-- The target of a link at `p`, resolved textually. -/
def linkDest (p : Path) (target : Str) : Path :=
  walk (if Posix.isabs target then [] else p.dropLast) (Posix.split target)

/-- Follow links at the last component (at most 40, as Linux does). -/
def follow (fs : FS) : Nat → Path → Except Err Path
  | 0, _ => .error .loop
  | n + 1, p =>
    match fs.pathErr p with
    | some e => .error e
    | none => match fs.get p with
      | some (.link t _) => follow fs n (linkDest p t)
      | _ => .ok p

/-- `os.stat`, with the path that links lead to. -/
def stat (fs : FS) (p : Path) : Except Err (Path × Node) :=
  match fs.follow 40 p with
  | .error e => .error e
  | .ok q => match fs.get q with
    | some n => .ok (q, n)
    | none => .error .notFound

/-- `os.path.exists`. -/
def pathExists (fs : FS) (p : Path) : Bool := match fs.stat p with | .ok _ => true | .error _ => false

/-- `os.path.isdir`. -/
def pathIsDir (fs : FS) (p : Path) : Bool :=
  match fs.stat p with | .ok (_, n) => n.isDir | .error _ => false

/-- `os.remove`. -/
def remove (fs : FS) (p : Path) : Except Err FS :=
  match fs.lstat p with
  | .error e => .error e
  | .ok (.dir ..) => .error .isDir
  | .ok _ => .ok (fs.rm p)

/-- `os.rmdir`. -/
def rmdir (fs : FS) (p : Path) : Except Err FS :=
  match fs.lstat p with
  | .error e => .error e
  | .ok (.dir ..) => if (fs.below p).isEmpty then .ok (fs.rm p) else .error .notEmpty
  | .ok _ => .error .notDir

/-- Create a node where nothing exists. -/
def create (fs : FS) (p : Path) (n : Node) : Except Err FS :=
  match fs.lstat p with
  | .ok _ => .error .exists_
  | .error e => match fs.pathErr p with
    | some _ => .error e
    | none => .ok (fs.set p n)

/-- `os.mkdir`. -/
def mkdir (fs : FS) (p : Path) (now : Int) : Except Err FS := fs.create p (.dir now 8)

/-- `os.symlink`. -/
def symlink (fs : FS) (target : Str) (p : Path) (now : Int) : Except Err FS :=
  fs.create p (.link target now)

/-- Move `p` and everything below it to `q`. -/
def move (fs : FS) (p q : Path) : FS :=
  (fs.filter (fun e => !p.isPrefixOf e.1 && !q.isPrefixOf e.1)) ++
    (fs.filter (fun e => p.isPrefixOf e.1)).map (fun e => (q ++ e.1.drop p.length, e.2))

/-- `os.rename`. Moving a directory into itself and moving the root fail. -/
def rename (fs : FS) (p q : Path) : Except Err FS :=
  match fs.lstat p with
  | .error e => .error e
  | .ok n =>
    match fs.pathErr q with
    | some e => .error e
    | none =>
      if p = q then .ok fs
      else if p = [] ∨ q = [] ∨ p.isPrefixOf q then .error .invalid
      else match n, fs.get q with
        | _, none => .ok (fs.move p q)
        | .dir .., some (.dir ..) =>
          if (fs.below q).isEmpty then .ok (fs.move p q) else .error .notEmpty
        | .dir .., some _ => .error .notDir
        | _, some (.dir ..) => .error .isDir
        | _, some _ => .ok (fs.move p q)

end FS
end Verif
