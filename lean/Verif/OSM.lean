import Verif.FS
import Verif.Prioritize
/-
Programs that work on the file system, and the library functions that the
program calls on it.

A program is a function from a state to a result and a state. Every system call
that changes the file system costs one unit of `fuel`; without fuel the process
is killed, and nothing catches that. So the final states of a program for all
amounts of fuel are its states at all crash points. `clk` is the system clock: it
shows `clk tick` after `tick` changes. Nobody else changes the files meanwhile.
-/
namespace Verif

deriving instance DecidableEq for Except

/-- A program with a state `σ`. -/
def Prog (σ α : Type) : Type := σ → Except Err α × σ

namespace Prog
variable {σ α β γ : Type}

/-- Sequence; an exception ends the program. -/
instance : Monad (Prog σ) where
  pure a := fun s => (.ok a, s)
  bind m f := fun s => match m s with
    | (.ok a, s') => f a s'
    | (.error e, s') => (.error e, s')

def throw (e : Err) : Prog σ α := fun s => (.error e, s)

/-- `try: m except ...: h`, where `h` is defined for the exceptions that are caught. The end of the
process cannot be caught. -/
def tryCatch (m : Prog σ α) (h : Err → Option (Prog σ α)) : Prog σ α := fun s =>
  match m s with
  | (.error e, s') => if e = .killed then (.error e, s') else
    match h e with
    | some k => k s'
    | none => (.error e, s')
  | r => r

/-- `for x in l: f(x)`. -/
def each (f : γ → Prog σ Unit) : List γ → Prog σ Unit
  | [] => pure ()
  | x :: xs => do f x; each f xs

end Prog

structure OS where
  fs : FS
  fuel : Nat
  tick : Nat
  clk : Nat → Int

abbrev OSM (α : Type) : Type := Prog OS α

namespace OSM
variable {α : Type}

/-- A system call that only looks. -/
def query (f : FS → Except Err α) : OSM α := fun s => (f s.fs, s)

/-- The same if it cannot fail. -/
def ask (f : FS → α) : OSM α := fun s => (.ok (f s.fs), s)

/-- `time.time()`. -/
def time : OSM Int := fun s => (.ok (s.clk s.tick), s)

/-- A system call that changes the file system; `f` also gets the time. -/
def op (f : FS → Int → Except Err FS) : OSM Unit := fun s =>
  match s.fuel with
  | 0 => (.error .killed, s)
  | n + 1 => match f s.fs (s.clk s.tick) with
    | .ok fs => (.ok (), { s with fs := fs, fuel := n, tick := s.tick + 1 })
    | .error e => (.error e, { s with fuel := n, tick := s.tick + 1 })

end OSM

namespace Call
open Prog OSM

/-- `os.remove`. -/
def remove (p : Path) : OSM Unit := op (fun fs _ => fs.remove p)
/-- `os.rmdir`. -/
def rmdir (p : Path) : OSM Unit := op (fun fs _ => fs.rmdir p)
/-- `os.mkdir`. -/
def mkdir (p : Path) : OSM Unit := op (fun fs now => fs.mkdir p now)
/-- `os.symlink`. -/
def symlink (target : Str) (p : Path) : OSM Unit := op (fun fs now => fs.symlink target p now)
/-- `os.rename`. -/
def rename (p q : Path) : OSM Unit := op (fun fs _ => fs.rename p q)

/-- What `os.makedirs(path, exist_ok=True)` does if `mkdir` fails. -/
def unlessDir (p : Path) (e : Err) : OSM Unit := do
  let b ← ask (fun fs => fs.pathIsDir p)
  if b then pure () else throw e

/-- The last step of `os.makedirs(path, exist_ok=True)`. -/
def mkdirOk (p : Path) : OSM Unit := tryCatch (mkdir p) (fun e => some (unlessDir p e))

/-- `os.makedirs(path, exist_ok=True)`, with the path in reverse. A `FileExistsError` of the
recursive call is ignored. -/
def makedirsRev : Path → OSM Unit
  | [] => mkdirOk []
  | c :: rev => do
    let b ← ask (fun fs => fs.pathExists rev.reverse)
    if b then mkdirOk (c :: rev).reverse
    else do
      tryCatch (makedirsRev rev) (fun e => if e = .exists_ then some (pure ()) else none)
      mkdirOk (c :: rev).reverse

def makedirs (p : Path) : OSM Unit := makedirsRev p.reverse

/-- `os.path.samefile`, and `False` if one does not exist. -/
def sameFile (fs : FS) (p q : Path) : Bool :=
  match fs.stat p, fs.stat q with
  | .ok (a, _), .ok (b, _) => decide (a = b)
  | _, _ => false

/-- Change the node of an existing path (`write` or `utime`). -/
def update (p : Path) (f : Node → Int → Node) : OSM Unit := op (fun fs now =>
  match fs.get p with
  | some n => .ok (fs.set p (f n now))
  | none => .error .notFound)

/-- Empty or create the file at `q`, which is not a link. -/
def truncate (q : Path) : OSM Unit := op (fun fs now =>
  match fs.get q with
  | some (.dir ..) => .error .isDir
  | some (.link ..) => .error .loop
  | _ => .ok (fs.set q (.file 0 now 0)))

/-- Copy a regular file: `open(dst, "wb")`, which follows links and empties the file (content 0),
the write, then `copystat`. -/
def copyFile (c : Nat) (m : Int) (b : Nat) (dst : Path) : OSM Unit := do
  let q ← query (fun fs => fs.follow 40 dst)
  truncate q
  update q (fun _ now => .file c now b)
  update q (fun n _ => n.touch m)

/-- Copy a link, then `copystat`. -/
def copyLink (t : Str) (m : Int) (dst : Path) : OSM Unit := do
  symlink t dst
  update dst (fun n _ => n.touch m)

/-- `shutil.copy2(src, dst, follow_symlinks=False)` for a `dst` that is not a directory. -/
def copyTo (src dst : Path) : OSM Unit := do
  let same ← ask (fun fs => sameFile fs src dst)
  if same then throw .sameFile
  else do
    let r ← ask (fun fs => (fs.lstat src, fs.stat src))
    match r with
    | (.ok (.link t m), _) => copyLink t m dst
    | (_, .error e) => throw e
    | (_, .ok (_, .file c m b)) => copyFile c m b dst
    | (_, .ok _) => throw .isDir

/-- `shutil.copy2(src, dst, follow_symlinks=False)`: into `dst` if that is a directory. -/
def copy2 (src dst : Path) : OSM Unit := do
  let b ← ask (fun fs => fs.pathIsDir dst)
  copyTo src (if b then dst ++ [src.getLastD []] else dst)

/-- Relative paths in descending order of their texts. -/
def descending (l : List Path) : List Path := sortBy (fun a b => strLe (toStr b) (toStr a)) l

/-- Remove one entry of a tree. -/
def rmEntry (p : Path) : OSM Unit := do
  let n ← query (fun fs => fs.lstat p)
  if n.isDir then rmdir p else remove p

/-- `shutil.rmtree`: entries one at a time, the contents of a directory before the directory, in
descending order of their paths. A link raises `OSError`, a file `NotADirectoryError`. -/
def rmtree (p : Path) : OSM Unit := do
  let n ← query (fun fs => fs.lstat p)
  match n with
  | .link .. => throw .invalid
  | .file .. => throw .notDir
  | .dir .. => do
    let es ← ask (fun fs => descending ((fs.below p).map Prod.fst))
    each (fun e => rmEntry (p ++ e)) es
    rmdir p

end Call
end Verif
