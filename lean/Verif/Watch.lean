import Verif.PosixPath
/-
How the daemon finds out which file of the profile has been opened (zielen/daemon.py:99-114).
-/
namespace Verif
open Posix

/-- `posixpath.relpath(path, start)` for absolute paths (for these `abspath` is `normpath`). The last line of it joins
components without slashes. -/
def relpath (path start : Str) : Str :=
  let pl := (split (normpath path)).filter (fun c => decide (c ≠ []))
  let sl := (split (normpath start)).filter (fun c => decide (c ≠ []))
  let i := (lcp sl pl).length
  let rel := List.replicate (sl.length - i) ['.', '.'] ++ pl.drop i
  if rel = [] then ['.'] else intercalate rel

/-- What ends the daemon: the `ValueError` of `commonpath` and the `UnboundLocalError` for `rel_path`. -/
inductive WatchErr
  | value | unbound
deriving DecidableEq, Repr

/-- What is taken from the queue: `event.pathname`, `event.dir` and the time. -/
structure WatchEvent where
  pathname : Str
  dir : Bool
  time : Int
deriving DecidableEq, Repr

/-- The loop over the watched directories (zielen/daemon.py:102-106). `rel` is the value of the variable `rel_path`
before the loop, if it has one. -/
def relPathOf (rel : Option Str) (path : Str) : List Str → Except WatchErr (Option Str)
  | [] => .ok rel
  | w :: ws => match commonpath path w with
    | none => .error .value
    | some c => if c = w then .ok (some (relpath path w)) else relPathOf rel path ws

/-- The loop over the queue (zielen/daemon.py:100-112) with the value of `rel_path`; `known` is what `get_path_info`
says. The result is the new value of `rel_path` and `accessed_paths`. -/
def watchRound (watch : List Str) (known : Str → Bool) (rel : Option Str) :
    List WatchEvent → Except WatchErr (Option Str × List (Str × Int))
  | [] => .ok (rel, [])
  | e :: es => match relPathOf rel e.pathname watch with
    | .error x => .error x
    | .ok rel' =>
      if e.dir then watchRound watch known rel' es
      else match rel' with
        | none => .error .unbound
        | some p => match watchRound watch known rel' es with
          | .error x => .error x
          | .ok (r, l) => .ok (r, if known p then (p, e.time) :: l else l)

/-- The rounds of the daemon until now (zielen/daemon.py:97-112), each with its queue and what the database knows at
that time. `local_path` and `remote_path` are read once, before the loop (zielen/daemon.py:80-90). -/
def watchRounds (watch : List Str) (rel : Option Str) :
    List ((Str → Bool) × List WatchEvent) → Except WatchErr (List (List (Str × Int)))
  | [] => .ok []
  | b :: bs => match watchRound watch b.1 rel b.2 with
    | .error x => .error x
    | .ok (r, l) => match watchRounds watch r bs with
      | .error x => .error x
      | .ok ls => .ok (l :: ls)

end Verif
