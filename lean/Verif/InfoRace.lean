/-
The daemon and a sync share the info file of a profile: each reads all of it into memory
and writes all of it back (zielen/containerbase.py:88-110, zielen/profile.py:85-93, 125-128).
Only the socket of `lock` keeps two syncs apart; the daemon does not take it. The SQLite
write lock keeps the two processes apart from the first change of the database to the commit.
-/
namespace Verif

/-- The two times in the info file (zielen/profile.py:407-438). -/
structure Info where
  lastSync : Int
  lastAdjust : Int
deriving DecidableEq, Repr

inductive Proc | daemon | sync
deriving DecidableEq, Repr

/-- What a process does to shared state. `write t` writes the info file, after setting the
process's own time to `t` in memory if there is one. `retry` is a failure that
ends the pass, for example because the database is locked. -/
inductive RAct
  | read | acquire | write (t : Option Int) | release | retry
deriving DecidableEq, Repr

/-- Where a process is in its program. -/
inductive RPos | idle | haveRead | locked | lockedRead | written
deriving DecidableEq, Repr

/-- The daemon's loop (zielen/daemon.py:141-153, 155-171). An adjustment is
`read; acquire; write t; release`: the database is changed after `read`. The main pass is
`acquire; read; write; release` if there are paths to increment and `read; write`
otherwise. -/
def daemonNext : RPos → RAct → Option RPos
  | .idle, .read => some .haveRead
  | .haveRead, .acquire => some .lockedRead
  | .haveRead, .write none => some .idle
  | .haveRead, .retry => some .idle
  | .lockedRead, .write _ => some .written
  | .idle, .acquire => some .locked
  | .locked, .read => some .lockedRead
  | .written, .release => some .idle
  | _, _ => none

/-- A sync (zielen/commandbase.py:97-112, zielen/commands/sync.py:59-141): the profile is read first, the
database is changed later, and the info file is written at the end. A failing sync
writes nothing. -/
def syncNext : RPos → RAct → Option RPos
  | .idle, .read => some .haveRead
  | .haveRead, .acquire => some .lockedRead
  | .haveRead, .retry => some .idle
  | .lockedRead, .write (some _) => some .written
  | .lockedRead, .release => some .idle
  | .written, .release => some .idle
  | _, _ => none

structure RState where
  file : Info
  mem : Proc → Info
  pos : Proc → RPos
  owner : Option Proc
  clock : Int

def progNext : Proc → RPos → RAct → Option RPos
  | .daemon => daemonNext
  | .sync => syncNext

def setFun {α : Type} (f : Proc → α) (p : Proc) (x : α) : Proc → α := fun q => if q = p then x else f q

/-- The process's own time in its memory (zielen/daemon.py:170, zielen/commands/sync.py:140). -/
def setTime (p : Proc) (t : Option Int) (i : Info) : Info :=
  match p, t with
  | _, none => i
  | .daemon, some t => { i with lastAdjust := t }
  | .sync, some t => { i with lastSync := t }

/-- One action of one process; `none` if it cannot happen now. Times are taken from a clock that
does not go back. -/
def raceStep (s : RState) (p : Proc) (a : RAct) : Option RState :=
  match progNext p (s.pos p) a with
  | none => none
  | some pos =>
    let s' := { s with pos := setFun s.pos p pos }
    match a with
    | .read => some { s' with mem := setFun s.mem p s.file }
    | .acquire => if s.owner = none then some { s' with owner := some p } else none
    | .write t =>
      if s.clock ≤ t.getD s.clock then
        let i := setTime p t (s.mem p)
        some { s' with mem := setFun s.mem p i, file := i, clock := t.getD s.clock }
      else none
    | .release => some { s' with owner := if s.owner = some p then none else s.owner }
    | .retry => some s'

/-- Any interleaving. -/
def raceRun (s : RState) : List (Proc × RAct) → Option RState
  | [] => some s
  | (p, a) :: tr => (raceStep s p a).bind (fun s' => raceRun s' tr)

/-- Both processes are about to start; what is in memory does not matter as they read first. -/
def RState.start (i : Info) (clock : Int) : RState :=
  ⟨i, fun _ => i, fun _ => .idle, none, clock⟩

end Verif
