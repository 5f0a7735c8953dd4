import Verif.PosixPath
/-
The lock of a profile: a bound Unix domain socket with an abstract name
(zielen/commandbase.py:34-45, 114-133).
-/
namespace Verif

/-- The name that `lock` binds (zielen/commandbase.py:128-130). -/
def socketName (uid : Nat) (profile : Str) : Str :=
  '\x00' :: ("zielen".toList ++ '-' :: (Nat.toDigits 10 uid ++ '-' :: profile))

/-- The length of a text in UTF-8. -/
def utf8Length (s : Str) : Nat := (s.map Char.utf8Size).sum

/-- The kernel's table of bound abstract sockets, with the process that holds each. -/
abbrev Sockets := List (Str × Nat)

/-- `bind`: fails if the name is in use or does not fit into `sun_path` (108 bytes). -/
def bindSocket (s : Sockets) (pid : Nat) (name : Str) : Option Sockets :=
  if utf8Length name ≤ 108 ∧ name ∉ s.map Prod.fst then some ((name, pid) :: s) else none

/-- What happens to the locks. `attempt` is a call of `lock` (zielen/commandbase.py:114-133) by a
process of a user, `done` the end of the process or of its command (the socket is
closed by `unlock`, zielen/commandbase.py:34-45, or by the kernel). -/
inductive LockEvent
  | attempt (pid uid : Nat) (profile : Str) (ok : Bool)
  | done (pid : Nat)
deriving DecidableEq, Repr

/-- One step. The result `ok` of an attempt is what `bind` says: `false` is a
`StatusError`. -/
inductive LockStep : Sockets → LockEvent → Sockets → Prop
  | ok {s s' : Sockets} {pid uid : Nat} {profile : Str} :
      bindSocket s pid (socketName uid profile) = some s' →
      LockStep s (.attempt pid uid profile true) s'
  | fail {s : Sockets} {pid uid : Nat} {profile : Str} :
      bindSocket s pid (socketName uid profile) = none →
      LockStep s (.attempt pid uid profile false) s
  | done {s : Sockets} {pid : Nat} :
      LockStep s (.done pid) (s.filter (fun e => decide (e.2 ≠ pid)))

/-- Any number of processes taking any steps in any order; the trace lists the latest event
last. -/
inductive LockRun : List LockEvent → Sockets → Prop
  | nil : LockRun [] []
  | snoc {tr : List LockEvent} {s s' : Sockets} {e : LockEvent} :
      LockRun tr s → LockStep s e s' → LockRun (tr ++ [e]) s'

end Verif
