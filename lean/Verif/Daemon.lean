import Verif.ADB
/-
The daemon's main loop (zielen/daemon.py:73-171). Times are in microseconds.
-/
namespace Verif

/-- `COOLDOWN_PERIOD` (zielen/daemon.py:62). -/
def cooldownPeriod : Int := 1000000

/-- `_cooldown_files`. -/
abbrev Cooldown := List (Path × Int)

namespace Cooldown
def get (c : Cooldown) (p : Path) : Option Int := (c.find? (fun e => decide (e.1 = p))).map Prod.snd
def set (c : Cooldown) (p : Path) (t : Int) : Cooldown := (p, t) :: c.filter (fun e => decide (e.1 ≠ p))
end Cooldown

/-- An entry of the queue: the relative path, whether it is a directory, and the time. -/
structure Opening where
  path : Path
  dir : Bool
  time : Int
deriving DecidableEq, Repr

/-- The openings of one round that are considered (zielen/daemon.py:101-114). `known` is what
`get_path_info` says at that time. -/
def accessed (known : Path → Bool) (events : List Opening) : List (Path × Int) :=
  (events.filter (fun e => !e.dir && known e.path)).map (fun e => (e.path, e.time))

/-- One iteration of the loop over the accessed paths (zielen/daemon.py:116-131): the new
`_cooldown_files` and the counted openings so far. No time and a
time of 0 are both falsy, so they are one case here. -/
def countStep (st : Cooldown × List (Path × Int)) (e : Path × Int) : Cooldown × List (Path × Int) :=
  let past := (st.1.get e.1).getD 0
  if (past ≠ 0 ∧ past + cooldownPeriod < e.2) ∨ past = 0 then
    (st.1.set e.1 e.2, st.2 ++ [e])
  else st

/-- zielen/daemon.py:133-139. -/
def purge (now : Int) (c : Cooldown) : Cooldown := c.filter (fun e => decide (now - cooldownPeriod < e.2))

/-- The part of a round that does not touch the database. -/
structure Batch where
  accessed : List (Path × Int)
  now : Int
deriving DecidableEq, Repr

/-- One round: the new `_cooldown_files` and the openings counted in it. -/
def countBatch (c : Cooldown) (b : Batch) : Cooldown × List (Path × Int) :=
  let st := b.accessed.foldl countStep (c, [])
  (purge b.now st.1, st.2)

/-- The openings counted in a sequence of rounds. -/
def countedFrom (c : Cooldown) : List Batch → List (Path × Int)
  | [] => []
  | b :: bs => (countBatch c b).2 ++ countedFrom (countBatch c b).1 bs

/-! ### The database -/

/-- `ADJUST_INTERVAL` (zielen/daemon.py:60). -/
def adjustInterval : Int := 600 * 1000000

/-- Where a round meets a locked database, if it does (`sqlite3.OperationalError`). A statement
that cannot get the write lock changes nothing. A failing commit leaves the transaction
open. -/
inductive LockedAt
  | never | adjust | adjustCommit | increment | commit
deriving DecidableEq, Repr

/-- The daemon between two rounds: the committed database, the open transaction if there is
one, `deduplicated_paths` and the time of the last adjustment. -/
structure DaemonState where
  com : ALocal
  work : Option ALocal
  pending : List Path
  lastAdjust : Int

/-- What the daemon's connection sees. -/
def DaemonState.view (s : DaemonState) : ALocal := s.work.getD s.com

/-- What happens in a round: the openings counted in it, the time, where the database is
locked, and what other processes commit before it (only if the daemon has no open transaction). -/
structure DRound where
  counted : List Path
  now : Int
  locked : LockedAt
  other : ALocal → ALocal

/-- The start of a round: other processes have committed, the counted openings are appended to
`deduplicated_paths` (zielen/daemon.py:125). -/
def DaemonState.arrive (s : DaemonState) (r : DRound) : DaemonState :=
  { s with com := if s.work.isNone then r.other s.com else s.com, pending := s.pending ++ r.counted }

/-- The part of the round that changes the database (zielen/daemon.py:141-153, 155-171). `decay` is
`0.5 ** (ADJUST_INTERVAL / half_life)`. A round ends early at a locked database. `read`
and the info file are left out, see `InfoRace`; the order of changes is the order here. -/
def DaemonState.pass (decay : Rat) (s : DaemonState) (r : DRound) : DaemonState :=
  let due := decide (s.lastAdjust + adjustInterval ≤ r.now)
  if due && decide (r.locked = .adjust) then s
  else
    let s := if due then { s with work := some (ALocal.adjustAll s.view decay), lastAdjust := r.now } else s
    if due && decide (r.locked = .adjustCommit) then s
    else
      let s := if due then { s with com := s.view, work := none } else s
      if r.locked = .increment then s
      else
        let s := { s with work := some (ALocal.increment s.view s.pending 1) }
        if r.locked = .commit then s
        else { s with com := s.view, work := none, pending := [] }

def daemonRound (decay : Rat) (s : DaemonState) (r : DRound) : DaemonState := (s.arrive r).pass decay r

/-- Any number of rounds. -/
def daemonRun (decay : Rat) (s : DaemonState) (rs : List DRound) : DaemonState :=
  rs.foldl (daemonRound decay) s

end Verif
