/-
When the daemon starts a sync (zielen/daemon.py:173-196). Times are in microseconds.
-/
namespace Verif

/-- What one iteration of the loop of `_sync` (zielen/daemon.py:176-196) meets: what `time.time()` says at the
comparison, what `sync_interval` is at that time (the main thread may have read a new value), and what
`time.time()` says when the child process, if one is started, has ended. -/
structure SyncCheck where
  now : Int
  interval : Int
  ended : Int
deriving DecidableEq, Repr

/-- The loop of `_sync` (zielen/daemon.py:176-196) with the value of `last_attempt`: the iterations in which a sync is
started. Starting and running the child process is assumed to raise nothing. -/
def schedule (last : Int) : List SyncCheck → List SyncCheck
  | [] => []
  | c :: cs => if last + c.interval ≤ c.now then c :: schedule c.ended cs else schedule last cs

/-- `_sync` (zielen/daemon.py:173-196): `last_attempt` starts as the `last_sync` of the info file. -/
def daemonSyncs (lastSync : Int) (cs : List SyncCheck) : List SyncCheck := schedule lastSync cs

end Verif
