import Verif.DaemonConfig
/-
The two threads of the daemon while the config file is being read (zielen/daemon.py:70-196). In `DaemonConfig` a read of
the config file is one step; here it is one step for each line, and the thread that starts the syncs can make its checks
in between. Times are in microseconds.
-/
namespace Verif

/-- `line` is a round of the loop of `ConfigFile.read` (zielen/containerbase.py:52-58) for a line of the file (without
the line end, which is stripped from the value), `checkAll` is the call at zielen/profile.py:92, both in the main
thread; `check` is the condition at zielen/daemon.py:178 in the other thread, and the sync that it may start, which ends
at `ended`. What else the threads do is not modelled here. -/
inductive ThreadStep
  | line (l : Str)
  | checkAll
  | check (now ended : Int)
deriving DecidableEq, Repr

/-- `raw` is the `raw_vals` of the config file, which the two threads share. `last` is `last_attempt`, or `none` when the
thread that starts the syncs has ended. `started` are the syncs, with their ends. `over` is the exception that has ended
the main thread, and with it the daemon. -/
structure Threads where
  raw : Dict Str
  last : Option Int
  started : List (Int × Int)
  over : Option Err
deriving DecidableEq, Repr

/-- The body of the loop of `ConfigFile.read` (zielen/containerbase.py:53-58). -/
def readLine (raw : Dict Str) (l : Str) : Dict Str := match parseLine l with
  | some (k, v) => raw.set k v
  | none => raw

/-- A step of one of the threads. `int` is Python's `int` of a text; `none` is the `ValueError`, which nothing catches in
`_sync`, so that it ends this thread only (zielen/daemon.py:174-195). Looking up an option and setting one are atomic. -/
def Threads.step (int : Str → Option Int) (s : Threads) (e : ThreadStep) : Threads :=
  if s.over ≠ none then s else match e with
  | .line l => { s with raw := readLine s.raw l }
  | .checkAll => if Verif.checkAll s.raw true = [] then s else { s with over := some .parse }
  | .check now ended => match s.last with
    | none => s
    | some t => match int ((vals s.raw "SyncInterval".toList).getD []) with
      | none => { s with last := none }
      | some i => if t + i * 60 * 1000000 ≤ now then
          { s with last := some ended, started := s.started ++ [(now, ended)] }
        else s

/-- The daemon after these steps: before the second thread is started the main thread has read the config file with the
content `text` (zielen/daemon.py:72-75), and the file has no errors. -/
def runThreads (int : Str → Option Int) (lastSync : Int) (text : Str) (es : List ThreadStep) : Threads :=
  es.foldl (Threads.step int) ⟨configRead [] text, some lastSync, [], none⟩

end Verif
