import Verif.HalfLife
/-
How the daemon uses the options of the config file (zielen/daemon.py:70-196). Times are in microseconds.
-/
namespace Verif

/-- `sync_interval` (zielen/profile.py:241-244). The values that `check_all` accepts are decimal numbers; Python's limit
on the length of numbers in texts is not modelled. -/
def syncInterval (raw : Dict Str) : Int := decimal ((vals raw "SyncInterval".toList).getD []) * 60 * 1000000

/-- What the two threads of the daemon do, in the order in which they do it: the main thread reads the config file
(zielen/daemon.py:148), or makes an adjustment that is due, for which it reads the config file as well
(zielen/daemon.py:157-169), and the other thread checks whether a sync is due (zielen/daemon.py:176-195). `none` is a
file that cannot be opened. Each of these is one step here: that the other thread can see the options of a part of the
file is not modelled. When adjustments are due is the subject of `DaemonState.pass`. -/
inductive DaemonEvent
  | read (text : Option Str)
  | adjust (text : Option Str)
  | check (now ended : Int)
deriving DecidableEq, Repr

/-- What the daemon does: it starts a sync, which ends at `ended`, or multiplies all priorities by `0.5 ** exponent`. -/
inductive DaemonAct
  | sync (now ended : Int)
  | decay (exponent : Rat)
deriving DecidableEq, Repr

/-- `Profile.read` (zielen/profile.py:84-93) as far as the config file is concerned: the options are added to those of
earlier reads (zielen/containerbase.py:49-60), then all are checked. -/
def rereadConfig (raw : Dict Str) : Option Str → Except Err (Dict Str)
  | none => .error .parse
  | some text => if checkAll (configRead raw text) true = [] then .ok (configRead raw text) else .error .parse

/-- The daemon with its options and the value of `last_attempt`: what it does, and the exception that ends it, if there
is one. The main loop catches `sqlite3.OperationalError` only (zielen/daemon.py:150), and the other thread ends with the
main thread because it is a daemon thread (zielen/daemon.py:73). -/
def daemonEvents (raw : Dict Str) (last : Int) : List DaemonEvent → List DaemonAct × Option Err
  | [] => ([], none)
  | .read text :: es => match rereadConfig raw text with
    | .error e => ([], some e)
    | .ok raw => daemonEvents raw last es
  | .adjust text :: es => match rereadConfig raw text with
    | .error e => ([], some e)
    | .ok raw => match decayExp (halfLife ((vals raw "PriorityHalfLife".toList).getD [])) with
      | .error e => ([], some e)
      | .ok x => (.decay x :: (daemonEvents raw last es).1, (daemonEvents raw last es).2)
  | .check now ended :: es =>
    if last + syncInterval raw ≤ now then
      (.sync now ended :: (daemonEvents raw ended es).1, (daemonEvents raw ended es).2)
    else daemonEvents raw last es

/-- `main` (zielen/daemon.py:70-75): the profile is read, and `last_attempt` starts as the `last_sync` of the info
file. -/
def daemonLife (lastSync : Int) (text : Option Str) (es : List DaemonEvent) : List DaemonAct × Option Err :=
  daemonEvents [] lastSync (.read text :: es)

end Verif
