import Verif.Daemon
import Verif.Config
import Verif.FS
/-
The factor by which the daemon multiplies all priorities.
-/
namespace Verif

/-- `priority_half_life` (zielen/profile.py:255-258), in seconds. -/
def halfLife (value : Str) : Nat := decimal (dollar value) * 3600

/-- The exponent of `0.5 ** (self.ADJUST_INTERVAL / half_life)` (zielen/daemon.py:165-166). -/
def decayExp (h : Nat) : Except Err Rat := if h = 0 then .error .zeroDiv else .ok (600 / (h : Rat))

/-- One round of the daemon (zielen/daemon.py:141-171). `pow` stands for `0.5 ** x` with floats. The main loop catches
`sqlite3.OperationalError` only, so the exception ends the daemon. -/
def daemonStep (pow : Rat → Rat) (h : Nat) (s : DaemonState) (r : DRound) : Except Err DaemonState :=
  if s.lastAdjust + adjustInterval ≤ r.now then
    match decayExp h with
    | .ok e => .ok (daemonRound (pow e) s r)
    | .error e => .error e
  else .ok (daemonRound 1 s r)

/-- Any number of rounds. -/
def daemonSteps (pow : Rat → Rat) (h : Nat) (s : DaemonState) : List DRound → Except Err DaemonState
  | [] => .ok s
  | r :: rs => match daemonStep pow h s r with
    | .ok s => daemonSteps pow h s rs
    | .error e => .error e

end Verif
