import Verif.Lifecycle
/-
The command `init` when the process gets a signal. SIGTERM, SIGHUP and SIGINT raise a `ProgramError` wherever the program is
(zielen/cli.py:258-261, 316-318). Nothing in the commands catches it, so what a command has done is what it has done when it
is killed there; but Python runs the exit handlers, which it does not when the process is killed.
-/
namespace Verif
namespace Lifecycle
open Prog
variable {R α : Type}

/-- An exit handler (zielen/commands/init.py:62-76, 94, 123). With `none` the process is killed where the changes end, as in
`atExit`; with `some k` it gets a signal there, and the handler can make `k` more changes. -/
def atExitSig (sg : Option Nat) (handler : Prog (LS R) Unit) (m : Prog (LS R) α) : Prog (LS R) α := fun s =>
  match m s with
  | (.error e, s') =>
    if e = .killed then
      match sg with
      | none => (.error e, s')
      | some k => (.error e, (handler { s' with fuel := k }).2)
    else
      match handler s' with
      | (.error e', s'') => (.error (if e' = .killed then .killed else e), s'')
      | (.ok _, s'') => (.error e, s'')
  | r => r

variable (acts : Acts R) (sg : Option Nat)

/-- `newProfile` (zielen/commands/init.py:120-148) that may get a signal. -/
def newProfileSig (o : InitOpts) : Prog (LS R) (PInfo × Str) :=
  atExitSig sg (rmProfile acts.order) (do
    let r ← generate o
    onRest (acts.check r.2 r.1.addRemote)
    pure r)

/-- `initLocked` (zielen/commands/init.py:100-172) that may get a signal. -/
def initLockedSig (o : InitOpts) : Option (PInfo × Str) → Prog (LS R) Unit
  | some r => if r.1.initialized then throw .input else do
      onRest acts.lock
      finish acts r
  | none => do
      onRest acts.lock
      let r ← newProfileSig acts sg o
      finish acts r

/-- `initCmd` (zielen/commands/init.py:56-172) that may get a signal. -/
def initCmdSig (o : InitOpts) : Prog (LS R) Unit := atExitSig sg cleanupProfile (do
  let st ← readStatus
  initLockedSig acts sg o st)

/-- Run `init`. It is killed, or gets a signal, after `fuel` changes of the profile directory. -/
def sigRun (o : InitOpts) (fuel : Nat) (s : LS R) : Except Err Unit × LS R :=
  initCmdSig acts sg o { s with fuel := fuel }

end Lifecycle
end Verif
