import Verif.Commands
/-
The checks for available space that `init` and `reset` make.
-/
namespace Verif
open Prog OSM Call FSTools WM

/-- `disk_usage` (zielen/userdata.py:108-122), for what the scan has found. -/
def Scan.usage (s : Scan) : Nat := (s.map (fun e => e.2.blocks * 512)).sum

/-- `setup_from_local` (zielen/filelogic.py:460-488). `free` is what `shutil.disk_usage` returns for the remote directory
(zielen/userdata.py:124-130). That a disk becomes full is not modelled. -/
def setupFromLocalIn (free : Nat) (env : Env) : WM Unit := do
  let l ← scanLocal env
  if free < l.usage then throw .space else setupFromLocal env

/-- `InitCommand.main` after the profile directory has been made (zielen/commands/init.py:108-172). -/
def initIn (free : Nat) (env : Env) (addRemote_ : Bool) : WM Unit := do
  sys (makedirs env.loc)
  sys (makedirs env.exclDir)
  sys (makedirs env.trash)
  if addRemote_ then setupFromRemote env else setupFromLocalIn free env
  sys (addExcludeFile env)
  writeRemote
  let now ← sys time
  modify (fun w => { w with last := now })
  writeProfile

/-- Retrieving the files (zielen/commands/reset.py:53-92). `free` is what `shutil.disk_usage` returns for the local
directory. -/
def resetGetIn (free : Nat) (env : Env) (keepRemote noRetrieve : Bool) : WM Unit :=
  if noRetrieve then pure ()
  else do
    let r ← scanRemote env
    if free < r.usage then throw .space else resetGet env keepRemote false

/-- `ResetCommand.main` (zielen/commands/reset.py:44-109), without removing the profile directory. -/
def resetIn (free : Nat) (env : Env) (keepRemote noRetrieve : Bool) : WM Unit := do
  sys (makedirs env.loc)
  resetGetIn free env keepRemote noRetrieve
  resetTail env

end Verif
