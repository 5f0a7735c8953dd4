import Verif.Commands
import Verif.Overlap
/-
A sync with the options of a config file: `setup_profile` (zielen/commandbase.py:97-112) and the properties of `Profile`
that a sync reads (zielen/profile.py:208-280).
-/
namespace Verif
open Prog OSM Call FSTools WM Posix

/-- What a sync depends on and what is not in the config file: the home directories, the exclude file, the id of the
profile, and the other parameters of `Env`. -/
structure Host where
  home : Str
  user : Str → Option Str
  excl : Path
  id : Str
  patsOf : Nat → Patterns
  stamp : Int → Str
  order : List Path → List Path
  symlinkSize : Nat

/-- The components of an absolute path. Relative paths, which are taken from the current directory, and paths with two
leading slashes are not modelled. -/
def pathOf : Str → Option Path
  | ['/'] => some []
  | '/' :: '/' :: _ => none
  | '/' :: r => some (split r)
  | _ => none

/-- `cfg_file.vals[key]` (zielen/profile.py:971-977). After `check_all` every option has a value. -/
def optVal (text key : Str) : Str := (vals (configRead [] text) key).getD []

/-- An option as it is used in a condition, where `None` is false: `use_trash`, `inflate_priority` and `account_for_size`
(zielen/profile.py:260-280). -/
def truth (text key : Str) : Bool := decide (convertBool (optVal text key) = some true)

/-- `Profile.local_path` (zielen/profile.py:208-212). -/
def Host.loc (h : Host) (text : Str) : Option Path := pathOf (localPath h.home h.user (optVal text "LocalDir".toList))

/-- `Profile.remote_path` (zielen/profile.py:214-218), which is computed like `local_path`. -/
def Host.rem (h : Host) (text : Str) : Option Path := pathOf (localPath h.home h.user (optVal text "RemoteDir".toList))

/-- The parameters of a sync (zielen/commandbase.py:111-112, zielen/profile.py:208-280). A storage limit that cannot be
read is 0 here; see `syncText`. -/
def Host.env (h : Host) (text : Str) : Env where
  loc := (h.loc text).getD []
  rem := (h.rem text).getD []
  excl := h.excl
  id := h.id
  patsOf := h.patsOf
  stamp := h.stamp
  order := h.order
  useTrash := truth text "UseTrash".toList
  inflate := truth text "InflatePriority".toList
  accountForSize := truth text "AccountForSize".toList
  storageLimit := ((storageLimit (optVal text "StorageLimit".toList)).getD 0 : Nat)
  cleanup := cleanupPeriod (optVal text "TrashCleanupPeriod".toList)
  symlinkSize := h.symlinkSize

/-- A sync with a storage limit that cannot be read (zielen/commands/sync.py:59-118): the exception is raised where the
limit is needed first. The `UnboundLocalError` or `IndexError` is `.attribute` here. -/
def syncNoLimit (env : Env) : WM Unit := do
  let (del, new, mod) ← syncScan env
  syncRemote env del new mod
  let _ ← exclMatches env
  let _ ← scanRemote env
  throw .attribute

/-- `zielen sync` for an initialized profile that is not locked, with the text of its config file
(zielen/commands/sync.py:59-141, zielen/commandbase.py:97-112). -/
def syncText (h : Host) (text : Str) : WM Unit :=
  if checkAll (configRead [] text) true ≠ [] then throw .parse
  else if h.loc text = none ∨ h.rem text = none then throw .unmodelled
  else match storageLimit (optVal text "StorageLimit".toList) with
    | some _ => sync (h.env text)
    | none => syncNoLimit (h.env text)

end Verif
