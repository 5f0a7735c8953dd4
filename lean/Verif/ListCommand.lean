import Verif.BoxTable
import Verif.Config
/-
The list command (zielen/commands/list.py:30-51).
-/
namespace Verif

/-- The row of a profile with the given name and config file text
(zielen/commands/list.py:36-47). An option that is in neither the file nor the defaults has the
value `None`, which makes `BoxTable` raise a `TypeError`: `none`. -/
def listRow (profile : Str × Str) : Option (List Str) :=
  let raw := configRead [] profile.2
  match vals raw "LocalDir".toList, vals raw "RemoteDir".toList, vals raw "StorageLimit".toList with
  | some a, some b, some c => some [profile.1, a, b, c]
  | _, _, _ => none

/-- What `main` of the list command prints (zielen/commands/list.py:30-51), without the final
line end. -/
def listOutput (profiles : List (Str × Str)) : Option Str :=
  if profiles = [] then some "\n-- No profiles --\n".toList
  else (profiles.mapM listRow).map (tableFormat
    ["Profile".toList, "Local Directory".toList, "Remote Directory".toList, "Limit".toList])

end Verif
