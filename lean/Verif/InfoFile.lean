import Verif.Json
import Verif.Timestamp
/-
Processes that write the info file of a profile (zielen/containerbase.py:99-109, zielen/profile.py:407-438).
-/
namespace Verif

/-- The values of an initialised profile (zielen/profile.py:429-437; zielen/commands/init.py:126-127, 169-171), in the
order in which they are written. -/
def infoJson (version id : Str) (addRemote : Bool) (lastSync lastAdjust : DateTime) : Json :=
  .obj (.cons "Status".toList (.str "initialized".toList)
    (.cons "LastSync".toList (.str (strftime lastSync))
    (.cons "LastAdjust".toList (.str (strftime lastAdjust))
    (.cons "Version".toList (.str version)
    (.cons "ID".toList (.str id)
    (.cons "InitOptions".toList (.obj (.cons "add_remote".toList (.bool addRemote) .nil)) .nil))))))

/-- `vals[key]` (zielen/profile.py:139-204); the last item with a key counts, as in a dict that `json.load` makes, and
`none` is `KeyError`. -/
def JsonItems.get : JsonItems → Str → Option Json
  | .nil, _ => none
  | .cons k v r, key => match r.get key with
    | some x => some x
    | none => if k = key then some v else none

/-- The same for a value; only a dict has items. -/
def Json.get : Json → Str → Option Json
  | .obj is, key => is.get key
  | _, _ => none

/-- A stored time, read as in `_convert_epoch` (zielen/profile.py:144-147) before the conversion to a float. -/
def Json.time (v : Json) (key : Str) : Option DateTime :=
  match v.get key with
  | some (.str s) => strptime s
  | _ => none

/-- What a process does to the file: `open(path, "w")`, which empties it; closing it, which writes the text (it is
shorter than the buffer of the file object, so it is written at once); or being killed in between. -/
inductive InfoAct
  | open (p : Nat) (v : Json)
  | close (p : Nat)
  | kill (p : Nat)

/-- The content of the file, and for each process what it is about to write. -/
structure InfoState where
  content : Str
  pending : Nat → Option Json

/-- Writing at the beginning of a file. Each process has its own position, which is 0 after `open`. -/
def overwrite (content text : Str) : Str := text ++ content.drop text.length

/-- One action; closing is only possible after opening. -/
def infoStep (s : InfoState) : InfoAct → Option InfoState
  | .open p v => some ⟨[], fun q => if q = p then some v else s.pending q⟩
  | .close p => match s.pending p with
    | none => none
    | some v => some ⟨overwrite s.content (Json.dumps v), fun q => if q = p then none else s.pending q⟩
  | .kill p => some ⟨s.content, fun q => if q = p then none else s.pending q⟩

/-- Any interleaving of any number of processes. -/
def infoRun (s : InfoState) : List InfoAct → Option InfoState
  | [] => some s
  | a :: as => match infoStep s a with
    | none => none
    | some s' => infoRun s' as

/-- `JSONFile.read` (zielen/containerbase.py:101-104); `none` is `JSONDecodeError`. -/
def infoRead (s : InfoState) : Option Json := Json.loads s.content

end Verif
