import Verif.Text
/-
Configuration files (zielen/containerbase.py:32-85, zielen/profile.py:208-280
and 833-1006).
-/
namespace Verif

/-- A Python `dict` with string keys. -/
abbrev Dict (α : Type) := List (Str × α)

namespace Dict
variable {α : Type}
def get (d : Dict α) (k : Str) : Option α := (d.find? (fun e => decide (e.1 = k))).map Prod.snd
def keys (d : Dict α) : List Str := d.map Prod.fst
/-- `d[k] = v`. -/
def set (d : Dict α) (k : Str) (v : α) : Dict α :=
  if d.any (fun e => decide (e.1 = k)) then d.map (fun e => if e.1 = k then (k, v) else e)
  else d ++ [(k, v)]
end Dict

/-- `COMMENT_REGEX.search(line)`, i.e. `^\s*#` (zielen/containerbase.py:42). -/
def isComment (line : Str) : Bool := (line.dropWhile pySpace).head? == some '#'

/-- The key and value of a line, both stripped (zielen/containerbase.py:51-58). -/
def parseLine (line : Str) : Option (Str × Str) :=
  if isComment line = false ∧ '=' ∈ line then
    some (strip (line.takeWhile (· != '=')), strip ((line.dropWhile (· != '=')).drop 1))
  else none

/-- `ConfigFile.read` (zielen/containerbase.py:49-60): `text` is the content of
the file, `raw` the `raw_vals` before. -/
def configRead (raw : Dict Str) (text : Str) : Dict Str :=
  (fileLines (univNewlines text)).foldl (fun d l => match parseLine l with
    | some (k, v) => d.set k v
    | none => d) raw

/-- One line of `ConfigFile.write` (zielen/containerbase.py:66-81). -/
def writeLine (raw : Dict Str) (line : Str) : Str :=
  match parseLine line with
  | some (k, _) => match raw.get k with
    | some v => k ++ '=' :: v ++ ['\n']
    | none => line
  | none => line

/-- `ConfigFile.write`: the new content, given the text of the template. -/
def configWrite (raw : Dict Str) (template : Str) : Str :=
  ((fileLines (univNewlines template)).map (writeLine raw)).flatten

/-! ### Options -/

/-- zielen/profile.py:864-876. -/
def requiredKeys : List Str := ["LocalDir".toList, "RemoteDir".toList, "StorageLimit".toList]
def optionalKeys : List Str := ["SyncInterval".toList, "PriorityHalfLife".toList, "UseTrash".toList,
  "TrashCleanupPeriod".toList, "InflatePriority".toList, "AccountForSize".toList]
def allKeys : List Str := requiredKeys ++ optionalKeys
def boolKeys : List Str := ["UseTrash".toList, "InflatePriority".toList, "AccountForSize".toList]
def trueVals : List Str := ["yes".toList, "true".toList]
def falseVals : List Str := ["no".toList, "false".toList]
/-- zielen/profile.py:877-884. -/
def defaults : Dict Str := [("SyncInterval".toList, "20".toList),
  ("PriorityHalfLife".toList, "120".toList), ("UseTrash".toList, "yes".toList),
  ("TrashCleanupPeriod".toList, "30".toList), ("InflatePriority".toList, "yes".toList),
  ("AccountForSize".toList, "yes".toList)]

/-- `str.lower()` as far as results in ASCII are concerned: ASCII letters, and
the two other characters whose lower case form has an ASCII letter. -/
def pyLower (s : Str) : Str := s.flatMap (fun c =>
  if c.toNat = 0x212a then ['k']
  else if c.toNat = 0x130 then ['i', Char.ofNat 0x307]
  else if 65 ≤ c.toNat ∧ c.toNat ≤ 90 then [Char.ofNat (c.toNat + 32)] else [c])

def isDigit (c : Char) : Bool := 48 ≤ c.toNat && c.toNat ≤ 57

/-- `[KMG]` with `re.IGNORECASE`; U+212A is the Kelvin sign. -/
def isPrefixChar (c : Char) : Bool := c ∈ ['K', 'k', 'M', 'm', 'G', 'g'] || c.toNat == 0x212a

/-- `i` with `re.IGNORECASE`: also U+0130 and U+0131. -/
def isI (c : Char) : Bool := c ∈ ['i', 'I'] || c.toNat == 0x130 || c.toNat == 0x131

/-- `(B|iB)?` with `re.IGNORECASE`. -/
def isUnit (u : Str) : Bool := match u with
  | [] => true
  | [b] => b ∈ ['B', 'b']
  | [i, b] => isI i && b ∈ ['B', 'b']
  | _ => false

/-- `$` also matches before a final line end. -/
def dollar (s : Str) : Str := if s.getLast? = some '\n' then s.dropLast else s

/-- `^([0-9]+)\s*([KMG])(B|iB)?$` with `re.IGNORECASE` and its three groups
(zielen/profile.py:223-225, 925). Digits, spaces and letters are disjoint, so
there is at most one match. -/
def matchLimit (value : Str) : Option (Str × Char × Str) :=
  let num := value.takeWhile isDigit
  if num = [] then none
  else match (value.dropWhile isDigit).dropWhile pySpace with
    | [] => none
    | p :: rest =>
      if isPrefixChar p then
        if isUnit rest then some (num, p, rest)
        else if isUnit (dollar rest) then some (num, p, dollar rest)
        else none
      else none

/-- `^[0-9]+$`. -/
def matchInt (value : Str) : Bool :=
  let m := fun s : Str => s ≠ [] && s.all isDigit
  m value || m (dollar value)

/-- `^-?[0-9]+$`. -/
def matchSigned (value : Str) : Bool :=
  match value with
  | '-' :: s => matchInt s
  | s => matchInt s

/-- `^~?/`. -/
def matchAbs (value : Str) : Bool :=
  match value with
  | '/' :: _ => true
  | '~' :: '/' :: _ => true
  | _ => false

/-- The messages of `check_value`. -/
inductive CheckErr | blank | bool | absPath | limit | int | missing | unknown
deriving DecidableEq, Repr

/-- `check_value` (zielen/profile.py:899-935). -/
def checkValue (key value : Str) : Option CheckErr :=
  if key ∈ requiredKeys ∧ value = [] then some .blank
  else if key ∈ boolKeys ∧ value ≠ [] ∧ pyLower value ∉ trueVals ++ falseVals then some .bool
  else if key = "LocalDir".toList then if matchAbs value then none else some .absPath
  else if key = "RemoteDir".toList then if matchAbs value then none else some .absPath
  else if key = "StorageLimit".toList then
    if (matchLimit value).isSome then none else some .limit
  else if key = "SyncInterval".toList then if matchInt value then none else some .int
  else if key = "PriorityHalfLife".toList then if matchInt value then none else some .int
  else if key = "TrashCleanupPeriod".toList then if matchSigned value then none else some .int
  else none

/-- `check_all` (zielen/profile.py:937-969): the list of errors; the call raises
when it is not empty. -/
def checkAll (raw : Dict Str) (checkEmpty : Bool) : List CheckErr :=
  (requiredKeys.filter (fun k => decide (k ∉ raw.keys))).map (fun _ => .missing) ++
  (raw.keys.filter (fun k => decide (k ∉ allKeys))).map (fun _ => .unknown) ++
  raw.filterMap (fun e => if checkEmpty || (!checkEmpty && decide (e.2 ≠ [])) then
    checkValue e.1 e.2 else none)

/-- `vals` (zielen/profile.py:971-977); `none` is `None`. -/
def vals (raw : Dict Str) (key : Str) : Option Str :=
  match raw.get key with
  | some v => some v
  | none => defaults.get key

/-- `int(num)` for ASCII digits. -/
def decimal (s : Str) : Nat := s.foldl (fun n c => n * 10 + (c.toNat - 48)) 0

/-- `Profile.storage_limit` (zielen/profile.py:220-239). `none` is an exception:
`IndexError` if nothing matches, `UnboundLocalError` if no branch sets `base`
or `exponent`. -/
def storageLimit (value : Str) : Option Nat :=
  match matchLimit value with
  | none => none
  | some (num, p, unit) =>
    let base := if unit = "iB".toList ∨ unit = [] then some 1024
      else if unit = "B".toList then some 1000 else none
    let exponent := if p = 'k' ∨ p = 'K' then some 1
      else if p = 'M' then some 2 else if p = 'G' then some 3 else none
    match base, exponent with
    | some b, some e => some (decimal num * b ^ e)
    | _, _ => none

/-- `Profile._convert_bool` (zielen/profile.py:260-265); `none` is `None`. -/
def convertBool (value : Str) : Option Bool :=
  if value ∈ trueVals then some true else if value ∈ falseVals then some false else none

/-- `int()` of an optional minus sign and digits. -/
def signed (s : Str) : Int := match s with
  | '-' :: s => -(decimal s : Int)
  | s => decimal s

/-- `Profile.cleanup_period` (zielen/profile.py:246-253), in seconds. -/
def cleanupPeriod (value : Str) : Option Int :=
  if value.head? = some '-' then none else some (signed value * 60 * 60 * 24)

/-- `prompt` (zielen/profile.py:984-1006): the user is asked for the required options that are unset or empty; `ans k`
is the answer, without the space around it, that `check_value` has accepted in the end. -/
def promptAll (raw : Dict Str) (ans : Str → Str) : Dict Str :=
  (requiredKeys.filter (fun k => decide (raw.get k = none ∨ raw.get k = some []))).foldl
    (fun d k => d.set k (ans k)) raw

/-- The config file of a new profile that is made from the text of a template (zielen/profile.py:109-118), or the errors
that are raised. -/
def templateConfig (template : Str) (ans : Str → Str) : Except (List CheckErr) Str :=
  match checkAll (configRead [] template) false with
  | [] => .ok (configWrite (promptAll (configRead [] template) ans) template)
  | es => .error es

/-- The config file of a new profile without a template (zielen/profile.py:116-123); `master` is the text of the
installed template. -/
def masterConfig (master : Str) (ans : Str → Str) : Str := configWrite (promptAll [] ans) master

end Verif
