import Verif.Text
/-
`json.dump(..., indent=4)` and `json.load` as `JSONFile` uses them (zielen/containerbase.py:99-109), after `json/encoder.py`,
`json/decoder.py` and `json/scanner.py`. The info file has no numbers and no lists; they are left out.
-/
namespace Verif

mutual
/-- The values that an info file has (zielen/profile.py:429-437). A dict is the list of its items. -/
inductive Json
  | null
  | bool (b : Bool)
  | str (s : Str)
  | obj (items : JsonItems)
inductive JsonItems
  | nil
  | cons (key : Str) (val : Json) (rest : JsonItems)
end

namespace Json

/-- A hexadecimal digit as `format(n, "04x")` writes it. -/
def hexDigit (n : Nat) : Char := if n < 10 then Char.ofNat (48 + n) else Char.ofNat (87 + n)

/-- `'\\u{0:04x}'.format(n)` for `n < 0x10000`. -/
def uEscape (n : Nat) : Str :=
  ['\\', 'u', hexDigit (n / 4096 % 16), hexDigit (n / 256 % 16), hexDigit (n / 16 % 16), hexDigit (n % 16)]

/-- `replace` of `py_encode_basestring_ascii`, or the character itself if `ESCAPE_ASCII` does not match it. -/
def escape (c : Char) : Str :=
  if c = '\\' then ['\\', '\\']
  else if c = '"' then ['\\', '"']
  else if ' ' ≤ c ∧ c ≤ '~' then [c]
  else if c.toNat = 8 then ['\\', 'b']
  else if c.toNat = 12 then ['\\', 'f']
  else if c = '\n' then ['\\', 'n']
  else if c = '\r' then ['\\', 'r']
  else if c = '\t' then ['\\', 't']
  else if c.toNat < 0x10000 then uEscape c.toNat
  else uEscape (0xd800 + (c.toNat - 0x10000) / 1024) ++ uEscape (0xdc00 + (c.toNat - 0x10000) % 1024)

/-- The text of a string after the opening quote. -/
def strRest (s : Str) : Str := s.flatMap escape ++ ['"']

/-- `newline_indent`. -/
def newline (level : Nat) : Str := '\n' :: List.replicate (4 * level) ' '

mutual
/-- `_iterencode` with `indent=4`; the argument is `_current_indent_level`. -/
def dump (level : Nat) : Json → Str
  | .null => ['n', 'u', 'l', 'l']
  | .bool true => ['t', 'r', 'u', 'e']
  | .bool false => ['f', 'a', 'l', 's', 'e']
  | .str s => '"' :: strRest s
  | .obj .nil => ['{', '}']
  | .obj (.cons k v r) =>
    '{' :: (newline (level + 1) ++ '"' :: (strRest k ++ ':' :: ' ' :: (dump (level + 1) v ++ dumpItems (level + 1) r)))
/-- The items after the first one and the end of a dict. -/
def dumpItems (level : Nat) : JsonItems → Str
  | .nil => newline (level - 1) ++ ['}']
  | .cons k v r => ',' :: (newline level ++ '"' :: (strRest k ++ ':' :: ' ' :: (dump level v ++ dumpItems level r)))
end

/-! ### Reading -/

/-- The value of a hexadecimal digit. -/
def hexVal (c : Char) : Option Nat :=
  if '0' ≤ c ∧ c ≤ '9' then some (c.toNat - 48)
  else if 'a' ≤ c ∧ c ≤ 'f' then some (c.toNat - 87)
  else if 'A' ≤ c ∧ c ≤ 'F' then some (c.toNat - 55)
  else none

/-- `_decode_uXXXX`. (`int` also accepts a sign, spaces and underscores; no written text has them.) -/
def hex4 (a b c d : Char) : Option Nat :=
  match hexVal a, hexVal b, hexVal c, hexVal d with
  | some a, some b, some c, some d => some (a * 4096 + b * 256 + c * 16 + d)
  | _, _, _, _ => none

/-- One character of a string (`scanstring`): the end, or a character, and what follows it; `none` is an error. A
surrogate without the other half, which Python keeps, is an error here. -/
def scanChar : Str → Option (Option Char × Str)
  | [] => none
  | '"' :: r => some (none, r)
  | '\\' :: 'u' :: a :: b :: c :: d :: r =>
    match hex4 a b c d with
    | none => none
    | some n =>
      if 0xd800 ≤ n ∧ n ≤ 0xdbff then
        match r with
        | '\\' :: 'u' :: e :: f :: g :: h :: r =>
          match hex4 e f g h with
          | none => none
          | some m => if 0xdc00 ≤ m ∧ m ≤ 0xdfff then some (some (Char.ofNat (0x10000 + (n - 0xd800) * 1024 + (m - 0xdc00))), r)
            else none
        | _ => none
      else if 0xdc00 ≤ n ∧ n ≤ 0xdfff then none
      else some (some (Char.ofNat n), r)
  | '\\' :: c :: r =>
    if c = '"' ∨ c = '\\' ∨ c = '/' then some (some c, r)
    else if c = 'b' then some (some (Char.ofNat 8), r)
    else if c = 'f' then some (some (Char.ofNat 12), r)
    else if c = 'n' then some (some '\n', r)
    else if c = 'r' then some (some '\r', r)
    else if c = 't' then some (some '\t', r)
    else none
  | '\\' :: [] => none
  | c :: r => if c < ' ' then none else some (some c, r)

/-- `scanstring`, after the opening quote. Every function here has a bound on the number of its steps; the length of the
text is always enough. -/
def scanStr : Nat → Str → Option (Str × Str)
  | 0, _ => none
  | n + 1, s => match scanChar s with
    | none => none
    | some (none, r) => some ([], r)
    | some (some c, r) => match scanStr n r with
      | none => none
      | some (cs, r) => some (c :: cs, r)

/-- `WHITESPACE.match`. -/
def skipWs (s : Str) : Str := s.dropWhile (fun c => c == ' ' || c == '\t' || c == '\n' || c == '\r')

mutual
/-- `scan_once`. -/
def scan : Nat → Str → Option (Json × Str)
  | 0, _ => none
  | n + 1, s => match s with
    | '"' :: r => match scanStr n r with
      | none => none
      | some (cs, r) => some (.str cs, r)
    | '{' :: r => match skipWs r with
      | '}' :: r => some (.obj .nil, r)
      | '"' :: r => match scanItems n r with
        | none => none
        | some (is, r) => some (.obj is, r)
      | _ => none
    | 'n' :: 'u' :: 'l' :: 'l' :: r => some (.null, r)
    | 't' :: 'r' :: 'u' :: 'e' :: r => some (.bool true, r)
    | 'f' :: 'a' :: 'l' :: 's' :: 'e' :: r => some (.bool false, r)
    | _ => none
/-- The loop of `JSONObject`, after the opening quote of a key. (Of two items with the same key Python keeps the
later one; here both stay.) -/
def scanItems : Nat → Str → Option (JsonItems × Str)
  | 0, _ => none
  | n + 1, s => match scanStr n s with
    | none => none
    | some (k, r) => match skipWs r with
      | ':' :: r => match scan n (skipWs r) with
        | none => none
        | some (v, r) => match skipWs r with
          | '}' :: r => some (.cons k v .nil, r)
          | ',' :: r => match skipWs r with
            | '"' :: r => match scanItems n r with
              | none => none
              | some (is, r) => some (.cons k v is, r)
            | _ => none
          | _ => none
      | _ => none
end

/-- `json.loads`; `none` is `JSONDecodeError`. -/
def loads (t : Str) : Option Json :=
  match scan (t.length + 1) (skipWs t) with
  | none => none
  | some (v, r) => if skipWs r = [] then some v else none

/-- `json.dump(v, file, indent=4)`: what is written (zielen/containerbase.py:106-109). -/
def dumps (v : Json) : Str := dump 0 v

end Json
end Verif
