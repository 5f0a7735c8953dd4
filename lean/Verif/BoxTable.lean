import Verif.Text
/-
The table that the list command prints (zielen/utils.py:259-357).
-/
namespace Verif

/-- `[0-9;]`. -/
def isCode (c : Char) : Bool := (48 ≤ c.toNat && c.toNat ≤ 57) || c == ';'

/-- The number of code characters before an `m`, if a text starts with at least one
of them and then an `m`. -/
def codeLen : Str → Option Nat
  | [] => none
  | c :: s => if isCode c then
      match s with
      | [] => none
      | d :: _ => if d = 'm' then some 1 else (codeLen s).map (· + 1)
    else none

/-- The length of the match of `ANSI_REGEX`, `\x1b\[[0-9;]+m`, at the start of a text
(zielen/utils.py:281). -/
def ansiLen : Str → Option Nat
  | '\x1b' :: '[' :: s => (codeLen s).map (· + 3)
  | _ => none

/-- `ANSI_REGEX.sub("", s)`, where the first `skip` characters are part of a match. -/
def stripGo : Nat → Str → Str
  | _, [] => []
  | k + 1, _ :: s => stripGo k s
  | 0, c :: s => match ansiLen (c :: s) with
    | some n => stripGo (n - 1) s
    | none => c :: stripGo 0 s

def stripAnsi (s : Str) : Str := stripGo 0 s

/-- `sep.join(items)`. -/
def joinStr (sep : Str) : List Str → Str
  | [] => []
  | [a] => a
  | a :: as => a ++ sep ++ joinStr sep as

/-- `_get_column_lengths` (zielen/utils.py:290-297) for `n` columns. -/
def columnLengths (n : Nat) (data : List (List Str)) : List Nat :=
  (List.range n).map (fun j => (data.map (fun row => (stripAnsi (row.getD j [])).length)).foldl max 0)

def hChar : Char := '─'
def vChar : Char := '│'

/-- `_get_separator` (zielen/utils.py:299-301). -/
def separator (lengths : List Nat) : List Str := lengths.map (fun l => List.replicate (l + 2) hChar)

/-- The top, inside and bottom separators (zielen/utils.py:303-322). -/
def separatorLine (left mid right : Char) (lengths : List Nat) : Str :=
  left :: joinStr [mid] (separator lengths) ++ [right]

def insideLine (lengths : List Nat) : Str := separatorLine '├' '┼' '┤' lengths

/-- One row of `_format_row` (zielen/utils.py:324-341). -/
def formatRow (lengths : List Nat) (row : List Str) : Str :=
  if row.all (· = []) then insideLine lengths
  else
    let cells := List.zipWith (fun text l =>
      text ++ List.replicate (l - (stripAnsi text).length) ' ') row lengths
    vChar :: ' ' :: joinStr [' ', vChar, ' '] cells ++ [' ', vChar]

/-- The lines of `format` (zielen/utils.py:343-357). The table has at least the row of
headers. -/
def tableLines (header : List Str) (rows : List (List Str)) : List Str :=
  let lengths := columnLengths header.length (header :: rows)
  [separatorLine '┌' '┬' '┐' lengths,
    "\x1b[1m".toList ++ formatRow lengths header ++ "\x1b[0m".toList,
    insideLine lengths] ++ rows.map (formatRow lengths) ++
    [separatorLine '└' '┴' '┘' lengths]

/-- `format`. -/
def tableFormat (header : List Str) (rows : List (List Str)) : Str :=
  joinStr ['\n'] (tableLines header rows)

end Verif
