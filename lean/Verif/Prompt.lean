import Verif.Config
/-
The questions that `init` asks on the terminal (zielen/profile.py:984-1006) and the config file it writes from the
answers (zielen/profile.py:109-123).
-/
namespace Verif

/-- A line without its line end. -/
def chomp (l : Str) : Str := if l.getLast? = some '\n' then l.dropLast else l

/-- What the calls of `input` return one after another (zielen/profile.py:997) when `stdin` is the text of the standard
input; after the last line `input` raises `EOFError`. Simplification: line editing (readline) is not modelled. -/
def inputLines (stdin : Str) : List Str := (fileLines (univNewlines stdin)).map chomp

/-- The `while` loop for one option (zielen/profile.py:994-1005): lines are read until `check_value` accepts one of
them. The result is the value and the lines that have not been read; `none` is `EOFError`. The messages that are printed
are not modelled. -/
def promptKey (key : Str) : List Str → Option (Str × List Str)
  | [] => none
  | l :: ls => match checkValue key (strip l) with
    | none => some (strip l, ls)
    | some _ => promptKey key ls

/-- The `for` loop (zielen/profile.py:992-1006). -/
def promptKeys : List Str → Dict Str → List Str → Option (Dict Str × List Str)
  | [], raw, ls => some (raw, ls)
  | key :: keys, raw, ls => match promptKey key ls with
    | none => none
    | some (v, ls) => promptKeys keys (raw.set key v) ls

/-- `prompt` (zielen/profile.py:984-1006). -/
def prompt (raw : Dict Str) (ls : List Str) : Option (Dict Str × List Str) :=
  promptKeys (requiredKeys.filter (fun k => decide (raw.get k = none ∨ raw.get k = some []))) raw ls

/-- How the generation of the config file can fail. -/
inductive GenErr
  /-- `FileParseError` -/
  | parse (es : List CheckErr)
  /-- `EOFError` -/
  | eof
deriving DecidableEq, Repr

/-- The part of `Profile.generate` that makes the config file (zielen/profile.py:109-123): `template` is the text of the
user's template, `master` that of the installed one, `stdin` the standard input. The result is the new config file. -/
def generateConfig (template : Option Str) (master stdin : Str) : Except GenErr Str :=
  match template with
  | some t => match checkAll (configRead [] t) false with
    | [] => match prompt (configRead [] t) (inputLines stdin) with
      | some (raw, _) => .ok (configWrite raw t)
      | none => .error .eof
    | es => .error (.parse es)
  | none => match prompt [] (inputLines stdin) with
    | some (raw, _) => .ok (configWrite raw master)
    | none => .error .eof

end Verif
