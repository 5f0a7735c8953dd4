import Verif.Text
/-
The part of the `argparse` library that zielen/cli.py uses: parsers with options that take no value or one, and one
positional argument, which may be a sub-command. Modelled from the source of the library (Python 3.11, `argparse.py`,
class `ArgumentParser`); abbreviated long options, clusters of short options, values in the same word and `--` are
included. Error messages are left out: every error of the library ends in `CustomArgumentParser.error`, which raises
`InputError` (zielen/cli.py:168-171).
-/
namespace Verif.Argparse

/-- What an option does (`action=` in zielen/cli.py:214-250; the default action is `store`). -/
inductive Act
  | help | version | quiet | debug | addRemote | keepRemote | noRetrieve | exclude | template
  deriving DecidableEq, Repr

/-- Whether the option takes one value (`nargs=None`) or none (`nargs=0`; zielen/cli.py:174-205 and `store_true`). -/
def Act.takesValue : Act → Bool
  | .exclude | .template => true
  | _ => false

/-- The positional argument of a parser: one string, or the name of a sub-command with all that follows
(`nargs=PARSER`). -/
inductive Pos
  | one | sub
  deriving DecidableEq, Repr

/-- A parser: the option strings in the order in which they are added, and the positional argument. -/
structure Parser where
  opts : List (Str × Act)
  pos : Option Pos

/-- `self._option_string_actions[s]`. -/
def Parser.find (P : Parser) (s : Str) : Option Act := P.opts.lookup s

/-- The help page or the version, as printed. -/
inductive Page
  | main | command (name : Str) | version
  deriving DecidableEq, Repr

/-- How parsing ends if not with a namespace: `InputError`, or `parser.exit()` after printing something (`none` if
the standard output has been redirected by `--quiet`). -/
inductive Stop
  | input | exit (printed : Option Page)
  deriving DecidableEq, Repr

/-- The attributes of the namespace. `quiet` stands for `sys.stdout`, which `--quiet` replaces (zielen/cli.py:199-205).
`unrecognized` is what the sub-parser could not use (`_UNRECOGNIZED_ARGS_ATTR`). -/
structure NS where
  command : Option Str := none
  debug : Bool := false
  quiet : Bool := false
  profile : Option Str := none
  exclude : Option Str := none
  template : Option Str := none
  addRemote : Bool := false
  keepRemote : Bool := false
  noRetrieve : Bool := false
  unrecognized : List Str := []
  deriving DecidableEq, Repr

/-- The kind of a word on the command line: a letter of `arg_strings_pattern`, and for an option the tuple of
`_parse_optional`. The last component is the value in the same word, and whether an equals sign is in front of it. -/
inductive Kind
  | arg | dashes | opt (act : Option Act) (name : Str) (val : Option (Bool × Str))
  deriving DecidableEq, Repr

def Kind.isOpt : Kind → Bool
  | .opt _ _ _ => true
  | _ => false

def Kind.isArg : Kind → Bool
  | .arg => true
  | _ => false

def Kind.isDashes : Kind → Bool
  | .dashes => true
  | _ => false

/-- `s.partition('=')`; `none` if there is no equals sign. -/
def partitionEq (s : Str) : Str × Option Str :=
  (s.takeWhile (· != '='), match s.dropWhile (· != '=') with | [] => none | _ :: v => some v)

/-- `_get_option_tuples`. -/
def optionTuples (P : Parser) (w : Str) : List Kind :=
  match w with
  | '-' :: '-' :: _ =>
    let (pre, v) := partitionEq w
    P.opts.filterMap fun (o, a) =>
      if pre.isPrefixOf o then some (.opt (some a) o (v.map fun v => (true, v))) else none
  | _ =>
    P.opts.filterMap fun (o, a) =>
      if o == w.take 2 then some (.opt (some a) o (some (false, w.drop 2)))
      else if w.isPrefixOf o then some (.opt (some a) o none)
      else none

/-- `'^-\d+$|^-\d*\.\d+$'` without a newline at the end. `digit` is what `\d` matches. -/
def isNegative (digit : Char → Bool) : Str → Bool
  | '-' :: r =>
    (!r.isEmpty && r.all digit) ||
      (match r.dropWhile digit with
        | '.' :: t => !t.isEmpty && t.all digit
        | _ => false)
  | _ => false

/-- `_negative_number_matcher`; the dollar sign also matches before a final newline. -/
def negativeNumber (digit : Char → Bool) (w : Str) : Bool :=
  isNegative digit (if w.getLast? = some '\n' then w.dropLast else w)

/-- `_parse_optional`. -/
def parseOptional (digit : Char → Bool) (P : Parser) (w : Str) : Except Stop Kind :=
  if w.head? ≠ some '-' then .ok .arg
  else match P.find w with
  | some a => .ok (.opt (some a) w none)
  | none =>
    if w.length = 1 then .ok .arg
    else
      let (name, v) := partitionEq w
      match v, P.find name with
      | some v, some a => .ok (.opt (some a) name (some (true, v)))
      | _, _ =>
        match optionTuples P w with
        | [k] => .ok k
        | _ :: _ => .error .input
        | [] =>
          if negativeNumber digit w then .ok .arg
          else if ' ' ∈ w then .ok .arg
          else .ok (.opt none w none)

def dd : Str := ['-', '-']

/-- The first loop of `_parse_known_args`: the kind of each word. All words after `--` are arguments. -/
def classify (digit : Char → Bool) (P : Parser) : List Str → Except Stop (List (Str × Kind))
  | [] => .ok []
  | w :: ws =>
    if w = dd then .ok ((w, .dashes) :: ws.map (·, .arg))
    else do
      let k ← parseOptional digit P w
      let r ← classify digit P ws
      .ok ((w, k) :: r)

/-- The actions of options (zielen/cli.py:174-205; `store_true` and `store` of the library). -/
def takeAction (ns : NS) : Act × Option Str → Except Stop NS
  | (.help, _) =>
    .error (.exit (if ns.quiet then none else some (match ns.command with | some c => .command c | none => .main)))
  | (.version, _) => .error (.exit (if ns.quiet then none else some .version))
  | (.quiet, _) => .ok { ns with quiet := true }
  | (.debug, _) => .ok { ns with debug := true }
  | (.addRemote, _) => .ok { ns with addRemote := true }
  | (.keepRemote, _) => .ok { ns with keepRemote := true }
  | (.noRetrieve, _) => .ok { ns with noRetrieve := true }
  | (.exclude, v) => .ok { ns with exclude := v }
  | (.template, v) => .ok { ns with template := v }

/-- What follows a short option in the same word: `sep` and `explicit_arg` in `consume_optional`. -/
def valOf : Str → Option (Bool × Str)
  | [] => none
  | '=' :: v => some (true, v)
  | cs => some (false, cs)

/-- The loop of `consume_optional` over the options in one word. `next` is the word that follows, if it is an
argument. The result has the actions with their values, the part of the word that is not understood, and whether the
next word is used as a value. -/
def optionsIn (P : Parser) (next : Option Str) (act : Act) (name : Str) :
    Option (Bool × Str) → Nat → Except Stop (List (Act × Option Str) × List Str × Bool)
  | _, 0 => .error .input
  | none, _ + 1 =>
    if act.takesValue then
      match next with
      | some v => .ok ([(act, some v)], [], true)
      | none => .error .input
    else .ok ([(act, none)], [], false)
  | some (sep, e), n + 1 =>
    if act.takesValue then .ok ([(act, some e)], [], false)
    else match e with
      | c :: e' =>
        if name[1]? = some '-' then .error .input
        else if sep || c == '-' then .error .input
        else match P.find ['-', c] with
          | some act' => do
            let r ← optionsIn P next act' ['-', c] (valOf e') n
            .ok ((act, none) :: r.1, r.2)
          | none => .ok ([(act, none)], ['-' :: e], false)
      | [] => .error .input

/-- The state of the loop: the namespace, the positional argument if it is still missing, and the words that are not
understood. -/
structure Loop where
  ns : NS
  pos : Option Pos
  extras : List Str
  deriving DecidableEq, Repr

/-- `consume_optional` at the word `w`; the result includes the words left. -/
def consumeOptional (P : Parser) (s : Loop) (w : Str) (k : Option Act × Str × Option (Bool × Str))
    (rest : List (Str × Kind)) : Except Stop (Loop × List (Str × Kind)) :=
  match k with
  | (none, _, _) => .ok ({ s with extras := s.extras ++ [w] }, rest)
  | (some a, name, v) => do
    let next := match rest with
      | (u, .arg) :: _ => some u
      | _ => none
    let (acts, ex, used) ← optionsIn P next a name v (w.length + 1)
    let ns ← acts.foldlM takeAction s.ns
    .ok ({ s with ns := ns, extras := s.extras ++ ex }, if used then rest.drop 1 else rest)

/-- `consume_positionals`: the words left and the state, or `none` if nothing matches. `sub` runs a sub-parser
(`_SubParsersAction.__call__`), which gets a namespace of its own. The pattern for one argument is `-*A-*`, and the
first `--` is removed; for a sub-command it is `-*A[-AO]*`, and nothing is removed. -/
def consumePositional (sub : NS → Str → List Str → Except Stop NS) (s : Loop) (ws : List (Str × Kind)) :
    Except Stop (Option (Loop × List (Str × Kind))) :=
  match s.pos with
  | none => .ok none
  | some p =>
    let lead := ws.takeWhile (·.2.isDashes)
    match ws.dropWhile (·.2.isDashes) with
    | (u, .arg) :: rest =>
      match p with
      | .one =>
        let trail := rest.takeWhile (·.2.isDashes)
        match ((lead ++ (u, .arg) :: trail).map (·.1)).erase dd with
        | [v] =>
          .ok (some ({ s with ns := { s.ns with profile := some v }, pos := none },
            rest.dropWhile (·.2.isDashes)))
        | _ => .error .input
      | .sub => do
        match (lead ++ (u, .arg) :: rest).map (·.1) with
        | c :: args =>
          let ns ← sub s.ns c args
          .ok (some ({ s with ns := ns, pos := none }, []))
        | [] => .error .input
    | _ => .ok none

/-- One round of the second loop of `_parse_known_args`, with `start_index` as the list of the words from there on. -/
def round (P : Parser) (sub : NS → Str → List Str → Except Stop NS) (s : Loop) (ws : List (Str × Kind)) :
    Except Stop (Loop × List (Str × Kind)) :=
  match ws with
  | (w, .opt a name v) :: rest => consumeOptional P s w (a, name, v) rest
  | _ => do
    match ← consumePositional sub s ws with
    | some r => .ok r
    | none =>
      let skipped := (ws.takeWhile (!·.2.isOpt)).map (·.1)
      match ws.dropWhile (!·.2.isOpt) with
      | (w, .opt a name v) :: rest =>
        consumeOptional P { s with extras := s.extras ++ skipped } w (a, name, v) rest
      | _ => .error .input

/-- What follows the loop: the positional argument after the last option, and the check that it is there. -/
def finish (sub : NS → Str → List Str → Except Stop NS) (s : Loop) (ws : List (Str × Kind)) :
    Except Stop (NS × List Str) := do
  let (s, rest) := (← consumePositional sub s ws).getD (s, ws)
  if s.pos.isSome then .error .input
  else .ok (s.ns, s.extras ++ rest.map (·.1) ++ s.ns.unrecognized)

/-- The second loop of `_parse_known_args`. The number bounds the rounds; each takes one word at least. -/
def loop (P : Parser) (sub : NS → Str → List Str → Except Stop NS) :
    Nat → Loop → List (Str × Kind) → Except Stop (NS × List Str)
  | 0, _, _ => .error .input
  | n + 1, s, ws =>
    if ws.any (·.2.isOpt) then do
      let (s, rest) ← round P sub s ws
      loop P sub n s rest
    else finish sub s ws

/-- `parse_known_args` in the namespace `ns`. -/
def parseKnown (digit : Char → Bool) (P : Parser) (sub : NS → Str → List Str → Except Stop NS) (ns : NS)
    (args : List Str) : Except Stop (NS × List Str) := do
  let ws ← classify digit P args
  loop P sub (ws.length + 1) ⟨ns, P.pos, []⟩ ws

/-- `parse_args`. -/
def parse (digit : Char → Bool) (P : Parser) (sub : NS → Str → List Str → Except Stop NS) (args : List Str) :
    Except Stop NS := do
  let (ns, extras) ← parseKnown digit P sub {} args
  if extras = [] then .ok { ns with unrecognized := [] } else .error .input

end Verif.Argparse
