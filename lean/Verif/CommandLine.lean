import Verif.Argparse
/-
The command line of zielen (zielen/cli.py).
-/
namespace Verif.CommandLine
open Argparse

/-- The global options (zielen/cli.py:214-221). -/
def topParser : Parser where
  opts := [("--help".toList, .help), ("--version".toList, .version), ("--debug".toList, .debug),
    ("--quiet".toList, .quiet), ("-q".toList, .quiet)]
  pos := some .sub

/-- The parsers of the commands (zielen/cli.py:223-250). -/
def subParsers : List (Str × Parser) :=
  [("init".toList,
      ⟨[("--help".toList, .help), ("--exclude".toList, .exclude), ("-e".toList, .exclude),
        ("--template".toList, .template), ("-t".toList, .template), ("--add-remote".toList, .addRemote),
        ("-a".toList, .addRemote)], some .one⟩),
    ("sync".toList, ⟨[("--help".toList, .help)], some .one⟩),
    ("reset".toList,
      ⟨[("--help".toList, .help), ("--keep-remote".toList, .keepRemote), ("-k".toList, .keepRemote),
        ("--no-retrieve".toList, .noRetrieve), ("-n".toList, .noRetrieve)], some .one⟩),
    ("list".toList, ⟨[("--help".toList, .help)], none⟩),
    ("empty-trash".toList, ⟨[("--help".toList, .help)], some .one⟩)]

/-- `_SubParsersAction.__call__` with the parsers above: a new namespace with the defaults of the sub-parser, whose
attributes are then copied. `debug` is not an attribute of it. That the standard output has been redirected is not
an attribute of a namespace at all. -/
def runSub (digit : Char → Bool) (ns : NS) (name : Str) (args : List Str) : Except Stop NS :=
  match subParsers.lookup name with
  | none => .error .input
  | some P => do
    let (r, extras) ← parseKnown digit P (fun _ _ _ => .error .input)
      { command := some name, quiet := ns.quiet } args
    .ok { r with debug := ns.debug, unrecognized := extras }

/-- `parse_args` (zielen/cli.py:208-252). `digit` is what `\d` matches. -/
def parseArgs (digit : Char → Bool) (args : List Str) : Except Stop NS :=
  parse digit topParser (runSub digit) args

/-- The command to be run, with the arguments of its constructor. -/
inductive Command
  | init (profile : Str) (exclude template : Option Str) (addRemote : Bool)
  | sync (profile : Str)
  | reset (profile : Str) (keepRemote noRetrieve : Bool)
  | list
  | emptyTrash (profile : Str)
  deriving DecidableEq, Repr

/-- `def_command` (zielen/cli.py:295-310). `None` is returned for any other name, and `None.main()` raises. -/
def defCommand (ns : NS) : Option Command :=
  match ns.command, ns.profile with
  | some c, some p =>
    if c = "init".toList then some (.init p ns.exclude ns.template ns.addRemote)
    else if c = "sync".toList then some (.sync p)
    else if c = "reset".toList then some (.reset p ns.keepRemote ns.noRetrieve)
    else if c = "list".toList then some .list
    else if c = "empty-trash".toList then some (.emptyTrash p)
    else none
  | some c, none => if c = "list".toList then some .list else none
  | none, _ => none

/-- What a command raises. -/
inductive Raised
  | program | other
  deriving DecidableEq, Repr

/-- What a run of the program looks like from outside: the exit status, whether error messages or a stack trace are
printed, and which command was run, if any, with the standard output redirected or not. -/
structure Run where
  status : Nat
  message : Bool := false
  trace : Bool := false
  ran : Option Command := none
  quiet : Bool := false
  shown : Option Page := none
  deriving DecidableEq, Repr

/-- `main` (zielen/cli.py:255-276), called by `sys.exit(main())` (scripts/zielen). An exception that is not caught
makes the interpreter print a stack trace and exit with status 1. `run` is what the constructor of the command and
its `main` do. In `except ProgramError`, `cmd_args` is unbound if `parse_args` raised (`UnboundLocalError` is a
`NameError`). -/
def mainFn (digit : Char → Bool) (run : Command → Except Raised Unit) (args : List Str) : Run :=
  match parseArgs digit args with
  | .error .input => { status := 1, message := true }
  | .error (.exit p) => { status := 0, shown := p }
  | .ok ns =>
    match defCommand ns with
    | none => { status := 1, trace := true, quiet := ns.quiet }
    | some c =>
      match run c with
      | .ok () => { status := 0, ran := some c, quiet := ns.quiet }
      | .error .other => { status := 1, trace := true, ran := some c, quiet := ns.quiet }
      | .error .program =>
        if ns.debug then { status := 1, trace := true, ran := some c, quiet := ns.quiet }
        else { status := 1, message := true, ran := some c, quiet := ns.quiet }

end Verif.CommandLine
