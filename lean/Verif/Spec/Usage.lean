import Verif.CommandLine
/-
How a command line is read, by the help pages of the program (zielen/cli.py:39-165, docs/zielen.1.rst:4-6) and the
usual conventions: long options, which may be shortened as long as they are unambiguous and whose value is the next
word or follows an equals sign; short options, which may be joined and whose value is the next word or the rest of the
word; operands; `--` after which everything is an operand. Only the names of the options (`Act`) and of the requests
(`Command`) are taken from the model.
-/
namespace Verif.Usage
open Argparse CommandLine

/-- The commands. -/
inductive Cmd
  | init | sync | reset | list | emptyTrash
  deriving DecidableEq, Repr

def Cmd.name : Cmd → Str
  | .init => "init".toList
  | .sync => "sync".toList
  | .reset => "reset".toList
  | .list => "list".toList
  | .emptyTrash => "empty-trash".toList

def long : Act → Str
  | .help => "--help".toList
  | .version => "--version".toList
  | .quiet => "--quiet".toList
  | .debug => "--debug".toList
  | .addRemote => "--add-remote".toList
  | .keepRemote => "--keep-remote".toList
  | .noRetrieve => "--no-retrieve".toList
  | .exclude => "--exclude".toList
  | .template => "--template".toList

def short : Act → Option Char
  | .quiet => some 'q'
  | .exclude => some 'e'
  | .template => some 't'
  | .addRemote => some 'a'
  | .keepRemote => some 'k'
  | .noRetrieve => some 'n'
  | .help | .version | .debug => none

/-- The options that have an argument. -/
def valued : Act → Bool
  | .exclude | .template => true
  | _ => false

/-- The options of each command; `none` stands for the global options. -/
def offers : Option Cmd → List Act
  | none => [.help, .version, .debug, .quiet]
  | some .init => [.help, .exclude, .template, .addRemote]
  | some .reset => [.help, .keepRemote, .noRetrieve]
  | some _ => [.help]

/-- `n` is the name of the long option `a` or unambiguously stands for it. -/
def LongName (c : Option Cmd) (n : Str) (a : Act) : Prop :=
  a ∈ offers c ∧ n <+: long a ∧ 2 < n.length ∧ ∀ a' ∈ offers c, n <+: long a' → a' = a

/-- An option as given: its value if it has one. -/
abbrev Given := Act × Option Str

/-- What follows the dash of a word with short options, with the next word if that is the value. `plain` are the words
that can be values. -/
inductive Cluster (plain : Str → Prop) (c : Option Cmd) : Str → List Str → List Given → Prop
  | last {x : Char} {a : Act} : a ∈ offers c → short a = some x → valued a = false →
      Cluster plain c [x] [] [(a, none)]
  | flag {x : Char} {a : Act} {cs : Str} {vs : List Str} {gs : List Given} : a ∈ offers c → short a = some x →
      valued a = false → Cluster plain c cs vs gs → Cluster plain c (x :: cs) vs ((a, none) :: gs)
  | next {x : Char} {a : Act} {v : Str} : a ∈ offers c → short a = some x → valued a = true → plain v →
      Cluster plain c [x] [v] [(a, some v)]
  | rest {x : Char} {a : Act} {v : Str} : a ∈ offers c → short a = some x → valued a = true → v ≠ [] →
      v.head? ≠ some '=' → Cluster plain c (x :: v) [] [(a, some v)]
  | equals {x : Char} {a : Act} {v : Str} : a ∈ offers c → short a = some x → valued a = true →
      Cluster plain c (x :: '=' :: v) [] [(a, some v)]

/-- One or two words that give options. -/
inductive Options (plain : Str → Prop) (c : Option Cmd) : List Str → List Given → Prop
  | flag {n : Str} {a : Act} : LongName c n a → valued a = false → Options plain c [n] [(a, none)]
  | next {n v : Str} {a : Act} : LongName c n a → valued a = true → plain v → Options plain c [n, v] [(a, some v)]
  | equals {n v : Str} {a : Act} : LongName c n a → valued a = true →
      Options plain c [n ++ '=' :: v] [(a, some v)]
  | cluster {cs : Str} {vs : List Str} {gs : List Given} : Cluster plain c cs vs gs →
      Options plain c (('-' :: cs) :: vs) gs

/-- What is read. -/
inductive Item
  | given (g : Given) | operand (s : Str)

/-- The words after the command. `plain` are the words that are taken as operands and values, `bare` whether `--` may
be the last word. -/
inductive Words (plain : Str → Prop) (bare : Prop) (c : Option Cmd) : List Str → List Item → Prop
  | nil : Words plain bare c [] []
  | operand {w : Str} {ws : List Str} {is : List Item} : plain w → Words plain bare c ws is →
      Words plain bare c (w :: ws) (.operand w :: is)
  | options {os : List Str} {gs : List Given} {ws : List Str} {is : List Item} : Options plain c os gs →
      Words plain bare c ws is → Words plain bare c (os ++ ws) (gs.map .given ++ is)
  | dashes {ws : List Str} : (ws = [] → bare) → Words plain bare c (['-', '-'] :: ws) (ws.map .operand)

/-- The words before the command. -/
inductive Globals (plain : Str → Prop) : List Str → List Given → Prop
  | nil : Globals plain [] []
  | cons {os : List Str} {gs : List Given} {ws : List Str} {hs : List Given} : Options plain none os gs →
      Globals plain ws hs → Globals plain (os ++ ws) (gs ++ hs)

def operands (is : List Item) : List Str := is.filterMap fun | .operand s => some s | _ => none

def given (is : List Item) : List Given := is.filterMap fun | .given g => some g | _ => none

/-- Whether an option is given. -/
def has (gs : List Given) (a : Act) : Bool := gs.any (·.1 == a)

/-- The value of an option; if it is given more than once, the last one counts. -/
def value (gs : List Given) (a : Act) : Option Str := ((gs.filter (·.1 == a)).getLast?.bind (·.2))

/-- What is asked for, by a command, the options that are given to it and its operands. -/
inductive Asks : Cmd → List Given → List Str → Command → Prop
  | init {gs p} : Asks .init gs [p] (.init p (value gs .exclude) (value gs .template) (has gs .addRemote))
  | sync {gs p} : Asks .sync gs [p] (.sync p)
  | reset {gs p} : Asks .reset gs [p] (.reset p (has gs .keepRemote) (has gs .noRetrieve))
  | list {gs} : Asks .list gs [] .list
  | emptyTrash {gs p} : Asks .emptyTrash gs [p] (.emptyTrash p)

/-- A command line: the words, the request, and the global options. No help page and no version is asked for. -/
def Reads (plain : Str → Prop) (bare : Prop) (line : List Str) (r : Command) (debug quiet : Bool) : Prop :=
  ∃ (c : Cmd) (pre post : List Str) (gs : List Given) (is : List Item),
    line = pre ++ c.name :: post ∧ Globals plain pre gs ∧ Words plain bare (some c) post is ∧
    Asks c (given is) (operands is) r ∧ debug = has gs .debug ∧ quiet = has gs .quiet ∧
    has (gs ++ given is) .help = false ∧ has gs .version = false

/-- Words that are no options by convention. -/
def Plain (w : Str) : Prop := w.head? ≠ some '-' ∨ w = ['-']

/-- Words that the program may take for something else than options: those, negative numbers, and words with a
space. -/
def PlainOr (digit : Char → Bool) (w : Str) : Prop :=
  Plain w ∨ ' ' ∈ w ∨ ∃ r, w = '-' :: r ∧ r ≠ [] ∧ ∀ c ∈ r, digit c ∨ c = '.' ∨ c = '\n'

end Verif.Usage
