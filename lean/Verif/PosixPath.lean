/-
Character-level model of the parts of Python's `posixpath` that zielen uses
(`os.path` on Linux). Source: CPython 3.11 `Lib/posixpath.py`,
`Lib/genericpath.py`.
-/
namespace Verif

/-- Python `str`, as a list of code points. -/
abbrev Str := List Char

/-- A relative path as the list of its components. -/
abbrev Path := List Str

namespace Posix

/-- `s.rstrip("/")`. -/
def rstripSep (s : Str) : Str := (s.reverse.dropWhile (· == '/')).reverse

/-- `s.lstrip("/")`. -/
def lstripSep (s : Str) : Str := s.dropWhile (· == '/')

/-- `posixpath.join(a, b)` with two arguments. -/
def join (a b : Str) : Str :=
  if b.head? = some '/' then b
  else if a = [] ∨ a.getLast? = some '/' then a ++ b
  else a ++ '/' :: b

/-- `p[rfind('/')+1:]`: `posixpath.basename`. -/
def basename (p : Str) : Str := (p.reverse.takeWhile (· != '/')).reverse

/-- `p[:rfind('/')+1]`: the head before stripping in `posixpath.dirname`. -/
def rawHead (p : Str) : Str := (p.reverse.dropWhile (· != '/')).reverse

/-- `posixpath.dirname`. -/
def dirname (p : Str) : Str :=
  let head := rawHead p
  if head ≠ [] ∧ ¬ head.all (· == '/') then rstripSep head else head

/-- `s.count('/')`. -/
def countSep (s : Str) : Nat := s.count '/'

/-- `p.split('/')`. -/
def split : Str → List Str
  | [] => [[]]
  | c :: cs =>
    if c = '/' then [] :: split cs
    else match split cs with
      | [] => [[c]]
      | w :: ws => (c :: w) :: ws

/-- `'/'.join(comps)`. -/
def intercalate : List Str → Str
  | [] => []
  | [w] => w
  | w :: ws => w ++ '/' :: intercalate ws

/-- `posixpath.isabs`. -/
def isabs (p : Str) : Bool := p.head? == some '/'

/-- `posixpath.splitext` (`genericpath._splitext`): the extension is what
follows the last dot of the last component, unless everything before that dot
in the component is dots. -/
def splitext (p : Str) : Str × Str :=
  let base := basename p
  let ext := (base.reverse.takeWhile (· != '.')).reverse
  let stem := (base.reverse.dropWhile (· != '.')).reverse.dropLast
  if base.any (· == '.') ∧ stem.any (· != '.')
  then (rawHead p ++ stem, '.' :: ext)
  else (p, [])

/-- The number of leading slashes that `posixpath.normpath` keeps. -/
def initialSlashes (p : Str) : Nat :=
  match p with
  | '/' :: '/' :: '/' :: _ => 1
  | '/' :: '/' :: _ => 2
  | '/' :: _ => 1
  | _ => 0

/-- One iteration of the component loop of `posixpath.normpath`; `acc` is
`new_comps` reversed. -/
def normStep (slashes : Nat) (acc : List Str) (comp : Str) : List Str :=
  if comp = [] ∨ comp = ['.'] then acc
  else if comp ≠ ['.', '.'] ∨ (slashes = 0 ∧ acc = []) ∨ acc.head? = some ['.', '.']
  then comp :: acc
  else acc.tail

/-- `posixpath.normpath`. -/
def normpath (p : Str) : Str :=
  if p = [] then ['.'] else
  let n := initialSlashes p
  let comps := ((split p).foldl (normStep n) []).reverse
  let res := List.replicate n '/' ++ intercalate comps
  if res = [] then ['.'] else res

/-- Longest common prefix of two lists. -/
def lcp : List Str → List Str → List Str
  | a :: as, b :: bs => if a = b then a :: lcp as bs else []
  | _, _ => []

/-- The components `commonpath` compares. -/
def realComps (p : Str) : List Str := (split p).filter (fun c => c ≠ [] ∧ c ≠ ['.'])

/-- `posixpath.commonpath([a, b])`; `none` is the `ValueError` for mixing
absolute and relative paths. (`min`/`max` of the two component lists are the
two lists in some order; the loop computes their longest common prefix, which
is symmetric.) -/
def commonpath (a b : Str) : Option Str :=
  if isabs a = isabs b then
    some ((if isabs a then ['/'] else []) ++ intercalate (lcp (realComps a) (realComps b)))
  else none

end Posix
end Verif
