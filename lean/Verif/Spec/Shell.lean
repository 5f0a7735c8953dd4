import Verif.Path
import Verif.Spec.Config
/-
What the patterns of an exclude file mean (docs/zielen.1.rst:127-145), without reference to the matcher.
-/
namespace Verif

/-- A name matches a part of a pattern that has no slash. -/
inductive NameLike : Str → Str → Prop
  | nil : NameLike [] []
  /-- Other characters stand for themselves. -/
  | lit {c : Char} {p s : Str} : c ≠ '*' → c ≠ '?' → c ≠ '[' → NameLike p s → NameLike (c :: p) (c :: s)
  /-- A question mark matches any single character. -/
  | any {c : Char} {p s : Str} : NameLike p s → NameLike ('?' :: p) (c :: s)
  /-- An asterisk matches anything. -/
  | skip {p s : Str} : NameLike p s → NameLike ('*' :: p) s
  | more {c : Char} {p s : Str} : NameLike ('*' :: p) s → NameLike ('*' :: p) (c :: s)
  /-- A set of brackets matches any one of the characters contained within the brackets. -/
  | set {c : Char} {b p s : Str} : ']' ∉ b → c ∈ b → NameLike p s → NameLike ('[' :: b ++ ']' :: p) (c :: s)

/-- All brackets are closed, and there is something else between them than a negation or a range, of which the manual
says nothing. -/
inductive PlainName : Str → Prop
  | nil : PlainName []
  | char {c : Char} {p : Str} : c ≠ '[' → PlainName p → PlainName (c :: p)
  | set {b p : Str} : b ≠ [] → ']' ∉ b → '-' ∉ b → b.head? ≠ some '!' → PlainName p →
      PlainName ('[' :: b ++ ']' :: p)

/-- The name starts with a dot. -/
def Hidden (n : Str) : Prop := n.head? = some '.'

/-- Hidden files are only matched if the pattern has the dot. -/
def NameMatches (c n : Str) : Prop := NameLike c n ∧ (Hidden n → Hidden c)

/-- A path matches the components of a pattern, where `R` says which names match a component. A double asterisk matches
any number of names that are not hidden. If the last one matches nothing (`foo/**` and `foo`), the path has to be a
directory. -/
inductive PathLike (R : Str → Str → Prop) : List Str → Path → Bool → Prop
  | nil : PathLike R [] [] false
  | name {c n : Str} {cs : List Str} {p : Path} {d : Bool} : c ≠ ['*', '*'] → R c n → PathLike R cs p d →
      PathLike R (c :: cs) (n :: p) d
  | none : PathLike R [['*', '*']] [] true
  | one {n : Str} : ¬ Hidden n → PathLike R [['*', '*']] [n] false
  | zero {cs : List Str} {p : Path} {d : Bool} : cs ≠ [] → PathLike R cs p d → PathLike R (['*', '*'] :: cs) p d
  | more {n : Str} {cs : List Str} {p : Path} {d : Bool} : ¬ Hidden n → PathLike R (['*', '*'] :: cs) p d →
      PathLike R (['*', '*'] :: cs) (n :: p) d

/-- A line of an exclude file, without white space at its ends, is a pattern with the components `cs`; it starts with a
slash or not, and ends with one or not. -/
def IsPattern (t : Str) (rooted : Bool) (cs : List Str) (dirs : Bool) : Prop :=
  t = (if rooted then ['/'] else []) ++ toStr cs ++ (if dirs then ['/'] else []) ∧ cs ≠ [] ∧ ∀ c ∈ cs, GoodName c

/-- The lines that count are those that are not comments and not blank. -/
def Counts (ls : List Str) (t : Str) : Prop := ∃ l ∈ ls, ¬ CommentLine l ∧ Trims l t ∧ t ≠ []

end Verif
