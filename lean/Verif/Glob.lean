import Verif.FS
import Verif.Config
import Verif.Path
/-
What the lines of an exclude file match: `glob.glob(recursive=True)` and `fnmatch` of the library, and the code that
calls them. Paths are lists of components here.
-/
namespace Verif

/-! ### `fnmatch` -/

/-- A piece of a pattern as `fnmatch.translate` sees it (fnmatch.py of Python 3.12): a star, any character, one of a
set of characters (or none of them), nothing at all, or a character that stands for itself. -/
inductive Tok
  | star
  | any
  | set (neg : Bool) (chunks : List Str)
  | never
  | lit (c : Char)
deriving DecidableEq, Repr

/-- What is between `[` and `]`, and what comes after it; `s` is the text after `[`. -/
def bracket (s : Str) : Option (Str × Str) :=
  let j := if s.head? = some '!' then 1 else 0
  let k := if (s.drop j).head? = some ']' then j + 1 else j
  match (s.drop k).dropWhile (· != ']') with
  | [] => none
  | _ :: rest => some (s.take k ++ (s.drop k).takeWhile (· != ']'), rest)

/-- The hyphens that make ranges split the text; the first `skip` characters are passed over. A hyphen at the end stands
for itself. -/
def chunks : Nat → Nat → Str → List Str
  | 0, _, s => [s]
  | n + 1, skip, s =>
    if '-' ∈ s.drop skip then
      let k := skip + ((s.drop skip).takeWhile (· != '-')).length
      if s.drop (k + 1) = [] then [s] else s.take k :: chunks n 2 (s.drop (k + 1))
    else [s]

/-- Empty ranges are removed. -/
def fixRanges : List Str → List Str
  | [] => []
  | c :: cs => match fixRanges cs with
    | [] => [c]
    | d :: ds => match c.getLast?, d.head? with
      | some a, some b => if b.toNat < a.toNat then (c.dropLast ++ d.tail) :: ds else c :: d :: ds
      | _, _ => c :: d :: ds

/-- A pair of brackets. -/
def setTok (stuff : Str) : Tok :=
  match (if '-' ∈ stuff then
      fixRanges (chunks stuff.length (if stuff.head? = some '!' then 2 else 1) stuff) else [stuff]) with
  | [[]] => .never
  | [['!']] => .any
  | ('!' :: c) :: cs => .set true (c :: cs)
  | cs => .set false cs

/-- `fnmatch.translate`, up to the regular expression. -/
def toks : Nat → Str → List Tok
  | _, [] => []
  | 0, _ => []
  | n + 1, c :: s =>
    if c = '*' then .star :: toks n s
    else if c = '?' then .any :: toks n s
    else if c = '[' then match bracket s with
      | some (stuff, rest) => setTok stuff :: toks n rest
      | none => .lit '[' :: toks n s
    else .lit c :: toks n s

/-- The character is in the set. -/
def inChunks (c : Char) : List Str → Bool
  | [] => false
  | [d] => decide (c ∈ d)
  | d :: e :: ds => decide (c ∈ d) ||
    (match d.getLast?, e.head? with
      | some a, some b => decide (a.toNat ≤ c.toNat) && decide (c.toNat ≤ b.toNat)
      | _, _ => false) || inChunks c (e :: ds)

/-- A piece that stands for one character. -/
def tokChar (c : Char) : Tok → Bool
  | .any => true
  | .set neg cs => inChunks c cs != neg
  | .lit d => decide (c = d)
  | _ => false

/-- Matching with the regular expression (`re.match`; the atomic groups of `translate` do not change what matches). -/
def matchToks : List Tok → Str → Bool
  | [], s => s.isEmpty
  | .star :: ts, s => (List.range (s.length + 1)).any (fun k => matchToks ts (s.drop k))
  | _ :: _, [] => false
  | t :: ts, c :: s => tokChar c t && matchToks ts s

/-- `fnmatch.fnmatchcase`. -/
def fnmatch (name pat : Str) : Bool := matchToks (toks pat.length pat) name

/-! ### `glob` -/

/-- `has_magic` (glob.py). -/
def hasMagic (c : Str) : Bool := c.any (fun x => x = '*' || x = '?' || x = '[')

/-- `_ishidden` (glob.py). -/
def isHidden (c : Str) : Bool := c.head? == some '.'

/-- `_listdir` (glob.py). Links to directories do not count as directories here, as everywhere in `FS`. -/
def listdir (fs : FS) (dironly : Bool) (dir : Path) : List Str :=
  (fs.below dir).filterMap (fun e => match e.1 with
    | [x] => if !dironly || e.2.isDir then some x else none
    | _ => none)

/-- `_rlistdir` (glob.py): everything below a directory without going into hidden directories. The library lists one
directory after the other. -/
def rlistdir (fs : FS) (dironly : Bool) (dir : Path) : List Path :=
  (fs.below dir).filterMap (fun e =>
    if (!dironly || e.2.isDir) && e.1.all (fun x => !isHidden x) then some e.1 else none)

/-- `_glob0`, `_glob1` and `_glob2` (glob.py). -/
def globIn (fs : FS) (dironly : Bool) (dir : Path) (b : Str) : List Path :=
  if hasMagic b then
    if b = ['*', '*'] then (if fs.isDir dir then [[]] else []) ++ rlistdir fs dironly dir
    else (((listdir fs dironly dir).filter (fun x => isHidden b || !isHidden x)).filter (fun x => fnmatch x b)).map
      (fun x => [x])
  else if (fs.get (dir ++ [b])).isSome then [[b]] else []

/-- `_iglob` (glob.py) for an absolute path; its components come last one first. The components `.` and `..` are not
treated in the way the kernel does. -/
def iglob (fs : FS) (dironly : Bool) : List Str → List Path
  | [] => [[]]
  | b :: d =>
    if hasMagic b || d.any hasMagic then
      (if d.any hasMagic then iglob fs true d else [d.reverse]).flatMap
        (fun dir => (globIn fs dironly dir b).map (fun q => dir ++ q))
    else if (fs.get (b :: d).reverse).isSome then [(b :: d).reverse] else []

/-- `glob.glob(pathname, recursive=True)` for the components of `pathname`, which ends with a slash or not. -/
def glob (fs : FS) (comps : List Str) (slash : Bool) : List Path :=
  if slash then
    if comps.any hasMagic then (iglob fs true comps.reverse).filter (fun p => fs.isDir p)
    else if fs.isDir comps then [comps] else []
  else iglob fs false comps.reverse

/-! ### The exclude file -/

/-- The lines that count (zielen/profile.py:331-340, 351-358). -/
def patternLines (text : Str) : List Str :=
  (((fileLines (univNewlines text)).filter (fun l => !isComment l)).map strip).filter (fun l => !l.isEmpty)

/-- The components of `glob_str` (zielen/profile.py:359-363). Empty components do not matter to the library. -/
def lineComps (loc : Path) (line : Str) : List Str :=
  let cs := (Posix.split line).filter (fun c => !c.isEmpty)
  if line.head? = some '/' then loc ++ cs else loc ++ ['*', '*'] :: cs

/-- The matches of one line, relative to `start_path` (zielen/profile.py:365-367). Those outside of it, whose relative
path begins with `..`, are left out. -/
def lineMatches (fs : FS) (loc : Path) (line : Str) : List Path :=
  (glob fs (lineComps loc line) (line.getLast? == some '/')).filterMap (fun m =>
    if loc.isPrefixOf m then some (m.drop loc.length) else none)

/-- `ProfileExcludeFile.matches` (zielen/profile.py:342-389): what the lines of an exclude file match. -/
def textMatches (fs : FS) (loc : Path) (text : Str) : List Path :=
  (patternLines text).flatMap (lineMatches fs loc)

/-- What `ProfileExcludeFile.generate` writes before the lines of the given file (zielen/profile.py:317-322). -/
def excludeHeader : Str :=
  ("# This file contains patterns representing files and directories to exclude\n" ++ "# from syncing.\n#\n" ++
    "# The patterns follow shell globbing rules as described in zielen(1).\n").toList

/-- The new exclude file (zielen/profile.py:310-329); `infile` is the text of the given file. -/
def generateExclude (infile : Option Str) : Str :=
  excludeHeader ++ match infile with
    | some t => univNewlines t
    | none => []

end Verif
