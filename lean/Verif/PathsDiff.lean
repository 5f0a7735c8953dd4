import Verif.PosixPath
/-
`PathsDiff` (zielen/filelogic.py:54-161). The set of pairs is a list; nothing
depends on its order or on repetitions.
-/
namespace Verif

/-- Relative paths as component lists; the empty path stands for `""`. -/
abbrev PPath := List Str

/-- `_path_pairs`; `none` is `None`. -/
abbrev PairSet := List (Option PPath × Option PPath)

/-- `if path` in Python: neither `None` nor the empty string. -/
def truthy : Option PPath → Bool
  | none => false
  | some p => decide (p ≠ [])

namespace PathsDiff

/-- `__init__` (zielen/filelogic.py:76). -/
def init (start : List PPath) : PairSet := start.map (fun p => (some p, some p))

/-- `rm` (zielen/filelogic.py:78-88). -/
def rm (s : PairSet) (ps : List PPath) : PairSet :=
  ps.foldl (fun s p => s.map (fun x => if x.2 = some p then (x.1, none) else x)) s

/-- `add` (zielen/filelogic.py:90-97). -/
def add (s : PairSet) (ps : List PPath) : PairSet := s ++ ps.map (fun p => (none, some p))

/-- `rename` (zielen/filelogic.py:99-111). -/
def rename (s : PairSet) (prs : List (PPath × PPath)) : PairSet :=
  prs.foldl (fun s pr => s.map (fun x => if x.1 = some pr.1 then (x.1, some pr.2) else x)) s

/-- `init_paths` (zielen/filelogic.py:113-122). -/
def initPaths (s : PairSet) : List PPath := (s.filter (fun x => truthy x.1)).filterMap Prod.fst

/-- `res_paths` (zielen/filelogic.py:124-133). -/
def resPaths (s : PairSet) : List PPath := (s.filter (fun x => truthy x.2)).filterMap Prod.snd

/-- `mod_paths` (zielen/filelogic.py:135-146). -/
def modPaths (s : PairSet) : List (PPath × PPath) :=
  s.filterMap (fun x => match x with
    | (some a, some b) => if a ≠ [] ∧ b ≠ [] ∧ a ≠ b then some (a, b) else none
    | _ => none)

/-- The methods that change a `PathsDiff`. -/
inductive Op
  | rm (ps : List PPath)
  | add (ps : List PPath)
  | rename (prs : List (PPath × PPath))

def step (s : PairSet) : Op → PairSet
  | .rm ps => PathsDiff.rm s ps
  | .add ps => PathsDiff.add s ps
  | .rename prs => PathsDiff.rename s prs

def run (start : List PPath) (ops : List Op) : PairSet := ops.foldl step (init start)

end PathsDiff
end Verif
