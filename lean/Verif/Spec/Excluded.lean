import Verif.World
/-
What it means that a path is excluded, in terms of the file system.
-/
namespace Verif

/-- A path of the local directory is excluded by patterns: a pattern matches it or a directory above it. -/
def ExcludedIn (fs : FS) (loc : Path) (pats : Patterns) (p : Path) : Prop :=
  p ≠ [] ∧ (∃ n, fs.get (loc ++ p) = some n) ∧ ∃ m, m ≠ [] ∧ m <+: p ∧ ∃ g ∈ pats, g m = true

/-- A client is a file in the remote exclude directory. -/
def Client (env : Env) (fs : FS) (c : Str) : Prop := ∃ n, fs.get (env.exclDir ++ [c]) = some n

/-- The exclude file of a client excludes a path. -/
def ClientExcludes (env : Env) (fs : FS) (c : Str) (p : Path) : Prop :=
  ∃ q k m b, fs.stat (env.exclDir ++ [c]) = .ok (q, .file k m b) ∧ ExcludedIn fs env.loc (env.patsOf k) p

/-- The profile's own exclude file excludes a path. -/
def OwnExcludes (env : Env) (fs : FS) (p : Path) : Prop :=
  ∃ q k m b, fs.stat env.excl = .ok (q, .file k m b) ∧ ExcludedIn fs env.loc (env.patsOf k) p

end Verif
