import Verif.Prioritize
/-
What a selection occupies, independent of the loops that compute it.
-/
namespace Verif

/-- The disk usage of a remote file, in bytes. -/
def fileUsage (env : SelEnv) (p : Path) : Nat := ((env.stat p).map (fun s => s.2 * 512)).getD 0

/-- The disk usage of everything the remote database lists at or below `d`. -/
def treeUsage (env : SelEnv) (d : Path) : Nat :=
  ((env.rem.filter (fun e => d.isPrefixOf e.path)).map (fun e => fileUsage env e.path)).sum

/-- The number of known files that are not below a directory of `D` and not in `F`. -/
def linksLeft (env : SelEnv) (D F : List Path) : Nat :=
  (env.loc.filter (fun e => !e.directory && !D.any (fun d => d.isPrefixOf e.path)
    && decide (e.path ∉ F))).length

/-- What the local directory occupies if `D` and `F` are kept and every other
file is a symbolic link of one block (the blocks of directories that are not
selected are not counted, as in the code). -/
def usage (env : SelEnv) (D F : List Path) : Nat :=
  (D.map (treeUsage env)).sum + (F.map (fileUsage env)).sum
    + linksLeft env D F * env.symlinkSize

/-! ### An example -/

/-- `docs` with two files, and `x`; blocks of 512 bytes, links of 4096 bytes. -/
def exEnv : SelEnv where
  loc := [⟨["docs".toList], true, ⟨5, false⟩⟩, ⟨["docs".toList, "a".toList], false, ⟨4, false⟩⟩,
    ⟨["docs".toList, "b".toList], false, ⟨1, false⟩⟩, ⟨["x".toList], false, ⟨3, false⟩⟩]
  rem := [⟨["docs".toList], true, 0⟩, ⟨["docs".toList, "a".toList], false, 0⟩,
    ⟨["docs".toList, "b".toList], false, 0⟩, ⟨["x".toList], false, 0⟩]
  stat := fun p =>
    if p = ["docs".toList] then some (true, 8)
    else if p = ["docs".toList, "a".toList] then some (false, 16)
    else if p = ["docs".toList, "b".toList] then some (false, 64)
    else if p = ["x".toList] then some (false, 8) else none
  accountForSize := false
  storageLimit := 100000
  symlinkSize := 4096

end Verif
