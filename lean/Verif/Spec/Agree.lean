import Verif.Spec.Sync
/-
What it means that a profile is in order: the databases and the two directories agree.
-/
namespace Verif

/-- The remote file `n` at the path `p` is available in the local directory: as a directory, as the same file, or as
a link to it. A remote link may be a different link locally. -/
def Available (env : Env) (fs : FS) (p : Path) (n : Node) : Prop :=
  (n.isDir = true → fs.isDir (env.loc ++ p) = true) ∧
  (n.isDir = false → fs.get (env.loc ++ p) = some n ∨ ∃ t m, fs.get (env.loc ++ p) = some (.link t m) ∧
    (FS.linkDest (env.loc ++ p) t = env.rem ++ p ∨ n.isLink = true))

/-- The databases, the remote directory and the local directory agree. -/
structure Agree (env : Env) (w : World) : Prop where
  same : ∀ p, p ∈ ADB.paths w.db ↔ p ∈ ADB.paths w.rdb
  user : ∀ p ∈ ADB.paths w.rdb, UserPath p
  remote : ∀ p, UserPath p → (p ∈ ADB.paths w.rdb ↔ ∃ n, w.os.fs.get (env.rem ++ p) = some n)
  loc : ∀ p n, UserPath p → w.os.fs.get (env.rem ++ p) = some n → Available env w.os.fs p n
  dbSaved : w.dbSaved = w.db
  rdbSaved : w.rdbSaved = w.rdb
  lastSaved : w.lastSaved = w.last

/-- The state in which a successful sync leaves a profile: the databases and the two directories agree, and the
databases say of every path what it is. -/
structure AtRest (env : Env) (w : World) : Prop extends Agree env w where
  wf : w.os.fs.WF
  kind_db : ∀ e ∈ w.db, ∀ n, w.os.fs.get (env.rem ++ e.path) = some n → n.isDir = e.directory
  kind_rdb : ∀ e ∈ w.rdb, ∀ n, w.os.fs.get (env.rem ++ e.path) = some n → n.isDir = e.directory
  nodup_db : (ADB.paths w.db).Nodup
  nodup : (ADB.paths w.rdb).Nodup

end Verif
