import Verif.Spec.Changes
import Verif.Spec.Excluded
import Verif.Trash
/-
What a sync may change, in terms of the state in which it starts.
-/
namespace Verif

/-- The profile knows the path and the local directory does not have it. -/
def GoneLocally (env : Env) (w : World) (d : Path) : Prop :=
  d ∈ ADB.paths w.db ∧ w.os.fs.get (env.loc ++ d) = none

/-- The profile knows the path and the remote directory does not have it. -/
def GoneRemotely (env : Env) (w : World) (d : Path) : Prop :=
  d ∈ ADB.paths w.db ∧ w.os.fs.get (env.rem ++ d) = none

instance (env : Env) (w : World) (d : Path) : Decidable (GoneLocally env w d) :=
  inferInstanceAs (Decidable (_ ∧ _))

instance (env : Env) (w : World) (d : Path) : Decidable (GoneRemotely env w d) :=
  inferInstanceAs (Decidable (_ ∧ _))

/-- The path is new in the local directory and not excluded, or it is a file that has changed there since the last
sync. -/
def ChangedLocally (env : Env) (w : World) (f : Path) : Prop :=
  f ≠ [] ∧ ∃ n, w.os.fs.get (env.loc ++ f) = some n ∧ ¬ UnsafeLink env.loc f n ∧
    ((f ∉ ADB.paths w.db ∧ ¬ OwnExcludes env w.os.fs f) ∨
      (f ∈ ADB.paths w.db ∧ n.isDir = false ∧ w.last < n.mtime))

/-- The path is new in the remote directory, or it is a file that has changed there since the last sync, or the remote
database says that another client has changed it since then. -/
def ChangedRemotely (env : Env) (w : World) (f : Path) : Prop :=
  (UserPath f ∧ ∃ n, w.os.fs.get (env.rem ++ f) = some n ∧
    (f ∉ ADB.paths w.db ∨ (n.isDir = false ∧ w.last < n.mtime))) ∨
  ∃ e ∈ w.rdb, e.path = f ∧ e.directory = false ∧ w.last < e.data

/-- `q` is a name that a sync that starts in the state `w` may give to a file `p` that is in conflict. -/
def ConflictName (env : Env) (w : World) (p q : Path) : Prop :=
  ∃ k, w.os.tick ≤ k ∧ q = conflictPath (env.stamp (w.os.clk k)) p

/-- The directory `root` has the file `n` of the path `p`, at this path or at a conflict name. -/
def HasVersion (env : Env) (w : World) (fs : FS) (root p : Path) (n : Node) : Prop :=
  fs.get (root ++ p) = some n ∨ ∃ q, ConflictName env w p q ∧ fs.get (root ++ q) = some n

/-- What a sync may change in the remote directory before it removes excluded files from it: what is at or below a
path that was deleted or changed locally; and it may add the directories above a changed path, and conflict names. -/
def RemoteChange (env : Env) (w : World) (r : Path) : Prop :=
  (∃ d, GoneLocally env w d ∧ d <+: r) ∨ (∃ f, ChangedLocally env w f ∧ f <+: r) ∨
  (w.os.fs.get (env.rem ++ r) = none ∧ ∃ f, ChangedLocally env w f ∧
    (r <+: f ∨ ∃ k, w.os.tick ≤ k ∧ r = conflictPath (env.stamp (w.os.clk k)) f))

/-- What a sync may change in the local directory: it may add things, and of what is excluded, it may change what is
at or below a path that is not excluded and was deleted from the remote directory, what is in the remote
directory too, and what is at or below a path that was changed locally. -/
def LocalMay (env : Env) (w : World) (p : Path) : Prop :=
  w.os.fs.get (env.loc ++ p) = none ∨ ¬ OwnExcludes env w.os.fs p ∨
  (∃ d, GoneRemotely env w d ∧ ¬ OwnExcludes env w.os.fs d ∧ d <+: p) ∨
  (∃ b, w.os.fs.get (env.rem ++ p) = some b) ∨ (∃ f, ChangedLocally env w f ∧ f <+: p)

/-- The trash directory itself, or a place at or below a name that the trash does not have. -/
def TrashNew (env : Env) (w : World) (q : Path) : Prop :=
  q = env.trash ∨ ∃ c, w.os.fs.get (env.trash ++ [c]) = none ∧ env.trash ++ [c] <+: q

theorem TrashNew.below {env : Env} {w : World} {q : Path} (h : TrashNew env w q) : env.trash <+: q := by
  rcases h with rfl | ⟨c, _, h⟩
  · exact List.prefix_refl _
  · exact (List.prefix_append _ _).trans h

/-- What a sync may change before it removes excluded files from the remote directory: its copy of the exclude file,
new entries of the trash and the above. -/
def EarlyMay (env : Env) (w : World) (q : Path) : Prop :=
  q = env.exclDir ++ [env.id] ∨ TrashNew env w q ∨ (∃ r, UserPath r ∧ q = env.rem ++ r ∧ RemoteChange env w r) ∨
  (∃ p, p ≠ [] ∧ q = env.loc ++ p ∧ LocalMay env w p)

/-- What a sync removes at its end: entries of the trash that are older than the clean-up period, and excluded files of
the remote directory. `fs` are the files at that time, and the sync ends before the call `last + 1`. -/
def LateMay (env : Env) (w : World) (last : Nat) (fs : FS) (q : Path) : Prop :=
  (∃ t k c n, env.cleanup = some t ∧ t ≠ 0 ∧ (w.os.tick ≤ k ∧ k ≤ last) ∧ fs.get (env.trash ++ [c]) = some n ∧
    n.isLink = false ∧ n.mtime ≤ w.os.clk k - t ∧ env.trash ++ [c] <+: q) ∨ ∃ e, OwnExcludes env w.os.fs e ∧ env.rem ++ e <+: q

end Verif
