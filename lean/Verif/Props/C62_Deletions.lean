import Verif.SyncResult
import Verif.Props.C61_Upload
/-
C62: a sync applies deletions to the other side. What was known and has been deleted on one side is, with everything
below it, in neither directory and in no database after a successful sync.

Excluded paths are an exception: what has been deleted from the remote directory stays in the local directory if it is
excluded there. Named partial because of the assumption `SyncReady`, and because the claim is false if the local file
has been changed: then the file is removed, but the sync fails, see `C62_changed_fails`.
-/
namespace Verif
open Prog OSM

variable {env : Env} {w : World}

/-- C62: what has been deleted locally is gone from the remote directory and from the databases, and does not come
back to the local directory. -/
theorem C62_local_partial (r : SyncReady env w) (h : (sync env w).1 = .ok ()) {d : Path} (hd : GoneLocally env w d)
    {q : Path} (hq : d <+: q) :
    (sync env w).2.os.fs.get (env.rem ++ q) = none ∧ (sync env w).2.os.fs.get (env.loc ++ q) = none ∧
    q ∉ ADB.paths (sync env w).2.dbSaved ∧ q ∉ ADB.paths (sync env w).2.rdbSaved := by
  have hs := sync_done r h
  obtain ⟨h1, h2, h3, h4⟩ := gone_of_done r hs (Or.inl hd) hq
  obtain ⟨_, _, _, _, _, _, _, _, _, _, _, _, _, _, _, _, _, _, D⟩ := hs
  exact ⟨h2, h1, D.ended.dbSaved ▸ h3, D.ended.rdbSaved ▸ h4⟩

/-- C62: what has been deleted from the remote directory is gone from the local directory and from the databases,
unless it is excluded. -/
theorem C62_remote_partial (r : SyncReady env w) (h : (sync env w).1 = .ok ()) {d : Path} (hd : GoneRemotely env w d)
    (he : ¬ OwnExcludes env w.os.fs d) {q : Path} (hq : d <+: q) :
    (sync env w).2.os.fs.get (env.loc ++ q) = none ∧ (sync env w).2.os.fs.get (env.rem ++ q) = none ∧
    q ∉ ADB.paths (sync env w).2.dbSaved ∧ q ∉ ADB.paths (sync env w).2.rdbSaved := by
  have hs := sync_done r h
  obtain ⟨h1, h2, h3, h4⟩ := gone_of_done r hs (Or.inr ⟨hd, he⟩) hq
  obtain ⟨_, _, _, _, _, _, _, _, _, _, _, _, _, _, _, _, _, _, D⟩ := hs
  exact ⟨h1, h2, D.ended.dbSaved ▸ h3, D.ended.rdbSaved ▸ h4⟩

/-! ### Examples -/

/-- In `exMixed`, `g` has been deleted locally. -/
example {q : Path} (hq : ["g".toList] <+: q) :
    (sync exEnvE (exMixed 1000)).2.os.fs.get (exEnvE.rem ++ q) = none :=
  (C62_local_partial (exMixed_ready 1000) exMixed_ok (d := ["g".toList]) (by decide +kernel) hq).1

/-- `m` has been deleted from the remote directory. -/
example {q : Path} (hq : ["m".toList] <+: q) :
    (sync exEnvE (exMixed 1000)).2.os.fs.get (exEnvE.loc ++ q) = none :=
  (C62_remote_partial (exMixed_ready 1000) exMixed_ok (d := ["m".toList]) (by decide +kernel)
    (exMixed_not_excluded 1000 (by decide)) hq).1

/-! ### The claim in full is false -/

/-- `a`, which has been changed locally, and `b` have been deleted from the remote directory. -/
def exDeletedChanged : World := exWorld exEnvE
  [(["l".toList, "a".toList], .file 7 45 1), (["l".toList, "b".toList], .file 9 3 1)]
  [exRow ["a".toList] false 1 true, exRow ["b".toList] false 2 true]
  [exRRow ["a".toList] false, exRRow ["b".toList] false] 1000

/-- C62 fails: the sync raises an exception, and does not save that `b` has been deleted. -/
theorem C62_changed_fails :
    GoneRemotely exEnvE exDeletedChanged ["b".toList] ∧
    (sync exEnvE exDeletedChanged).1 = .error .notFound ∧
    ["b".toList] ∈ ADB.paths (sync exEnvE exDeletedChanged).2.dbSaved := by decide +kernel

end Verif
