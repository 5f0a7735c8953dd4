import Verif.SyncResult
import Verif.Props.C34_Fixpoint
/-
C61: what has been created or changed locally is in the remote directory after the next sync. If the file has been
changed in the remote directory too, the newer version keeps the path, and the older one gets a conflict name.

The theorems are about every successful sync from a state as in `SyncReady`, and about paths that are not excluded.
They are named partial because of the former, and because the claim is false for an empty directory: it makes every
sync fail, see `C61_empty_fails`.
-/
namespace Verif
open Prog OSM

variable {env : Env} {w : World}

theorem sync_done (r : SyncReady env w) (h : (sync env w).1 = .ok ()) : SyncDone env w (sync env w).2 := by
  have h1 : sync env w = (.ok (), (sync env w).2) := by rw [← h]
  exact (wp_ok (wp_sync r) h1).2

/-- C61: a local file that is new or has been changed, and has not been changed in the remote directory, is there. -/
theorem C61_files_partial (r : SyncReady env w) (h : (sync env w).1 = .ok ()) {p : Path} {n : Node}
    (hc : ChangedLocally env w p) (hn : w.os.fs.get (env.loc ++ p) = some n) (hd : n.isDir = false)
    (he : ¬ OwnExcludes env w.os.fs p) (hr : ¬ ChangedRemotely env w p) :
    (sync env w).2.os.fs.get (env.rem ++ p) = some n :=
  (upload_of_done r (sync_done r h) hc hn hd he).1 hr

/-- C61: a file that has been changed on both sides has its newer version at its path in the remote directory, and the
older one, if there is one, at a conflict name. -/
theorem C61_conflict_partial (r : SyncReady env w) (h : (sync env w).1 = .ok ()) {p : Path} {n : Node}
    (hc : ChangedLocally env w p) (hn : w.os.fs.get (env.loc ++ p) = some n) (hd : n.isDir = false)
    (he : ¬ OwnExcludes env w.os.fs p) (hr : ChangedRemotely env w p) :
    ∃ b, w.os.fs.get (env.rem ++ p) = some b ∧
      (b.mtime ≤ n.mtime → (sync env w).2.os.fs.get (env.rem ++ p) = some n) ∧
      (b.mtime < n.mtime → ∃ q, ConflictName env w p q ∧ (sync env w).2.os.fs.get (env.rem ++ q) = some b) ∧
      (n.mtime < b.mtime → (sync env w).2.os.fs.get (env.rem ++ p) = some b ∧
        ∃ q, ConflictName env w p q ∧ (sync env w).2.os.fs.get (env.rem ++ q) = some n) :=
  (upload_of_done r (sync_done r h) hc hn hd he).2 hr

/-- C61: a new local directory is a directory of the remote directory. -/
theorem C61_dirs_partial (r : SyncReady env w) (h : (sync env w).1 = .ok ()) {p : Path}
    (hc : ChangedLocally env w p) (hd : w.os.fs.isDir (env.loc ++ p) = true)
    (he : ¬ OwnExcludes env w.os.fs p) : (sync env w).2.os.fs.isDir (env.rem ++ p) = true :=
  upload_dir_of_done r (sync_done r h) hc hd he

/-! ### Examples -/

/-- `a` is known and has been changed locally in `exMixed`, and `d/n` is new. -/
example : (sync exEnvE (exMixed 1000)).2.os.fs.get (exEnvE.rem ++ ["a".toList]) = some (.file 7 45 1) ∧
    (sync exEnvE (exMixed 1000)).2.os.fs.get (exEnvE.rem ++ ["d".toList, "n".toList]) = some (.file 13 45 1) := by
  have ex : ∀ p : Path, p.all (fun c => decide (c ≠ "e".toList)) = true →
      ¬ OwnExcludes exEnvE (exMixed 1000).os.fs p := fun p hp => exMixed_not_excluded 1000 hp
  constructor
  · refine C61_files_partial (exMixed_ready 1000) exMixed_ok ⟨by decide, .file 7 45 1, by decide +kernel, ?_,
      Or.inr ⟨by decide +kernel, rfl, by decide +kernel⟩⟩ (by decide +kernel) rfl (ex _ (by decide)) ?_
    · rintro ⟨_, _, h, _⟩; cases h
    · exact not_changedRemotely (by decide +kernel)
  · refine C61_files_partial (exMixed_ready 1000) exMixed_ok ⟨by decide, .file 13 45 1, by decide +kernel, ?_,
      Or.inl ⟨by decide +kernel, ex _ (by decide)⟩⟩ (by decide +kernel) rfl (ex _ (by decide)) ?_
    · rintro ⟨_, _, h, _⟩; cases h
    · exact not_changedRemotely (by decide +kernel)

/-- `c` has been changed on both sides. The remote version is newer. -/
example : (sync exEnvE (exMixed 1000)).2.os.fs.get (exEnvE.rem ++ ["c".toList]) = some (.file 12 46 1) ∧
    ∃ q, ConflictName exEnvE (exMixed 1000) ["c".toList] q ∧
      (sync exEnvE (exMixed 1000)).2.os.fs.get (exEnvE.rem ++ q) = some (.file 11 44 1) := by
  have hn : (exMixed 1000).os.fs.get (exEnvE.loc ++ ["c".toList]) = some (.file 11 44 1) := by decide +kernel
  have hb : (exMixed 1000).os.fs.get (exEnvE.rem ++ ["c".toList]) = some (.file 12 46 1) := by decide +kernel
  obtain ⟨b, h1, _, _, h2⟩ := C61_conflict_partial (exMixed_ready 1000) exMixed_ok
    ⟨by decide, _, hn, (by rintro ⟨_, _, h, _⟩; cases h), Or.inr ⟨by decide +kernel, rfl, by decide +kernel⟩⟩
    hn rfl (exMixed_not_excluded 1000 (by decide)) (Or.inl ⟨by decide, _, hb, Or.inr ⟨rfl, by decide +kernel⟩⟩)
  rw [hb] at h1; cases h1
  exact h2 (by decide)

/-! ### The claim in full is false -/

/-- A new directory without files. -/
def exEmptyDir : World := exWorld exEnvE [(["l".toList, "d".toList], .dir 45 8)] [] [] 1000

/-- C61 fails: the directory is not created in the remote directory, and this and the next sync fail. -/
theorem C61_empty_fails :
    (sync exEnvE exEmptyDir).1 = .error .key ∧
    (sync exEnvE exEmptyDir).2.os.fs.get ["r".toList, "d".toList] = none ∧
    (sync exEnvE ((sync exEnvE exEmptyDir).2.restart 1000)).1 = .error .key ∧
    (sync exEnvE ((sync exEnvE exEmptyDir).2.restart 1000)).2.os.fs.get ["r".toList, "d".toList] = none := by
  decide +kernel

end Verif
