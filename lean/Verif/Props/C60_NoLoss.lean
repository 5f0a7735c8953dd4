import Verif.SyncLoss
import Verif.ExampleSync
import Verif.Props.SyncEffects
/-
C60: a sync does not lose a version of a file. Wherever it ends, a file that was in one of the directories is still in
one of them, at its path or at a conflict name, unless it has been deleted on the other side, or it has been replaced
by the version of the other side.

`World.os.fuel` is the number of file system operations after which the process is killed; the theorems hold for
every number, and for every other way to end. `HasVersion` says that a directory has the file at its path or at a conflict
name. The theorems are named partial because of their assumption `SyncReady`, and because the claim in full is false:
a file that has been changed locally is lost if it has been deleted in the remote directory, and a remote file is lost
if it is in conflict with a local file that was changed in the same second, or with one that is excluded.
-/
namespace Verif
open Prog OSM

section
variable {env : Env} {w : World}

theorem sync_at (r : SyncReady env w) : SyncAt env w (sync env w).2.os.fs :=
  wp_state (I := fun w' : World => SyncAt env w w'.os.fs)
    (wp_mono (wp_sync r) (fun _ _ h => h.2.at_) (fun _ _ h => h.2))

/-- C60: a file of the local directory, nothing above which has been deleted in the remote directory, is in one of the
directories, unless it had not been changed and the remote directory had a different version of it. -/
theorem C60_local_partial (r : SyncReady env w) {p : Path} {n : Node} (hp : p ≠ [])
    (hn : w.os.fs.get (env.loc ++ p) = some n) (hd : n.isDir = false)
    (hdel : ∀ d, GoneRemotely env w d → ¬ OwnExcludes env w.os.fs d → ¬ d <+: p) :
    HasVersion env w (sync env w).2.os.fs env.loc p n ∨ HasVersion env w (sync env w).2.os.fs env.rem p n ∨
      (¬ ChangedLocally env w p ∧ ∃ b, w.os.fs.get (env.rem ++ p) = some b ∧ b ≠ n) :=
  sync_keeps_local r (sync_at r) hp hn hd hdel

/-- C60: a file that has been changed locally is in one of the directories, unless it has been deleted in the remote
directory. -/
theorem C60_changed_partial (r : SyncReady env w) {p : Path} {n : Node} (hc : ChangedLocally env w p)
    (hn : w.os.fs.get (env.loc ++ p) = some n) (hd : n.isDir = false)
    (hdel : ∀ d, GoneRemotely env w d → ¬ d <+: p) :
    HasVersion env w (sync env w).2.os.fs env.loc p n ∨ HasVersion env w (sync env w).2.os.fs env.rem p n := by
  rcases C60_local_partial r hc.1 hn hd (fun d h _ => hdel d h) with h | h | ⟨h, _⟩
  · exact Or.inl h
  · exact Or.inr h
  · exact absurd hc h

/-- C60: a file of the remote directory, nothing above which has been deleted in the local directory, is in one of the
directories, unless it is at or below a path that has been changed locally, and the local directory has a version of
it that is not in conflict with it. -/
theorem C60_remote_partial (r : SyncReady env w) {p : Path} {n : Node} (hu : UserPath p)
    (hn : w.os.fs.get (env.rem ++ p) = some n) (hd : n.isDir = false)
    (hdel : ∀ d, GoneLocally env w d → ¬ d <+: p) :
    HasVersion env w (sync env w).2.os.fs env.rem p n ∨ HasVersion env w (sync env w).2.os.fs env.loc p n ∨
      ∃ f a, ChangedLocally env w f ∧ f <+: p ∧ w.os.fs.get (env.loc ++ p) = some a ∧
        ¬ (ChangedLocally env w p ∧ ChangedRemotely env w p ∧ a.mtime ≠ n.mtime) :=
  sync_keeps_remote r (sync_at r) hu hn hd hdel

/-- C60: if a file has been changed on both sides, at different times, both versions are in one of the
directories. -/
theorem C60_conflict_partial (r : SyncReady env w) {p : Path} {a b : Node} (ha : w.os.fs.get (env.loc ++ p) = some a)
    (hb : w.os.fs.get (env.rem ++ p) = some b) (hd : a.isDir = false) (hl : ChangedLocally env w p)
    (hr : ChangedRemotely env w p) (hm : a.mtime ≠ b.mtime) :
    (HasVersion env w (sync env w).2.os.fs env.loc p a ∨ HasVersion env w (sync env w).2.os.fs env.rem p a) ∧
    (HasVersion env w (sync env w).2.os.fs env.loc p b ∨ HasVersion env w (sync env w).2.os.fs env.rem p b) := by
  have hu := r.local_user hl.1 ha
  refine ⟨C60_changed_partial r hl ha hd ?_, ?_⟩
  · intro d h1 h2
    rw [gone_below r.wf h1.2 h2] at hb; cases hb
  · have hbd : b.isDir = false := by rw [← r.tidy.kind p hu.plain a b ha hb]; exact hd
    rcases C60_remote_partial r hu hb hbd (fun d h1 h2 => by
      rw [gone_below r.wf h1.2 h2] at ha; cases ha) with h | h | ⟨f, a', _, _, h, h'⟩
    · exact Or.inr h
    · exact Or.inl h
    · rw [ha] at h; cases h
      exact absurd ⟨hl, hr, hm⟩ h'

end

/-! ### Examples -/

/-- `c` has been changed on both sides of `exMixed`. Whenever the sync is interrupted, both versions are there. -/
example (fuel : Nat) :
    (HasVersion exEnvE (exMixed fuel) (sync exEnvE (exMixed fuel)).2.os.fs exEnvE.loc ["c".toList] (.file 11 44 1) ∨
      HasVersion exEnvE (exMixed fuel) (sync exEnvE (exMixed fuel)).2.os.fs exEnvE.rem ["c".toList] (.file 11 44 1)) ∧
    (HasVersion exEnvE (exMixed fuel) (sync exEnvE (exMixed fuel)).2.os.fs exEnvE.loc ["c".toList] (.file 12 46 1) ∨
      HasVersion exEnvE (exMixed fuel) (sync exEnvE (exMixed fuel)).2.os.fs exEnvE.rem ["c".toList] (.file 12 46 1)) := by
  have h1 : (exMixed fuel).os.fs.get (exEnvE.loc ++ ["c".toList]) = some (.file 11 44 1) := by
    rw [exMixed_fs]; decide +kernel
  have h2 : (exMixed fuel).os.fs.get (exEnvE.rem ++ ["c".toList]) = some (.file 12 46 1) := by
    rw [exMixed_fs]; decide +kernel
  refine C60_conflict_partial (exMixed_ready fuel) h1 h2 rfl ⟨by decide, _, h1, ?_, Or.inr ⟨?_, rfl, ?_⟩⟩
    (Or.inl ⟨by decide, _, h2, Or.inr ⟨rfl, ?_⟩⟩) (by decide)
  · rintro ⟨_, _, h, _⟩; cases h
  · exact show ["c".toList] ∈ ADB.paths (exMixed 0).db by decide +kernel
  · exact show (40 : Int) < 44 by decide
  · exact show (40 : Int) < 46 by decide

/-- The file `k`, which is new in the remote directory of `exMixed`, is still in one of the directories. -/
example (fuel : Nat) :
    HasVersion exEnvE (exMixed fuel) (sync exEnvE (exMixed fuel)).2.os.fs exEnvE.rem ["k".toList] (.file 18 45 1) ∨
    HasVersion exEnvE (exMixed fuel) (sync exEnvE (exMixed fuel)).2.os.fs exEnvE.loc ["k".toList] (.file 18 45 1) := by
  have h2 : (exMixed fuel).os.fs.get (exEnvE.rem ++ ["k".toList]) = some (.file 18 45 1) := by
    rw [exMixed_fs]; decide +kernel
  have h3 : ∀ d, GoneLocally exEnvE (exMixed fuel) d → ¬ d <+: ["k".toList] := by
    rintro d ⟨h1, _⟩ h3
    rcases prefix_singleton h3 with rfl | rfl
    · exact absurd (show [] ∈ ADB.paths (exMixed 0).db from h1) (by decide +kernel)
    · exact absurd (show ["k".toList] ∈ ADB.paths (exMixed 0).db from h1) (by decide +kernel)
  rcases C60_remote_partial (exMixed_ready fuel) (by decide) h2 rfl h3 with h | h | ⟨_, a, _, _, h, _⟩
  · exact Or.inl h
  · exact Or.inr h
  · rw [exMixed_fs, show (exMixed 0).os.fs.get (exEnvE.loc ++ ["k".toList]) = none by decide +kernel] at h
    cases h

/-! ### The claim in full is false -/

/-- `a` has been changed locally and deleted in the remote directory. -/
def exChangedDeleted : World := exWorld exEnvE
  [(["l".toList, "a".toList], .file 7 45 1), (["l".toList, "b".toList], .file 9 3 1),
    (["r".toList, "b".toList], .file 9 3 1)]
  [exRow ["a".toList] false 1 true, exRow ["b".toList] false 2 true]
  [exRRow ["a".toList] false, exRRow ["b".toList] false] 1000

/-- C60 fails: `a`, which has been changed since the last sync, is removed, and the sync ends with an exception. -/
theorem C60_deleted_fails :
    exChangedDeleted.last < 45 ∧ exChangedDeleted.os.fs.get ["l".toList, "a".toList] = some (.file 7 45 1) ∧
    (sync exEnvE exChangedDeleted).1 = .error .notFound ∧
    ∀ e ∈ (sync exEnvE exChangedDeleted).2.os.fs, e.2 ≠ .file 7 45 1 := by decide +kernel

/-- `a` has been changed on both sides in the same second. -/
def exSameTime : World := exWorld exEnvE
  [(["l".toList, "a".toList], .file 7 45 1), (["r".toList, "a".toList], .file 8 45 1)]
  [exRow ["a".toList] false 1 true] [exRRow ["a".toList] false] 1000

/-- C60 fails: the remote version is overwritten. -/
theorem C60_same_time_fails :
    exSameTime.last < 45 ∧ exSameTime.os.fs.get ["r".toList, "a".toList] = some (.file 8 45 1) ∧
    (sync exEnvE exSameTime).1 = .ok () ∧
    ∀ e ∈ (sync exEnvE exSameTime).2.os.fs, e.2 ≠ .file 8 45 1 := by decide +kernel

/-- The directory `d` is new on both sides. Both have a file `d/e`, which is excluded. The remote one is newer. -/
def exExcludedTwice : World := exWorld exEnvE
  [(["l".toList, "d".toList], .dir 45 8), (["l".toList, "d".toList, "e".toList], .file 7 45 1),
    (["r".toList, "d".toList], .dir 47 8), (["r".toList, "d".toList, "e".toList], .file 8 47 1)] [] [] 1000

/-- C60 fails: the newer remote version is overwritten by the excluded local one (and then removed). -/
theorem C60_excluded_fails :
    exExcludedTwice.os.fs.get ["r".toList, "d".toList, "e".toList] = some (.file 8 47 1) ∧
    (sync exEnvE exExcludedTwice).1 = .ok () ∧
    ∀ e ∈ (sync exEnvE exExcludedTwice).2.os.fs, e.2 ≠ .file 8 47 1 := by decide +kernel

end Verif
