import Verif.ExampleWorlds
import Verif.FSLemmas
/-
C71: a sync of a profile that is in order ends without an exception, unless the process is killed.

The claim in full is false. This file has the case of a conflict in which the local version is the older one: that
version is renamed (zielen/filelogic.py:501-551), but `compute_stale` works on the list of local files that was made
before (zielen/userdata.py:47-106), and the loop over the stale files does not expect that a file is missing
(zielen/filelogic.py:368-390). The exception is raised before the databases are saved. The next sync takes the file
that was renamed for one that the user has deleted.
-/
namespace Verif
open Prog OSM

/-- There is no room for local files. -/
def exEnvFull : Env := { exEnvE with storageLimit := 0 }

/-- `a` has been changed on both sides; the remote version is newer. -/
def exOlder : World := exWorld exEnvFull
  [(["l".toList, "a".toList], .file 7 45 1), (["r".toList, "a".toList], .file 8 46 1)]
  [exRow ["a".toList] false 1 true] [exRRow ["a".toList] false] 1000

/-- C71 fails: the sync raises `FileNotFoundError`. Both versions are still there, but the databases are not saved. -/
theorem C71_conflict_fails :
    (sync exEnvFull exOlder).1 = .error .notFound ∧
    (sync exEnvFull exOlder).2.os.fs.get ["r".toList, "a".toList] = some (.file 8 46 1) ∧
    (sync exEnvFull exOlder).2.lastSaved = exOlder.lastSaved := by decide +kernel

/-- C71 fails: if the user starts the program again, it deletes the newer version, which was never in conflict with
anything the user has done since. -/
theorem C71_retry_fails :
    (∃ p, (sync exEnvFull exOlder).2.os.fs.get p = some (.file 8 46 1)) ∧
    (sync exEnvFull ((sync exEnvFull exOlder).2.restart 1000)).1 = .error .key ∧
    ∀ p m b, (sync exEnvFull ((sync exEnvFull exOlder).2.restart 1000)).2.os.fs.get p ≠ some (.file 8 m b) := by
  refine ⟨⟨["r".toList, "a".toList], by decide +kernel⟩, by decide +kernel, ?_⟩
  have h : ((sync exEnvFull ((sync exEnvFull exOlder).2.restart 1000)).2.os.fs.all fun e =>
      match e.2 with | .file c _ _ => decide (c ≠ 8) | _ => true) = true := by decide +kernel
  intro p m b hp
  by_cases h0 : p = []
  · subst h0; rw [FS.get_nil] at hp; cases hp
  · have := List.all_eq_true.1 h _ (FS.mem_of_get h0 hp)
    simp at this

/-- `a` has been deleted locally, and another client has changed it. -/
def exDeletedHere : World := exWorld exEnvE [(["r".toList, "a".toList], .file 8 3 1)]
  [exRow ["a".toList] false 1 true] [⟨["a".toList], false, 45⟩] 1000

/-- C71 fails: the file is removed from the remote directory and from the databases, but it is added to them again
because it counts as modified, and then it is not found. All later syncs fail in the same way; here is the second. -/
theorem C71_modified_fails :
    (sync exEnvE exDeletedHere).1 = .error .key ∧
    (sync exEnvE exDeletedHere).2.os.fs.get ["r".toList, "a".toList] = none ∧
    (sync exEnvE ((sync exEnvE exDeletedHere).2.restart 1000)).1 = .error .key := by decide +kernel

/-- `e`, which this client excludes, was known, and another client has deleted it. -/
def exExcludedGone : World := exWorld exEnvE [(["l".toList, "e".toList], .file 8 3 1)]
  [exRow ["e".toList] false 1 true] [] 1000

/-- C71 fails: excluded files are not removed, and stay in the database; then the file is not found. This sync and
the next one raise `KeyError`. -/
theorem C71_excluded_fails :
    (sync exEnvE exExcludedGone).1 = .error .key ∧
    (sync exEnvE ((sync exEnvE exExcludedGone).2.restart 1000)).1 = .error .key := by decide +kernel

end Verif
