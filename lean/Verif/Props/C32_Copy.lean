import Verif.ExampleWorlds
/-
C32: a sync copies every file that is kept locally again, also if nothing has changed (zielen/filelogic.py:398-401),
and empties the local file first. Killed then, it leaves an empty file that is newer than the last sync.
-/
namespace Verif
open Prog OSM

/-- Two files that are the same on both sides and known to both databases. -/
def exSettled (fuel : Nat) : World := exWorld exEnvE
  [(["l".toList, "a".toList], .file 7 3 1), (["r".toList, "a".toList], .file 7 3 1),
    (["l".toList, "b".toList], .file 9 3 1), (["r".toList, "b".toList], .file 9 3 1)]
  [exRow ["a".toList] false 1 true, exRow ["b".toList] false 2 true]
  [exRRow ["a".toList] false, exRRow ["b".toList] false] fuel

/-- C32 fails although nothing was to be synced: both sides have the same files, as they were at the last sync. The
sync is killed while it copies `b`, of which the local directory already has a good copy. The next sync takes the
emptied file for a change by the user and copies it over the remote `b`. No file has the content of `b` any more. -/
theorem C32_idle_fails :
    (exSettled 9).os.fs.get ["l".toList, "b".toList] = some (.file 9 3 1) ∧
    (exSettled 9).os.fs.get ["r".toList, "b".toList] = some (.file 9 3 1) ∧ (3 : Int) < (exSettled 9).lastSaved ∧
    (sync exEnvE (exSettled 9)).1 = .error .killed ∧
    (sync exEnvE ((sync exEnvE (exSettled 9)).2.restart 1000)).1 = .ok () ∧
    (∀ e ∈ (sync exEnvE ((sync exEnvE (exSettled 9)).2.restart 1000)).2.os.fs, ∀ m b, e.2 ≠ .file 9 m b) := by
  have h : (exSettled 9).os.fs.get ["l".toList, "b".toList] = some (.file 9 3 1) ∧
      (exSettled 9).os.fs.get ["r".toList, "b".toList] = some (.file 9 3 1) ∧ (3 : Int) < (exSettled 9).lastSaved ∧
      (sync exEnvE (exSettled 9)).1 = .error .killed ∧
      (sync exEnvE ((sync exEnvE (exSettled 9)).2.restart 1000)).1 = .ok () ∧
      (sync exEnvE ((sync exEnvE (exSettled 9)).2.restart 1000)).2.os.fs.all
        (fun e => match e.2 with | .file c _ _ => c != 9 | _ => true) = true := by decide +kernel
  obtain ⟨h1, h2, h3, h4, h5, h6⟩ := h
  refine ⟨h1, h2, h3, h4, h5, ?_⟩
  intro e he m b hc
  have := List.all_eq_true.1 h6 e he
  rw [hc] at this
  simp at this

end Verif
