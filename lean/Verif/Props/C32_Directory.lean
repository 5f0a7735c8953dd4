import Verif.Props.SyncWitnesses
/-
C32: a sync that is killed while it makes links for a new directory.
-/
namespace Verif
open Prog OSM Call FSTools WM

/-- The remote directory has a new directory `d` with a file; there is no room for it. -/
def exRemoteDir (fuel : Nat) : World := exWorld exEnvSmall
  [(["r".toList, "d".toList], .dir 36 8), (["r".toList, "d".toList, "a".toList], .file 8 36 1)] [] [] fuel

/-- C32 fails: another client has added the directory `d` with the file `d/a`. A sync killed after it has made the
local directory `d` and the link `d/a`, and before it has saved the databases, leaves a local directory that the
profile does not know. The next sync uploads it with all its contents (zielen/fstools.py:63-105); the link `d/a` is the
same file as the remote `d/a`, which is removed and replaced by the link, so that it points to itself. No file has the
content of `d/a` any more, and the sync fails because it cannot follow that link (OSError, ELOOP). -/
theorem C32_directory_fails :
    (exRemoteDir 7).os.fs.get ["r".toList, "d".toList, "a".toList] = some (.file 8 36 1) ∧
    (sync exEnvSmall (exRemoteDir 7)).1 = .error .killed ∧
    (sync exEnvSmall ((sync exEnvSmall (exRemoteDir 7)).2.restart 1000)).1 = .error .loop ∧
    (sync exEnvSmall ((sync exEnvSmall (exRemoteDir 7)).2.restart 1000)).2.os.fs.get
      ["r".toList, "d".toList, "a".toList] = some (.link "/r/d/a".toList 56) ∧
    (∀ e ∈ (sync exEnvSmall ((sync exEnvSmall (exRemoteDir 7)).2.restart 1000)).2.os.fs,
      ∀ m b, e.2 ≠ .file 8 m b) := by
  have h : (let a := sync exEnvSmall (exRemoteDir 7)
      let b := sync exEnvSmall (a.2.restart 1000)
      decide (a.1 = .error .killed) && decide (b.1 = .error .loop) &&
      decide (b.2.os.fs.get ["r".toList, "d".toList, "a".toList] = some (.link "/r/d/a".toList 56)) &&
      b.2.os.fs.all (fun e => match e.2 with | .file c _ _ => c != 8 | _ => true)) = true := by decide +kernel
  simp only [Bool.and_eq_true, decide_eq_true_eq] at h
  obtain ⟨⟨⟨h1, h2⟩, h3⟩, h4⟩ := h
  refine ⟨by decide +kernel, h1, h2, h3, ?_⟩
  intro e he m b hc
  have := List.all_eq_true.1 h4 e he
  rw [hc] at this
  simp at this

end Verif
