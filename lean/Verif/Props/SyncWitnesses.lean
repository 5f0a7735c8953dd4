import Verif.ExampleWorlds
/-
C24, C25, C31 and C32 as stated are false: worlds in which a sync breaks them.
-/
namespace Verif

/-- C24 fails: `d` has been deleted in the remote directory, and the excluded local file `d/e` is deleted
with it. -/
theorem C24_fails :
    (sync exEnvE exExcludedBelow).1 = .ok () ∧
    exExcludedBelow.os.fs.get ["l".toList, "d".toList, "e".toList] = some (.file 7 3 1) ∧
    (sync exEnvE exExcludedBelow).2.os.fs.get ["l".toList, "d".toList, "e".toList] = none := by decide +kernel

/-- C25 fails: the excluded file `d/e` in the new directory `d` is uploaded with it. -/
theorem C25_fails :
    (sync exEnvE exNewDir).1 = .ok () ∧
    exNewDir.os.fs.get ["l".toList, "d".toList, "e".toList] = some (.file 7 45 1) ∧
    exNewDir.os.fs.get ["r".toList, "d".toList, "e".toList] = none ∧
    (sync exEnvE exNewDir).2.os.fs.get ["r".toList, "d".toList, "e".toList] = some (.file 7 45 1) := by
  decide +kernel

/-- C31 fails: the copy of the changed `a` is written through the remote link `a` into the remote `b`. -/
theorem C31_remote_link_fails :
    (sync exEnvE exRemoteLink).1 = .ok () ∧
    exRemoteLink.os.fs.get ["r".toList, "b".toList] = some (.file 9 3 1) ∧
    (sync exEnvE exRemoteLink).2.os.fs.get ["r".toList, "b".toList] = some (.file 7 45 1) := by decide +kernel

/-- C31 fails: the local `a` has been replaced by a link to the remote `b`. The link is not uploaded; the
download of `a` is written through it into the remote `b`. -/
theorem C31_local_link_fails :
    (sync exEnvE exLocalLink).1 = .ok () ∧
    exLocalLink.os.fs.get ["r".toList, "b".toList] = some (.file 9 3 1) ∧
    (sync exEnvE exLocalLink).2.os.fs.get ["r".toList, "b".toList] = some (.file 7 3 1) := by decide +kernel

/-- The settings of `exTwoFiles`. -/
def exEnvSmall : Env := { exEnvE with storageLimit := 512 }

/-- C32 fails: there is no room for `a`, so it is replaced by a link; a sync killed between the removal of
the local `a` and the creation of the link leaves `a` missing locally while the database says that it is
there. The next sync takes this for a deletion by the user and removes the remote `a`. No file has the
content of `a` any more. -/
theorem C32_fails :
    exEnvSmall.useTrash = true ∧
    (exTwoFiles 5).os.fs.get ["l".toList, "a".toList] = some (.file 7 3 1) ∧
    (exTwoFiles 5).os.fs.get ["r".toList, "a".toList] = some (.file 7 3 1) ∧
    (sync exEnvSmall (exTwoFiles 5)).1 = .error .killed ∧
    (sync exEnvSmall ((sync exEnvSmall (exTwoFiles 5)).2.restart 1000)).1 = .ok () ∧
    (∀ e ∈ (sync exEnvSmall ((sync exEnvSmall (exTwoFiles 5)).2.restart 1000)).2.os.fs,
      ∀ m b, e.2 ≠ .file 7 m b) := by
  refine ⟨by decide +kernel, by decide +kernel, by decide +kernel, by decide +kernel, by decide +kernel, ?_⟩
  have h : (sync exEnvSmall ((sync exEnvSmall (exTwoFiles 5)).2.restart 1000)).2.os.fs.all
      (fun e => match e.2 with | .file c _ _ => c != 7 | _ => true) = true := by decide +kernel
  intro e he m b hc
  have := List.all_eq_true.1 h e he
  rw [hc] at this
  simp at this

end Verif
