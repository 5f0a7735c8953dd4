import Verif.SyncSteps
import Verif.ExampleSync
import Verif.ExampleWorlds
/-
C57 and C58: syncs when one of the two directories is not there, for example because it is not mounted.
-/
namespace Verif
open Prog OSM Call FSTools WM

/-- The local directory is missing; `a` and `d/b` are in the remote directory, and the profile knows that they were
in the local directory. -/
def exNoLocal : World :=
  { exWorld exEnvE [] [exRow ["a".toList] false 1 true, exRow ["d".toList] true 1 true,
      exRow ["d".toList, "b".toList] false 1 true]
    [exRRow ["a".toList] false, exRRow ["d".toList] true, exRRow ["d".toList, "b".toList] false] 1000 with
    os := ⟨[(["x".toList], .file 1 1 1), (["r".toList], .dir 1 8), (exEnvE.util, .dir 1 8), (exEnvE.trash, .dir 1 8),
      (exEnvE.exclDir, .dir 1 8), (["r".toList, "a".toList], .file 7 3 1), (["r".toList, "d".toList], .dir 3 8),
      (["r".toList, "d".toList, "b".toList], .file 9 3 1)], 1000, 0, fun n => n + 50⟩ }

/-- C57 is false: a sync that does not find the local directory makes it and takes everything for deleted by the
user. Everything in the remote directory is removed. -/
theorem C57_fails :
    exNoLocal.os.fs.get ["l".toList] = none ∧
    exNoLocal.os.fs.get ["r".toList, "a".toList] = some (.file 7 3 1) ∧
    exNoLocal.os.fs.get ["r".toList, "d".toList, "b".toList] = some (.file 9 3 1) ∧
    (sync exEnvE exNoLocal).1 = .ok () ∧
    (sync exEnvE exNoLocal).2.os.fs.get ["r".toList, "a".toList] = none ∧
    (sync exEnvE exNoLocal).2.os.fs.get ["r".toList, "d".toList] = none ∧
    (∀ e ∈ (sync exEnvE exNoLocal).2.os.fs, ∀ m b, e.2 ≠ .file 7 m b ∧ e.2 ≠ .file 9 m b) := by
  refine ⟨by decide +kernel, by decide +kernel, by decide +kernel, by decide +kernel, by decide +kernel,
    by decide +kernel, ?_⟩
  have h : (sync exEnvE exNoLocal).2.os.fs.all
      (fun e => match e.2 with | .file c _ _ => c != 7 && c != 9 | _ => true) = true := by decide +kernel
  intro e he m b
  have := List.all_eq_true.1 h e he
  constructor <;> (intro hc; rw [hc] at this; simp at this)

section
variable {env : Env} {w : World}

/-- C58: a sync that does not find the remote directory fails, and no file has changed. -/
theorem C58_no_remote (wf : w.os.fs.WF) (hid : GoodName env.id) (hrem : GoodPath env.rem)
    (hl : w.os.fs.isDir env.loc = true) (hno : w.os.fs.isDir env.rem = false) :
    (∃ e, (sync env w).1 = .error e) ∧ ∀ q, (sync env w).2.os.fs.get q = w.os.fs.get q := by
  have hg : GoodPath (env.exclDir ++ [env.id]) := by
    unfold Env.exclDir Env.util
    rw [goodPath_append, goodPath_append, goodPath_append]
    refine ⟨⟨⟨hrem, by decide⟩, by decide⟩, ?_⟩
    intro x hx
    simp at hx; subst hx
    exact hid
  have hpre : env.rem <+: env.exclDir ++ [env.id] := by
    unfold Env.exclDir Env.util
    rw [List.append_assoc, List.append_assoc]
    exact List.prefix_append _ _
  have hne : env.rem ≠ env.exclDir ++ [env.id] := by unfold Env.exclDir Env.util; simp
  have noslot : ∀ fs : FS, fs.WF → OnlyAt (env.exclDir ++ [env.id]) w.os.fs fs →
      fs.get (env.exclDir ++ [env.id]) = none := by
    intro fs wf' ho
    refine wf'.none_below ?_ hpre hne
    rw [FS.isDir_congr (ho _ hne)]; exact hno
  have same : ∀ fs : FS, fs.WF → OnlyAt (env.exclDir ++ [env.id]) w.os.fs fs → ∀ q, fs.get q = w.os.fs.get q := by
    intro fs wf' ho q
    by_cases he : q = env.exclDir ++ [env.id]
    · rw [he, noslot fs wf' ho, noslot w.os.fs wf (fun _ _ => rfl)]
    · exact ho q he
  have key : wp (sync env) (fun _ _ => False) (fun _ w' => ∀ q, w'.os.fs.get q = w.os.fs.get q) w := by
    unfold sync
    rw [wp_bind]
    unfold syncScan
    rw [wp_bind, wp_sys]
    obtain ⟨m, b, hd⟩ := FS.isDir_iff.1 hl
    refine wp_mono (wp_makedirs_dir wf hd) ?_ (fun _ s' h => ?_)
    swap
    · rw [h.1]; intro q; rfl
    intro _ s' hs
    rw [wp_bind, wp_sys]
    dsimp only
    refine wp_mono (wp_addExcludeFile (by rw [hs]; exact wf) hg (by
      intro n hn
      rw [hs, noslot w.os.fs wf (fun _ _ => rfl)] at hn
      cases hn)) ?_ ?_
    · rintro _ s'' ⟨h1, h2, q, k, m, b, now, _, h3⟩
      rw [hs] at h1
      rw [noslot s''.fs h2 h1] at h3
      cases h3
    · rintro e s'' ⟨h1, h2, _⟩
      rw [hs] at h1
      exact same s''.fs h2 h1
  refine ⟨?_, wp_state (I := fun w' : World => ∀ q, w'.os.fs.get q = w.os.fs.get q) (wp_mono key (fun _ _ h => h.elim)
    (fun _ _ h => h))⟩
  cases hres : sync env w with
  | mk r w' =>
    cases r with
    | ok a => exact (wp_ok key hres).elim
    | error e => exact ⟨e, rfl⟩

end

/-- The remote directory is missing. -/
def exNoRemote : World :=
  { exWorld exEnvE [] [exRow ["a".toList] false 1 true] [exRRow ["a".toList] false] 1000 with
    os := ⟨[(["x".toList], .file 1 1 1), (["l".toList], .dir 1 8), (["l".toList, "a".toList], .file 7 3 1)], 1000, 0,
      fun n => n + 50⟩ }

example : (∃ e, (sync exEnvE exNoRemote).1 = .error e) ∧
    ∀ q, (sync exEnvE exNoRemote).2.os.fs.get q = exNoRemote.os.fs.get q :=
  C58_no_remote ⟨by decide +kernel, by decide +kernel, by decide +kernel, by decide +kernel⟩ (by decide +kernel)
    (by decide +kernel) (by decide +kernel) (by decide +kernel)

example : (sync exEnvE exNoRemote).1 = .error .remote := by decide +kernel

end Verif
