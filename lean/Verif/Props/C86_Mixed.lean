import Verif.Props.C84_WholeInit
/-
C86: the files, when some runs of `init` are killed and others get a signal.
-/
namespace Verif
open Prog OSM Call FSTools WM Lifecycle

variable {env : Env} {prog : Str} {others : List Str} {o : InitOpts} {t : Str} {p : Path} {n : Node}

/-- No run is killed or gets a signal while it removes a profile it has refused, and the exit handlers are not interrupted
either. -/
def NotRefusingSig (env : Env) (prog : Str) (others : List Str) (o : InitOpts) :
    List (Option Nat × Nat × Nat) → LS World → Prop
  | [], _ => True
  | x :: xs, s => (x.1 = none ∨ ∃ k, x.1 = some k ∧ 5 ≤ k) ∧ ¬ KilledRefusing env prog others s x.2 ∧
      NotRefusingSig env prog others o xs (initOnce env prog others x.1 o x.2 s).2

section
variable (hxl : ¬ env.loc <+: env.excl) (hxr : ¬ env.rem <+: env.excl) (hu : UserPath p) (hg : GoodPath p)
  (hf : ∃ c m b, n = .file c m b)
include hxl hxr hu hg hf

theorem stage_sigRuns (hc : o.config = .ok t) (ha : o.addRemote = false) (ht : ValidConfig t)
    {xs : List (Option Nat × Nat × Nat)} {s : LS World} (hx : NotRefusingSig env prog others o xs s)
    (h : Stage env o t p n s) : Stage env o t p n (sigRuns env prog others o xs s) := by
  induction xs generalizing s with
  | nil => exact h
  | cons x xs ih =>
    refine ih hx.2.2 ((stage_run hxl hxr hu hg hf hc ha ht h ?_).1 hx.2.1)
    intro k hk
    rcases hx.1 with h1 | ⟨k', h1, h2⟩
    · rw [h1] at hk; cases hk
    · rw [h1] at hk; cases hk; exact h2

end

/-- C86: start with any local files and any remote directory, or none, and without a profile; run `init` any number of
times, and let each run end by itself, be killed, or get a signal, in any order and at any point except while it removes a
profile it has refused. At every point between the runs, every regular local file that is not excluded is at its local or its
remote path. -/
theorem C86_kept_partial {w : World} (h : NewReady env (w.restart 0)) (hxl : ¬ env.loc <+: env.excl)
    (hxr : ¬ env.rem <+: env.excl) (hc : o.config = .ok t) (ha : o.addRemote = false) (ht : ValidConfig t)
    {xs : List (Option Nat × Nat × Nat)} {k : Nat} (hx : NotRefusingSig env prog others o xs ⟨Prof.absent, k, w⟩)
    {c : Nat} {m : Int} {b : Nat} (hp : p ≠ [])
    (hn : w.os.fs.get (env.loc ++ p) = some (.file c m b)) (hex : ¬ OwnExcludes env w.os.fs p) :
    (sigRuns env prog others o xs ⟨Prof.absent, k, w⟩).rest.os.fs.get (env.loc ++ p) = some (.file c m b) ∨
    (sigRuns env prog others o xs ⟨Prof.absent, k, w⟩).rest.os.fs.get (env.rem ++ p) = some (.file c m b) := by
  have hg : GoodPath p := (goodPath_append.1 (h.wf.goodPath hn)).2
  have hs := stage_sigRuns (prog := prog) (others := others) hxl hxr (h.userPath hp hn) hg ⟨_, _, _, rfl⟩ hc ha ht hx
    (.new rfl rfl h hn hex)
  generalize sigRuns env prog others o xs ⟨Prof.absent, k, w⟩ = s at hs ⊢
  cases hs with
  | new _ _ _ h1 _ => exact Or.inl h1
  | begun _ _ h1 => exact h1.imp And.left And.left
  | ended _ h1 => exact h1.imp And.left And.left
  | broken _ h1 => exact h1.imp And.left And.left

/-- C86: and the first run that ends without an error leaves an initialised profile, and the file in the remote directory
with a link to it at its local path. -/
theorem C86_done_partial {w : World} (h : NewReady env (w.restart 0)) (hxl : ¬ env.loc <+: env.excl)
    (hxr : ¬ env.rem <+: env.excl) (hc : o.config = .ok t) (ha : o.addRemote = false) (ht : ValidConfig t)
    {xs : List (Option Nat × Nat × Nat)} {k : Nat} (hx : NotRefusingSig env prog others o xs ⟨Prof.absent, k, w⟩)
    {c : Nat} {m : Int} {b : Nat} (hp : p ≠ [])
    (hn : w.os.fs.get (env.loc ++ p) = some (.file c m b)) (hex : ¬ OwnExcludes env w.os.fs p) {x : Nat × Nat} {s' : LS World}
    (hr : initOnce env prog others none o x (sigRuns env prog others o xs ⟨Prof.absent, k, w⟩) =
      (.ok (), s')) :
    HasProfile s'.prof ⟨true, false, o.id⟩ t ∧ s'.rest.os.fs.get (env.rem ++ p) = some (.file c m b) ∧
      ∃ l m', s'.rest.os.fs.get (env.loc ++ p) = some (.link l m') ∧ FS.linkDest (env.loc ++ p) l = env.rem ++ p := by
  have hg : GoodPath p := (goodPath_append.1 (h.wf.goodPath hn)).2
  have hu := h.userPath hp hn
  have hs := stage_sigRuns (prog := prog) (others := others) hxl hxr hu hg ⟨_, _, _, rfl⟩ hc ha ht hx
    (.new rfl rfl h hn hex)
  have h1 := (stage_run (prog := prog) (others := others) hxl hxr hu hg ⟨_, _, _, rfl⟩ hc ha ht hs (x := x)
    (sg := none) (by intro k hk; cases hk)).2
  rw [hr] at h1
  exact h1 rfl

/-! ### Examples -/

/-- A signal while the config file is written, one in the check, a kill in the transfer, a signal while linking, and a run
that is left alone. -/
example :
    (sigRuns exEnvE "/home/p".toList ["/k".toList] exOpts [(some 5, 6, 0)] exFirst).prof = Prof.absent ∧
    (sigRuns exEnvE "/home/p".toList ["/k".toList] exOpts [(some 5, 6, 0), (some 5, 20, 0)] exFirst).prof = Prof.absent ∧
    (sigRuns exEnvE "/home/p".toList ["/k".toList] exOpts [(some 5, 6, 0), (some 5, 20, 0), (none, 20, 9), (some 5, 20, 14)] exFirst).prof.info =
      some (some ⟨false, false, 7⟩) ∧
    (sigRuns exEnvE "/home/p".toList ["/k".toList] exOpts [(some 5, 6, 0), (some 5, 20, 0), (none, 20, 9), (some 5, 20, 14)] exFirst).rest.os.fs.get
      ["r".toList, "a".toList] = some (.file 7 3 1) ∧
    (exOnce (20, 100)
      (sigRuns exEnvE "/home/p".toList ["/k".toList] exOpts [(some 5, 6, 0), (some 5, 20, 0), (none, 20, 9), (some 5, 20, 14)] exFirst)).1 = .ok () := by
  decide +kernel

/-- The hypotheses of `C86_kept_partial` for these runs. -/
theorem exSig_runs : NotRefusingSig exEnvE "/home/p".toList ["/k".toList] exOpts
    [(some 5, 6, 0), (some 5, 20, 0), (none, 20, 9), (some 5, 20, 14)] ⟨Prof.absent, 0, exNewFiles 0⟩ := by
  refine ⟨Or.inr ⟨5, rfl, by decide⟩, by decide +kernel, Or.inr ⟨5, rfl, by decide⟩, by decide +kernel, Or.inl rfl,
    by decide +kernel, Or.inr ⟨5, rfl, by decide⟩, by decide +kernel, trivial⟩

example :
    (sigRuns exEnvE "/home/p".toList ["/k".toList] exOpts [(some 5, 6, 0), (some 5, 20, 0), (none, 20, 9), (some 5, 20, 14)] exFirst).rest.os.fs.get
      ["l".toList, "a".toList] = some (.file 7 3 1) ∨
    (sigRuns exEnvE "/home/p".toList ["/k".toList] exOpts [(some 5, 6, 0), (some 5, 20, 0), (none, 20, 9), (some 5, 20, 14)] exFirst).rest.os.fs.get
      ["r".toList, "a".toList] = some (.file 7 3 1) := by
  unfold exFirst
  exact C86_kept_partial (env := exEnvE) (prog := "/home/p".toList) (others := ["/k".toList]) (o := exOpts) (t := exText)
    (p := ["a".toList]) (w := exNewFiles 0) (k := 0)
    (xs := [(some 5, 6, 0), (some 5, 20, 0), (none, 20, 9), (some 5, 20, 14)]) (c := 7) (m := 3) (b := 1)
    exNewFiles_ready' (by decide) (by decide) rfl rfl exText_valid exSig_runs (by decide) (by decide +kernel)
    exFirst_excludes

/-- The hypotheses of `C86_sound_partial` and `C86_absent`. -/
example : Sound exOpts exText (sigRun exActsE (some 5) exOpts 20 exFirst).2.prof :=
  C86_sound_partial (acts := exActsE) (o := exOpts) (t := exText) (k := 5) (s := exFirst) (fuel := 20) rfl exText_valid
    initActs_order (by decide) (Or.inl ⟨rfl, by decide, Or.inl (by decide)⟩)

example : (sigRun exActsE (some 5) exOpts 6 exFirst).2.prof = Prof.absent :=
  (C86_absent (acts := exActsE) (o := exOpts) (t := exText) (k := 5) (s := exFirst) (fuel := 6) rfl
    (fun r => ⟨(), r, rfl⟩) initActs_order (by decide) rfl (by decide)).2

/-- Nothing is removed when the same run is killed. -/
example : BrokenProfile (sigRun exActsE none exOpts 6 exFirst).2.prof := by
  rw [sigRun_none]
  exact (C66_killed_fails exActsE (o := exOpts) (t := exText) rfl (fun r => ⟨(), r, rfl⟩) (s := exFirst) rfl (fuel := 6)
    (by decide) (by decide)).2

/-- `C86_refused_fails` with the directories of `exBoth`; the next run overwrites the remote file, as in
`C84_unchecked_fails`. -/
theorem C86_unchecked_fails :
    let s := (initOnce exEnvE "/home/p".toList ["/k".toList] (some 100) exOpts (7, 100) exBoth).2
    (initOnce exEnvE "/home/p".toList ["/k".toList] (some 100) exOpts (20, 100) exBoth).1 = .error .input ∧
    s.prof.info = some (some ⟨false, false, 7⟩) ∧
    s.rest.os.fs.get ["r".toList, "a".toList] = some (.file 5 2 1) ∧
    (exOnce (20, 100) s).1 = .ok () ∧
    (exOnce (20, 100) s).2.rest.os.fs.all
      (fun e => match e.2 with | .file c _ _ => c != 5 | _ => true) = true := by
  decide +kernel

/-- `C86_empty_fails` with the directories of `exFirst`: everything has been moved, and no command can be used. -/
example :
    let s := (initOnce exEnvE "/home/p".toList ["/k".toList] (some 100) exOpts (8, 100) exFirst).2
    s.rest.os.fs.get ["r".toList, "a".toList] = some (.file 7 3 1) ∧ s.prof.info = some none ∧
    (exOnce (20, 100) s).1 = .error .json ∧
    (freshRun exActsE .use (20, 100) s).1 = .error .json ∧
    (freshRun exActsE .reset (20, 100) s).1 = .error .json := by
  decide +kernel

end Verif
