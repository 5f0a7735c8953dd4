import Verif.Saved
import Verif.Props.SyncEffects
import Verif.Props.C32_Copy
/-
C32: what an interrupted sync cannot do. A remote file is safe as long as no interrupted sync has left the local path
without an entry or with a half-written one.
-/
namespace Verif
open Prog OSM Call FSTools WM

/-- The local entry is a link out of the local directory (which zielen ignores) or is not newer than the last sync. -/
def LeftAlone (env : Env) (w : World) (p : Path) : Prop :=
  ∃ a, w.os.fs.get (env.loc ++ p) = some a ∧ a.isDir = false ∧ (UnsafeLink env.loc p a ∨ a.mtime ≤ w.last)

/-- Any number of syncs that do not succeed, whatever the reason, one after the other. What is assumed of the state that
each leaves: it is as in `SyncReady`, and the sync did not end while it was replacing the local `p`. -/
inductive Attempts (env : Env) (p : Path) : World → World → Prop
  | none (w : World) : Attempts env p w w
  | more {w w' : World} (f : Nat) (failed : (sync env w).1 ≠ .ok ())
      (ready : SyncReady env ((sync env w).2.restart f)) (left : LeftAlone env ((sync env w).2.restart f) p)
      (rest : Attempts env p ((sync env w).2.restart f) w') : Attempts env p w w'

/-- The start of a sync: what is saved is what is in memory, and no time is in the future. -/
structure Fresh (w : World) : Prop where
  db : w.dbSaved = w.db
  rdb : w.rdbSaved = w.rdb
  last : w.lastSaved = w.last
  aged : AgedW w.os.clk w.os.tick w
  past : w.last ≤ w.os.clk w.os.tick

section
variable {env : Env} {w : World} {p : Path}

/-- A sync does not change the remote file. -/
theorem LeftAlone.sync (r : SyncReady env w) (hp : UserPath p) {n : Node}
    (hn : w.os.fs.get (env.rem ++ p) = some n) (hd : n.isDir = false)
    (known : ∀ f, f <+: p → f ≠ [] → f ∈ ADB.paths w.db) (left : LeftAlone env w p)
    (excluded : ∀ e, e <+: p → ¬ OwnExcludes env w.os.fs e) :
    (Verif.sync env w).2.os.fs.get (env.rem ++ p) = some n := by
  obtain ⟨a, ha, had, hal⟩ := left
  have dir : ∀ f, f <+: p → f ≠ p → w.os.fs.isDir (env.loc ++ f) = true := fun f hf hne =>
    r.wf.isDir_prefix ha _ ((List.prefix_append_right_inj _).2 hf) (fun h => hne (List.append_cancel_left h))
  refine C31_partial r hp hn hd ?_ ?_ excluded
  · intro d hdp _ h
    by_cases he : d = p
    · subst he; rw [ha] at h; cases h
    · obtain ⟨_, _, h'⟩ := FS.isDir_iff.1 (dir d hdp he)
      rw [h] at h'; cases h'
  · rintro f hf ⟨h0, x, h1, h2, ⟨h3, _⟩ | ⟨_, h3, h4⟩⟩
    · exact h3 (known f hf h0)
    · by_cases he : f = p
      · subst he
        rw [ha] at h1; cases h1
        rcases hal with h | h
        · exact h2 h
        · omega
      · have := dir f hf he
        obtain ⟨_, _, h'⟩ := FS.isDir_iff.1 this
        rw [h1] at h'; cases h'; simp [Node.isDir] at h3

/-- The next sync starts as this one did. -/
theorem Fresh.failed (h : Fresh w) (f : Nat) (hf : (sync env w).1 ≠ .ok ()) :
    Fresh ((sync env w).2.restart f) ∧ (sync env w).2.dbSaved = w.db ∧ w.last ≤ (sync env w).2.lastSaved := by
  have h1 := wp_and (unfinished_sync env h.aged) (TimelyW.sync env w _ _ h.aged)
  unfold wp at h1
  generalize sync env w = x at hf h1 ⊢
  obtain ⟨x, w'⟩ := x
  cases x with
  | ok a => exact absurd rfl hf
  | error e =>
    obtain ⟨⟨u1, u2, u3⟩, ⟨hc, hm, hk, hfs⟩, hr⟩ := h1
    have hlast : w.last ≤ w'.lastSaved ∧ w'.lastSaved ≤ w.os.clk w'.os.tick := by
      rcases u2 with u2 | ⟨k, k1, k2, u2⟩
      · rw [u2, h.last]
        exact ⟨Int.le_refl _, Int.le_trans h.past (hm _ _ hk)⟩
      · rw [u2]
        exact ⟨Int.le_trans h.past (hm _ _ k1), hm _ _ k2⟩
    refine ⟨⟨rfl, rfl, rfl, ⟨⟨rfl, ?_, Nat.le_refl _, ?_⟩, ?_⟩, ?_⟩, u1.trans h.db, hlast.1⟩
    · show ∀ i j, i ≤ j → w'.os.clk i ≤ w'.os.clk j
      rw [hc]; exact hm
    · show ∀ e ∈ w'.os.fs, _ ≤ w'.os.clk w'.os.tick
      rw [hc]; exact hfs
    · show ∀ e ∈ w'.rdbSaved, e.data ≤ w'.os.clk w'.os.tick
      rw [hc]
      rcases u3 with u3 | u3
      · rw [u3, h.rdb]
        exact fun e he => Int.le_trans (h.aged.2 e he) (hm _ _ hk)
      · exact u3
    · show w'.lastSaved ≤ w'.os.clk w'.os.tick
      rw [hc]; exact hlast.2

/-- C32: after any number of interrupted syncs and a last one (which may be interrupted as well), a remote file that
the profile knows and that was not deleted, changed or excluded locally still has its content, unless one of the
interrupted syncs has left the local path without an entry or with an entry newer than the last sync. What is missing
in comparison with C32: exactly these two cases, in which the file can be lost (`C32_fails` and `C32_idle_fails`); and
that the states are as in `SyncReady`. -/
theorem C32_partial {w' : World} (h : Attempts env p w w') (r : SyncReady env w) (fresh : Fresh w)
    (hx : ¬ env.loc <+: env.excl) (hx' : ¬ env.rem <+: env.excl) (hp : UserPath p) {n : Node}
    (hn : w.os.fs.get (env.rem ++ p) = some n) (hd : n.isDir = false)
    (known : ∀ f, f <+: p → f ≠ [] → f ∈ ADB.paths w.db) (left : LeftAlone env w p)
    (excluded : ∀ e, e <+: p → ¬ OwnExcludes env w.os.fs e) :
    (sync env w').2.os.fs.get (env.rem ++ p) = some n := by
  induction h with
  | none w => exact LeftAlone.sync r hp hn hd known left excluded
  | @more w w' f failed ready left2 rest ih =>
    obtain ⟨f1, f2, f3⟩ := fresh.failed f failed
    obtain ⟨k, m, b, hex⟩ := r.excl
    refine ih ready f1 (LeftAlone.sync r hp hn hd known left excluded) ?_ left2 ?_
    · intro d h1 h2
      show d ∈ ADB.paths (sync env w).2.dbSaved
      rw [f2]
      exact known d h1 h2
    · rintro e he ⟨q, k', m', b', h1, h2, _, x, h4, h5, h6⟩
      have hex2 := (C56_outside_partial r hx hx').2 _ hex rfl
      have wf2 : (sync env w).2.os.fs.WF := ready.wf
      have h1 : (sync env w).2.os.fs.stat env.excl = .ok (q, .file k' m' b') := h1
      rw [stat_file wf2 hex2] at h1
      cases h1
      obtain ⟨a, ha, _⟩ := left
      refine excluded e he ⟨_, k, m, b, stat_file r.wf hex, h2, ?_, x, h4, h5, h6⟩
      by_cases hne : e = p
      · subst hne; exact ⟨a, ha⟩
      · obtain ⟨x1, x2, h'⟩ := FS.isDir_iff.1 (r.wf.isDir_prefix ha (env.loc ++ e) ((List.prefix_append_right_inj _).2 he)
          (fun h => hne (List.append_cancel_left h)))
        exact ⟨_, h'⟩

end

theorem exSettled_fresh (fuel : Nat) : Fresh (exSettled fuel) := by
  refine ⟨rfl, rfl, rfl, ⟨⟨rfl, ?_, Nat.le_refl _, ?_⟩, ?_⟩, ?_⟩
  · intro i j h
    show (i : Int) + 50 ≤ j + 50
    omega
  · show ∀ e ∈ (exSettled 0).os.fs, e.2.mtime ≤ (exSettled 0).os.clk 0
    decide +kernel
  · show ∀ e ∈ (exSettled 0).rdb, e.data ≤ (exSettled 0).os.clk 0
    decide +kernel
  · show (40 : Int) ≤ (0 : Nat) + 50
    decide

theorem readyB_restart (env : Env) (w : World) (f f' : Nat) : readyB env (w.restart f) = readyB env (w.restart f') := rfl

theorem leftAlone_restart {env : Env} {w : World} {p : Path} {a : Node} (f : Nat) {q : Path} (hq : env.loc ++ p = q)
    (h : w.os.fs.get q = some a) (hd : a.isDir = false) (hm : a.mtime ≤ w.lastSaved) :
    LeftAlone env (w.restart f) p := ⟨a, by rw [hq]; exact h, hd, Or.inr hm⟩

/-- Two interrupted syncs, the first of which leaves an empty local `b`, do no harm to the remote `a`. -/
example (fuel : Nat) : (sync exEnvE ((sync exEnvE ((sync exEnvE (exSettled 9)).2.restart 12)).2.restart fuel)).2.os.fs.get
    ["r".toList, "a".toList] = some (.file 7 3 1) := by
  have stamp : ∀ k, GoodStamp (exEnvE.stamp k) := by
    intro k; show GoodStamp "19700101-000000".toList; decide +kernel
  have ap : Apart exEnvE.loc exEnvE.rem := by unfold Apart; decide +kernel
  have e0 : readyB exEnvE (exSettled 9) = true ∧ (exSettled 9).os.fs.stat exEnvE.excl = .ok (["x".toList], .file 1 1 1) ∧
      (sync exEnvE (exSettled 9)).1 = .error .killed ∧ (sync exEnvE (exSettled 9)).2.lastSaved = 40 ∧
      readyB exEnvE ((sync exEnvE (exSettled 9)).2.restart 12) = true ∧
      (sync exEnvE (exSettled 9)).2.os.fs.get ["l".toList, "a".toList] = some (.file 7 3 1) := by decide +kernel
  obtain ⟨e1, e2, e3, e4, e5, e6⟩ := e0
  have d0 : (sync exEnvE ((sync exEnvE (exSettled 9)).2.restart 12)).1 = .error .killed ∧
      (sync exEnvE ((sync exEnvE (exSettled 9)).2.restart 12)).2.lastSaved = 40 ∧
      readyB exEnvE ((sync exEnvE ((sync exEnvE (exSettled 9)).2.restart 12)).2.restart 0) = true ∧
      (sync exEnvE ((sync exEnvE (exSettled 9)).2.restart 12)).2.os.fs.get ["l".toList, "a".toList] =
        some (.file 7 3 1) := by decide +kernel
  obtain ⟨d1, d2, d3, d4⟩ := d0
  refine C32_partial (p := ["a".toList]) (n := .file 7 3 1) (.more 12 ?_ ?_ ?_ (.more fuel ?_ ?_ ?_ (.none _)))
    (syncReady_of_readyB e1 (fun _ => List.Perm.refl _) ap (fun k => stamp _) rfl) (exSettled_fresh 9)
    (by decide) (by decide) (by decide) (by decide +kernel) rfl ?_ ?_ ?_
  · rw [e3]; simp
  · exact syncReady_of_readyB e5 (fun _ => List.Perm.refl _) ap (fun k => stamp _) rfl
  · exact leftAlone_restart 12 rfl e6 rfl (by rw [e4]; decide)
  · rw [d1]; simp
  · exact syncReady_of_readyB ((readyB_restart _ _ _ 0).trans d3) (fun _ => List.Perm.refl _) ap (fun k => stamp _) rfl
  · exact leftAlone_restart fuel rfl d4 rfl (by rw [d2]; decide)
  · intro f hf h0
    rcases prefix_singleton hf with rfl | rfl
    · exact absurd rfl h0
    · decide +kernel
  · exact ⟨.file 7 3 1, by decide +kernel, rfl, Or.inr (by decide)⟩
  · rintro e he ⟨q, k, m, b, h1, h2, _, x, h3, h4, g, h5, h6⟩
    rw [e2] at h1
    cases h1
    rcases prefix_singleton (h4.trans he) with rfl | rfl
    · exact h3 rfl
    · rw [show exEnvE.patsOf 1 = [fun p => decide (p.getLastD [] = "e".toList)] from rfl, List.mem_singleton] at h5
      subst h5
      exact absurd h6 (by decide)

end Verif
