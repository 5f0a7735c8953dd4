import Verif.Ends
import Verif.Props.C71_Progress
import Verif.Props.C97_InitSucceeds
/-
C98: every command ends. For every state there is a number of changes after which the command is at its end, with a
result or an exception; it is killed exactly if the process is ended before it has made that many. With C71 and C97: a
command that is left alone long enough succeeds.
-/
namespace Verif
open Prog OSM Call FSTools WM

/-- The state, with another limit on the number of changes. -/
def World.upTo (w : World) (k : Nat) : World := { w with os := { w.os with fuel := k } }

/-- The command, run with every limit on the number of changes, makes `n` changes: it is killed exactly if the limit is
lower, and otherwise the result, the files and what is saved do not depend on the limit. -/
def EndsAfter {α : Type} (m : Nat → Except Err α × World) (n : Nat) : Prop :=
  (∀ k, (m k).1 = .error .killed ↔ k < n) ∧
  ∀ j k, n ≤ j → n ≤ k → (m j).1 = (m k).1 ∧ (m j).2.os.fs = (m k).2.os.fs ∧ (m j).2.dbSaved = (m k).2.dbSaved ∧
    (m j).2.rdbSaved = (m k).2.rdbSaved ∧ (m j).2.lastSaved = (m k).2.lastSaved ∧ (m j).2.os.fuel + n = j

theorem Ends.after {α : Type} {m : WM α} (h : Ends m) (w : World) : ∃ n, EndsAfter (fun k => m (w.upTo k)) n := by
  obtain ⟨n, r, s', h1, h2, h3⟩ := h w
  have hn : ∀ k, n ≤ k → m (w.upTo k) = (r, setFuel (k - n) s') := by
    intro k hk
    have := h2 (k - n)
    rw [Nat.add_sub_cancel' hk] at this
    exact this
  refine ⟨n, fun k => ⟨fun hk => ?_, fun hk => h3 k hk⟩, fun j k hj hk => ?_⟩
  · by_cases hlt : k < n
    · exact hlt
    · have hk : (m (w.upTo k)).1 = .error .killed := hk
      rw [hn k (by omega)] at hk
      exact absurd hk h1
  · dsimp only
    rw [hn j hj, hn k hk]
    refine ⟨rfl, rfl, rfl, rfl, rfl, ?_⟩
    show j - n + n = j
    omega

/-- C98: every sync ends. -/
theorem C98_sync (env : Env) (w : World) : ∃ n, EndsAfter (fun k => sync env (w.restart k)) n :=
  (ends_sync env).after (w.restart 0)

/-- C98: every initialisation ends. -/
theorem C98_init (env : Env) (add : Bool) (w : World) : ∃ n, EndsAfter (fun k => init env add (w.restart k)) n :=
  (ends_init env add).after (w.restart 0)

/-- C98: every reset ends. -/
theorem C98_reset (env : Env) (keep no : Bool) (w : World) : ∃ n, EndsAfter (fun k => reset env keep no (w.restart k)) n :=
  (ends_reset env keep no).after (w.restart 0)

/-- C98: emptying the trash ends. -/
theorem C98_emptyTrash (env : Env) (w : World) : ∃ n, EndsAfter (fun k => sys (emptyTrash env) (w.restart k)) n :=
  (Ends.sys (ends_emptyTrash env)).after (w.restart 0)

/-! ### Success -/

section
variable {env : Env} {w : World}

theorem SyncReady.upTo (r : SyncReady env w) (k : Nat) : SyncReady env (w.upTo k) :=
  ⟨r.order, r.apart, r.wf, r.goodId, r.goodRem, r.loc_dir, r.slot, r.excl, r.excl_slot, r.no_util, r.tidy, r.db, r.rdb,
    r.nodup_db, r.nodup, r.stamp, r.free, r.free_db, r.lmemo, r.rmemo, r.matches_⟩

theorem Orderly.upTo (o : Orderly env w) (k : Nat) : Orderly env (w.upTo k) :=
  ⟨⟨o.closed, o.known, o.remote, o.below⟩, o.exclDir, o.clients, o.trash, o.own, o.plain, o.leads, o.rows, o.kept,
    o.inflate, o.edited, o.fetched, o.filled, o.newer, o.names, o.tidyTrash⟩

/-- C98 with C71: a sync that starts in an orderly state and is left alone long enough succeeds. -/
theorem C98_orderly_partial (r : SyncReady env w) (o : Orderly env w) :
    ∃ n, ∀ k, n ≤ k → (sync env (w.upTo k)).1 = .ok () ∧ AtRest env (sync env (w.upTo k)).2 := by
  obtain ⟨n, h, _⟩ := (ends_sync env).after w
  refine ⟨n, fun k hk => ?_⟩
  have hne : (sync env (w.upTo k)).1 ≠ .error .killed := fun he => absurd ((h k).1 he) (by omega)
  exact ⟨C71_partial (r.upTo k) (o.upTo k) hne, C71_rest_partial (r.upTo k) (o.upTo k) hne⟩

theorem InitReady.upTo (h : InitReady env w) (k : Nat) : InitReady env (w.upTo k) :=
  ⟨h.wf, h.apart, h.loc_dir, h.rem_good, h.id_good, h.excl, h.slot, h.no_util, h.clean, h.lmemo, h.rmemo, h.fresh, h.rows,
    h.saved⟩

theorem AddReady.upTo (h : AddReady env w) (k : Nat) : AddReady env (w.upTo k) :=
  ⟨h.wf, h.apart, h.loc_good, h.loc, h.rem_good, h.id_good, h.slot, h.rmemo, h.rows⟩

/-- C98 with C97: an initialisation from local files that is left alone long enough succeeds, however often it was killed
before. -/
theorem C98_initialised_partial {c : Nat} (h : InitReady env w) (hxl : ¬ env.loc <+: env.excl)
    (hxr : ¬ env.rem <+: env.excl) (ht : InitTidy env c w.os.fs) {w' : World} (hr : Resumed env w w') :
    ∃ n, ∀ k, n ≤ k → (init env false (w'.upTo k)).1 = .ok () := by
  obtain ⟨h1, h2⟩ := hr.tidy h hxl hxr ht
  obtain ⟨n, hn, _⟩ := (ends_init env false).after w'
  refine ⟨n, fun k hk => ?_⟩
  refine (C97_resumed_partial (w := w'.upTo k) (k := c) (h1.upTo k) hxl hxr h2 (.start _)).resolve_right ?_
  intro he
  exact absurd ((hn k).1 he) (by omega)

/-- C98 with C97: so does an initialisation from a remote directory. -/
theorem C98_added_partial (h : AddReady env w) (hs : w.dbSaved = []) (hxl : ¬ env.loc <+: env.excl)
    (hxr : ¬ env.rem <+: env.excl) (ht : AddTidy env w.os.fs) {w' : World} (hr : AddResumed env w w') :
    ∃ n, ∀ k, n ≤ k → (init env true (w'.upTo k)).1 = .ok () := by
  obtain ⟨h1, h2, h3, _⟩ := hr.tidy h hs hxl hxr ht
  obtain ⟨n, hn, _⟩ := (ends_init env true).after w'
  refine ⟨n, fun k hk => ?_⟩
  refine (C97_add_partial (w := w'.upTo k) (h1.upTo k) h2 hxl hxr h3 (.start _) ?_).1
  intro he
  exact absurd ((hn k).1 he) (by omega)

end

/-! ### Examples -/

/-- The initialisation of `exInit` makes 28 changes. -/
example : (init exEnvE false (exInit 27)).1 = .error .killed ∧ (init exEnvE false (exInit 28)).1 = .ok () := by
  decide +kernel

example : ∃ n, ∀ k, n ≤ k → (init exEnvE false ((exInit 0).upTo k)).1 = .ok () :=
  C98_initialised_partial (exInit_ready 0) (by decide +kernel) (by decide +kernel) (exInit_tidy 0) (.start _)

example : ∃ n, ∀ k, n ≤ k → (init exEnvE true ((exAdd 0).upTo k)).1 = .ok () :=
  C98_added_partial (exAdd_ready 0) rfl (by decide +kernel) (by decide +kernel) (exAdd_tidy 0) (.start _)

example : ∃ n, ∀ k, n ≤ k → (sync exEnvO ((exOrderly 0).upTo k)).1 = .ok () ∧ AtRest exEnvO (sync exEnvO ((exOrderly 0).upTo k)).2 :=
  C98_orderly_partial (exOrderly_ready 0) (exOrderly_orderly 0)

end Verif
