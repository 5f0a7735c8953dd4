import Verif.Props.C63_DanglingExclude
import Verif.Props.C18_Deletions
/-
C32, C71: a known file that is neither in the local directory nor in the remote database makes every sync fail.

A sync that is killed after it has saved the remote database and before it has saved that of the profile
(zielen/commands/sync.py:137-141) leaves such a file if it has removed one from the remote directory.
-/
namespace Verif
open Prog OSM Call FSTools WM

/-- The profile knows `p`; the local directory and the remote database do not have it. -/
structure Stuck (env : Env) (w : World) (p : Path) : Prop where
  wf : w.os.fs.WF
  apart : Apart env.loc env.rem
  goodId : GoodName env.id
  goodRem : GoodPath env.rem
  loc_dir : w.os.fs.isDir env.loc = true
  slot : ∀ n, w.os.fs.get (env.exclDir ++ [env.id]) = some n → ∃ c m b, n = .file c m b
  known : p ∈ ADB.paths w.dbSaved
  gone : w.os.fs.get (env.loc ++ p) = none
  forgotten : p ∉ ADB.paths w.rdbSaved

section
variable {env : Env} {p : Path}

theorem Stuck.slot_good {w : World} (d : Stuck env w p) : GoodPath (env.exclDir ++ [env.id]) := by
  have h1 : GoodName Env.utilName := by decide
  have h2 : GoodName "exclude".toList := by decide
  unfold Env.exclDir Env.util
  simp only [goodPath_append]
  refine ⟨⟨⟨d.goodRem, ?_⟩, ?_⟩, ?_⟩ <;> intro c hc <;> simp at hc <;> subst hc
  · exact h1
  · exact h2
  · exact d.goodId

theorem Stuck.of_only {w w' : World} (d : Stuck env w p) (h : OnlyAt (env.exclDir ++ [env.id]) w.os.fs w'.os.fs)
    (wf : w'.os.fs.WF)
    (hs : ∀ n, w'.os.fs.get (env.exclDir ++ [env.id]) = some n → ∃ c m b, n = .file c m b)
    (h1 : w'.dbSaved = w.dbSaved) (h2 : w'.rdbSaved = w.rdbSaved) : Stuck env w' p := by
  have hloc : ∀ q, w'.os.fs.get (env.loc ++ q) = w.os.fs.get (env.loc ++ q) := fun q => h _ (loc_ne_slot' d.apart q)
  refine ⟨wf, d.apart, d.goodId, d.goodRem, ?_, hs, by rw [h1]; exact d.known, ?_, by rw [h2]; exact d.forgotten⟩
  · rw [FS.isDir_congr (by simpa using hloc [])]; exact d.loc_dir
  · rw [hloc]; exact d.gone

/-- The sync raises; it changes at most its copy of the exclude file, and saves nothing. -/
theorem Stuck.sync {w : World} (d : Stuck env w p) (f : Nat) :
    wp (Verif.sync env) (fun _ _ => False)
      (fun _ w' => OnlyAt (env.exclDir ++ [env.id]) w.os.fs w'.os.fs ∧ Stuck env w' p ∧
        w'.dbSaved = w.dbSaved ∧ w'.rdbSaved = w.rdbSaved ∧ w'.lastSaved = w.lastSaved) (w.restart f) := by
  obtain ⟨lm, lb, hlg⟩ := FS.isDir_iff.1 d.loc_dir
  have same : ∀ w' : World, w'.os.fs = w.os.fs → w'.dbSaved = w.dbSaved → w'.rdbSaved = w.rdbSaved → Stuck env w' p := by
    intro w' h1 h2 h3
    refine d.of_only ?_ ?_ ?_ h2 h3
    · intro q _; rw [h1]
    · rw [h1]; exact d.wf
    · rw [h1]; exact d.slot
  unfold Verif.sync syncScan
  rw [wp_bind, wp_bind, wp_sys]
  refine wp_mono (wp_makedirs_dir d.wf hlg) ?_ ?_
  rotate_left
  · intro _ s' h
    have h1 : s'.fs = w.os.fs := h.1
    exact ⟨fun q _ => by rw [show (s'.fs).get q = w.os.fs.get q by rw [h1]], same _ h1 rfl rfl, rfl, rfl, rfl⟩
  intro _ s0 h0
  have h0 : s0.fs = w.os.fs := h0
  rw [wp_bind, wp_sys]
  refine wp_mono (wp_addExcludeFile (by rw [h0]; exact d.wf) d.slot_good (by rw [h0]; exact d.slot)) ?_ ?_
  · rintro _ s1 ⟨h1, wf1, q, k, m, b, now, _, hs1⟩
    rw [h0] at h1
    have d1 : ∀ w' : World, w'.os.fs = s1.fs → w'.dbSaved = w.dbSaved → w'.rdbSaved = w.rdbSaved → Stuck env w' p := by
      intro w' e1 e2 e3
      refine d.of_only (by rw [e1]; exact h1) (by rw [e1]; exact wf1) ?_ e2 e3
      rw [e1, hs1]; rintro n ⟨⟩; exact ⟨_, _, _, rfl⟩
    dsimp only
    rw [wp_bind]
    have post : ∀ w' : World, w'.os.fs = s1.fs → w'.dbSaved = w.dbSaved → w'.rdbSaved = w.rdbSaved →
        w'.lastSaved = w.lastSaved → OnlyAt (env.exclDir ++ [env.id]) w.os.fs w'.os.fs ∧ Stuck env w' p ∧
        w'.dbSaved = w.dbSaved ∧ w'.rdbSaved = w.rdbSaved ∧ w'.lastSaved = w.lastSaved :=
      fun w' e1 e2 e3 e4 => ⟨by rw [e1]; exact h1, d1 w' e1 e2 e3, e2, e3, e4⟩
    refine wp_scanLocal (fun hne => absurd rfl hne) (fun _ => ?_) (fun _ => post _ rfl rfl rfl rfl)
    rw [wp_bind]
    refine wp_scanRemote (fun hne => absurd rfl hne) (fun _ => ?_) (fun _ => post _ rfl rfl rfl rfl)
    rw [wp_bind]
    unfold exclMatches
    rw [wp_bind, wp_gets]
    dsimp only [World.restart]
    rw [wp_bind, wp_sys, wp_query]
    refine ⟨fun pats _ => ?_, fun e _ => post _ rfl rfl rfl rfl⟩
    rw [wp_bind, wp_sys, wp_query]
    refine ⟨fun ml _ => ?_, fun e _ => post _ rfl rfl rfl rfl⟩
    rw [wp_bind, wp_modify, wp_pure, wp_bind, wp_gets, wp_bind, wp_gets, wp_bind, wp_gets, wp_bind, wp_get?]
    dsimp only
    refine ⟨fun x hx => ?_, fun _ => ⟨h1, d1 _ rfl rfl rfl, rfl, rfl, rfl⟩⟩
    exfalso
    have := (C18_raises_iff _ _ _ _ _).1 (Option.isSome_iff_exists.2 ⟨_, hx⟩) p d.known ?_
    · exact d.forgotten this
    · intro hk
      obtain ⟨_, n, hn⟩ := (mem_keys_below wf1).1 hk
      rw [h1 _ (loc_ne_slot' d.apart p), d.gone] at hn
      cases hn
  · rintro e s1 ⟨h1, wf1, hs1⟩
    rw [h0] at h1
    exact ⟨h1, d.of_only h1 wf1 hs1 rfl rfl, rfl, rfl, rfl⟩

end

/-- C32 and C71 fail: if the profile knows a file that is neither in the local directory nor in the remote database, no
sync ever succeeds again, whatever else there is to sync; both databases, and all files except the profile's copy of
the exclude file, stay as they are. -/
theorem C71_stuck_fails {env : Env} {p : Path} (l : List Nat) : ∀ {w : World}, Stuck env w p → ∀ f,
    (sync env ((syncs env l w).restart f)).1 ≠ .ok () ∧
    OnlyAt (env.exclDir ++ [env.id]) w.os.fs (sync env ((syncs env l w).restart f)).2.os.fs ∧
    (sync env ((syncs env l w).restart f)).2.dbSaved = w.dbSaved ∧
    (sync env ((syncs env l w).restart f)).2.rdbSaved = w.rdbSaved := by
  have one : ∀ {w : World}, Stuck env w p → ∀ f, (sync env (w.restart f)).1 ≠ .ok () ∧
      OnlyAt (env.exclDir ++ [env.id]) w.os.fs (sync env (w.restart f)).2.os.fs ∧
      Stuck env (sync env (w.restart f)).2 p ∧ (sync env (w.restart f)).2.dbSaved = w.dbSaved ∧
      (sync env (w.restart f)).2.rdbSaved = w.rdbSaved := by
    intro w d f
    have h := Stuck.sync d f
    unfold wp at h
    generalize sync env (w.restart f) = r at h ⊢
    obtain ⟨r, w'⟩ := r
    cases r with
    | ok a => exact h.elim
    | error e =>
      obtain ⟨h1, h2, h3, h4, _⟩ := h
      exact ⟨(fun h => by cases h), h1, h2, h3, h4⟩
  induction l with
  | nil =>
    intro w d f
    obtain ⟨h1, h2, _, h3⟩ := one d f
    exact ⟨h1, h2, h3⟩
  | cons a l ih =>
    intro w d f
    obtain ⟨_, h2, d2, h3, h4⟩ := one d a
    obtain ⟨i1, i2, i3, i4⟩ := ih d2 f
    exact ⟨i1, fun q hq => (i2 q hq).trans (h2 q hq), i3.trans h3, i4.trans h4⟩

/-- The user has deleted `g`. -/
def exDeleted (fuel : Nat) : World := exWorld exEnvE
  [(["l".toList, "b".toList], .file 9 3 1), (["r".toList, "b".toList], .file 9 3 1), (["r".toList, "g".toList], .file 17 3 1)]
  [exRow ["b".toList] false 2 true, exRow ["g".toList] false 1 true]
  [exRRow ["b".toList] false, exRRow ["g".toList] false] fuel

/-- C32 and C71 fail: a sync of a deletion, killed between the two saves, has left the remote database without the file
and that of the profile with it; from then on every sync raises, however often it is tried. -/
theorem C32_saved_fails :
    (sync exEnvE (exDeleted 12)).1 = .error .killed ∧ ((sync exEnvE (exDeleted 14)).1 = .ok ()) ∧
    Stuck exEnvE (sync exEnvE (exDeleted 12)).2 ["g".toList] ∧
    ∀ l f, (sync exEnvE ((syncs exEnvE l (sync exEnvE (exDeleted 12)).2).restart f)).1 ≠ .ok () := by
  have h : Stuck exEnvE (sync exEnvE (exDeleted 12)).2 ["g".toList] := by
    have e : (sync exEnvE (exDeleted 12)).2.os.fs.isDir exEnvE.loc = true ∧
        ((sync exEnvE (exDeleted 12)).2.os.fs.get (exEnvE.exclDir ++ [exEnvE.id])).all
          (fun n => match n with | .file .. => true | _ => false) = true ∧
        ["g".toList] ∈ ADB.paths (sync exEnvE (exDeleted 12)).2.dbSaved ∧
        (sync exEnvE (exDeleted 12)).2.os.fs.get (exEnvE.loc ++ ["g".toList]) = none ∧
        ["g".toList] ∉ ADB.paths (sync exEnvE (exDeleted 12)).2.rdbSaved ∧
        ((sync exEnvE (exDeleted 12)).2.os.fs.map Prod.fst).Nodup ∧
        (∀ e ∈ (sync exEnvE (exDeleted 12)).2.os.fs, e.1 ≠ []) ∧
        (∀ e ∈ (sync exEnvE (exDeleted 12)).2.os.fs, GoodPath e.1) ∧
        (∀ e ∈ (sync exEnvE (exDeleted 12)).2.os.fs,
          (sync exEnvE (exDeleted 12)).2.os.fs.isDir e.1.dropLast = true) := by decide +kernel
    obtain ⟨e1, e2, e3, e4, e5, e6, e7, e8, e9⟩ := e
    refine ⟨?_, by unfold Apart; decide +kernel, by decide, by decide, e1, ?_, e3, e4, e5⟩
    · exact ⟨e6, e7, e8, e9⟩
    · intro n hn
      rw [hn] at e2
      cases n <;> simp at e2
      exact ⟨_, _, _, rfl⟩
  exact ⟨by decide +kernel, by decide +kernel, h, fun l f => (C71_stuck_fails l h f).1⟩

end Verif
