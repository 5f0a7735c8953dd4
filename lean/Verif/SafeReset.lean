import Verif.Props.C45_Reset
import Verif.SafeTree
/-
When a reset raises nothing.
-/
namespace Verif
open Prog OSM Call FSTools WM

variable {env : Env} {w : World}

theorem safe_unlinkAll {s : OS} (wf : s.fs.WF) {l : List Path} (hnd : l.Nodup)
    (hl : ∀ p ∈ l, ∃ t m, s.fs.get (env.loc ++ p) = some (.link t m)) : Safe (each (unlinkOne env) l) s := by
  refine Safe.of (Q := fun _ _ => True) (wp_mono (wp_each (fun done (s' : OS) => s'.fs.WF ∧
    ∀ p ∈ l, p ∉ done → s'.fs.get (env.loc ++ p) = s.fs.get (env.loc ++ p)) (E := fun e _ => e = .killed) l ?_
    ⟨wf, fun _ _ _ => rfl⟩) (fun _ _ _ => trivial) (fun _ _ h => h))
  rintro done x rest hx s1 ⟨wf1, h1⟩
  have hxl : x ∈ l := by rw [hx]; simp
  have hxd : x ∉ done := by
    rw [hx, List.nodup_append] at hnd
    exact fun h => hnd.2.2 x h x (by simp) rfl
  obtain ⟨t, m, hg⟩ := hl x hxl
  have hg1 := (h1 x hxl hxd).trans hg
  unfold unlinkOne
  rw [wp_bind, wp_query, wf1.lstat_iff.2 hg1]
  refine ⟨?_, fun e h => by cases h⟩
  rintro _ ⟨⟩
  dsimp only
  split
  · refine wp_mono (wp_remove _ s1) ?_ ?_
    · rintro _ s2 ⟨h2, _⟩
      refine ⟨h2.wf wf1, fun p hp hpd => ?_⟩
      rw [List.mem_append, List.mem_singleton, not_or] at hpd
      rw [h2.keeps _ (fun e => hpd.2 (List.append_cancel_left e))]
      exact h1 p hp hpd.1
    · rintro e s2 ⟨_, h2 | h2⟩
      · exact h2
      · exfalso
        unfold FS.remove at h2
        rw [wf1.lstat_iff.2 hg1] at h2
        cases h2
  · rw [wp_pure]
    exact ⟨wf1, fun p hp hpd => h1 p hp (fun h => hpd (by simp [h]))⟩

theorem safe_rmExcludeFile {s : OS} (wf : s.fs.WF) (hw : ∀ q, q <+: env.exclDir ++ [env.id] → q ≠ env.exclDir ++ [env.id] →
      s.fs.get q = none ∨ s.fs.isDir q = true)
    (hs : ∀ n, s.fs.get (env.exclDir ++ [env.id]) = some n → n.isDir = false) : Safe (rmExcludeFile env) s := by
  unfold rmExcludeFile Safe
  rw [wp_tryCatch]
  refine wp_mono (wp_remove _ s) (fun _ _ _ => trivial) ?_
  rintro e s1 ⟨_, h1⟩
  split
  · assumption
  · rename_i hk
    have he : s.fs.remove (env.exclDir ++ [env.id]) = .error e := h1.resolve_left hk
    have hnf : e = .notFound := by
      unfold FS.remove at he
      cases hl : s.fs.lstat (env.exclDir ++ [env.id]) with
      | ok n =>
        rw [hl] at he
        have := hs n (wf.lstat_iff.1 hl)
        cases n with
        | dir m b => cases this
        | _ => cases he
      | error e' =>
        rw [hl] at he
        cases he
        unfold FS.lstat at hl
        cases hpe : s.fs.pathErr (env.exclDir ++ [env.id]) with
        | none =>
          rw [hpe] at hl
          dsimp only at hl
          split at hl
          · cases hl
          · cases hl; rfl
        | some e2 =>
          rw [hpe] at hl
          cases hl
          unfold FS.pathErr at hpe
          obtain ⟨q, hq, hq'⟩ := List.exists_of_findSome?_eq_some hpe
          obtain ⟨h2, h3⟩ := FS.mem_takes.1 hq
          rcases hw q h2 h3 with h4 | h4
          · simp [h4] at hq'
            exact hq'.symm
          · obtain ⟨m, b, h4⟩ := FS.isDir_iff.1 h4
            simp [h4] at hq'
    subst hnf
    trivial

/-- The files of the remote directory are retrieved without an error if they are files and directories, and no link
with the name of its directory leads back to the directory. -/
theorem safe_resetGet (h : ResetReady env w) (keep nor : Bool)
    (hall : ∀ p n, UserPath p → w.os.fs.get (env.rem ++ p) = some n → p ∈ ADB.paths w.rdb)
    (hthere : ∀ p ∈ ADB.paths w.rdb, ∃ n, w.os.fs.get (env.rem ++ p) = some n ∧ n.isLink = false)
    (hdirs : ∀ p, w.os.fs.isDir (env.rem ++ p) = true → UserPath p → w.os.fs.isDir (env.loc ++ p) = true)
    (hback : ∀ p c t m, UserPath (p ++ [c, c]) → w.os.fs.get (env.loc ++ (p ++ [c, c])) = some (.link t m) →
      FS.linkDest (env.loc ++ (p ++ [c, c])) t = env.rem ++ (p ++ [c, c]) ∧
      ∀ t m, w.os.fs.get (env.rem ++ (p ++ [c, c])) ≠ some (.link t m)) :
    Safe (resetGet env keep nor) w := by
  unfold resetGet
  cases nor with
  | true => simp only [if_true]; trivial
  | false =>
    simp only [Bool.false_eq_true, if_false]
    obtain ⟨um, ub, hug⟩ := FS.isDir_iff.1 h.util_dir
    have hrd : w.os.fs.isDir env.rem = true :=
      h.wf.isDir_prefix hug env.rem (by unfold Env.util; exact List.prefix_append _ _) (by unfold Env.util; simp)
    have huser : ∀ {p}, Listed w.os.fs env.rem (some (ADB.paths w.rdb)) p → ∀ q, q <+: p → q ≠ [] → UserPath q := by
      rintro p ⟨_, _, f, hf, hpre⟩ q hq hq0
      refine ⟨hq0, ?_⟩
      obtain ⟨hf1, hf2⟩ := (h.rows f hf).1
      obtain ⟨t, rfl⟩ := hpre
      cases f with
      | nil => exact absurd rfl hf1
      | cons x f =>
        cases q with
        | nil => exact absurd rfl hq0
        | cons y q =>
          obtain ⟨r, hr⟩ := hq
          simp only [List.cons_append, List.cons.injEq] at hr
          rw [hr.1]; exact hf2
    have hex : ∀ f ∈ ADB.paths w.rdb, ∃ n, w.os.fs.get (env.rem ++ f) = some n :=
      fun f hf => (hthere f hf).imp fun _ h => h.1
    have hlisted : ∀ p n, UserPath p → w.os.fs.get (env.rem ++ p) = some n →
        Listed w.os.fs env.rem (some (ADB.paths w.rdb)) p :=
      fun p n hu hn => ⟨⟨n, hn⟩, hu.1, p, hall p n hu hn, List.prefix_refl _⟩
    unfold Safe
    rw [wp_bind]
    apply wp_scanRemote' h.wf
    · intro hm; exact absurd h.rmemo hm
    swap
    · intro e he; exact he hrd
    intro _
    rw [wp_bind, wp_gets]
    refine Safe.bind (m := sys _) (Q := fun _ w1 => w1.os.fs.WF ∧ w1.os.fs.isDir env.util = true ∧
        (keep = false → ∀ p n, UserPath p → w1.os.fs.get (env.rem ++ p) = some n → n.isDir = true))
      (E := fun _ _ => True) (Safe.sys (safe_orRemote (safe_transferTree h.apart.symm h.wf hrd h.loc_dir hex h.clean
        ?_ ?_ ?_))) ?_ ?_
    · intro p hp t m hg
      obtain ⟨n, h1, h2⟩ := hthere p (hall p _ (huser hp p (List.prefix_refl _) hp.2.1) hg)
      have hg : w.os.fs.get (env.rem ++ p) = some (.link t m) := hg
      rw [hg] at h1; cases h1; cases h2
    · intro p hp q hq hd
      right
      by_cases hq0 : q = []
      · subst hq0; rw [List.append_nil]; exact h.loc_dir
      · exact hdirs q hd (huser hp q hq hq0)
    · intro p hp t m hg
      have hp0 := hp.2.1
      have hu := huser hp p (List.prefix_refl _) hp0
      have hlast : p.dropLast ++ [p.getLastD []] = p := by
        have : p.getLastD [] = p.getLast hp0 := by
          rw [List.getLastD_eq_getLast?, List.getLast?_eq_some_getLast hp0]; rfl
        rw [this]; exact List.dropLast_append_getLast hp0
      have he : p ++ [p.getLastD []] = p.dropLast ++ [p.getLastD [], p.getLastD []] := by
        rw [show [p.getLastD [], p.getLastD []] = [p.getLastD []] ++ [p.getLastD []] from rfl, ← List.append_assoc, hlast]
      rw [he] at hg ⊢
      refine hback _ _ t m ?_ hg
      rw [← he]
      refine ⟨by simp, ?_⟩
      cases p with
      | nil => exact absurd rfl hp0
      | cons x p => exact hu.2
    · rw [wp_sys]
      apply wp_orRemote
      refine wp_mono (wp_transferTree_missing h.apart.symm h.wf hrd h.loc_dir (fun f hf => (h.rows f hf).2)
        (fun p hp _ => h.clean p hp)) ?_ (fun _ _ _ => ⟨trivial, fun _ => trivial⟩)
      rintro _ s1 ⟨l, h1, h2, h3, _⟩
      refine ⟨h1.wf, ?_, ?_⟩
      · rw [FS.isDir_congr (show s1.fs.get env.util = w.os.fs.get env.util from ?_)]
        · exact h.util_dir
        · rcases h1.src [Env.utilName] with h4 | ⟨_, h4, _⟩
          · exact h4
          · exact absurd rfl (huser (h2 _ h4).1 _ (List.prefix_refl _) (by simp)).2
      · intro hk p n hu hn
        subst hk
        rcases h1.src p with h4 | ⟨_, _, h4, _⟩
        · have hn0 := h4.symm.trans hn
          rcases h3 p (hlisted p n hu hn0) (by simp) with h5 | h5
          · rw [h1.gone rfl p h5] at hn; cases hn
          · rw [isDir_iff_false hn0] at h5; exact h5
        · rw [h4] at hn; cases hn
    · rintro _ w1 ⟨wf1, hu1, hd1⟩
      cases keep with
      | true => simp only [if_true]; trivial
      | false =>
        simp only [Bool.false_eq_true, if_false]
        exact Safe.of (wp_mono (wp_clearRemote h.order wf1 hu1) (fun _ _ _ => trivial)
          (fun _ _ h => h.2.2 (hd1 rfl)))

/-- A reset raises nothing. -/
theorem safe_reset (h : ResetReady env w) (keep nor : Bool)
    (hall : ∀ p n, UserPath p → w.os.fs.get (env.rem ++ p) = some n → p ∈ ADB.paths w.rdb)
    (hthere : ∀ p ∈ ADB.paths w.rdb, ∃ n, w.os.fs.get (env.rem ++ p) = some n ∧ n.isLink = false)
    (hdirs : ∀ p, w.os.fs.isDir (env.rem ++ p) = true → UserPath p → w.os.fs.isDir (env.loc ++ p) = true)
    (hback : ∀ p c t m, UserPath (p ++ [c, c]) → w.os.fs.get (env.loc ++ (p ++ [c, c])) = some (.link t m) →
      FS.linkDest (env.loc ++ (p ++ [c, c])) t = env.rem ++ (p ++ [c, c]) ∧
      ∀ t m, w.os.fs.get (env.rem ++ (p ++ [c, c])) ≠ some (.link t m))
    (hslot : ∃ c m b, w.os.fs.get (env.exclDir ++ [env.id]) = some (.file c m b)) :
    Safe (reset env keep nor) w := by
  obtain ⟨sc, sm, sb, hslot⟩ := hslot
  unfold reset
  obtain ⟨lm, lb, hlg⟩ := FS.isDir_iff.1 h.loc_dir
  refine Safe.bind (Safe.sys (safe_makedirs h.wf h.loc_dir))
    (Q := fun _ w1 => ∃ s1 : OS, w1 = { w with os := s1 } ∧ s1.fs = w.os.fs) (E := fun _ _ => True) ?_ ?_
  · rw [wp_sys]
    exact wp_mono (wp_makedirs_dir h.wf hlg) (fun _ s1 h1 => ⟨s1, rfl, h1⟩) (fun _ _ _ => trivial)
  rintro _ w1 ⟨s1, rfl, h1⟩
  have hr : ResetReady env { w with os := s1 } := h.congr h1 rfl h.lmemo h.rmemo
  refine Safe.bind (safe_resetGet hr keep nor (by rw [h1]; exact hall) (by rw [h1]; exact hthere)
    (by rw [h1]; exact hdirs) (by rw [h1]; exact hback)) (wp_resetGet hr keep nor) ?_
  rintro _ w2 ⟨_, hm, hk, _⟩
  have hk : ResetKept env (keep || nor) (ADB.paths w.rdb) s1.fs w2.os.fs := hk
  rw [h1] at hk
  unfold resetTail Safe
  rw [wp_bind]
  apply wp_scanLocal' hk.wf
  · intro h; exact absurd hm h
  swap
  · intro e he; exact he hk.loc_dir
  intro _
  refine Safe.bind (m := sys _) (Q := fun _ w3 => Unlinked env w2.os.fs w3.os.fs) (E := fun _ _ => True)
    (Safe.sys (safe_unlinkAll hk.wf ?_ ?_)) ?_ ?_
  · have hnd := nodup_keys_below hk.wf env.loc
    exact hnd.sublist (List.Sublist.map _ List.filter_sublist)
  · intro p hp
    obtain ⟨⟨q, n⟩, h2, rfl⟩ := List.mem_map.1 hp
    obtain ⟨h3, h4⟩ := List.mem_filter.1 h2
    cases n with
    | link t m => exact ⟨t, m, (hk.wf.mem_below_iff.1 h3).1⟩
    | _ => cases h4
  · rw [wp_sys]
    exact wp_mono (wp_unlinkAll hk.wf _) (fun _ _ h => h.1) (fun _ _ _ => trivial)
  rintro _ w3 hu
  have hs3 : ∀ q, env.rem <+: q → w3.os.fs.get q = w.os.fs.get q ∨ w3.os.fs.get q = none := by
    intro q hq
    rcases hu.shrink.gone q with h2 | h2
    · rw [h2]; exact hk.rem q hq
    · exact Or.inr h2
  refine Safe.sys (safe_rmExcludeFile (hu.shrink.wf hk.wf) ?_ ?_)
  · intro q hq hne
    have hd : w.os.fs.isDir q = true := h.wf.isDir_prefix hslot q hq hne
    obtain ⟨m, b, hqg⟩ := FS.isDir_iff.1 hd
    by_cases hr : env.rem <+: q
    · rcases hs3 q hr with h2 | h2
      · exact Or.inr (by rw [FS.isDir_congr h2]; exact hd)
      · exact Or.inl h2
    · have hl : ¬ env.loc <+: q := by
        intro hl
        rcases List.prefix_or_prefix_of_prefix hq (rem_prefix_slot env) with h2 | h2
        · exact h.apart.1 (hl.trans h2)
        · exact hr h2
      refine Or.inr (FS.isDir_iff.2 ⟨m, b, hu.keeps _ _ ?_ rfl⟩)
      rw [hk.out q hl hr]; exact hqg
  · intro n hn
    rcases hs3 _ (rem_prefix_slot env) with h2 | h2
    · rw [h2, hslot] at hn; cases hn; rfl
    · rw [h2] at hn; cases hn

end Verif
