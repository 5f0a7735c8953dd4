import Verif.Props.C50_EmptyTrash
/-
C22: `cleanup_trash`.
-/
namespace Verif
open Prog OSM Call FSTools

theorem wp_rmtree_file {p : Path} {s : OS} (w : s.fs.WF) {n : Node} (hg : s.fs.get p = some n) (hd : n.isDir = false) :
    wp (rmtree p) (fun _ _ => False)
      (fun e s' => s' = s ∧ ((n.isFile = true ∧ e = .notDir) ∨ (n.isLink = true ∧ e = .invalid))) s := by
  unfold rmtree
  rw [wp_bind, wp_query, w.lstat_iff.2 hg]
  refine ⟨?_, fun e h => by cases h⟩
  rintro _ ⟨rfl⟩
  cases n with
  | file c m b => exact ⟨rfl, Or.inl ⟨rfl, rfl⟩⟩
  | link t m => exact ⟨rfl, Or.inr ⟨rfl, rfl⟩⟩
  | dir m b => cases hd

/-- One entry of the trash: it is removed if it is old and not a link. -/
theorem wp_cleanOne (env : Env) (cutoff : Int) {e : Path} {s : OS} (w : s.fs.WF) {n : Node}
    (hg : s.fs.get (env.trash ++ e) = some n) :
    wp (cleanOne env cutoff e)
      (fun _ s' => (n.isLink = true ∧ s'.fs = s.fs) ∨ (n.isLink = false ∧
        ((cutoff < n.mtime ∧ s'.fs = s.fs) ∨ (n.mtime ≤ cutoff ∧ Shrink (env.trash ++ e <+: ·) s.fs s'.fs ∧
          ∀ q, env.trash ++ e <+: q → s'.fs.get q = none))))
      (fun x s' => (s'.fs = s.fs ∨
        (n.isLink = false ∧ n.mtime ≤ cutoff ∧ Shrink (env.trash ++ e <+: ·) s.fs s'.fs)) ∧
        (x = .killed ∨ n.isLink = true)) s := by
  have htn : env.trash ++ e ≠ [] := by unfold Env.trash Env.util; simp
  unfold cleanOne
  rw [wp_bind, wp_query]
  cases hl : n.isLink with
  | true =>
    refine ⟨?_, fun x _ => ⟨Or.inl rfl, Or.inr rfl⟩⟩
    intro r _
    split
    · rw [wp_tryCatch]
      refine wp_mono (wp_rmtree_file w hg (by cases n <;> simp_all [Node.isLink, Node.isDir])) ?_ ?_
      · intro _ _ h; exact h.elim
      · rintro x s' ⟨rfl, h | ⟨_, rfl⟩⟩
        · cases n <;> simp_all [Node.isLink, Node.isFile]
        · simp
    · exact wp_pure.2 (Or.inl ⟨rfl, rfl⟩)
  | false =>
    rw [FS.stat_nonlink (w.pathErr hg) hg hl]
    refine ⟨?_, fun x h => by cases h⟩
    rintro _ ⟨rfl⟩
    dsimp only
    split
    · rename_i hm
      rw [wp_tryCatch]
      cases hd : n.isDir with
      | true =>
        refine wp_mono (wp_rmtree htn w (by unfold FS.isDir; rw [hg]; simpa using hd)) ?_ ?_
        · rintro _ s' ⟨h1, h2⟩
          exact Or.inr ⟨rfl, Or.inr ⟨hm, h1, h2⟩⟩
        · rintro x s' ⟨h1, rfl⟩
          exact ⟨Or.inr ⟨rfl, hm, h1⟩, Or.inl rfl⟩
      | false =>
        refine wp_mono (wp_rmtree_file w hg hd) (fun _ _ h => h.elim) ?_
        rintro x s' ⟨rfl, ⟨_, rfl⟩ | ⟨h, _⟩⟩
        · show wp (remove _) _ _ _
          refine wp_mono (wp_remove _ _) ?_ ?_
          · rintro _ s2 ⟨h1, h2⟩
            have h3 := h1.mono (P' := (env.trash ++ e <+: ·)) (by rintro q rfl; exact List.prefix_refl _)
            refine Or.inr ⟨rfl, Or.inr ⟨hm, h3, ?_⟩⟩
            intro q hq
            by_cases hqp : env.trash ++ e = q
            · subst hqp; exact h2
            · exact (h3.wf w).none_below (by unfold FS.isDir; rw [h2]; rfl) hq hqp
          · rintro x s2 ⟨h1, h2⟩
            refine ⟨Or.inl h1, ?_⟩
            rcases h2 with h2 | h2
            · exact Or.inl h2
            · rcases remove_error w h2 with ⟨h3, _⟩ | ⟨h3, _⟩
              · rw [hg] at h3; cases h3
              · unfold FS.isDir at h3; rw [hg] at h3; simp [hd] at h3
        · rw [hl] at h; cases h
    · rename_i hm
      exact wp_pure.2 (Or.inr ⟨rfl, Or.inl ⟨by omega, rfl⟩⟩)

/-- Below an old entry of the trash. -/
def OldTrash (env : Env) (fs : FS) (cutoff : Int) (q : Path) : Prop :=
  ∃ c n, fs.get (env.trash ++ [c]) = some n ∧ n.isLink = false ∧ n.mtime ≤ cutoff ∧ env.trash ++ [c] <+: q

theorem wp_cleanupTrash (env : Env) (ho : ∀ l, (env.order l).Perm l) (period : Int) {s : OS} (w : s.fs.WF) :
    wp (cleanupTrash env period)
      (fun _ s' => Shrink (OldTrash env s.fs (s.clk s.tick - period)) s.fs s'.fs ∧
        ∀ q, OldTrash env s.fs (s.clk s.tick - period) q → s'.fs.get q = none)
      (fun x s' => Shrink (OldTrash env s.fs (s.clk s.tick - period)) s.fs s'.fs ∧
        (x = .killed ∨ s.fs.isDir env.trash = false ∨
          ∃ c t m, s.fs.get (env.trash ++ [c]) = some (.link t m))) s := by
  unfold cleanupTrash
  rw [wp_bind, wp_time, wp_bind, wp_query]
  generalize s.clk s.tick - period = cutoff
  refine ⟨?_, ?_⟩
  · intro es hes
    obtain ⟨ht, hnd, hmem⟩ := mem_scandir w hes
    have hone : ∀ x ∈ es, ∃ c, x = [c] := fun x hx => List.length_eq_one_iff.1 ((hmem x).1 hx).1
    have hperm := ho es
    have hndo : (env.order es).Nodup := hperm.nodup_iff.2 hnd
    refine wp_mono (wp_each (fun done (s' : OS) =>
        Shrink (fun q => OldTrash env s.fs cutoff q ∧ ∃ x ∈ done, env.trash ++ x <+: q) s.fs s'.fs ∧
        ∀ x ∈ done, ∀ n, s.fs.get (env.trash ++ x) = some n → n.isLink = false → n.mtime ≤ cutoff →
          ∀ q, env.trash ++ x <+: q → s'.fs.get q = none)
      (E := fun x s' => Shrink (OldTrash env s.fs cutoff) s.fs s'.fs ∧
        (x = .killed ∨ ∃ c t m, s.fs.get (env.trash ++ [c]) = some (.link t m)))
      (env.order es) ?_ ⟨Shrink.refl _ _, by simp⟩) ?_ ?_
    · rintro done x rest hl s1 ⟨h1, h2⟩
      have hx : x ∈ es := by rw [← hperm.mem_iff, hl]; simp
      obtain ⟨hx1, n, hn⟩ := (hmem x).1 hx
      obtain ⟨c, rfl⟩ := hone x hx
      have hxd : [c] ∉ done := by
        rw [hl, List.nodup_append] at hndo
        intro h
        exact hndo.2.2 _ h [c] (by simp) rfl
      have hn1 : s1.fs.get (env.trash ++ [c]) = some n := by
        rw [h1.keeps _ ?_, hn]
        rintro ⟨_, y, hy, hpre⟩
        obtain ⟨d, rfl⟩ := hone y (by rw [← hperm.mem_iff, hl]; simp [hy])
        rw [List.prefix_append_right_inj] at hpre
        have := hpre.eq_of_length rfl
        exact hxd (this ▸ hy)
      have w1 := h1.wf w
      have hold : n.isLink = false → n.mtime ≤ cutoff → ∀ q, env.trash ++ [c] <+: q →
          OldTrash env s.fs cutoff q := fun h h' q hq => ⟨c, n, hn, h, h', hq⟩
      have hstep : Shrink (fun q => OldTrash env s.fs cutoff q ∧ ∃ x ∈ done ++ [[c]], env.trash ++ x <+: q)
          s.fs s1.fs := h1.mono (by
        rintro q ⟨ha, y, hy, hb⟩
        exact ⟨ha, y, by simp [hy], hb⟩)
      refine wp_mono (wp_cleanOne env cutoff w1 hn1) ?_ ?_
      · rintro _ s2 (⟨h3, h4⟩ | ⟨h3, ⟨h4, h5⟩ | ⟨h4, h5, h6⟩⟩)
        · rw [h4]
          refine ⟨hstep, ?_⟩
          intro y hy n' hn' hnl hm q hq
          rw [List.mem_append, List.mem_singleton] at hy
          rcases hy with hy | rfl
          · exact h2 y hy n' hn' hnl hm q hq
          · rw [hn] at hn'; cases hn'; rw [h3] at hnl; cases hnl
        · rw [h5]
          refine ⟨hstep, ?_⟩
          intro y hy n' hn' hnl hm q hq
          rw [List.mem_append, List.mem_singleton] at hy
          rcases hy with hy | rfl
          · exact h2 y hy n' hn' hnl hm q hq
          · rw [hn] at hn'; cases hn'; omega
        · refine ⟨hstep.trans (h5.mono fun q hq => ⟨hold h3 h4 q hq, [c], by simp, hq⟩), ?_⟩
          intro y hy n' hn' hnl hm q hq
          rw [List.mem_append, List.mem_singleton] at hy
          rcases hy with hy | rfl
          · exact h5.none (h2 y hy n' hn' hnl hm q hq)
          · exact h6 q hq
      · rintro x s2 ⟨h3, h4⟩
        refine ⟨?_, ?_⟩
        · have h1' := h1.mono (P' := OldTrash env s.fs cutoff) (fun q hq => hq.1)
          rcases h3 with h3 | ⟨h3, h5, h6⟩
          · rw [h3]; exact h1'
          · exact h1'.trans (h6.mono (hold h3 h5))
        · refine h4.imp id ?_
          intro h
          cases n with
          | link t m => exact ⟨c, t, m, hn⟩
          | _ => cases h
    · rintro _ s1 ⟨h1, h2⟩
      refine ⟨h1.mono (fun q hq => hq.1), ?_⟩
      rintro q ⟨c, n, hn, hl, hm, hq⟩
      exact h2 [c] (hperm.mem_iff.2 ((hmem [c]).2 ⟨rfl, n, hn⟩)) n hn hl hm q hq
    · rintro x s1 ⟨h1, h2⟩
      exact ⟨h1, h2.imp id Or.inr⟩
  · intro x hx
    refine ⟨Shrink.refl _ _, Or.inr (Or.inl ?_)⟩
    cases hd : s.fs.isDir env.trash with
    | false => rfl
    | true =>
      obtain ⟨es, hes⟩ := scandir_isDir w hd
      rw [hes] at hx; cases hx

/-- C22: however `cleanup_trash` ends, whatever is not at or below an entry of the trash with an mtime at or
before now minus the period is unchanged, and nothing appears. Links in the trash are never removed. -/
theorem C22_only_old {env : Env} (ho : ∀ l, (env.order l).Perm l) (period : Int) {s : OS} (w : s.fs.WF) (q : Path)
    (hq : ∀ c n, s.fs.get (env.trash ++ [c]) = some n → env.trash ++ [c] <+: q →
      n.isLink = true ∨ s.clk s.tick - period < n.mtime) :
    (cleanupTrash env period s).2.fs.get q = s.fs.get q := by
  have h : Shrink (OldTrash env s.fs (s.clk s.tick - period)) s.fs (cleanupTrash env period s).2.fs :=
    wp_state (I := fun s' : OS => Shrink (OldTrash env s.fs (s.clk s.tick - period)) s.fs s'.fs)
      (wp_mono (wp_cleanupTrash env ho period w) (fun _ _ h => h.1) (fun _ _ h => h.1))
  apply h.keeps
  rintro ⟨c, n, h1, h2, h3, h4⟩
  rcases hq c n h1 h4 with h5 | h5
  · rw [h2] at h5; cases h5
  · omega

/-- C22 (partial: only for entries that are files or directories, see `C22_links_fail`): after a successful
clean-up every entry of the trash with an mtime at or before now minus the period is gone with everything below
it. -/
theorem C22_all_old_partial {env : Env} (ho : ∀ l, (env.order l).Perm l) (period : Int) {s s' : OS} (w : s.fs.WF)
    (h : cleanupTrash env period s = (.ok (), s')) (c : Str) (n : Node)
    (hn : s.fs.get (env.trash ++ [c]) = some n) (hl : n.isLink = false)
    (hm : n.mtime ≤ s.clk s.tick - period) (q : Path) (hq : env.trash ++ [c] <+: q) : s'.fs.get q = none :=
  (wp_ok (wp_cleanupTrash env ho period w) h).2 q ⟨c, n, hn, hl, hm, hq⟩

/-- C22 (partial: only without links in the trash): the clean-up fails only if it is killed. -/
theorem C22_succeeds_partial {env : Env} (ho : ∀ l, (env.order l).Perm l) (period : Int) {s s' : OS} {e : Err}
    (w : s.fs.WF) (ht : s.fs.isDir env.trash = true)
    (hl : ∀ c n, s.fs.get (env.trash ++ [c]) = some n → n.isLink = false)
    (h : cleanupTrash env period s = (.error e, s')) : e = .killed := by
  rcases (wp_error (wp_cleanupTrash env ho period w) h).2 with h3 | h3 | ⟨c, t, m, h3⟩
  · exact h3
  · rw [ht] at h3; cases h3
  · exact absurd (hl _ _ h3) (by simp [Node.isLink])

/-- A trash with an old file, a new file and an old directory that has a new file in it. -/
def exCleanFS : FS :=
  [(["l".toList], .dir 1 8), (["r".toList], .dir 1 8), (["r".toList, "a".toList], .file 7 3 1),
    (exCmdEnv.util, .dir 1 8), (exCmdEnv.trash, .dir 1 8), (exCmdEnv.trash ++ ["b".toList], .file 9 4 1),
    (exCmdEnv.trash ++ ["c".toList], .file 9 500 1), (exCmdEnv.trash ++ ["d".toList], .dir 4 8),
    (exCmdEnv.trash ++ ["d".toList, "a".toList], .file 8 500 1)]

theorem exCleanFS_wf : exCleanFS.WF := ⟨by decide +kernel, by decide +kernel, by decide +kernel, by decide +kernel⟩

def exCleaned (fs : FS) : Except Err Unit × OS := cleanupTrash exCmdEnv 100 ⟨fs, 100, 0, fun n => n + 550⟩

example : (exCleaned exCleanFS).1 = .ok () ∧
    (exCleaned exCleanFS).2.fs.get (exCmdEnv.trash ++ ["b".toList]) = none ∧
    (exCleaned exCleanFS).2.fs.get (exCmdEnv.trash ++ ["d".toList, "a".toList]) = none ∧
    (exCleaned exCleanFS).2.fs.get (exCmdEnv.trash ++ ["c".toList]) = some (.file 9 500 1) := by decide +kernel

/-- The period is meant in the English text of C22: an entry exactly as old as the period is removed. -/
example : (cleanupTrash exCmdEnv 100 ⟨exCleanFS, 100, 0, fun _ => 600⟩).2.fs.get (exCmdEnv.trash ++ ["c".toList]) = none ∧
    (cleanupTrash exCmdEnv 100 ⟨exCleanFS, 100, 0, fun _ => 599⟩).2.fs.get (exCmdEnv.trash ++ ["c".toList]) =
      some (.file 9 500 1) := by decide +kernel

/-- C22 is false for links: a link in the trash makes the clean-up end with an exception, whether its target is
missing or old, and an old file that comes after it stays. -/
theorem C22_links_fail : ∃ fs1 fs2 : FS, fs1.WF ∧ fs2.WF ∧
    (exCleaned fs1).1 = .error .notFound ∧ (exCleaned fs2).1 = .error .invalid ∧
    (exCleaned fs1).2.fs.get (exCmdEnv.trash ++ ["b".toList]) = some (.file 9 4 1) ∧
    (exCleaned fs2).2.fs.get (exCmdEnv.trash ++ ["b".toList]) = some (.file 9 4 1) :=
  ⟨[(["r".toList], .dir 1 8), (exCmdEnv.util, .dir 1 8), (exCmdEnv.trash, .dir 1 8),
    (exCmdEnv.trash ++ ["a".toList], .link "missing".toList 4), (exCmdEnv.trash ++ ["b".toList], .file 9 4 1)],
   [(["r".toList], .dir 1 8), (exCmdEnv.util, .dir 1 8), (exCmdEnv.trash, .dir 1 8),
    (exCmdEnv.trash ++ ["a".toList], .link "b".toList 4), (exCmdEnv.trash ++ ["b".toList], .file 9 4 1)],
   ⟨by decide +kernel, by decide +kernel, by decide +kernel, by decide +kernel⟩,
   ⟨by decide +kernel, by decide +kernel, by decide +kernel, by decide +kernel⟩,
   by decide +kernel, by decide +kernel, by decide +kernel, by decide +kernel⟩

end Verif
