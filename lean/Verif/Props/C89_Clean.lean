import Verif.Props.C89_Trash
import Verif.Props.C22_CleanupTrash
/-!
C22 and C89: the clean-up of the trash with links in the trash. Paths are resolved as the kernel does, and links may lead
anywhere.
-/
namespace Verif
open Prog OSM Call FSTools WM

open Deep (direct_of_get good_of_get SameR sameR_rmtree sameR_remove step_direct real bind_ok) in
/-- One entry of the trash: it is removed if it is old and not a link. -/
theorem Deep.wp_cleanOne (env : Env) (cutoff : Int) {e : Path} {s : OS} (w : s.fs.WF) {n : Node}
    (hg : s.fs.get (env.trash ++ e) = some n) :
    wp (Deep.cleanOne env cutoff e)
      (fun _ s' => (n.isLink = true ∧ s'.fs = s.fs) ∨ (n.isLink = false ∧
        ((cutoff < n.mtime ∧ s'.fs = s.fs) ∨ (n.mtime ≤ cutoff ∧ Shrink (env.trash ++ e <+: ·) s.fs s'.fs ∧
          ∀ q, env.trash ++ e <+: q → s'.fs.get q = none))))
      (fun x s' => (s'.fs = s.fs ∨
        (n.isLink = false ∧ n.mtime ≤ cutoff ∧ Shrink (env.trash ++ e <+: ·) s.fs s'.fs)) ∧
        (x = .killed ∨ n.isLink = true)) s := by
  have htn : env.trash ++ e ≠ [] := by unfold Env.trash Env.util; simp
  have hdir := direct_of_get w hg
  have hgood := good_of_get w hg
  have hsame : SameR s.fs
      (tryCatch (Deep.rmtree (env.trash ++ e)) (fun x => if x = .notDir then some (Deep.remove (env.trash ++ e)) else none))
      (tryCatch (Call.rmtree (env.trash ++ e)) (fun x => if x = .notDir then some (Call.remove (env.trash ++ e)) else none)) := by
    refine .tryCatch (sameR_rmtree w hdir hgood htn) (fun x => ?_)
    by_cases hx : x = .notDir
    · rw [if_pos hx, if_pos hx]; exact Or.inr ⟨_, _, rfl, rfl, sameR_remove hdir hgood⟩
    · rw [if_neg hx, if_neg hx]; exact Or.inl ⟨rfl, rfl⟩
  have hs := (hsame s (Shrink.refl _ _)).1
  cases hl : n.isLink with
  | true =>
    unfold Deep.cleanOne
    rw [wp_bind, wp_query]
    refine ⟨?_, fun x _ => ⟨Or.inl rfl, Or.inr rfl⟩⟩
    intro r _
    split
    · unfold wp
      rw [hs]
      show wp _ _ _ s
      rw [wp_tryCatch]
      have hd : n.isDir = false := by cases n <;> first | rfl | cases hl
      refine wp_mono (wp_rmtree_file w hg hd) (fun _ _ h => h.elim) ?_
      rintro x s' ⟨rfl, ⟨h, _⟩ | ⟨_, rfl⟩⟩
      · cases n <;> cases hl; cases h
      · exact ⟨Or.inl rfl, Or.inr rfl⟩
    · exact wp_pure.2 (Or.inl ⟨rfl, rfl⟩)
  | false =>
    have h1 : Deep.cleanOne env cutoff e s = Verif.cleanOne env cutoff e s := by
      have h2 : Deep.stat s.fs (env.trash ++ e) = .ok (env.trash ++ e, n) := by
        have := step_direct (fs := s.fs) (fol := true) (k := real s.fs true 40) (env.trash ++ e) [] hgood
          (by simp [FS.pathErr]) (by simp [FS.isDir, Node.isDir]) hdir (by
            intro _ t m; rw [List.nil_append, hg]; rintro ⟨rfl⟩; cases hl)
        unfold Deep.stat Deep.target
        rw [show real s.fs true 41 [] (env.trash ++ e) = _ from this, List.nil_append, w.pathErr hg]
        simp [hg]
      have h3 := FS.stat_nonlink (w.pathErr hg) hg hl
      have e1 : OSM.query (fun fs => Deep.stat fs (env.trash ++ e)) s = (.ok (env.trash ++ e, n), s) := by
        unfold OSM.query; dsimp only; rw [h2]
      have e2 : OSM.query (fun fs => FS.stat fs (env.trash ++ e)) s = (.ok (env.trash ++ e, n), s) := by
        unfold OSM.query; dsimp only; rw [h3]
      unfold Deep.cleanOne Verif.cleanOne
      rw [bind_ok e1, bind_ok e2]
      split
      · exact hs
      · rfl
    have h4 := Verif.wp_cleanOne env cutoff w hg
    unfold wp at h4 ⊢
    rw [h1]
    rw [hl] at h4
    exact h4

/-- As `Verif.wp_cleanupTrash`. -/
theorem Deep.wp_cleanupTrash (env : Env) (ho : ∀ l, (env.order l).Perm l) (period : Int) {s : OS} (w : s.fs.WF)
    (htd : s.fs.isDir env.trash = true) :
    wp (Deep.cleanupTrash env period)
      (fun _ s' => Shrink (OldTrash env s.fs (s.clk s.tick - period)) s.fs s'.fs ∧
        ∀ q, OldTrash env s.fs (s.clk s.tick - period) q → s'.fs.get q = none)
      (fun x s' => Shrink (OldTrash env s.fs (s.clk s.tick - period)) s.fs s'.fs ∧
        (x = .killed ∨ s.fs.isDir env.trash = false ∨
          ∃ c t m, s.fs.get (env.trash ++ [c]) = some (.link t m))) s := by
  unfold Deep.cleanupTrash
  rw [wp_bind, wp_time, wp_bind, wp_query]
  generalize s.clk s.tick - period = cutoff
  refine ⟨?_, ?_⟩
  · intro es hes
    rw [Deep.scandir_dir w htd] at hes
    obtain ⟨ht, hnd, hmem⟩ := mem_scandir w hes
    have hone : ∀ x ∈ es, ∃ c, x = [c] := fun x hx => List.length_eq_one_iff.1 ((hmem x).1 hx).1
    have hperm := ho es
    have hndo : (env.order es).Nodup := hperm.nodup_iff.2 hnd
    refine wp_mono (wp_each (fun done (s' : OS) =>
        Shrink (fun q => OldTrash env s.fs cutoff q ∧ ∃ x ∈ done, env.trash ++ x <+: q) s.fs s'.fs ∧
        ∀ x ∈ done, ∀ n, s.fs.get (env.trash ++ x) = some n → n.isLink = false → n.mtime ≤ cutoff →
          ∀ q, env.trash ++ x <+: q → s'.fs.get q = none)
      (E := fun x s' => Shrink (OldTrash env s.fs cutoff) s.fs s'.fs ∧
        (x = .killed ∨ ∃ c t m, s.fs.get (env.trash ++ [c]) = some (.link t m)))
      (env.order es) ?_ ⟨Shrink.refl _ _, by simp⟩) ?_ ?_
    · rintro done x rest hl s1 ⟨h1, h2⟩
      have hx : x ∈ es := by rw [← hperm.mem_iff, hl]; simp
      obtain ⟨hx1, n, hn⟩ := (hmem x).1 hx
      obtain ⟨c, rfl⟩ := hone x hx
      have hxd : [c] ∉ done := by
        rw [hl, List.nodup_append] at hndo
        intro h
        exact hndo.2.2 _ h [c] (by simp) rfl
      have hn1 : s1.fs.get (env.trash ++ [c]) = some n := by
        rw [h1.keeps _ ?_, hn]
        rintro ⟨_, y, hy, hpre⟩
        obtain ⟨d, rfl⟩ := hone y (by rw [← hperm.mem_iff, hl]; simp [hy])
        rw [List.prefix_append_right_inj] at hpre
        have := hpre.eq_of_length rfl
        exact hxd (this ▸ hy)
      have w1 := h1.wf w
      have hold : n.isLink = false → n.mtime ≤ cutoff → ∀ q, env.trash ++ [c] <+: q →
          OldTrash env s.fs cutoff q := fun h h' q hq => ⟨c, n, hn, h, h', hq⟩
      have hstep : Shrink (fun q => OldTrash env s.fs cutoff q ∧ ∃ x ∈ done ++ [[c]], env.trash ++ x <+: q)
          s.fs s1.fs := h1.mono (by
        rintro q ⟨ha, y, hy, hb⟩
        exact ⟨ha, y, by simp [hy], hb⟩)
      refine wp_mono (Deep.wp_cleanOne env cutoff w1 hn1) ?_ ?_
      · rintro _ s2 (⟨h3, h4⟩ | ⟨h3, ⟨h4, h5⟩ | ⟨h4, h5, h6⟩⟩)
        · rw [h4]
          refine ⟨hstep, ?_⟩
          intro y hy n' hn' hnl hm q hq
          rw [List.mem_append, List.mem_singleton] at hy
          rcases hy with hy | rfl
          · exact h2 y hy n' hn' hnl hm q hq
          · rw [hn] at hn'; cases hn'; rw [h3] at hnl; cases hnl
        · rw [h5]
          refine ⟨hstep, ?_⟩
          intro y hy n' hn' hnl hm q hq
          rw [List.mem_append, List.mem_singleton] at hy
          rcases hy with hy | rfl
          · exact h2 y hy n' hn' hnl hm q hq
          · rw [hn] at hn'; cases hn'; omega
        · refine ⟨hstep.trans (h5.mono fun q hq => ⟨hold h3 h4 q hq, [c], by simp, hq⟩), ?_⟩
          intro y hy n' hn' hnl hm q hq
          rw [List.mem_append, List.mem_singleton] at hy
          rcases hy with hy | rfl
          · exact h5.none (h2 y hy n' hn' hnl hm q hq)
          · exact h6 q hq
      · rintro x s2 ⟨h3, h4⟩
        refine ⟨?_, ?_⟩
        · have h1' := h1.mono (P' := OldTrash env s.fs cutoff) (fun q hq => hq.1)
          rcases h3 with h3 | ⟨h3, h5, h6⟩
          · rw [h3]; exact h1'
          · exact h1'.trans (h6.mono (hold h3 h5))
        · refine h4.imp id ?_
          intro h
          cases n with
          | link t m => exact ⟨c, t, m, hn⟩
          | _ => cases h
    · rintro _ s1 ⟨h1, h2⟩
      refine ⟨h1.mono (fun q hq => hq.1), ?_⟩
      rintro q ⟨c, n, hn, hl, hm, hq⟩
      exact h2 [c] (hperm.mem_iff.2 ((hmem [c]).2 ⟨rfl, n, hn⟩)) n hn hl hm q hq
    · rintro x s1 ⟨h1, h2⟩
      exact ⟨h1, h2.imp id Or.inr⟩
  · intro x hx
    obtain ⟨es, hes⟩ := scandir_isDir w htd
    rw [show Deep.scandir s.fs env.trash = _ from Deep.scandir_dir w htd, hes] at hx
    cases hx

/-- The clean-up of the trash with links anywhere, also to directories; at every crash point. Whatever is not at or below
an entry of the trash that is not a link and has an mtime at or before now minus the period is as before; in particular
what links in the trash lead to. If the clean-up succeeds, each such entry is gone with all that is below it. Missing: a
trash that is missing or reached through a link. -/
theorem C89_cleanup_partial {env : Env} (ho : ∀ l, (env.order l).Perm l) (period : Int) {s : OS} (w : s.fs.WF)
    (ht : s.fs.isDir env.trash = true) :
    (∀ q, (∀ c n, s.fs.get (env.trash ++ [c]) = some n → env.trash ++ [c] <+: q →
        n.isLink = true ∨ s.clk s.tick - period < n.mtime) →
      (Deep.cleanupTrash env period s).2.fs.get q = s.fs.get q) ∧
    ((Deep.cleanupTrash env period s).1 = .ok () → ∀ c n, s.fs.get (env.trash ++ [c]) = some n → n.isLink = false →
      n.mtime ≤ s.clk s.tick - period → ∀ q, env.trash ++ [c] <+: q →
        (Deep.cleanupTrash env period s).2.fs.get q = none) := by
  have key := Deep.wp_cleanupTrash env ho period w ht
  refine ⟨?_, ?_⟩
  · intro q hq
    have h : Shrink (OldTrash env s.fs (s.clk s.tick - period)) s.fs (Deep.cleanupTrash env period s).2.fs :=
      wp_state (I := fun s' : OS => Shrink (OldTrash env s.fs (s.clk s.tick - period)) s.fs s'.fs)
        (wp_mono key (fun _ _ h => h.1) (fun _ _ h => h.1))
    apply h.keeps
    rintro ⟨c, n, h1, h2, h3, h4⟩
    rcases hq c n h1 h4 with h5 | h5
    · rw [h2] at h5; cases h5
    · omega
  · intro h c n hn hl hm q hq
    cases hx : Deep.cleanupTrash env period s with
    | mk r t =>
      rw [hx] at h
      cases h
      exact (wp_ok key hx).2 q ⟨c, n, hn, hl, hm, hq⟩

/-- An old directory with a link to the user's directory is in the trash. -/
def exCleanLink : OS :=
  ⟨exBase exEnvE ++ [(["l".toList, "x".toList], .file 4 4 1), (exEnvE.trash ++ ["d".toList], .dir 4 8),
    (exEnvE.trash ++ ["d".toList, "s".toList], .link "/l".toList 4)], 1000, 0, fun n => n + 50⟩

example : exCleanLink.fs.WF ∧ exCleanLink.fs.isDir exEnvE.trash = true ∧
    (Deep.cleanupTrash exEnvE 10 exCleanLink).1 = .ok () ∧
    (Deep.cleanupTrash exEnvE 10 exCleanLink).2.fs.get (exEnvE.trash ++ ["d".toList]) = none ∧
    (Deep.cleanupTrash exEnvE 10 exCleanLink).2.fs.get ["l".toList, "x".toList] = some (.file 4 4 1) :=
  ⟨⟨by decide +kernel, by decide +kernel, by decide +kernel, by decide +kernel⟩, by decide +kernel, by decide +kernel,
   by decide +kernel, by decide +kernel⟩

end Verif
