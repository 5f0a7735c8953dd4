import Verif.Commands
import Verif.Remove
/-
C50: `empty-trash`.
-/
namespace Verif
open Prog OSM Call FSTools

theorem mem_scandir {fs : FS} (w : fs.WF) {p : Path} {es : List Path} (h : scandir fs p = .ok es) :
    fs.isDir p = true ∧ es.Nodup ∧ ∀ e, e ∈ es ↔ e.length = 1 ∧ ∃ n, fs.get (p ++ e) = some n := by
  unfold scandir at h
  split at h
  · rename_i l hl
    cases h
    obtain ⟨h1, rfl⟩ := scanTree_ok w hl
    refine ⟨h1, (nodup_keys_below w p).filter _, ?_⟩
    intro e
    rw [List.mem_filter, mem_keys_below w]
    simp only [decide_eq_true_eq]
    constructor
    · rintro ⟨⟨_, h2⟩, h3⟩; exact ⟨h3, h2⟩
    · rintro ⟨h3, h2⟩; exact ⟨⟨by rintro rfl; simp at h3, h2⟩, h3⟩
  · cases h

/-- A directory can be listed. -/
theorem scandir_isDir {fs : FS} (w : fs.WF) {p : Path} (h : fs.isDir p = true) : ∃ es, scandir fs p = .ok es := by
  obtain ⟨m, b, hg⟩ := FS.isDir_iff.1 h
  unfold scandir scanTree
  rw [FS.stat_nonlink (w.pathErr hg) hg rfl]
  simp

/-- What `empty-trash` may change: directories on the way to the local directory are made, and what is in the
trash is removed. -/
structure Emptied (env : Env) (fs fs' : FS) : Prop where
  mid : ∃ f1, Grow (fun q => q ≠ [] ∧ q <+: env.loc) fs f1 ∧
    Shrink (fun q => env.trash <+: q ∧ env.trash ≠ q) f1 fs'

theorem wp_emptyTrash (env : Env) (ho : ∀ l, (env.order l).Perm l) (hl : GoodPath env.loc) {s : OS} (w : s.fs.WF) :
    wp (emptyTrash env)
      (fun _ s' => Emptied env s.fs s'.fs ∧ ∀ q, env.trash <+: q → env.trash ≠ q → s'.fs.get q = none)
      (fun e s' => Emptied env s.fs s'.fs ∧
        (e = .killed ∨ s.fs.isDir env.loc = false ∨ s.fs.isDir env.trash = false)) s := by
  unfold emptyTrash
  rw [wp_bind]
  have hmk : wp (makedirs env.loc) (fun _ s' => Grow (fun q => q ≠ [] ∧ q <+: env.loc) s.fs s'.fs)
      (fun e s' => Grow (fun q => q ≠ [] ∧ q <+: env.loc) s.fs s'.fs ∧
        (e = .killed ∨ s.fs.isDir env.loc = false)) s := by
    cases hd : s.fs.isDir env.loc with
    | false =>
      exact wp_mono (wp_makedirs env.loc s) (fun _ _ h => h.1) (fun _ _ h => ⟨h, Or.inr rfl⟩)
    | true =>
      obtain ⟨m, b, hg⟩ := FS.isDir_iff.1 hd
      refine wp_mono (wp_makedirs_dir w hg) ?_ ?_
      · rintro _ s' rfl'
        rw [rfl']; exact Grow.refl _ _
      · rintro e s' ⟨h1, h2⟩
        rw [h1]; exact ⟨Grow.refl _ _, Or.inl h2⟩
  refine wp_mono hmk ?_ ?_
  · intro _ s1 hg
    have w1 : s1.fs.WF := hg.wf (fun q hq c hc => hl c (hq.2.subset hc)) w
    have hem : Emptied env s.fs s1.fs := ⟨s1.fs, hg, Shrink.refl _ _⟩
    rw [wp_bind, wp_query]
    refine ⟨?_, ?_⟩
    · intro es hes
      obtain ⟨ht, hnd, hmem⟩ := mem_scandir w1 hes
      have htn : env.trash ≠ [] := by unfold Env.trash Env.util; simp
      have hsub : ∀ x ∈ es, ∀ q, env.trash ++ x <+: q → env.trash <+: q ∧ env.trash ≠ q := by
        intro x hx q hq
        refine ⟨(List.prefix_append _ _).trans hq, ?_⟩
        rintro rfl
        have := hq.length_le
        have h1 := ((hmem x).1 hx).1
        rw [List.length_append] at this
        omega
      refine wp_mono (wp_each (fun done (s' : OS) =>
          Shrink (fun q => env.trash <+: q ∧ env.trash ≠ q) s1.fs s'.fs ∧
          ∀ e ∈ done, ∀ q, env.trash ++ e <+: q → s'.fs.get q = none)
        (E := fun e s' => Shrink (fun q => env.trash <+: q ∧ env.trash ≠ q) s1.fs s'.fs ∧ e = .killed)
        (env.order es) ?_ ⟨Shrink.refl _ _, by simp⟩) ?_ ?_
      · rintro done x rest hl s2 ⟨h1, h2⟩
        have hx : x ∈ es := by rw [← (ho es).mem_iff, hl]; simp
        have hx1 := ((hmem x).1 hx).1
        have hx0 : x ≠ [] := by rintro rfl; simp at hx1
        unfold emptyOne
        refine wp_mono (wp_rmAny (by simp [hx0]) (h1.wf w1)) ?_ ?_
        · rintro _ s3 ⟨h3, h4⟩
          refine ⟨h1.trans (h3.mono (hsub x hx)), ?_⟩
          intro e he q hq
          rw [List.mem_append, List.mem_singleton] at he
          rcases he with he | rfl
          · exact h3.none (h2 e he q hq)
          · exact h4 q hq
        · rintro e s3 ⟨h3, h4⟩
          refine ⟨h1.trans (h3.mono (hsub x hx)), h4.resolve_right ?_⟩
          rintro ⟨_, h5⟩
          have h6 : (env.trash ++ x).dropLast = env.trash := by
            obtain ⟨c, rfl⟩ := List.length_eq_one_iff.1 hx1
            simp
          rw [h6, FS.isDir_congr (h1.keeps _ (fun h => h.2 rfl)), ht] at h5
          cases h5
      · rintro _ s2 ⟨h1, h2⟩
        refine ⟨⟨s1.fs, hg, h1⟩, ?_⟩
        rintro q ⟨t, rfl⟩ hne
        cases t with
        | nil => simp at hne
        | cons c t =>
          cases hc : s1.fs.get (env.trash ++ [c]) with
          | none =>
            apply h1.none
            by_cases ht0 : t = []
            · subst ht0; exact hc
            · refine w1.none_below (p := env.trash ++ [c]) (by unfold FS.isDir; rw [hc]; rfl)
                ⟨t, by simp⟩ (by simpa using ht0)
          | some n =>
            exact h2 [c] ((ho es).mem_iff.2 ((hmem [c]).2 ⟨rfl, n, hc⟩)) _ ⟨t, by simp⟩
      · rintro e s2 ⟨h1, h2⟩
        exact ⟨⟨s1.fs, hg, h1⟩, Or.inl h2⟩
    · intro e he
      refine ⟨hem, Or.inr (Or.inr ?_)⟩
      cases hd : s.fs.isDir env.trash with
      | false => rfl
      | true =>
        obtain ⟨m, b, hd⟩ := FS.isDir_iff.1 hd
        obtain ⟨es, hes⟩ := scandir_isDir w1 (FS.isDir_iff.2 ⟨m, b, hg.keeps _ _ hd⟩)
        rw [hes] at he; cases he
  · rintro e s1 ⟨h1, h2⟩
    exact ⟨⟨s1.fs, h1, Shrink.refl _ _⟩, h2.imp id Or.inl⟩

/-- C50: when `empty-trash` succeeds, nothing is left in the trash. -/
theorem C50_empties {env : Env} (ho : ∀ l, (env.order l).Perm l) (hl : GoodPath env.loc) {s s' : OS}
    (w : s.fs.WF) (h : emptyTrash env s = (.ok (), s')) :
    ∀ p, p ≠ [] → s'.fs.get (env.trash ++ p) = none := by
  intro p hp
  exact (wp_ok (wp_emptyTrash env ho hl w) h).2 _ (List.prefix_append _ _) (by simpa using hp)

/-- C50: however `empty-trash` ends, whatever is not inside the trash is unchanged (in particular the trash
directory itself); what is new is a directory on the way to the local directory. -/
theorem C50_rest_unchanged {env : Env} (ho : ∀ l, (env.order l).Perm l) (hl : GoodPath env.loc) {s : OS}
    (w : s.fs.WF) :
    (∀ q n, s.fs.get q = some n → (∀ p, p ≠ [] → q ≠ env.trash ++ p) →
      (emptyTrash env s).2.fs.get q = some n) ∧
    (∀ q, s.fs.get q = none → (emptyTrash env s).2.fs.get q ≠ none →
      q <+: env.loc ∧ (emptyTrash env s).2.fs.isDir q = true) := by
  have h : Emptied env s.fs (emptyTrash env s).2.fs :=
    wp_state (I := fun s' : OS => Emptied env s.fs s'.fs)
      (wp_mono (wp_emptyTrash env ho hl w) (fun _ _ h => h.1) (fun _ _ h => h.1))
  obtain ⟨f1, h1, h2⟩ := h.mid
  refine ⟨?_, ?_⟩
  · intro q n hq hx
    rw [h2.keeps q, h1.keeps q n hq]
    rintro ⟨⟨t, rfl⟩, hne⟩
    exact hx t (by rintro rfl; simp at hne) rfl
  · intro q hq hq'
    rcases h1.new q hq with h3 | ⟨h3, h4⟩
    · exact absurd (h2.none h3) hq'
    · refine ⟨h3.2, ?_⟩
      rcases h2.gone q with h5 | h5
      · rw [FS.isDir_congr h5]; exact h4
      · exact absurd h5 hq'

/-- C50: with both directories in place it fails only if it is killed, so every entry that is in the trash,
whatever its type, can be removed. -/
theorem C50_succeeds {env : Env} (ho : ∀ l, (env.order l).Perm l) (hl : GoodPath env.loc) {s s' : OS} {e : Err}
    (w : s.fs.WF) (h1 : s.fs.isDir env.loc = true) (h2 : s.fs.isDir env.trash = true)
    (h : emptyTrash env s = (.error e, s')) : e = .killed := by
  rcases (wp_error (wp_emptyTrash env ho hl w) h).2 with h3 | h3 | h3
  · exact h3
  · rw [h1] at h3; cases h3
  · rw [h2] at h3; cases h3

/-! ### The hypotheses can be met -/

/-- A profile of a local directory `/l` and a remote directory `/r`. -/
def exCmdEnv : Env where
  loc := ["l".toList]
  rem := ["r".toList]
  excl := ["x".toList]
  id := "id".toList
  patsOf c := if c = 1 then [fun p => decide (p = ["e".toList])] else []
  stamp _ := "20170101-000000".toList
  order l := l
  useTrash := true
  inflate := true
  accountForSize := false
  storageLimit := 1000000
  cleanup := some 100
  symlinkSize := 1

/-- A trash with a file, a link and a directory. -/
def exTrashFS : FS :=
  [(["l".toList], .dir 1 8), (["r".toList], .dir 1 8), (["r".toList, "a".toList], .file 7 3 1),
    (exCmdEnv.util, .dir 1 8), (exCmdEnv.trash, .dir 1 8), (exCmdEnv.trash ++ ["b".toList], .file 9 4 1),
    (exCmdEnv.trash ++ ["c".toList], .link "/nowhere".toList 4), (exCmdEnv.trash ++ ["d".toList], .dir 4 8),
    (exCmdEnv.trash ++ ["d".toList, "a".toList], .file 8 5 1)]

theorem exTrashFS_wf : exTrashFS.WF :=
  ⟨by decide +kernel, by decide +kernel, by decide +kernel, by decide +kernel⟩

def exEmptied : Except Err Unit × OS := emptyTrash exCmdEnv ⟨exTrashFS, 100, 0, fun n => n + 10⟩

example : (∀ l, (exCmdEnv.order l).Perm l) ∧ GoodPath exCmdEnv.loc ∧ exTrashFS.isDir exCmdEnv.loc = true ∧
    exTrashFS.isDir exCmdEnv.trash = true := ⟨fun l => List.Perm.refl l, by decide +kernel⟩

example : exEmptied.1 = .ok () ∧ exEmptied.2.fs.get (exCmdEnv.trash ++ ["d".toList, "a".toList]) = none ∧
    exEmptied.2.fs.get ["r".toList, "a".toList] = some (.file 7 3 1) ∧
    exEmptied.2.fs.isDir exCmdEnv.trash = true := by decide +kernel

/-- Killed after two removals. -/
example : (emptyTrash exCmdEnv ⟨exTrashFS, 3, 0, fun n => n + 10⟩).1 = .error .killed ∧
    (emptyTrash exCmdEnv ⟨exTrashFS, 3, 0, fun n => n + 10⟩).2.fs.get (exCmdEnv.trash ++ ["b".toList]) = none ∧
    (emptyTrash exCmdEnv ⟨exTrashFS, 3, 0, fun n => n + 10⟩).2.fs.get ["r".toList, "a".toList] =
      some (.file 7 3 1) := by decide +kernel

end Verif
