import Verif.Setup
/-
The steps of a reset.
-/
namespace Verif
open Prog OSM Call FSTools WM

/-! ### A transfer of files that may be missing -/

/-- A prefix of a listed path exists. -/
theorem Listed.some {fs : FS} (w : fs.WF) {root : Path} {files : Option (List Path)} {p q : Path}
    (h : Listed fs root files p) (hq : q <+: p) :
    ∃ n, fs.get (root ++ q) = some n ∧ (q ≠ p → n.isDir = true) := by
  obtain ⟨⟨n, hn⟩, _, _⟩ := h
  by_cases hqp : q = p
  · subst hqp; exact ⟨n, hn, fun h => absurd rfl h⟩
  · have hd := w.isDir_prefix hn (root ++ q) (List.prefix_append_right_inj root |>.2 hq) (by simp [hqp])
    obtain ⟨m, b, hg⟩ := FS.isDir_iff.1 hd
    exact ⟨_, hg, fun _ => rfl⟩

/-- Nothing that is not a directory is above `p`. -/
def NoFileAbove (fs : FS) (root p : Path) : Prop :=
  ∀ q n, q <+: p → q ≠ p → fs.get (root ++ q) = some n → n.isDir = true

theorem pathErr_ne_notDir {fs : FS} (w : fs.WF) {root p : Path} (hr : fs.isDir root = true)
    (h : NoFileAbove fs root p) : fs.pathErr (root ++ p) ≠ some .notDir := by
  intro he
  unfold FS.pathErr at he
  obtain ⟨q, hq, hq'⟩ := List.exists_of_findSome?_eq_some he
  obtain ⟨h1, h2⟩ := FS.mem_takes.1 hq
  have hnd : ∀ n, fs.get q = some n → n.isDir = true := by
    intro n hn
    rcases List.prefix_or_prefix_of_prefix h1 (List.prefix_append root p) with h3 | ⟨t, rfl⟩
    · obtain ⟨m, b, hg⟩ := FS.isDir_iff.1 hr
      by_cases hqr : q = root
      · rw [← isDir_iff_false hn, hqr]; exact hr
      · rw [← isDir_iff_false hn]; exact w.isDir_prefix hg q h3 hqr
    · refine h t n ?_ ?_ hn
      · rwa [List.prefix_append_right_inj] at h1
      · rintro rfl; exact h2 rfl
  rcases Option.eq_none_or_eq_some (fs.get q) with h3 | ⟨n, h3⟩
  · simp [h3] at hq'
  · have := hnd n h3
    cases n with
    | dir m b => simp [h3] at hq'
    | file c m b => cases this
    | link t m => cases this

theorem scanTree_missing {fs : FS} (w : fs.WF) {root p : Path} (hr : fs.isDir root = true)
    (h : NoFileAbove fs root p) (hn : fs.get (root ++ p) = none) :
    ∃ e, scanTree fs (root ++ p) = .error e ∧ e ≠ .notDir := by
  have hne := pathErr_ne_notDir w hr h
  unfold scanTree FS.stat
  rcases Option.eq_none_or_eq_some (fs.pathErr (root ++ p)) with hp | ⟨e, hp⟩
  · rw [FS.follow_nonlink hp (by simp [hn])]
    exact ⟨.notFound, by simp [hn], by simp⟩
  · rw [FS.follow]
    simp only [hp]
    exact ⟨e, rfl, by rintro rfl; exact hne hp⟩

theorem relPaths_missing {fs : FS} {source f : Path} {e : Err} (he : scanTree fs (source ++ f) = .error e)
    (hne : e ≠ .notDir) : ∀ {files acc ps : List Path}, f ∈ files → relPaths fs source files acc ≠ .ok ps
  | [], _, _, h => by simp at h
  | x :: files, acc, ps, h => by
    intro hr
    unfold relPaths at hr
    by_cases hx : x = f
    · subst hx
      rw [he] at hr
      split at hr
      · rename_i h'; cases h'
      · rename_i h'; cases h'; exact hne rfl
      · cases hr
    · have hf : f ∈ files := by simpa [Ne.symm hx] using h
      split at hr
      · exact relPaths_missing he hne hf hr
      · exact relPaths_missing he hne hf hr
      · cases hr

/-- `transfer_tree`, if the destinations of the listed files are clean. A missing file is noticed before anything
is copied. -/
theorem wp_transferTree_missing {source dest : Path} {fl exclude : List Path} {rm : Bool}
    {s : OS} (ha : Apart source dest) (w : s.fs.WF) (hsd : s.fs.isDir source = true)
    (hdd : s.fs.isDir dest = true) (hex : ∀ f ∈ fl, NoFileAbove s.fs source f)
    (hc : ∀ p, Listed s.fs source (some fl) p → p ∉ exclude →
      ∀ q, q <+: p → Clean s.fs (source ++ q) (dest ++ q)) :
    wp (transferTree source dest (some fl) exclude rm)
      (fun _ s' => ∃ l, Moved source dest rm s.fs l s'.fs ∧
        (∀ p ∈ l, Listed s.fs source (some fl) p ∧ p ∉ exclude) ∧
        (∀ p, Listed s.fs source (some fl) p → p ∉ exclude → p ∈ l ∨ s.fs.isDir (source ++ p) = true) ∧
        (∀ f ∈ fl, ∃ n, s.fs.get (source ++ f) = some n))
      (fun _ s' => ∃ l, Moving source dest rm s.fs l s'.fs ∧
        (∀ p ∈ l, Listed s.fs source (some fl) p ∧ p ∉ exclude)) s := by
  by_cases hall : ∀ f ∈ fl, ∃ n, s.fs.get (source ++ f) = some n
  · refine wp_mono (wp_transferTree ha w hsd hdd (fun fl' h => by cases h; exact hall) hc) ?_ (fun _ _ h => h)
    rintro _ s' ⟨l, h1, h2, h3⟩
    refine ⟨l, h1, h2, ?_, hall⟩
    intro p hp hx
    rcases h3 p hp hx with h4 | ⟨_, _, _, h4⟩
    · exact Or.inl h4
    · exact Or.inr h4
  · obtain ⟨f, hf, hn⟩ : ∃ f ∈ fl, s.fs.get (source ++ f) = none := by
      apply Classical.byContradiction
      intro hcon
      apply hall
      intro f hf
      rcases Option.eq_none_or_eq_some (s.fs.get (source ++ f)) with h | h
      · exact absurd ⟨f, hf, h⟩ hcon
      · exact h
    obtain ⟨e, he, hne⟩ := scanTree_missing w hsd (hex f hf) hn
    have hno : ∃ l, Moving source dest rm s.fs l s.fs ∧
        (∀ p ∈ l, Listed s.fs source (some fl) p ∧ p ∉ exclude) := ⟨[], Moving.refl _ _ _ w, by simp⟩
    unfold transferTree
    rw [wp_bind, wp_ask]
    split
    · rw [wp_bind, wp_query]
      refine ⟨?_, fun _ _ => hno⟩
      intro ps hps
      exact absurd hps (relPaths_missing he hne hf)
    · rw [wp_throw]
      exact hno

/-! ### Clearing the remote directory -/

theorem isEmpty_nonDirs {fs : FS} (w : fs.WF) {root : Path}
    (h : ((Scan.user (fs.below root)).nonDirs).isEmpty = true) {p : Path} {n : Node} (hu : UserPath p)
    (hn : fs.get (root ++ p) = some n) : n.isDir = true := by
  cases hd : n.isDir with
  | true => rfl
  | false =>
    have : p ∈ ((Scan.user (fs.below root)).nonDirs).keys :=
      mem_nonDirs_keys.2 ⟨n, (mem_user_below w).2 ⟨hn, hu⟩, hd⟩
    rw [List.isEmpty_iff] at h
    rw [h] at this
    simp [Scan.keys] at this

/-- The remote directory is cleared only if it has nothing but directories outside the util directory. -/
theorem wp_clearRemote {env : Env} (ho : ∀ l, (env.order l).Perm l) {w : World} (wf : w.os.fs.WF)
    (hu : w.os.fs.isDir env.util = true) :
    wp (clearRemote env)
      (fun _ w' => Shrink (fun q => env.rem <+: q ∧ env.rem ≠ q) w.os.fs w'.os.fs ∧ w'.lmemo = w.lmemo ∧ w'.rdbSaved = w.rdbSaved ∧
        (∀ p n, UserPath p → w.os.fs.get (env.rem ++ p) = some n → n.isDir = true) ∧
        ∀ p, p ≠ [] → w'.os.fs.get (env.rem ++ p) = none)
      (fun e w' => w'.rdbSaved = w.rdbSaved ∧
        (w'.os.fs = w.os.fs ∨ (Shrink (fun q => env.rem <+: q ∧ env.rem ≠ q) w.os.fs w'.os.fs ∧
        ∀ p n, UserPath p → w.os.fs.get (env.rem ++ p) = some n → n.isDir = true)) ∧
        ((∀ p n, UserPath p → w.os.fs.get (env.rem ++ p) = some n → n.isDir = true) → e = .killed)) w := by
  obtain ⟨um, ub, hug⟩ := FS.isDir_iff.1 hu
  have hrd : w.os.fs.isDir env.rem = true :=
    wf.isDir_prefix hug env.rem (by unfold Env.util; exact List.prefix_append _ _) (by unfold Env.util; simp)
  unfold clearRemote
  rw [wp_bind]
  unfold rescanRemote
  rw [wp_bind, wp_sys, wp_query, scanNodes_of wf hrd]
  refine ⟨?_, fun e h => by cases h⟩
  rintro _ ⟨⟩
  rw [wp_bind, wp_modify, wp_pure]
  split
  swap
  · rename_i hne
    rw [wp_throw]
    refine ⟨rfl, Or.inl rfl, fun hd => ?_⟩
    exfalso
    apply hne
    rw [List.isEmpty_iff]
    apply List.eq_nil_iff_forall_not_mem.2
    rintro ⟨p, n⟩ hp
    obtain ⟨n', h1, h2⟩ := mem_nonDirs_keys.1 (show p ∈ ((Scan.user (w.os.fs.below env.rem)).nonDirs).keys from
      List.mem_map.2 ⟨(p, n), hp, rfl⟩)
    obtain ⟨h3, h4⟩ := (mem_user_below wf).1 h1
    rw [hd p n' h4 h3] at h2; cases h2
  rename_i hemp
  have hdirs : ∀ p n, UserPath p → w.os.fs.get (env.rem ++ p) = some n → n.isDir = true :=
    fun p n hu hn => isEmpty_nonDirs wf hemp hu hn
  rw [wp_sys, wp_tryCatch, wp_bind, wp_query]
  refine ⟨?_, ?_⟩
  swap
  · intro e he
    obtain ⟨es, hes⟩ := scandir_isDir wf hrd
    have he' : scandir w.os.fs env.rem = .error e := he
    rw [hes] at he'
    cases he'
  intro es hes
  have hes : scandir w.os.fs env.rem = .ok es := hes
  obtain ⟨_, hnd, hmem⟩ := mem_scandir wf hes
  have hedir : ∀ x ∈ es, w.os.fs.isDir (env.rem ++ x) = true := by
    intro x hx
    obtain ⟨h1, n, hn⟩ := (hmem x).1 hx
    obtain ⟨c, rfl⟩ := List.length_eq_one_iff.1 h1
    by_cases hc : c = Env.utilName
    · subst hc; exact hu
    · rw [isDir_iff_false hn]
      exact hdirs _ n ⟨by simp, by simpa using hc⟩ hn
  have hsub : ∀ x ∈ es, ∀ q, env.rem ++ x <+: q → env.rem <+: q ∧ env.rem ≠ q := by
    intro x hx q hq
    refine ⟨(List.prefix_append _ _).trans hq, ?_⟩
    rintro rfl
    have := hq.length_le
    have h1 := ((hmem x).1 hx).1
    rw [List.length_append] at this
    omega
  have hnd' : (env.order es).Nodup := (ho es).nodup_iff.2 hnd
  refine wp_mono (wp_each (fun done (s' : OS) =>
      Shrink (fun q => env.rem <+: q ∧ env.rem ≠ q) w.os.fs s'.fs ∧
      (∀ e ∈ done, ∀ q, env.rem ++ e <+: q → s'.fs.get q = none) ∧
      (∀ e ∈ es, e ∉ done → s'.fs.isDir (env.rem ++ e) = true))
    (E := fun e s' => Shrink (fun q => env.rem <+: q ∧ env.rem ≠ q) w.os.fs s'.fs ∧ e = .killed)
    (env.order es) ?_ ⟨Shrink.refl _ _, by simp, fun e he _ => hedir e he⟩) ?_ ?_
  · rintro done x rest hl s2 ⟨h1, h2, h5⟩
    have hx : x ∈ es := by rw [← (ho es).mem_iff, hl]; simp
    have hxd : x ∉ done := by
      rw [hl, List.nodup_append] at hnd'
      exact fun h => hnd'.2.2 x h x (by simp) rfl
    have hx1 := ((hmem x).1 hx).1
    have hx0 : x ≠ [] := by rintro rfl; simp at hx1
    unfold clearOne
    refine wp_mono (wp_rmtree (by simp [hx0]) (h1.wf wf) (h5 x hx hxd)) ?_ ?_
    · rintro _ s3 ⟨h3, h4⟩
      refine ⟨h1.trans (h3.mono (hsub x hx)), ?_, ?_⟩
      · intro e he q hq
        rw [List.mem_append, List.mem_singleton] at he
        rcases he with he | rfl
        · exact h3.none (h2 e he q hq)
        · exact h4 q hq
      · intro e he hed
        rw [List.mem_append, List.mem_singleton, not_or] at hed
        rw [FS.isDir_congr (h3.keeps _ ?_)]
        · exact h5 e he hed.1
        · intro hpre
          rw [List.prefix_append_right_inj] at hpre
          have h6 := ((hmem e).1 he).1
          exact hed.2 (hpre.eq_of_length (by omega)).symm
    · rintro e s3 ⟨h3, h4⟩
      exact ⟨h1.trans (h3.mono (hsub x hx)), h4⟩
  · rintro _ s2 ⟨h1, h2, _⟩
    refine ⟨h1, rfl, rfl, hdirs, ?_⟩
    intro p hp
    cases p with
    | nil => exact absurd rfl hp
    | cons c t =>
      rcases Option.eq_none_or_eq_some (w.os.fs.get (env.rem ++ [c])) with hc | ⟨n, hc⟩
      · apply h1.none
        by_cases ht0 : t = []
        · subst ht0; exact hc
        · refine wf.none_below (p := env.rem ++ [c]) (by unfold FS.isDir; rw [hc]; rfl)
            ⟨t, by simp⟩ (by simpa using ht0)
      · exact h2 [c] ((ho es).mem_iff.2 ((hmem [c]).2 ⟨rfl, n, hc⟩)) _ ⟨t, by simp⟩
  · rintro e s2 ⟨h1, h2⟩
    subst h2
    exact ⟨rfl, Or.inr ⟨h1, hdirs⟩, fun _ => rfl⟩

/-! ### Removing the links -/

/-- Only links in the local directory have been removed. -/
structure Unlinked (env : Env) (fs fs' : FS) : Prop where
  shrink : Shrink (fun q => env.loc <+: q) fs fs'
  keeps : ∀ q n, fs.get q = some n → n.isLink = false → fs'.get q = some n

theorem Unlinked.refl (env : Env) (fs : FS) : Unlinked env fs fs := ⟨Shrink.refl _ _, fun _ _ h _ => h⟩

theorem Unlinked.trans {env : Env} {a b c : FS} (h1 : Unlinked env a b) (h2 : Unlinked env b c) : Unlinked env a c :=
  ⟨h1.shrink.trans h2.shrink, fun q n h hn => h2.keeps q n (h1.keeps q n h hn) hn⟩

theorem wp_unlinkOne {env : Env} {p : Path} {s : OS} (w : s.fs.WF) :
    wp (unlinkOne env p)
      (fun _ s' => Unlinked env s.fs s'.fs ∧ ∀ t m, s'.fs.get (env.loc ++ p) = some (.link t m) →
        pointsToRemote env (env.loc ++ p) t = false)
      (fun _ s' => Unlinked env s.fs s'.fs) s := by
  unfold unlinkOne
  rw [wp_bind, wp_query]
  refine ⟨?_, fun _ _ => Unlinked.refl _ _⟩
  intro n hn
  have hg := w.lstat_iff.1 hn
  cases n with
  | file c m b => exact Unlinked.refl _ _
  | dir m b => exact Unlinked.refl _ _
  | link t m =>
    dsimp only
    split
    · refine wp_mono (wp_remove _ s) ?_ ?_
      · rintro _ s' ⟨h1, h2⟩
        refine ⟨⟨h1.mono (by rintro q rfl; exact List.prefix_append _ _), ?_⟩, ?_⟩
        · intro q n hq hl
          rw [h1.keeps q ?_, hq]
          rintro rfl
          rw [hg] at hq
          cases hq
          cases hl
        · intro t' m' h
          rw [h2] at h
          cases h
      · rintro _ s' ⟨h1, _⟩
        rw [h1]; exact Unlinked.refl _ _
    · rename_i hp
      rw [wp_pure]
      refine ⟨Unlinked.refl _ _, ?_⟩
      intro t' m' h
      rw [hg] at h
      cases h
      simpa using hp

theorem wp_unlinkAll {env : Env} {s : OS} (w : s.fs.WF) (l : List Path) :
    wp (each (unlinkOne env) l)
      (fun _ s' => Unlinked env s.fs s'.fs ∧ ∀ p ∈ l, ∀ t m, s'.fs.get (env.loc ++ p) = some (.link t m) →
        pointsToRemote env (env.loc ++ p) t = false)
      (fun _ s' => Unlinked env s.fs s'.fs) s := by
  apply wp_each (fun done (s' : OS) => Unlinked env s.fs s'.fs ∧ ∀ p ∈ done, ∀ t m,
    s'.fs.get (env.loc ++ p) = some (.link t m) → pointsToRemote env (env.loc ++ p) t = false)
  · rintro done x rest hl s1 ⟨h1, h2⟩
    refine wp_mono (wp_unlinkOne (h1.shrink.wf w)) ?_ (fun _ _ h => h1.trans h)
    rintro _ s2 ⟨h3, h4⟩
    refine ⟨h1.trans h3, ?_⟩
    intro p hp t m hg
    rw [List.mem_append, List.mem_singleton] at hp
    rcases hp with hp | rfl
    · exact h2 p hp t m (h3.shrink.some hg)
    · exact h4 t m hg
  · exact ⟨Unlinked.refl _ _, by simp⟩

/-- A link of the program to a file in the remote directory is recognized. -/
theorem pointsToRemote_abs {env : Env} (hr : GoodPath env.rem) {p q : Path} (hp : GoodPath p) :
    pointsToRemote env q (absStr (env.rem ++ p)) = true := by
  unfold pointsToRemote
  have : Posix.isabs (absStr (env.rem ++ p)) = true := by simp [Posix.isabs, absStr]
  simp only [this, if_true, decide_eq_true_eq]
  rw [commonpath_abs_eq_right (goodPath_append.2 ⟨hr, hp⟩) hr]
  exact List.prefix_append _ _

theorem wp_rmExcludeFile {env : Env} (s : OS) :
    wp (rmExcludeFile env)
      (fun _ s' => Shrink (· = env.exclDir ++ [env.id]) s.fs s'.fs)
      (fun _ s' => Shrink (· = env.exclDir ++ [env.id]) s.fs s'.fs) s := by
  unfold rmExcludeFile
  rw [wp_tryCatch]
  refine wp_mono (wp_remove _ s) (fun _ _ h => h.1) ?_
  rintro e s' ⟨h1, _⟩
  rw [h1]
  split
  · exact Shrink.refl _ _
  · by_cases he : e = .notFound
    · subst he
      simp only [if_true]
      rw [wp_pure, h1]
      exact Shrink.refl _ _
    · simp only [he, if_false]
      exact Shrink.refl _ _

end Verif
