import Verif.CheckDir
import Verif.Safe
import Verif.Props.C44_Init
import Verif.Props.C70_AddRemote
/-
C83: what the checks of a new initialisation are good for.
-/
namespace Verif
open Prog OSM Call FSTools WM

/-- No link is at a path. -/
def NoLinkAt (fs : FS) (p : Path) : Prop := ∀ t m, fs.get p ≠ some (.link t m)

/-- On the way to a path. -/
def OnWay (p q : Path) : Prop := q ≠ [] ∧ q <+: p

theorem isDir_of_pathIsDir {fs : FS} {p : Path} (hl : NoLinkAt fs p) (h : fs.pathIsDir p = true) :
    fs.isDir p = true := by
  have he := pathErr_of_pathIsDir h
  unfold FS.pathIsDir FS.stat at h
  rw [FS.follow_nonlink he hl] at h
  dsimp only at h
  unfold FS.isDir
  cases hg : fs.get p with
  | none => rw [hg] at h; cases h
  | some n => rw [hg] at h; simpa using h

theorem get_none_of_not_exists {fs : FS} (wf : fs.WF) {p : Path} (hl : NoLinkAt fs p) (h : fs.pathExists p = false) :
    fs.get p = none := by
  rcases Option.eq_none_or_eq_some (fs.get p) with h1 | ⟨n, h1⟩
  · exact h1
  · have hn : n.isLink = false := by
      cases n with
      | link t m => exact absurd h1 (hl t m)
      | _ => rfl
    unfold FS.pathExists at h
    rw [FS.stat_nonlink (wf.pathErr h1) h1 hn] at h
    cases h

/-- Nothing is in a directory of which the listing is empty. -/
theorem none_of_scandir {fs : FS} (wf : fs.WF) {p : Path} (hd : fs.isDir p = true) {es : List Path}
    (h : scandir fs p = .ok es) (h0 : es.isEmpty = true) {q : Path} (hq : q ≠ []) : fs.get (p ++ q) = none := by
  rcases Option.eq_none_or_eq_some (fs.get (p ++ q)) with h1 | ⟨n, h1⟩
  · exact h1
  · rw [scandir_ok wf hd] at h
    cases h
    obtain ⟨a, t, rfl⟩ : ∃ a t, q = a :: t := by
      cases q with
      | nil => exact absurd rfl hq
      | cons a t => exact ⟨a, t, rfl⟩
    have h2 : ∃ n', fs.get (p ++ [a]) = some n' := by
      by_cases ht : t = []
      · subst ht; exact ⟨n, h1⟩
      · obtain ⟨m, b, h3⟩ := FS.isDir_iff.1 (wf.isDir_prefix h1 (p ++ [a]) ⟨t, by simp⟩ (by simp [ht]))
        exact ⟨_, h3⟩
    obtain ⟨n', h2⟩ := h2
    have h3 : [a] ∈ ((fs.below p).map Prod.fst).filter (fun e => decide (e.length = 1)) := by
      rw [List.mem_filter]
      exact ⟨List.mem_map.2 ⟨([a], n'), wf.mem_below_iff.2 ⟨h2, by simp⟩, rfl⟩, by simp⟩
    rw [List.isEmpty_iff.1 h0] at h3
    cases h3

/-- `check_dir` for a directory that is to be empty. -/
theorem wp_checkDir_empty {p : Path} {s : OS} (wf : s.fs.WF) (hl : NoLinkAt s.fs p) :
    wp (checkDir p true)
      (fun b s' => Grow (OnWay p) s.fs s'.fs ∧ (b = true → s'.fs.isDir p = true ∧ ∀ q, q ≠ [] → s.fs.get (p ++ q) = none))
      (fun _ s' => Grow (OnWay p) s.fs s'.fs ∧ ∀ q, q ≠ [] → s.fs.get (p ++ q) = none) s := by
  unfold checkDir
  rw [wp_bind, wp_ask]
  split
  · rw [wp_bind, wp_ask]
    split
    · rename_i hd
      have hd := isDir_of_pathIsDir hl hd
      rw [if_pos rfl, wp_bind, wp_query]
      refine ⟨?_, fun e he => by rw [scandir_ok wf hd] at he; cases he⟩
      intro es hes
      rw [wp_pure]
      exact ⟨Grow.refl _ _, fun h0 => ⟨hd, fun q hq => none_of_scandir wf hd hes h0 hq⟩⟩
    · rw [wp_pure]
      exact ⟨Grow.refl _ _, fun h => by cases h⟩
  · rename_i he
    have hn := get_none_of_not_exists wf hl (by simpa using he)
    have hnone : ∀ q, q ≠ [] → s.fs.get (p ++ q) = none := by
      intro q hq
      refine wf.none_below (p := p) ?_ ⟨q, rfl⟩ (by simpa using hq)
      unfold FS.isDir; rw [hn]; rfl
    rw [if_pos rfl, wp_bind]
    refine wp_mono (wp_makedirs p s) ?_ (fun _ _ h => ⟨h, hnone⟩)
    rintro _ s' ⟨h1, h2⟩
    rw [wp_pure]
    refine ⟨h1, fun _ => ⟨?_, hnone⟩⟩
    · apply isDir_of_pathIsDir _ h2
      intro t m h3
      rcases h1.new p hn with h4 | ⟨_, h4⟩
      · rw [h4] at h3; cases h3
      · obtain ⟨m', b', h5⟩ := FS.isDir_iff.1 h4
        rw [h5] at h3; cases h3

/-- `check_dir` for a directory that is to exist. -/
theorem wp_checkDir_exists {p : Path} {s : OS} (hl : NoLinkAt s.fs p) :
    wp (checkDir p false) (fun b s' => s' = s ∧ (b = true → s.fs.isDir p = true)) (fun _ _ => False) s := by
  unfold checkDir
  rw [wp_bind, wp_ask]
  split
  · rw [wp_bind, wp_ask]
    split
    · rename_i hd
      rw [if_neg (by simp), wp_pure]
      exact ⟨rfl, fun _ => isDir_of_pathIsDir hl hd⟩
    · rw [wp_pure]
      exact ⟨rfl, fun h => by cases h⟩
  · rw [if_neg (by simp), wp_pure]
    exact ⟨rfl, fun h => by cases h⟩

variable {env : Env} {w : World} {prog : Str} {others : List Str}

/-- The state in which a new initialisation from local files starts. Nothing is said about what is in the remote
directory, or whether there is one. -/
structure NewReady (env : Env) (w : World) : Prop where
  wf : w.os.fs.WF
  apart : Apart env.loc env.rem
  loc_link : NoLinkAt w.os.fs env.loc
  rem_link : NoLinkAt w.os.fs env.rem
  rem_good : GoodPath env.rem
  id_good : GoodPath [env.id]
  excl : ∃ k m b, w.os.fs.get env.excl = some (.file k m b)
  no_util : w.os.fs.get (env.loc ++ [Env.utilName]) = none
  lmemo : w.lmemo = []
  rmemo : w.rmemo = []
  fresh : w.matches_ = none
  rows : w.db = []
  saved : w.dbSaved = []
  rrows : w.rdb = []

/-- What the checks leave: at most new directories on the way to the remote directory, which is empty if they are passed. -/
theorem wp_checkDirs_new (h : NewReady env w) :
    wp (checkDirs env prog others false)
      (fun _ s' => Grow (OnWay env.rem) w.os.fs s'.fs ∧ w.os.fs.isDir env.loc = true ∧ s'.fs.isDir env.rem = true ∧
        ∀ q, q ≠ [] → w.os.fs.get (env.rem ++ q) = none)
      (fun e s' => Grow (OnWay env.rem) w.os.fs s'.fs ∧
        (e = .killed → w.os.fs.isDir env.loc = true ∧ ∀ q, q ≠ [] → w.os.fs.get (env.rem ++ q) = none)) w.os := by
  unfold checkDirs
  rw [wp_bind]
  refine wp_mono (wp_checkDir_exists h.loc_link) ?_ (fun _ _ h => h.elim)
  rintro b s1 ⟨rfl, h1⟩
  split
  · rename_i hb
    have hb : b = true := by simpa using hb
    split
    · exact ⟨Grow.refl _ _, fun h => by cases h⟩
    · exact ⟨Grow.refl _ _, fun h => by cases h⟩
    · rw [wp_bind]
      refine wp_mono (wp_checkDir_empty h.wf h.rem_link) ?_ (fun _ _ h => ⟨h.1, fun _ => ⟨h1 hb, h.2⟩⟩)
      rintro b' s2 ⟨h2, h3⟩
      split
      · rename_i hb'
        rw [wp_pure]
        exact ⟨h2, h1 hb, h3 (by simpa using hb')⟩
      · exact ⟨h2, fun h => by cases h⟩
  · exact ⟨Grow.refl _ _, fun h => by cases h⟩

theorem Grow.loc (ap : Apart env.loc env.rem) {fs fs' : FS} (h : Grow (OnWay env.rem) fs fs') (p : Path) :
    fs'.get (env.loc ++ p) = fs.get (env.loc ++ p) := by
  refine h.get_eq ?_
  rintro ⟨_, h1⟩
  exact ap.1 ((List.prefix_append _ _).trans h1)

/-- Passing the checks gives what the theorems about `init` assume. -/
theorem NewReady.init (h : NewReady env w) {s : OS} (h1 : Grow (OnWay env.rem) w.os.fs s.fs)
    (h2 : w.os.fs.isDir env.loc = true) (h3 : ∀ q, q ≠ [] → w.os.fs.get (env.rem ++ q) = none) :
    InitReady env { w with os := s } ∧ ∀ q, q ≠ [] → s.fs.get (env.rem ++ q) = none := by
  have hr : ∀ q, q ≠ [] → s.fs.get (env.rem ++ q) = none := by
    intro q hq
    rw [h1.get_eq, h3 q hq]
    rintro ⟨_, h4⟩
    have h5 := h4.length_le
    have h6 : 0 < q.length := List.length_pos_iff.2 hq
    rw [List.length_append] at h5
    omega
  have hl := h1.loc h.apart
  refine ⟨⟨h1.wf (fun q hq => goodPath_of_prefix h.rem_good hq.2) h.wf, h.apart, ?_, h.rem_good, h.id_good, ?_, ?_, ?_, ?_,
    h.lmemo, h.rmemo, h.fresh, h.rows, h.saved⟩, hr⟩
  · have := hl []
    rw [List.append_nil] at this
    show s.fs.isDir env.loc = true
    unfold FS.isDir at h2 ⊢
    rw [this]; exact h2
  · obtain ⟨k, m, b, h4⟩ := h.excl
    exact ⟨k, m, b, h1.keeps _ _ h4⟩
  · intro n hn
    have := hr ([Env.utilName, "exclude".toList] ++ [env.id]) (by simp)
    have he : env.exclDir ++ [env.id] = env.rem ++ ([Env.utilName, "exclude".toList] ++ [env.id]) := by
      unfold Env.exclDir Env.util; simp
    have hn : s.fs.get (env.exclDir ++ [env.id]) = some n := hn
    rw [he, this] at hn
    cases hn
  · exact (hl _).trans h.no_util
  · intro p n h0 _ _ _
    exact clean_of_none (hr p h0)

theorem NewReady.excludes (h : NewReady env w) {fs : FS} (h1 : Grow (OnWay env.rem) w.os.fs fs)
    (wf : fs.WF) {p : Path} (hx : OwnExcludes env fs p) : OwnExcludes env w.os.fs p := by
  obtain ⟨k, m, b, h4⟩ := h.excl
  obtain ⟨q, k', m', b', h5, h6, ⟨n, h7⟩, h8⟩ := hx
  have h9 := h1.keeps _ _ h4
  rw [FS.stat_nonlink (wf.pathErr h9) h9 rfl] at h5
  cases h5
  refine ⟨_, _, _, _, FS.stat_nonlink (h.wf.pathErr h4) h4 rfl, h6, ⟨n, ?_⟩, h8⟩
  rw [← h1.loc h.apart p]; exact h7

/-- C83: however a new initialisation ends, whatever is in the remote directory, a regular local file that is not
excluded still has its content and its times, at its local path or at its remote path. -/
theorem C83_kept_partial (h : NewReady env w) {p : Path} {c : Nat} {m : Int} {b : Nat} (hp : p ≠ [])
    (hn : w.os.fs.get (env.loc ++ p) = some (.file c m b)) (hx : ¬ OwnExcludes env w.os.fs p) :
    (initNew env prog others false w).2.os.fs.get (env.loc ++ p) = some (.file c m b) ∨
      (initNew env prog others false w).2.os.fs.get (env.rem ++ p) = some (.file c m b) := by
  refine wp_state (I := fun w' : World => w'.os.fs.get (env.loc ++ p) = some (.file c m b) ∨
      w'.os.fs.get (env.rem ++ p) = some (.file c m b)) ?_
  unfold initNew
  rw [wp_bind, wp_sys]
  refine wp_mono (wp_checkDirs_new h) ?_ (fun _ s h1 => Or.inl (h1.1.keeps _ _ hn))
  rintro _ s ⟨h1, h2, _, h3⟩
  obtain ⟨hi, _⟩ := h.init h1 h2 h3
  have hn' : s.fs.get (env.loc ++ p) = some (.file c m b) := h1.keeps _ _ hn
  have hx' : ¬ OwnExcludes env s.fs p := fun h4 => hx (h.excludes h1 hi.wf h4)
  exact wp_mono (wp_init hi) (fun _ _ h4 => h4.1.stored p _ ⟨hp, hn', ⟨_, _, _, rfl⟩, hx'⟩)
    (fun _ _ h4 => h4.1.1.stored p _ ⟨hp, hn', ⟨_, _, _, rfl⟩, hx'⟩)

/-- C83: after a success it is in the remote directory, which had nothing in it before, the local path is a link to it,
and both databases agree with the directories. -/
theorem C83_done_partial (h : NewReady env w) {w' : World} (hr : initNew env prog others false w = (.ok (), w')) :
    (∀ p c m b, p ≠ [] → w.os.fs.get (env.loc ++ p) = some (.file c m b) → ¬ OwnExcludes env w.os.fs p →
      w'.os.fs.get (env.rem ++ p) = some (.file c m b) ∧
        ∃ t m', w'.os.fs.get (env.loc ++ p) = some (.link t m') ∧ FS.linkDest (env.loc ++ p) t = env.rem ++ p) ∧
    (∀ q, q ≠ [] → w.os.fs.get (env.rem ++ q) = none) ∧ AtRest env w' := by
  have key : wp (initNew env prog others false) (fun _ w' =>
      (∀ p c m b, p ≠ [] → w.os.fs.get (env.loc ++ p) = some (.file c m b) → ¬ OwnExcludes env w.os.fs p →
        w'.os.fs.get (env.rem ++ p) = some (.file c m b) ∧
          ∃ t m', w'.os.fs.get (env.loc ++ p) = some (.link t m') ∧ FS.linkDest (env.loc ++ p) t = env.rem ++ p) ∧
      (∀ q, q ≠ [] → w.os.fs.get (env.rem ++ q) = none) ∧ AtRest env w') (fun _ _ => True) w := by
    unfold initNew
    rw [wp_bind, wp_sys]
    refine wp_mono (wp_checkDirs_new h) ?_ (fun _ _ _ => trivial)
    rintro _ s ⟨h1, h2, _, h3⟩
    obtain ⟨hi, he⟩ := h.init h1 h2 h3
    refine wp_mono (wp_init hi) ?_ (fun _ _ _ => trivial)
    rintro _ w' ⟨d, _, hrest⟩
    refine ⟨?_, h3, hrest h.rrows (fun p hp => he p hp.1)⟩
    intro p c m b hp hn hx
    have hn' : s.fs.get (env.loc ++ p) = some (.file c m b) := h1.keeps _ _ hn
    have hx' : ¬ OwnExcludes env s.fs p := fun h4 => hx (h.excludes h1 hi.wf h4)
    obtain ⟨h4, m', h5⟩ := d.moved p _ ⟨hp, hn', ⟨_, _, _, rfl⟩, hx'⟩
    refine ⟨h4, _, m', h5, FS.linkDest_abs ?_ _⟩
    exact goodPath_append.2 ⟨h.rem_good, (goodPath_append.1 (h.wf.goodPath hn)).2⟩
  exact wp_ok key hr

/-! ### What is refused -/

theorem wp_checkDir_full {p q : Path} {n : Node} {s : OS} (wf : s.fs.WF) (hq : q ≠ [])
    (hn : s.fs.get (p ++ q) = some n) :
    wp (checkDir p true) (fun b s' => s' = s ∧ b = false) (fun _ _ => False) s := by
  have hd := wf.isDir_prefix hn p ⟨q, rfl⟩ (by simpa using hq)
  obtain ⟨m, b, hg⟩ := FS.isDir_iff.1 hd
  have hs := FS.stat_nonlink (wf.pathErr hg) hg rfl
  unfold checkDir
  rw [wp_bind, wp_ask, if_pos (by unfold FS.pathExists; rw [hs]), wp_bind, wp_ask,
    if_pos (by unfold FS.pathIsDir; rw [hs]; rfl), if_pos rfl, wp_bind, wp_query]
  refine ⟨?_, fun e he => ?_⟩
  · intro es hes
    rw [wp_pure]
    refine ⟨rfl, ?_⟩
    cases h0 : es.isEmpty with
    | false => rfl
    | true => rw [none_of_scandir wf hd hes h0 hq] at hn; cases hn
  · rw [scandir_ok wf hd] at he; cases he

theorem wp_checkDir_same {p : Path} {s : OS} :
    wp (checkDir p false) (fun b s' => s' = s ∧ (s.fs.pathExists p = false → b = false)) (fun _ _ => False) s := by
  unfold checkDir
  rw [wp_bind, wp_ask]
  split
  · rename_i h1
    rw [wp_bind, wp_ask]
    split
    · rw [if_neg (by simp), wp_pure]
      exact ⟨rfl, fun h => by rw [h] at h1; cases h1⟩
    · rw [wp_pure]
      exact ⟨rfl, fun _ => rfl⟩
  · rw [if_neg (by simp), wp_pure]
    exact ⟨rfl, fun _ => rfl⟩

theorem eq_of_wp_error {σ α : Type} {m : Prog σ α} {s : σ} {P : Err → Prop}
    (h : wp m (fun _ _ => False) (fun e s' => s' = s ∧ P e) s) : ∃ e, P e ∧ m s = (.error e, s) := by
  unfold wp at h
  split at h
  · exact h.elim
  · rename_i e s' hm
    obtain ⟨rfl, h⟩ := h
    exact ⟨e, h, hm⟩

/-- C83: if there is anything in the remote directory, a new initialisation without `--add-remote` is refused and
changes nothing. -/
theorem C83_remote_full (wf : w.os.fs.WF) {q : Path} {n : Node} (hq : q ≠ [])
    (hn : w.os.fs.get (env.rem ++ q) = some n) :
    ∃ e, (verifyLocalDir prog others (absStr env.loc) ≠ none → e = .input) ∧
      initNew env prog others false w = (.error e, w) := by
  refine eq_of_wp_error ?_
  unfold initNew checkDirs
  rw [wp_bind, wp_sys, wp_bind]
  refine wp_mono wp_checkDir_same ?_ (fun _ _ h => h.elim)
  rintro b s1 ⟨rfl, _⟩
  split
  · split
    · rename_i h1
      exact ⟨rfl, fun h2 => absurd h1 h2⟩
    · exact ⟨rfl, fun _ => rfl⟩
    · rw [wp_bind]
      refine wp_mono (wp_checkDir_full wf hq hn) ?_ (fun _ _ h => h.elim)
      rintro b s2 ⟨rfl, rfl⟩
      exact ⟨rfl, fun _ => rfl⟩
  · exact ⟨rfl, fun _ => rfl⟩

/-- C83: if there is anything in the local directory, a new initialisation with `--add-remote` is refused and changes
nothing. -/
theorem C83_local_full (wf : w.os.fs.WF) {q : Path} {n : Node} (hq : q ≠ [])
    (hn : w.os.fs.get (env.loc ++ q) = some n) : initNew env prog others true w = (.error .input, w) := by
  obtain ⟨e, rfl, h⟩ := eq_of_wp_error (m := initNew env prog others true) (s := w) (P := fun e => e = .input) (by
    unfold initNew checkDirs
    rw [wp_bind, wp_sys, wp_bind]
    refine wp_mono (wp_checkDir_full wf hq hn) ?_ (fun _ _ h => h.elim)
    rintro b s1 ⟨rfl, rfl⟩
    exact ⟨rfl, rfl⟩)
  exact h

/-- C83: if there is no local directory, a new initialisation without `--add-remote` is refused and changes nothing. -/
theorem C83_local_missing (hn : w.os.fs.pathExists env.loc = false) :
    initNew env prog others false w = (.error .input, w) := by
  obtain ⟨e, rfl, h⟩ := eq_of_wp_error (m := initNew env prog others false) (s := w) (P := fun e => e = .input) (by
    unfold initNew checkDirs
    rw [wp_bind, wp_sys, wp_bind]
    refine wp_mono wp_checkDir_same ?_ (fun _ _ h => h.elim)
    rintro b s1 ⟨rfl, h1⟩
    rw [h1 hn]
    exact ⟨rfl, rfl⟩)
  exact h

/-! ### With `--add-remote` -/

/-- The state in which a new initialisation from a remote directory starts. Nothing is said about what is in the local
directory, or whether there is one. -/
structure NewAdd (env : Env) (w : World) : Prop where
  wf : w.os.fs.WF
  apart : Apart env.loc env.rem
  loc_good : GoodPath env.loc
  loc_link : NoLinkAt w.os.fs env.loc
  rem_link : NoLinkAt w.os.fs env.rem
  id_good : GoodPath [env.id]
  slot : ∀ n, w.os.fs.get (env.exclDir ++ [env.id]) = some n → ∃ c m b, n = .file c m b
  rmemo : w.rmemo = []
  rows : w.db = []

theorem Grow.rem (ap : Apart env.loc env.rem) {fs fs' : FS} (h : Grow (OnWay env.loc) fs fs') (p : Path) :
    fs'.get (env.rem ++ p) = fs.get (env.rem ++ p) := by
  refine h.get_eq ?_
  rintro ⟨_, h1⟩
  exact ap.2 ((List.prefix_append _ _).trans h1)

theorem wp_checkDirs_add (h : NewAdd env w) :
    wp (checkDirs env prog others true)
      (fun _ s' => Grow (OnWay env.loc) w.os.fs s'.fs ∧ s'.fs.isDir env.loc = true ∧ w.os.fs.isDir env.rem = true ∧
        ∀ q, q ≠ [] → w.os.fs.get (env.loc ++ q) = none)
      (fun _ s' => Grow (OnWay env.loc) w.os.fs s'.fs) w.os := by
  unfold checkDirs
  rw [wp_bind]
  refine wp_mono (wp_checkDir_empty h.wf h.loc_link) ?_ (fun _ _ h => h.1)
  rintro b s1 ⟨h1, h2⟩
  have hl1 : NoLinkAt s1.fs env.rem := by
    intro t m h3
    have := h1.rem h.apart []
    rw [List.append_nil] at this
    exact h.rem_link t m (this ▸ h3)
  split
  · rename_i hb
    obtain ⟨h3, h4⟩ := h2 (by simpa using hb)
    split
    · exact h1
    · exact h1
    · rw [wp_bind]
      refine wp_mono (wp_checkDir_exists hl1) ?_ (fun _ _ h => h.elim)
      rintro b' s2 ⟨rfl, h5⟩
      split
      · rename_i hb'
        rw [wp_pure]
        refine ⟨h1, h3, ?_, h4⟩
        have h6 := h5 (by simpa using hb')
        have := h1.rem h.apart []
        rw [List.append_nil] at this
        unfold FS.isDir at h6 ⊢
        rw [← this]; exact h6
      · exact h1
  · exact h1

/-- Passing the checks gives what the theorems about `init` assume. -/
theorem NewAdd.init (h : NewAdd env w) {s : OS} (h1 : Grow (OnWay env.loc) w.os.fs s.fs)
    (h2 : s.fs.isDir env.loc = true) (h3 : w.os.fs.isDir env.rem = true) : AddReady env { w with os := s } := by
  refine ⟨h1.wf (fun q hq => goodPath_of_prefix h.loc_good hq.2) h.wf, h.apart, h.loc_good, ?_, ?_, h.id_good, ?_,
    h.rmemo, h.rows⟩
  · intro n hn
    obtain ⟨m, b, h4⟩ := FS.isDir_iff.1 h2
    have hn : s.fs.get env.loc = some n := hn
    rw [h4] at hn; cases hn; rfl
  · obtain ⟨m, b, h4⟩ := FS.isDir_iff.1 h3
    exact h.wf.goodPath h4
  · intro n hn
    have hn : s.fs.get (env.exclDir ++ [env.id]) = some n := hn
    have he : env.exclDir ++ [env.id] = env.rem ++ ([Env.utilName, "exclude".toList] ++ [env.id]) := by
      unfold Env.exclDir Env.util; simp
    refine h.slot n ?_
    rw [he] at hn ⊢
    rw [← h1.rem h.apart]; exact hn

/-- C83: however a new initialisation with `--add-remote` ends, everything in the remote directory and everything in the
local directory is as it was, if it is anything but a new path, and new local paths are those of the remote
directory. -/
theorem C83_add_kept (h : NewAdd env w) :
    (∀ p, UserPath p → (initNew env prog others true w).2.os.fs.get (env.rem ++ p) = w.os.fs.get (env.rem ++ p)) ∧
    (∀ p n, p ≠ [] → w.os.fs.get (env.loc ++ p) = some n →
      (initNew env prog others true w).2.os.fs.get (env.loc ++ p) = some n) ∧
    (∀ p n, p ≠ [] → (initNew env prog others true w).2.os.fs.get (env.loc ++ p) = some n →
      w.os.fs.get (env.loc ++ p) = some n ∨ ∃ n', w.os.fs.get (env.rem ++ p) = some n') := by
  refine ⟨?_, ?_, ?_⟩
  · intro p hp
    refine wp_state (I := fun w' : World => w'.os.fs.get (env.rem ++ p) = w.os.fs.get (env.rem ++ p)) ?_
    unfold initNew
    rw [wp_bind, wp_sys]
    refine wp_mono (wp_checkDirs_add h) ?_ (fun _ s h1 => h1.rem h.apart p)
    rintro _ s ⟨h1, h2, h3, h4⟩
    have hi := h.init h1 h2 h3
    exact wp_mono (wp_initRemote hi) (fun _ _ d => (d.1.rem p hp).trans (h1.rem h.apart p))
      (fun _ _ d => (d.rem p hp).trans (h1.rem h.apart p))
  · intro p n hp hn
    rw [C83_local_full h.wf hp hn]
    exact hn
  · intro p n hp
    refine wp_state (I := fun w' : World => w'.os.fs.get (env.loc ++ p) = some n →
      w.os.fs.get (env.loc ++ p) = some n ∨ ∃ n', w.os.fs.get (env.rem ++ p) = some n') ?_
    have hg : ∀ {s : OS}, Grow (OnWay env.loc) w.os.fs s.fs → s.fs.get (env.loc ++ p) = w.os.fs.get (env.loc ++ p) := by
      intro s h1
      refine h1.get_eq ?_
      rintro ⟨_, h5⟩
      have h5 := h5.length_le
      have h6 : 0 < p.length := List.length_pos_iff.2 hp
      rw [List.length_append] at h5
      omega
    unfold initNew
    rw [wp_bind, wp_sys]
    refine wp_mono (wp_checkDirs_add h) ?_ (fun _ s h1 h2 => Or.inl (by rw [← hg h1]; exact h2))
    rintro _ s ⟨h1, h2, h3, h4⟩
    have hi := h.init h1 h2 h3
    have hk : ∀ fs', AddKept env s.fs fs' → fs'.get (env.loc ++ p) = some n →
        w.os.fs.get (env.loc ++ p) = some n ∨ ∃ n', w.os.fs.get (env.rem ++ p) = some n' := by
      intro fs' hk h5
      rcases Option.eq_none_or_eq_some (w.os.fs.get (env.rem ++ p)) with h6 | ⟨n', h6⟩
      · have := hk.loc p hp (fun _ => (h1.rem h.apart p).trans h6)
        rw [this, hg h1] at h5
        exact Or.inl h5
      · exact Or.inr ⟨n', h6⟩
    exact wp_mono (wp_initRemote hi) (fun _ w' d => hk _ d.1.toAddKept) (fun _ w' d => hk _ d)

/-- C83: after a success there was a remote directory and nothing in the local one, every file of the remote directory is in the local directory as a link to it, every directory
as a directory, an unsafe link is not there, and the saved database has exactly the paths of the remote directory that
are not unsafe links. -/
theorem C83_add_done (h : NewAdd env w) {w' : World} (hr : initNew env prog others true w = (.ok (), w')) :
    w.os.fs.isDir env.rem = true ∧ (∀ q, q ≠ [] → w.os.fs.get (env.loc ++ q) = none) ∧
    (∀ p n, UserPath p → w.os.fs.get (env.rem ++ p) = some n → n.isDir = false → ¬ UnsafeLink env.rem p n →
      ∃ t m, w'.os.fs.get (env.loc ++ p) = some (.link t m) ∧ FS.linkDest (env.loc ++ p) t = env.rem ++ p) ∧
    (∀ p n, UserPath p → w.os.fs.get (env.rem ++ p) = some n → UnsafeLink env.rem p n →
      w'.os.fs.get (env.loc ++ p) = none) ∧
    (∀ p, UserPath p → w.os.fs.isDir (env.rem ++ p) = true → w'.os.fs.isDir (env.loc ++ p) = true) ∧
    (∀ p, p ∈ ADB.paths w'.dbSaved ↔ UserPath p ∧ ∃ n, w.os.fs.get (env.rem ++ p) = some n ∧ ¬ UnsafeLink env.rem p n) := by
  have key : wp (initNew env prog others true) (fun _ w' => (w.os.fs.isDir env.rem = true ∧
      ∀ q, q ≠ [] → w.os.fs.get (env.loc ++ q) = none) ∧
      ∃ s : OS, Grow (OnWay env.loc) w.os.fs s.fs ∧ AddReady env { w with os := s } ∧
        AddDone env { w with os := s } w') (fun _ _ => True) w := by
    unfold initNew
    rw [wp_bind, wp_sys]
    refine wp_mono (wp_checkDirs_add h) ?_ (fun _ _ _ => trivial)
    rintro _ s ⟨h1, h2, h3, h4⟩
    have hi := h.init h1 h2 h3
    exact wp_mono (wp_initRemote hi) (fun _ _ d => ⟨⟨h3, h4⟩, s, h1, hi, d.1⟩) (fun _ _ _ => trivial)
  obtain ⟨⟨h3, h4⟩, s, h1, hi, d⟩ := wp_ok key hr
  have hrem := h1.rem h.apart
  have hloc : ∀ q, q ≠ [] → s.fs.get (env.loc ++ q) = none := by
    intro q hq
    rw [h1.get_eq, h4 q hq]
    rintro ⟨_, h5⟩
    have h5 := h5.length_le
    have h6 : 0 < q.length := List.length_pos_iff.2 hq
    rw [List.length_append] at h5
    omega
  refine ⟨h3, h4, ?_, ?_, ?_, ?_⟩
  · intro p n hp hn hd hu
    have hn' : s.fs.get (env.rem ++ p) = some n := (hrem p).trans hn
    obtain ⟨m, h5⟩ := d.files p n hp hn' hd hu
    refine ⟨_, m, h5, FS.linkDest_abs ?_ _⟩
    exact h.wf.goodPath hn
  · intro p n hp hn hu
    exact (d.unsafe_ p n hp ((hrem p).trans hn) hu).trans (hloc p hp.1)
  · intro p hp hd
    refine d.dirs p hp ?_ ?_
    · show s.fs.isDir (env.rem ++ p) = true
      unfold FS.isDir at hd ⊢
      rw [hrem p]; exact hd
    · intro n hn
      have hn : s.fs.get (env.loc ++ p) = some n := hn
      rw [hloc p hp.1] at hn; cases hn
  · intro p
    rw [d.saved.1, d.db p]
    show (UserPath p ∧ ∃ n, s.fs.get (env.rem ++ p) = some n ∧ _) ↔ _
    rw [hrem p]

/-! ### Examples -/

/-- A profile that is about to be initialised, with the given files. -/
def exNewWorld (fs : FS) (fuel : Nat) : World where
  os := ⟨(["x".toList], .file 1 1 1) :: fs, fuel, 0, fun n => n + 50⟩
  db := []
  dbSaved := []
  rdb := []
  rdbSaved := []
  last := 0
  lastSaved := 0
  lmemo := []
  rmemo := []
  matches_ := none

/-- Local files, one of them excluded; no remote directory, which is to be `/m/r`. -/
def exNewFiles (fuel : Nat) : World := exNewWorld
  [(["l".toList], .dir 1 8), (["l".toList, "a".toList], .file 7 3 1), (["l".toList, "e".toList], .file 8 3 1),
    (["l".toList, "d".toList], .dir 2 8), (["l".toList, "d".toList, "b".toList], .file 9 3 1)] fuel

def exEnvM : Env := { exEnvE with rem := ["m".toList, "r".toList] }

theorem exNewFiles_ready (fuel : Nat) : NewReady exEnvM (exNewFiles fuel) where
  wf := (⟨by decide +kernel, by decide +kernel, by decide +kernel, by decide +kernel⟩ : (exNewFiles 0).os.fs.WF)
  apart := by unfold Apart; decide +kernel
  loc_link t m h := by
    have h1 : (exNewFiles 0).os.fs.get exEnvM.loc = some (.dir 1 8) := by decide +kernel
    have h : (exNewFiles 0).os.fs.get exEnvM.loc = some (.link t m) := h
    rw [h1] at h; cases h
  rem_link t m h := by
    have h1 : (exNewFiles 0).os.fs.get exEnvM.rem = none := by decide +kernel
    have h : (exNewFiles 0).os.fs.get exEnvM.rem = some (.link t m) := h
    rw [h1] at h; cases h
  rem_good := by decide +kernel
  id_good := by decide +kernel
  excl := ⟨1, 1, 1, (by decide +kernel : (exNewFiles 0).os.fs.get exEnvM.excl = some (.file 1 1 1))⟩
  no_util := (by decide +kernel : (exNewFiles 0).os.fs.get (exEnvM.loc ++ [Env.utilName]) = none)
  lmemo := rfl
  rmemo := rfl
  fresh := rfl
  rows := rfl
  saved := rfl
  rrows := rfl

example : (initNew exEnvM "/home/p".toList ["/k".toList] false (exNewFiles 100)).1 = .ok () ∧
    (initNew exEnvM "/home/p".toList ["/k".toList] false (exNewFiles 100)).2.os.fs.get
      ["m".toList, "r".toList, "d".toList, "b".toList] = some (.file 9 3 1) ∧
    (initNew exEnvM "/home/p".toList ["/k".toList] false (exNewFiles 100)).2.os.fs.get
      ["m".toList, "r".toList, "e".toList] = none ∧
    (initNew exEnvM "/home/p".toList ["/k".toList] false (exNewFiles 9)).1 = .error .killed ∧
    (initNew exEnvM "/home/p".toList ["/l/d".toList] false (exNewFiles 100)).1 = .error .input := by
  decide +kernel

/-- A remote directory `/r` with files; no local directory. -/
def exNewRemote (fuel : Nat) : World := exNewWorld
  [(["r".toList], .dir 1 8), (["r".toList, "a".toList], .file 7 3 1), (["r".toList, "d".toList], .dir 2 8),
    (["r".toList, "d".toList, "b".toList], .file 9 3 1), (["r".toList, "k".toList], .link "/q".toList 4)] fuel

theorem exNewRemote_ready (fuel : Nat) : NewAdd exEnvE (exNewRemote fuel) where
  wf := (⟨by decide +kernel, by decide +kernel, by decide +kernel, by decide +kernel⟩ : (exNewRemote 0).os.fs.WF)
  apart := by unfold Apart; decide +kernel
  loc_good := by decide +kernel
  loc_link t m h := by
    have h1 : (exNewRemote 0).os.fs.get exEnvE.loc = none := by decide +kernel
    have h : (exNewRemote 0).os.fs.get exEnvE.loc = some (.link t m) := h
    rw [h1] at h; cases h
  rem_link t m h := by
    have h1 : (exNewRemote 0).os.fs.get exEnvE.rem = some (.dir 1 8) := by decide +kernel
    have h : (exNewRemote 0).os.fs.get exEnvE.rem = some (.link t m) := h
    rw [h1] at h; cases h
  id_good := by decide +kernel
  slot n hn := by
    have h1 : (exNewRemote 0).os.fs.get (exEnvE.exclDir ++ [exEnvE.id]) = none := by decide +kernel
    have hn : (exNewRemote 0).os.fs.get (exEnvE.exclDir ++ [exEnvE.id]) = some n := hn
    rw [h1] at hn; cases hn
  rmemo := rfl
  rows := rfl

example : (initNew exEnvE "/home/p".toList [] true (exNewRemote 100)).1 = .ok () ∧
    (initNew exEnvE "/home/p".toList [] true (exNewRemote 3)).1 = .error .killed ∧
    (initNew exEnvE "/home/p".toList [] true (exNewFiles 100)).1 = .error .input ∧
    (initNew exEnvE "/home/p".toList [] false (exNewRemote 100)).1 = .error .input := by
  decide +kernel

/-! ### What is not checked -/

/-- The profile has the same directory as local and as remote directory. -/
def exEnvSame : Env := { exEnvE with rem := ["l".toList] }

/-- The user has made the file `a` in the directory after an initialisation. -/
def exSame : World :=
  let w := (initNew exEnvSame "/home/p".toList [] false (exNewWorld [(["l".toList], .dir 1 8)] 100)).2
  { w.restart 1000 with os := ⟨(["l".toList, "a".toList], .file 7 3000 1) :: w.os.fs, 1000, w.os.tick, w.os.clk⟩ }

/-- C83 for all directories is false: nothing compares the local with the remote directory
(zielen/commands/init.py:126-137, 174-214). An empty directory is accepted as both, and the next sync deletes the only
copy of every new file: `copy2` of a file to itself raises `SameFileError`, so the destination, which is the source, is
removed (zielen/fstools.py:98-100). -/
theorem C83_same_fails :
    (initNew exEnvSame "/home/p".toList [] false (exNewWorld [(["l".toList], .dir 1 8)] 100)).1 = .ok () ∧
    exSame.os.fs.get ["l".toList, "a".toList] = some (.file 7 3000 1) ∧
    (sync exEnvSame exSame).1 = .error .notFound ∧
    (∀ e ∈ (sync exEnvSame exSame).2.os.fs, ∀ m b, e.2 ≠ .file 7 m b) := by
  have h : (sync exEnvSame exSame).2.os.fs.all
      (fun e => match e.2 with | .file c _ _ => c != 7 | _ => true) = true := by decide +kernel
  refine ⟨by decide +kernel, by decide +kernel, by decide +kernel, ?_⟩
  generalize (sync exEnvSame exSame).2.os.fs = l at h
  intro e he m b h1
  have := List.all_eq_true.1 h e he
  rw [h1] at this
  simp at this

/-- The remote directory of the profile is in its local directory. -/
def exEnvInside : Env := { exEnvE with rem := ["l".toList, "r".toList] }

def exInside : World :=
  (initNew exEnvInside "/home/p".toList [] false
    (exNewWorld [(["l".toList], .dir 1 8), (["l".toList, "a".toList], .file 7 3 1)] 100)).2

/-- A remote directory in the local directory is accepted too; the initialisation puts a copy of the remote directory
into it, and the first sync fails. -/
theorem C83_inside_fails :
    (initNew exEnvInside "/home/p".toList [] false
      (exNewWorld [(["l".toList], .dir 1 8), (["l".toList, "a".toList], .file 7 3 1)] 100)).1 = .ok () ∧
    exInside.os.fs.isDir ["l".toList, "r".toList, "r".toList] = true ∧
    (sync exEnvInside (exInside.restart 1000)).1 = .error .isDir := by
  decide +kernel

end Verif
