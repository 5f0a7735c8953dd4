import Verif.SetupLemmas
/-
What `_setup_dir` does, and the first steps of an initialisation.
-/
namespace Verif
open Prog OSM Call FSTools WM

/-- Growing above an existing directory changes nothing. -/
theorem Grow.eq_of_dir {fs f1 : FS} {d : Path} (w : fs.WF) (hd : fs.isDir d = true)
    (h : Grow (fun q => q ≠ [] ∧ q <+: d) fs f1) (q : Path) : f1.get q = fs.get q := by
  by_cases hq : q <+: d
  · obtain ⟨m, b, hg⟩ := FS.isDir_iff.1 hd
    by_cases he : q = d
    · subst he; rw [h.keeps _ _ hg, hg]
    · obtain ⟨m', b', hg'⟩ := FS.isDir_iff.1 (w.isDir_prefix hg q hq he)
      rw [h.keeps _ _ hg', hg']
  · exact h.get_eq (fun hc => hq hc.2)

theorem goodPath_of_prefix {p q : Path} (h : GoodPath q) (hp : p <+: q) : GoodPath p := by
  obtain ⟨t, rfl⟩ := hp
  exact (goodPath_append.1 h).1

theorem Grow.wf_of_dir {fs f1 : FS} {d : Path} (w : fs.WF) (hd : fs.isDir d = true)
    (h : Grow (fun q => q ≠ [] ∧ q <+: d) fs f1) : f1.WF := by
  obtain ⟨m, b, hg⟩ := FS.isDir_iff.1 hd
  exact h.wf (fun q hq => goodPath_of_prefix (w.goodPath hg) hq.2) w

/-! ### Scans -/

/-- What is in a scan of the remote directory without the util directory. -/
theorem mem_user_below {fs : FS} (w : fs.WF) {root p : Path} {n : Node} :
    (p, n) ∈ Scan.user (fs.below root) ↔ fs.get (root ++ p) = some n ∧ UserPath p := by
  unfold Scan.user UserPath
  rw [List.mem_filter, w.mem_below_iff, and_assoc]
  simp

theorem mem_nonDirs_keys {s : Scan} {p : Path} : p ∈ s.nonDirs.keys ↔ ∃ n, (p, n) ∈ s ∧ n.isDir = false := by
  unfold Scan.nonDirs Scan.keys
  simp only [List.mem_map, List.mem_filter, Prod.exists, exists_and_right, exists_eq_right]
  simp

theorem mem_dirs_keys {s : Scan} {p : Path} : p ∈ s.dirs.keys ↔ ∃ n, (p, n) ∈ s ∧ n.isDir = true := by
  unfold Scan.dirs Scan.keys
  simp only [List.mem_map, List.mem_filter, Prod.exists, exists_and_right, exists_eq_right]

theorem mem_batchOf {files dirs : List Path} {e : Path × Bool} :
    e ∈ batchOf files dirs ↔ (e.1 ∈ files ∧ e.2 = false) ∨ (e.1 ∈ dirs ∧ e.2 = true) := by
  unfold batchOf
  rw [List.mem_append, List.mem_map, List.mem_map]
  constructor
  · rintro (⟨p, hp, rfl⟩ | ⟨p, hp, rfl⟩)
    · exact Or.inl ⟨hp, rfl⟩
    · exact Or.inr ⟨hp, rfl⟩
  · rintro (⟨hp, h⟩ | ⟨hp, h⟩)
    · exact Or.inl ⟨_, hp, Prod.ext rfl h.symm⟩
    · exact Or.inr ⟨_, hp, Prod.ext rfl h.symm⟩

theorem map_fst_batchOf {files dirs : List Path} {p : Path} :
    p ∈ (batchOf files dirs).map Prod.fst ↔ p ∈ files ∨ p ∈ dirs := by
  rw [List.mem_map]
  constructor
  · rintro ⟨e, he, rfl⟩
    exact (mem_batchOf.1 he).imp And.left And.left
  · rintro (h | h)
    · exact ⟨(p, false), mem_batchOf.2 (Or.inl ⟨h, rfl⟩), rfl⟩
    · exact ⟨(p, true), mem_batchOf.2 (Or.inr ⟨h, rfl⟩), rfl⟩

theorem userPath_dropLast {p : Path} (h : UserPath p) (h0 : p.dropLast ≠ []) : UserPath p.dropLast := by
  refine ⟨h0, ?_⟩
  cases p with
  | nil => simp at h0
  | cons a t =>
    cases t with
    | nil => simp at h0
    | cons b t => exact h.2

/-! ### `_setup_dir` -/

/-- What `_setup_dir` may change: local paths that exist in the remote directory. -/
structure SetupFrame (env : Env) (fs fs' : FS) : Prop where
  wf : fs'.WF
  other : ∀ q, (∀ p, UserPath p → q = env.loc ++ p → fs.get (env.rem ++ p) = none) → fs'.get q = fs.get q
  at_ : ∀ p n, UserPath p → fs.get (env.rem ++ p) = some n → fs'.get (env.loc ++ p) = fs.get (env.loc ++ p) ∨
    (n.isDir = false ∧ (fs'.get (env.loc ++ p) = none ∨
      ∃ m, fs'.get (env.loc ++ p) = some (.link (absStr (env.rem ++ p)) m))) ∨
    (n.isDir = true ∧ fs.get (env.loc ++ p) = none ∧ fs'.isDir (env.loc ++ p) = true)

/-- The rows that `_setup_dir` adds: one for everything in the remote directory except the unsafe
links. -/
structure SetupRows (env : Env) (fs : FS) (unsafe_ : List Path) (w w' : World) : Prop where
  db : ∀ p, p ∈ ADB.paths w'.db ↔ UserPath p ∧ ∃ n, fs.get (env.rem ++ p) = some n ∧ (n.isDir = false → p ∉ unsafe_)
  kind : ∀ e ∈ w'.db, e.directory = fs.isDir (env.rem ++ e.path)
  nodup_db : (ADB.paths w'.db).Nodup
  rdb : ∀ p, p ∈ ADB.paths w'.rdb ↔ p ∈ ADB.paths w.rdb ∨ p ∈ ADB.paths w'.db
  kind_rdb : (∀ e ∈ w.rdb, e.directory = fs.isDir (env.rem ++ e.path)) →
    ∀ e ∈ w'.rdb, e.directory = fs.isDir (env.rem ++ e.path)
  nodup : (ADB.paths w.rdb).Nodup → (ADB.paths w'.rdb).Nodup
  dirs : ∀ p, UserPath p → fs.isDir (env.rem ++ p) = true →
    (∀ n, fs.get (env.loc ++ p) = some n → n.isDir = true) → w'.os.fs.isDir (env.loc ++ p) = true

theorem wp_setupDir {env : Env} {w : World} {unsafe_ : List Path}
    (wf : w.os.fs.WF) (hld : w.os.fs.isDir env.loc = true) (hm : w.rmemo = [] ∨ w.rmemo = w.os.fs.below env.rem)
    (hdb : w.db = []) :
    wp (setupDir env unsafe_)
      (fun _ w' => SetupFrame env w.os.fs w'.os.fs ∧ w'.dbSaved = w.dbSaved ∧
        (∀ p n, UserPath p → w.os.fs.get (env.rem ++ p) = some n → n.isDir = false →
          (p ∉ unsafe_ → ∃ m, w'.os.fs.get (env.loc ++ p) = some (.link (absStr (env.rem ++ p)) m)) ∧
          (p ∈ unsafe_ → w'.os.fs.get (env.loc ++ p) = w.os.fs.get (env.loc ++ p))) ∧
        SetupRows env w.os.fs unsafe_ w w')
      (fun _ w' => SetupFrame env w.os.fs w'.os.fs ∧ w'.dbSaved = w.dbSaved) w := by
  have hrefl : SetupFrame env w.os.fs w.os.fs := ⟨wf, fun _ _ => rfl, fun _ _ _ _ => Or.inl rfl⟩
  obtain ⟨lm, lb, hlg⟩ := FS.isDir_iff.1 hld
  have hgl : GoodPath env.loc := wf.goodPath hlg
  unfold setupDir
  rw [wp_bind]
  have key : ∀ memo, wp (do
      let r := Scan.user (w.os.fs.below env.rem)
      let files := r.nonDirs.keys.filter (fun p => decide (p ∉ unsafe_))
      addLocal files r.dirs.keys false
      addRemote files r.dirs.keys
      let db ← gets World.db
      let _ ← sys (symlinkTree env.rem env.loc (ADB.paths (ALocal.getPaths db [] (some false) none))
        (ADB.paths (ALocal.getPaths db [] (some true) none)) true)
      pure ()) (fun _ w' => SetupFrame env w.os.fs w'.os.fs ∧ w'.dbSaved = w.dbSaved ∧
        (∀ p n, UserPath p → w.os.fs.get (env.rem ++ p) = some n → n.isDir = false →
          (p ∉ unsafe_ → ∃ m, w'.os.fs.get (env.loc ++ p) = some (.link (absStr (env.rem ++ p)) m)) ∧
          (p ∈ unsafe_ → w'.os.fs.get (env.loc ++ p) = w.os.fs.get (env.loc ++ p))) ∧
        SetupRows env w.os.fs unsafe_ w w')
      (fun _ w' => SetupFrame env w.os.fs w'.os.fs ∧ w'.dbSaved = w.dbSaved) { w with rmemo := memo } := by
    intro memo
    dsimp only
    generalize hr : Scan.user (w.os.fs.below env.rem) = r
    have hmem : ∀ p n, (p, n) ∈ r ↔ w.os.fs.get (env.rem ++ p) = some n ∧ UserPath p := by
      intro p n; rw [← hr]; exact mem_user_below wf
    generalize hf : r.nonDirs.keys.filter (fun p => decide (p ∉ unsafe_)) = files
    have hfm : ∀ p, p ∈ files ↔ (∃ n, w.os.fs.get (env.rem ++ p) = some n ∧ n.isDir = false) ∧ UserPath p ∧
        p ∉ unsafe_ := by
      intro p
      rw [← hf, List.mem_filter, mem_nonDirs_keys]
      simp only [hmem, decide_eq_true_eq]
      constructor
      · rintro ⟨⟨n, ⟨h1, h2⟩, h3⟩, h4⟩; exact ⟨⟨n, h1, h3⟩, h2, h4⟩
      · rintro ⟨⟨n, h1, h3⟩, h2, h4⟩; exact ⟨⟨n, ⟨h1, h2⟩, h3⟩, h4⟩
    have hdm : ∀ p, p ∈ r.dirs.keys ↔ (∃ n, w.os.fs.get (env.rem ++ p) = some n ∧ n.isDir = true) ∧ UserPath p := by
      intro p
      rw [mem_dirs_keys]
      simp only [hmem]
      constructor
      · rintro ⟨n, ⟨h1, h2⟩, h3⟩; exact ⟨⟨n, h1, h3⟩, h2⟩
      · rintro ⟨⟨n, h1, h3⟩, h2⟩; exact ⟨n, ⟨h1, h2⟩, h3⟩
    have hex : ∀ p, p ∈ (batchOf files r.dirs.keys).map Prod.fst → UserPath p ∧ ∃ n, w.os.fs.get (env.rem ++ p) = some n := by
      intro p hp
      rcases map_fst_batchOf.1 hp with h | h
      · obtain ⟨⟨n, h1, _⟩, h2, _⟩ := (hfm p).1 h; exact ⟨h2, n, h1⟩
      · obtain ⟨⟨n, h1, _⟩, h2⟩ := (hdm p).1 h; exact ⟨h2, n, h1⟩
    unfold addLocal addRemote
    rw [wp_bind, wp_modify, wp_bind, wp_bind, wp_sys, wp_time, wp_modify, wp_bind, wp_gets]
    dsimp only
    rw [hdb]
    generalize hrows : ALocal.addPaths [] (batchOf files r.dirs.keys) 0 false = rows
    have htyped : ∀ e ∈ rows, e.directory = w.os.fs.isDir (env.rem ++ e.path) := by
      rw [← hrows]
      refine typed_addPaths (τ := fun p => w.os.fs.isDir (env.rem ++ p)) (by simp) ?_ ?_
      · intro e he
        rcases mem_batchOf.1 he with ⟨h1, h2⟩ | ⟨h1, h2⟩
        · obtain ⟨⟨n, h3, h4⟩, _⟩ := (hfm _).1 h1
          rw [h2, isDir_iff_false h3, h4]
        · obtain ⟨⟨n, h3, h4⟩, _⟩ := (hdm _).1 h1
          rw [h2, isDir_iff_false h3, h4]
      · intro p hp h0
        obtain ⟨hu, n, hn⟩ := hex p hp
        have := wf.parent hn (by simp [hu.1])
        rwa [List.dropLast_append_of_ne_nil hu.1] at this
    have hpaths : ∀ p, p ∈ ADB.paths rows ↔ p ∈ files ∨ p ∈ r.dirs.keys := by
      intro p
      rw [← hrows, mem_paths_addPaths, map_fst_batchOf]
      simp [ADB.paths]
    have hnodup : (ADB.paths rows).Nodup := by
      rw [← hrows]
      unfold ALocal.addPaths
      rw [paths_refresh]
      exact ADB.nodup_addCore (by simp [ADB.paths])
    have hrow : ∀ p, p ∈ ADB.paths rows → UserPath p ∧ ∃ n, w.os.fs.get (env.rem ++ p) = some n := by
      intro p hp
      exact hex p (map_fst_batchOf.2 ((hpaths p).1 hp))
    have hsub : ∀ p d, p ∈ ADB.paths (ALocal.getPaths rows [] (some d) none) → p ∈ ADB.paths rows := by
      intro p d hp
      obtain ⟨e, he, h1, _⟩ := mem_getPaths_dir.1 hp
      exact List.mem_map.2 ⟨e, he, h1⟩
    have hall : ∀ p ∈ ADB.paths (ALocal.getPaths rows [] (some false) none) ++
        ADB.paths (ALocal.getPaths rows [] (some true) none), p ∈ ADB.paths rows := by
      intro p hp
      rcases List.mem_append.1 hp with h | h
      · exact hsub p _ h
      · exact hsub p _ h
    rw [wp_bind, wp_sys]
    have frame : ∀ f1 fs', Grow (fun q => q ≠ [] ∧ q <+: env.loc) w.os.fs f1 →
        Linking env.rem env.loc (ADB.paths (ALocal.getPaths rows [] (some true) none))
          (ADB.paths (ALocal.getPaths rows [] (some false) none) ++
          ADB.paths (ALocal.getPaths rows [] (some true) none)) true f1 fs' → SetupFrame env w.os.fs fs' := by
      intro f1 fs' hg hl
      refine ⟨hl.wf (hg.wf_of_dir wf hld) ?_, ?_, ?_⟩
      · intro p hp
        obtain ⟨_, n, hn⟩ := hrow p (hall p hp)
        exact goodPath_append.2 ⟨hgl, (goodPath_append.1 (wf.goodPath hn)).2⟩
      · intro q hq
        rw [hl.other q, hg.eq_of_dir wf hld]
        rintro p hp rfl
        obtain ⟨hu, n, hn⟩ := hrow p (hall p hp)
        have := hq p hu rfl
        rw [hn] at this
        cases this
      · intro p n hu hn
        have hf1 : f1.get (env.loc ++ p) = w.os.fs.get (env.loc ++ p) := by rw [hg.eq_of_dir wf hld]
        rw [← hf1]
        rcases hl.at_ p with h | ⟨h1, h2⟩ | ⟨h1, h2, h3⟩
        · exact Or.inl h
        · by_cases hnr : p ∈ ADB.paths rows
          · right; left
            obtain ⟨e, he1, he2⟩ := List.mem_map.1 hnr
            refine ⟨?_, ?_⟩
            · have hed : e.directory = n.isDir := by rw [htyped e he1, he2, isDir_iff_false hn]
              rw [← hed]
              cases hd : e.directory with
              | false => rfl
              | true => exact absurd (mem_getPaths_dir.2 ⟨e, he1, he2, hd⟩) h1
            · unfold linkNode at h2
              simpa only [if_neg h1] using h2
          · left
            refine hl.other _ ?_
            intro p' hp' he
            rw [← List.append_cancel_left he] at hp'
            exact hnr (hall p hp')
        · right; right
          obtain ⟨e, he1, he2, he3⟩ := mem_getPaths_dir.1 h1
          refine ⟨?_, h2, h3⟩
          rw [← isDir_iff_false hn, ← he2, ← htyped e he1, he3]
    refine wp_mono (wp_symlinkTree (nodup_getPaths hnodup _ _ _)
      (fun p hp => (hrow p (hall p hp)).1.1) w.os) ?_ ?_
    · rintro new s' ⟨f1, hg, hl, he⟩
      rw [wp_pure]
      refine ⟨frame f1 s'.fs hg hl, ⟨rfl, ?_, ?_⟩⟩
      swap
      · refine ⟨?_, htyped, hnodup, ?_, ?_, ?_, ?_⟩
        · intro p
          dsimp only
          rw [hpaths, hfm, hdm]
          constructor
          · rintro (⟨⟨n, h1, h2⟩, h3, h4⟩ | ⟨⟨n, h1, h2⟩, h3⟩)
            · exact ⟨h3, n, h1, fun _ => h4⟩
            · exact ⟨h3, n, h1, fun h => by rw [h2] at h; cases h⟩
          · rintro ⟨h1, n, h2, h3⟩
            cases hd : n.isDir with
            | true => exact Or.inr ⟨⟨n, h2, hd⟩, h1⟩
            | false => exact Or.inl ⟨⟨n, h2, hd⟩, h1, h3 hd⟩
        · intro p
          dsimp only
          rw [← hrows, mem_paths_addPaths]
          simp only [ADB.paths, List.map_nil, List.not_mem_nil, false_or]
          exact ADB.mem_paths_addCore
        · intro hk
          refine typed_addCore (τ := fun p => w.os.fs.isDir (env.rem ++ p)) hk ?_ ?_
          · intro e he
            rcases mem_batchOf.1 he with ⟨h1, h2⟩ | ⟨h1, h2⟩
            · obtain ⟨⟨n, h3, h4⟩, _⟩ := (hfm _).1 h1
              rw [h2, isDir_iff_false h3, h4]
            · obtain ⟨⟨n, h3, h4⟩, _⟩ := (hdm _).1 h1
              rw [h2, isDir_iff_false h3, h4]
          · intro p hp h0
            obtain ⟨hu, n, hn⟩ := hex p hp
            have := wf.parent hn (by simp [hu.1])
            rwa [List.dropLast_append_of_ne_nil hu.1] at this
        · exact fun hn => ADB.nodup_addCore hn
        · intro p hu hd hloc
          obtain ⟨m, b, hn⟩ := FS.isDir_iff.1 hd
          have hpr : p ∈ ADB.paths rows := (hpaths p).2 (Or.inr ((hdm p).2 ⟨⟨_, hn, rfl⟩, hu⟩))
          obtain ⟨e, he1, he2⟩ := List.mem_map.1 hpr
          have hed : e.directory = true := by rw [htyped e he1, he2]; exact hd
          have hpD : p ∈ ADB.paths (ALocal.getPaths rows [] (some true) none) := mem_getPaths_dir.2 ⟨e, he1, he2, hed⟩
          have hin : p ∈ DB.sortDepth id ((ADB.paths (ALocal.getPaths rows [] (some false) none)).foldl
              (fun acc p => setAdd p acc) (ADB.paths (ALocal.getPaths rows [] (some true) none))) := by
            rw [mem_sortDepth, mem_foldl_setAdd]; exact Or.inl hpD
          rcases he.at_ p hin with ⟨now, h1, _⟩ | ⟨h1, h2, _⟩
          · unfold linkNode at h1
            rw [if_pos hpD] at h1
            exact FS.isDir_iff.2 ⟨_, _, h1⟩
          · obtain ⟨n, h3⟩ := Option.isSome_iff_exists.1 h2
            rw [FS.isDir_congr h1, isDir_iff_false h3]
            rw [hg.eq_of_dir wf hld] at h3
            exact hloc n h3
      intro p n hu hn hnd
      refine ⟨fun hx => ?_, fun hx => ?_⟩
      swap
      · have hpr : p ∉ ADB.paths rows := by
          intro h
          rcases (hpaths p).1 h with h | h
          · exact ((hfm p).1 h).2.2 hx
          · obtain ⟨⟨n', h1, h2⟩, _⟩ := (hdm p).1 h
            rw [hn] at h1
            cases h1
            rw [hnd] at h2
            cases h2
        rw [hl.other _ (fun p' hp' he => hpr (by rw [List.append_cancel_left he]; exact hall p' hp')),
          hg.eq_of_dir wf hld]
      have hpf : p ∈ files := (hfm p).2 ⟨⟨n, hn, hnd⟩, hu, hx⟩
      have hpr : p ∈ ADB.paths rows := (hpaths p).2 (Or.inl hpf)
      obtain ⟨e, he1, he2⟩ := List.mem_map.1 hpr
      have hed : e.directory = false := by rw [htyped e he1, he2, isDir_iff_false hn, hnd]
      have hpF : p ∈ ADB.paths (ALocal.getPaths rows [] (some false) none) := mem_getPaths_dir.2 ⟨e, he1, he2, hed⟩
      have hpD : p ∉ ADB.paths (ALocal.getPaths rows [] (some true) none) := by
        intro h
        obtain ⟨e', h1, h2, h3⟩ := mem_getPaths_dir.1 h
        rw [htyped e' h1, h2, isDir_iff_false hn, hnd] at h3
        cases h3
      have hin : p ∈ DB.sortDepth id ((ADB.paths (ALocal.getPaths rows [] (some false) none)).foldl
          (fun acc p => setAdd p acc) (ADB.paths (ALocal.getPaths rows [] (some true) none))) := by
        rw [mem_sortDepth, mem_foldl_setAdd]; exact Or.inr hpF
      rcases he.at_ p hin with ⟨now, h1, _⟩ | ⟨_, _, h | h⟩
      · refine ⟨now, ?_⟩
        rw [h1]
        unfold linkNode
        rw [if_neg hpD]
      · exact absurd h hpD
      · cases h
    · rintro _ s' ⟨f1, hg, hl⟩
      exact ⟨frame f1 s'.fs hg hl, rfl⟩
  apply wp_scanRemote
  · intro h
    rcases hm with h1 | h1
    · exact absurd h1 h
    · rw [h1]
      exact key w.rmemo
  · intro _
    exact key _
  · intro e; exact ⟨hrefl, rfl⟩

end Verif
