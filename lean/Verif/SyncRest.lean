import Verif.SyncKnown
import Verif.Counted
/-
The state between two syncs.
-/
namespace Verif
open Prog OSM Call FSTools WM

theorem pathDir_updatePaths {a : ALocal} {ps : List Path} {x : Option Rat} {l : Option Bool} :
    pathDir (ALocal.updatePaths a ps none x l) = pathDir a := by
  have hw : ∀ (a : ALocal) (g : Entry PData → Entry PData), (∀ e, (g e).path = e.path) →
      (∀ e, (g e).directory = e.directory) → pathDir (ADB.updateWhere a ps g) = pathDir a := by
    intro a g h1 h2
    unfold ADB.updateWhere
    induction ps generalizing a with
    | nil => rfl
    | cons q ps ih =>
      rw [List.foldl_cons, ih]
      unfold pathDir
      rw [List.map_map]
      apply List.map_congr_left
      intro e _
      simp only [Function.comp]
      split <;> simp [h1, h2]
  have ho : ∀ {α : Type} (a : ALocal) (v : Option α) (g : α → Entry PData → Entry PData),
      (∀ x e, (g x e).path = e.path) → (∀ x e, (g x e).directory = e.directory) →
      pathDir (ADB.updateOpt a ps v g) = pathDir a := by
    intro α a v g h1 h2
    unfold ADB.updateOpt
    cases v with
    | none => rfl
    | some x => exact hw a (g x) (h1 x) (h2 x)
  unfold ALocal.updatePaths
  dsimp only
  unfold pathDir
  rw [pathDir_refresh]
  change pathDir _ = pathDir _
  refine (ho _ _ _ ?_ ?_).trans ((ho _ _ _ ?_ ?_).trans rfl) <;> exact fun _ _ => rfl

theorem pathDir_markLocal (db : ALocal) (ps new : List Path) : pathDir (markLocal db ps new) = pathDir db := by
  unfold markLocal
  rw [pathDir_updatePaths]
  induction ps generalizing db with
  | nil => rfl
  | cons f ps ih => rw [List.foldl_cons, ih, pathDir_updatePaths]

/-- A successful sync leaves the profile at rest. -/
theorem rest_of_done {env : Env} {w w' : World} (r : SyncReady env w) (c : Calm env w) (h : SyncDone env w w') :
    AtRest env w' := by
  have ag := agree_of_done r c h
  obtain ⟨del, new, mod, w1, w2, upd, w3, cp, DL, DR, l, w4, sel, rex, w5, w6, S, T, D⟩ := h
  obtain ⟨x, y, hw5⟩ := T.same
  have fs5 : w5.os.fs = w4.os.fs := by rw [hw5]
  have db5 : w5.db = w4.db := by rw [hw5]
  have rdb5 : w5.rdb = w4.rdb := by rw [hw5]
  have db6 : pathDir w6.db = pathDir w4.db := by
    obtain ⟨ps, h, _⟩ := D.db
    rw [h, pathDir_markLocal, db5]
  have rdb6 : w6.rdb = w4.rdb := D.rdb.trans rdb5
  have rem' : ∀ p n, w'.os.fs.get (env.rem ++ p) = some n → w4.os.fs.get (env.rem ++ p) = some n := by
    intro p n hn
    have h1 : w6.os.fs.get (env.rem ++ p) = some n := by
      rcases D.ended.keeps.gone (env.rem ++ p) with h1 | h1
      · rw [← h1]; exact hn
      · rw [h1] at hn; cases hn
    rw [D.kept.out, fs5] at h1
    · exact h1
    rintro ⟨⟨t, e⟩, _⟩
    exact r.apart.ne t p e
  refine ⟨ag, D.ended.keeps.wf D.kept.wf, ?_, ?_, ?_, ?_⟩
  · intro e he n hn
    have h1 := rem' _ n hn
    have h3 : (e.path, e.directory) ∈ pathDir w6.db :=
      D.ended.dbL.subset (List.mem_map.2 ⟨e, he, rfl⟩)
    rw [db6] at h3
    obtain ⟨e', h4, h5⟩ := List.mem_map.1 h3
    rw [Prod.mk.injEq] at h5
    rw [← h5.2]
    exact (S.up.db e' h4).rem n (by rw [h5.1]; exact h1)
  · intro e he n hn
    have h1 := rem' _ n hn
    exact (S.up.rdb e (by rw [← rdb6]; exact D.ended.rdbSub e he)).rem n h1
  · have h1 := D.ended.dbL.map Prod.fst
    change List.Sublist (List.map Prod.fst (pathDir w'.db)) (List.map Prod.fst (pathDir w6.db)) at h1
    rw [pathDir_fst, db6, pathDir_fst] at h1
    exact h1.nodup S.up.nodup_db
  · exact (D.ended.rdbL.map _).nodup (by rw [rdb6]; exact S.up.nodup)

/-- What is assumed about the settings of a profile. -/
structure EnvReady (env : Env) : Prop where
  order : ∀ l, (env.order l).Perm l
  apart : Apart env.loc env.rem
  goodId : GoodName env.id
  goodRem : GoodPath env.rem
  excl_slot : env.excl ≠ env.exclDir ++ [env.id]

/-- The remote database and the remote directory in the state in which a sync of another client leaves them. -/
structure Synced (env : Env) (w : World) : Prop where
  user : ∀ p ∈ ADB.paths w.rdb, UserPath p
  remote : ∀ p, UserPath p → (p ∈ ADB.paths w.rdb ↔ ∃ n, w.os.fs.get (env.rem ++ p) = some n)
  kind : ∀ e ∈ w.rdb, ∀ n, w.os.fs.get (env.rem ++ e.path) = some n → n.isDir = e.directory
  nodup : (ADB.paths w.rdb).Nodup

/-- A sync starts in `w'` with what the last one, which has ended in `w`, has saved in the profile. What may have
happened since then: the daemon has counted openings and adjusted priorities; any change of files, also of the exclude file, as long as
- nothing that was in the remote directory is in one of the directories a directory instead of a file or the other way
  round, and a path that is in both directories is a directory, or a file, or a link in both of them, a link to the
  remote file excepted (`kinds`, `tidy`),
- nothing below a new directory is excluded or an unsafe link (`below`),
- no file has the name that the sync would give to a conflicting one (`free`, `free_old`). -/
structure Edits (env : Env) (w w' : World) : Prop where
  db : Counted w.dbSaved w'.db
  last : w'.last = w.lastSaved
  lmemo : w'.lmemo = []
  rmemo : w'.rmemo = []
  matches_ : w'.matches_ = none
  wf : w'.os.fs.WF
  loc_dir : w'.os.fs.isDir env.loc = true
  rem_dir : ∀ n, w'.os.fs.get env.rem = some n → n.isDir = true
  slot : ∀ n, w'.os.fs.get (env.exclDir ++ [env.id]) = some n → ∃ c m b, n = .file c m b
  excl : ∃ c m b, w'.os.fs.get env.excl = some (.file c m b)
  no_util : w'.os.fs.get (env.loc ++ [Env.utilName]) = none
  tidy : Tidy env w'.os.fs
  kinds : ∀ p n n', UserPath p → w.os.fs.get (env.rem ++ p) = some n →
    w'.os.fs.get (env.loc ++ p) = some n' ∨ w'.os.fs.get (env.rem ++ p) = some n' → n'.isDir = n.isDir
  below : ∀ f, ChangedLocally env w' f → ∀ q n, f <+: q → f ≠ q → w'.os.fs.get (env.loc ++ q) = some n →
    ¬ OwnExcludes env w'.os.fs q ∧ ¬ UnsafeLink env.loc q n
  stamp : ∀ k, w'.os.tick ≤ k → GoodStamp (env.stamp (w'.os.clk k))
  free : ∀ k p, w'.os.tick ≤ k → UserPath p → GoodPath p →
    w'.os.fs.get (env.loc ++ conflictPath (env.stamp (w'.os.clk k)) p) = none ∧
    w'.os.fs.get (env.rem ++ conflictPath (env.stamp (w'.os.clk k)) p) = none
  free_old : ∀ k p, w'.os.tick ≤ k → UserPath p → GoodPath p →
    w.os.fs.get (env.rem ++ conflictPath (env.stamp (w'.os.clk k)) p) = none

/-- The same with the remote database: other clients may have synchronised, as long as they have deleted nothing that
this one excludes. -/
structure Resumes (env : Env) (w w' : World) : Prop extends Edits env w w' where
  others : w'.rdb = w.rdbSaved ∨ (Synced env w' ∧ ∀ p ∈ ADB.paths w'.db, w'.os.fs.get (env.rem ++ p) = none →
    ¬ OwnExcludes env w'.os.fs p)

section
variable {env : Env} {w w' : World}

theorem AtRest.there (a : AtRest env w) {p : Path} (hp : p ∈ ADB.paths w.rdb) :
    UserPath p ∧ ∃ n, w.os.fs.get (env.rem ++ p) = some n :=
  ⟨a.user p hp, (a.remote p (a.user p hp)).1 hp⟩

/-- A row for something that has been in the remote directory fits the changed directories. -/
theorem Resumes.fits (h : Resumes env w w') (wf : w.os.fs.WF) {p : Path} {n : Node} (hu : UserPath p)
    (hn : w.os.fs.get (env.rem ++ p) = some n) : Fits env w'.os.fs p n.isDir := by
  have above : ∀ q, q <+: p → q ≠ p → q ≠ [] → ∃ m b, w.os.fs.get (env.rem ++ q) = some (.dir m b) := by
    intro q hq hne _
    exact FS.isDir_iff.1 (wf.isDir_prefix hn (env.rem ++ q) ((List.prefix_append_right_inj _).2 hq)
      (fun e => hne (List.append_cancel_left e)))
  refine ⟨hu, (goodPath_append.1 (wf.goodPath hn)).2, fun n' hn' => h.kinds p n n' hu hn (Or.inl hn'),
    fun n' hn' => h.kinds p n n' hu hn (Or.inr hn'), ?_, ?_⟩
  · intro q n' hq hne hn'
    by_cases h0 : q = []
    · subst h0
      rw [List.append_nil] at hn'
      obtain ⟨m, b, h1⟩ := FS.isDir_iff.1 h.loc_dir
      rw [h1] at hn'; cases hn'; rfl
    · obtain ⟨m, b, h1⟩ := above q hq hne h0
      exact h.kinds q _ n' (PlainPath.user (hu.plain.prefix hq) h0) h1 (Or.inl hn')
  · intro q n' hq hne hn'
    by_cases h0 : q = []
    · subst h0
      rw [List.append_nil] at hn'
      exact h.rem_dir n' hn'
    · obtain ⟨m, b, h1⟩ := above q hq hne h0
      exact h.kinds q _ n' (PlainPath.user (hu.plain.prefix hq) h0) h1 (Or.inr hn')

theorem Synced.fit (s : Synced env w') (h : Resumes env w w') : Fit env w'.os.fs w'.rdb := by
  intro e he
  have hp : e.path ∈ ADB.paths w'.rdb := List.mem_map.2 ⟨e, he, rfl⟩
  have hu := s.user _ hp
  obtain ⟨n, hn⟩ := (s.remote _ hu).1 hp
  have hk := s.kind e he n hn
  have above : ∀ q, q <+: e.path → q ≠ e.path → ∃ m b, w'.os.fs.get (env.rem ++ q) = some (.dir m b) := by
    intro q hq hne
    exact FS.isDir_iff.1 (h.wf.isDir_prefix hn (env.rem ++ q) ((List.prefix_append_right_inj _).2 hq)
      (fun e => hne (List.append_cancel_left e)))
  refine ⟨hu, (goodPath_append.1 (h.wf.goodPath hn)).2, ?_, ?_, ?_, ?_⟩
  · intro n' hn'
    rw [← hk]; exact h.tidy.kind _ hu.plain _ _ hn' hn
  · intro n' hn'
    rw [hn] at hn'; cases hn'; exact hk
  · intro q n' hq hne hn'
    obtain ⟨m, b, h1⟩ := above q hq hne
    exact h.tidy.kind q (hu.plain.prefix hq) _ _ hn' h1
  · intro q n' hq hne hn'
    obtain ⟨m, b, h1⟩ := above q hq hne
    rw [h1] at hn'; cases hn'; rfl

/-- No known path has or is below a name that the sync would give to a conflicting file. -/
theorem free_known {fs : FS} {q c : Path} (wf : fs.WF) (hn : ∃ n, fs.get (env.rem ++ q) = some n)
    (hc : fs.get (env.rem ++ c) = none) : ¬ c <+: q := by
  intro hcq
  obtain ⟨n, hn⟩ := hn
  by_cases he : c = q
  · rw [he, hn] at hc; cases hc
  · obtain ⟨m, b, h1⟩ := FS.isDir_iff.1 (wf.isDir_prefix hn (env.rem ++ c) ((List.prefix_append_right_inj _).2 hcq)
      (fun e => he (List.append_cancel_left e)))
    rw [h1] at hc; cases hc

/-- What a sync needs holds again when the next one starts. -/
theorem Resumes.ready (h : Resumes env w w') (er : EnvReady env) (a : AtRest env w) : SyncReady env w' where
  order := er.order
  apart := er.apart
  wf := h.wf
  goodId := er.goodId
  goodRem := er.goodRem
  loc_dir := h.loc_dir
  slot := h.slot
  excl := h.excl
  excl_slot := er.excl_slot
  no_util := h.no_util
  tidy := h.tidy
  db := by
    intro e' he'
    obtain ⟨e, he, k1, k2, _⟩ := h.db.row he'
    rw [a.dbSaved] at he
    rw [← k1, ← k2]
    obtain ⟨hu, n, hn⟩ := a.there ((a.same _).1 (List.mem_map.2 ⟨e, he, rfl⟩))
    rw [← a.kind_db e he n hn]
    exact h.fits a.wf hu hn
  rdb := by
    rcases h.others with h1 | ⟨h1, _⟩
    · rw [h1, a.rdbSaved]
      intro e he
      obtain ⟨hu, n, hn⟩ := a.there (List.mem_map.2 ⟨e, he, rfl⟩)
      rw [← a.kind_rdb e he n hn]
      exact h.fits a.wf hu hn
    · exact h1.fit h
  nodup_db := by rw [h.db.paths_eq, a.dbSaved]; exact a.nodup_db
  nodup := by
    rcases h.others with h1 | ⟨h1, _⟩
    · rw [h1, a.rdbSaved]; exact a.nodup
    · exact h1.nodup
  stamp := h.stamp
  free := h.free
  free_db := by
    intro k p hk hp hg q hq
    have old : q ∈ ADB.paths w.rdb → ¬ conflictPath (env.stamp (w'.os.clk k)) p <+: q :=
      fun h1 => free_known a.wf (a.there h1).2 (h.free_old k p hk hp hg)
    rcases hq with hq | hq
    · rw [h.db.paths_eq, a.dbSaved] at hq
      exact old ((a.same q).1 hq)
    · rcases h.others with h1 | ⟨h1, _⟩
      · rw [h1, a.rdbSaved] at hq
        exact old hq
      · exact free_known h.wf ((h1.remote q (h1.user q hq)).1 hq) (h.free k p hk hp hg).2
  lmemo := h.lmemo
  rmemo := h.rmemo
  matches_ := h.matches_

theorem Resumes.calm (h : Resumes env w w') (a : AtRest env w) : Calm env w' where
  closed := by
    intro p hp q hq h0
    rw [h.db.paths_eq, a.dbSaved] at hp ⊢
    obtain ⟨hu, n, hn⟩ := a.there ((a.same p).1 hp)
    by_cases he : q = p
    · rw [he]; exact hp
    · obtain ⟨m, b, h1⟩ := FS.isDir_iff.1 (a.wf.isDir_prefix hn (env.rem ++ q) ((List.prefix_append_right_inj _).2 hq)
        (fun e => he (List.append_cancel_left e)))
      exact (a.same q).2 ((a.remote q (PlainPath.user (hu.plain.prefix hq) h0)).2 ⟨_, h1⟩)
  known := by
    intro p hp
    rcases h.others with h1 | ⟨h1, h2⟩
    · rw [h.db.paths_eq, a.dbSaved] at hp
      rw [h1, a.rdbSaved]
      exact Or.inl ((a.same p).1 hp)
    · have hp' := hp
      rw [h.db.paths_eq, a.dbSaved] at hp'
      obtain ⟨hu, _⟩ := a.there ((a.same p).1 hp')
      rcases Option.eq_none_or_eq_some (w'.os.fs.get (env.rem ++ p)) with h3 | h3
      · exact Or.inr ⟨h3, h2 p hp h3⟩
      · exact Or.inl ((h1.remote p hu).2 h3)
  remote := by
    intro p hp
    rcases h.others with h1 | ⟨h1, _⟩
    · rw [h1, a.rdbSaved] at hp
      rw [h.db.paths_eq, a.dbSaved]
      exact Or.inl ((a.same p).2 hp)
    · exact Or.inr ((h1.remote p (h1.user p hp)).1 hp)
  below := h.below

/-- A successful sync leaves the profile at rest. -/
theorem rest_of_sync (r : SyncReady env w) (c : Calm env w) (h : (sync env w).1 = .ok ()) :
    AtRest env (sync env w).2 := by
  have h1 : sync env w = (.ok (), (sync env w).2) := by rw [← h]
  exact rest_of_done r c (wp_ok (wp_sync r) h1).2

end

end Verif
