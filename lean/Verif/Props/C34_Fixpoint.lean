import Verif.SyncKnown
import Verif.Aged
import Verif.Props.C33_Agreement
import Verif.Props.C23_RmExcluded
/-
C34: immediately after a successful sync, compute_added, compute_deleted and compute_modified all return empty sets.

The scans of the next sync are those of the file system that this sync has left, and the databases and the time of
the last sync are those that it has saved. For the modifications the claim needs a clock that does not go back and
files that are not from the future (`C34_future_fails`); for the others it needs what C33 needs.
-/
namespace Verif
open Prog OSM

variable {env : Env} {w : World}

/-- C34: nothing is reported as modified. This holds for every successful sync. -/
theorem C34_modified_partial (hc : ∀ i j, i ≤ j → w.os.clk i ≤ w.os.clk j)
    (hf : ∀ e ∈ w.os.fs, e.2.mtime ≤ w.os.clk w.os.tick) (hr : ∀ e ∈ w.rdb, e.data ≤ w.os.clk w.os.tick)
    (h : (sync env w).1 = .ok ()) (db : ALocal) :
    computeModified env.loc ((sync env w).2.os.fs.below env.loc) (Scan.user ((sync env w).2.os.fs.below env.rem)) db
      (sync env w).2.rdbSaved (sync env w).2.lastSaved = ⟨[], []⟩ := by
  have h1 : sync env w = (.ok (), (sync env w).2) := by rw [← h]
  have hs : Settled (sync env w).2 :=
    wp_ok (settled_sync env (k := w.os.tick) ⟨⟨rfl, hc, Nat.le_refl _, hf⟩, hr⟩) h1
  have old : ∀ root, ∀ e ∈ (sync env w).2.os.fs.below root, ¬ (sync env w).2.lastSaved < e.2.mtime := by
    intro root e he hlt
    obtain ⟨x, h2, h3⟩ := List.mem_filterMap.1 he
    have h4 : x.2 = e.2 := by
      split at h3
      · cases h3; rfl
      · cases h3
    have := hs.1 x h2
    rw [h4] at this
    omega
  unfold computeModified
  have e1 : ∀ (s : Scan) (P : Path × Node → Bool), (∀ e ∈ s, ¬ (sync env w).2.lastSaved < e.2.mtime) →
      s.nonDirs.filter (fun e => decide ((sync env w).2.lastSaved < e.2.mtime) && P e) = [] := by
    intro s P h2
    rw [List.filter_eq_nil_iff]
    intro e he
    have := h2 e (List.mem_filter.1 he).1
    simp [this]
  have e2 : ARemote.getPaths (sync env w).2.rdbSaved [] (some false) (some (sync env w).2.lastSaved) = [] := by
    unfold ARemote.getPaths
    rw [List.filter_eq_nil_iff]
    intro e he
    have h2 := hs.2 e (List.mem_filter.1 he).1
    have h3 : ¬ (sync env w).2.lastSaved < e.data := by omega
    simp [h3]
  rw [e2]
  simp only [Bool.and_assoc]
  rw [e1 _ _ (old _), e1 (Scan.user ((sync env w).2.os.fs.below env.rem)) _
    (fun e he => old _ e (List.mem_filter.1 he).1)]
  rfl

/-- C34: nothing is reported as deleted. -/
theorem C34_deleted_partial (r : SyncReady env w) (c : Calm env w) (h : (sync env w).1 = .ok ()) (useTrash : Bool)
    (hx : ¬ env.loc <+: env.excl) (hx' : ¬ env.rem <+: env.excl) :
    computeDeleted (Scan.keys ((sync env w).2.os.fs.below env.loc))
      (Scan.keys (Scan.user ((sync env w).2.os.fs.below env.rem))) (sync env w).2.dbSaved (sync env w).2.rdbSaved
      useTrash = some ⟨[], [], []⟩ := by
  have a := agree_of_sync r c h
  have h1 : sync env w = (.ok (), (sync env w).2) := by rw [← h]
  obtain ⟨k, m, b, he⟩ := r.excl
  obtain ⟨wf, _⟩ := known_of_done r c (wp_ok (wp_sync r) h1).2
    ⟨k, m, b, he, (C56_outside_partial r hx hx').2 _ he rfl⟩
  have hrem : ∀ p ∈ ADB.paths (sync env w).2.db, ∃ n, UserPath p ∧ (sync env w).2.os.fs.get (env.rem ++ p) = some n := by
    intro p hp
    have h2 := (a.same p).1 hp
    obtain ⟨n, hn⟩ := (a.remote p (a.user p h2)).1 h2
    exact ⟨n, a.user p h2, hn⟩
  have e1 : (ADB.paths (sync env w).2.dbSaved).filter (fun p => decide
      (p ∉ Scan.keys (Scan.user ((sync env w).2.os.fs.below env.rem)))) = [] := by
    rw [a.dbSaved, List.filter_eq_nil_iff]
    intro p hp
    obtain ⟨n, hu, hn⟩ := hrem p hp
    rw [decide_eq_true_eq]
    intro hk
    exact hk (List.mem_map.2 ⟨(p, n), (mem_user_below wf).2 ⟨hn, hu⟩, rfl⟩)
  have e2 : (ADB.paths (sync env w).2.dbSaved).filter (fun p => decide
      (p ∉ Scan.keys ((sync env w).2.os.fs.below env.loc))) = [] := by
    rw [a.dbSaved, List.filter_eq_nil_iff]
    intro p hp
    obtain ⟨n, hu, hn⟩ := hrem p hp
    rw [decide_eq_true_eq]
    intro hk
    refine hk ((mem_keys_below wf).2 ⟨hu.1, ?_⟩)
    cases hd : n.isDir with
    | true =>
      obtain ⟨x, y, hxy⟩ := FS.isDir_iff.1 ((a.loc p n hu hn).1 hd)
      exact ⟨_, hxy⟩
    | false =>
      rcases (a.loc p n hu hn).2 hd with h2 | ⟨t, m, h2, _⟩
      · exact ⟨_, h2⟩
      · exact ⟨_, h2⟩
  unfold computeDeleted
  simp only [e1, e2, dropSubs, Option.bind_eq_bind, Option.bind_some]
  cases useTrash <;> rfl

/-- C34: nothing is reported as new. -/
theorem C34_added_partial (r : SyncReady env w) (c : Calm env w) (h : (sync env w).1 = .ok ())
    (hx : ¬ env.loc <+: env.excl) (hx' : ¬ env.rem <+: env.excl) {pats : Patterns}
    (hp : readPatterns env (sync env w).2.os.fs env.excl = .ok pats) :
    computeAdded env.loc ((sync env w).2.os.fs.below env.loc) (Scan.user ((sync env w).2.os.fs.below env.rem))
      (sync env w).2.dbSaved (allMatches pats (Scan.keys ((sync env w).2.os.fs.below env.loc))) = ⟨[], []⟩ := by
  have a := agree_of_sync r c h
  have h1 : sync env w = (.ok (), (sync env w).2) := by rw [← h]
  obtain ⟨k, m, b, he⟩ := r.excl
  have he' := (C56_outside_partial r hx hx').2 _ he rfl
  obtain ⟨wf, known⟩ := known_of_done r c (wp_ok (wp_sync r) h1).2 ⟨k, m, b, he, he'⟩
  have hgl : GoodPath env.loc := by
    obtain ⟨x, y, hxy⟩ := FS.isDir_iff.1 r.loc_dir
    exact r.wf.goodPath hxy
  have hpats : pats = env.patsOf k := by
    unfold readPatterns at hp
    rw [stat_file wf he'] at hp
    cases hp; rfl
  have e1 : (computeAdded env.loc ((sync env w).2.os.fs.below env.loc)
      (Scan.user ((sync env w).2.os.fs.below env.rem)) (sync env w).2.dbSaved
      (allMatches pats (Scan.keys ((sync env w).2.os.fs.below env.loc)))).loc = [] := by
    rw [List.eq_nil_iff_forall_not_mem]
    intro p hmem
    simp only [computeAdded, List.mem_filter, List.mem_map, decide_eq_true_eq, Bool.and_eq_true,
      Bool.not_eq_true', info_isNone] at hmem
    obtain ⟨⟨⟨q, n⟩, ⟨h2, h3, h4⟩, rfl⟩, h5⟩ := hmem
    rw [wf.mem_below_iff] at h2
    obtain ⟨h2, hq0⟩ := h2
    dsimp only at h3 h4 h5
    rcases known q n hq0 h2 with h6 | h6 | ⟨_, k', _, _, h6, h7⟩
    · rw [a.dbSaved] at h3; exact h3 h6
    · have hg : GoodPath q := fun x hx => wf.goodPath h2 x (List.mem_append_right _ hx)
      rw [(unsafeEntry_iff hgl (e := (q, n)) hg hq0).2 h6] at h4; cases h4
    · rw [stat_file wf he'] at h6
      cases h6
      apply h5
      unfold Scan.keys
      rw [mem_allMatches_fs wf, hpats]
      exact h7
  have e2 : (computeAdded env.loc ((sync env w).2.os.fs.below env.loc)
      (Scan.user ((sync env w).2.os.fs.below env.rem)) (sync env w).2.dbSaved
      (allMatches pats (Scan.keys ((sync env w).2.os.fs.below env.loc)))).rem = [] := by
    rw [List.eq_nil_iff_forall_not_mem]
    intro p hmem
    simp only [computeAdded, List.mem_map, List.mem_filter, info_isNone] at hmem
    obtain ⟨⟨q, n⟩, ⟨h2, h3⟩, rfl⟩ := hmem
    obtain ⟨h4, h5⟩ := (mem_user_below wf).1 h2
    rw [a.dbSaved] at h3
    exact h3 ((a.same q).2 ((a.remote q h5).2 ⟨n, h4⟩))
  generalize computeAdded _ _ _ _ _ = u at e1 e2
  cases u
  cases e1; cases e2; rfl

/-- A known file whose time of modification lies far in the future; both copies are the same. -/
def exFuture : World := exWorld exEnvE
  [(["l".toList, "a".toList], .file 7 2000 1), (["r".toList, "a".toList], .file 7 2000 1)]
  [exRow ["a".toList] false 1 true] [exRRow ["a".toList] false] 1000

/-- C34 fails for a file from the future: the sync succeeds and the next one finds it modified again. -/
theorem C34_future_fails : (sync exEnvE exFuture).1 = .ok () ∧
    ["a".toList] ∈ (computeModified exEnvE.loc ((sync exEnvE exFuture).2.os.fs.below exEnvE.loc)
      (Scan.user ((sync exEnvE exFuture).2.os.fs.below exEnvE.rem)) (sync exEnvE exFuture).2.dbSaved
      (sync exEnvE exFuture).2.rdbSaved (sync exEnvE exFuture).2.lastSaved).loc := by
  decide +kernel

/-! A sync that uploads, downloads, deletes and resolves a conflict meets the hypotheses. -/

theorem exMixed_ok : (sync exEnvE (exMixed 1000)).1 = .ok () := by decide +kernel

example : computeModified exEnvE.loc ((sync exEnvE (exMixed 1000)).2.os.fs.below exEnvE.loc)
    (Scan.user ((sync exEnvE (exMixed 1000)).2.os.fs.below exEnvE.rem)) (sync exEnvE (exMixed 1000)).2.dbSaved
    (sync exEnvE (exMixed 1000)).2.rdbSaved (sync exEnvE (exMixed 1000)).2.lastSaved = ⟨[], []⟩ :=
  C34_modified_partial (fun i j h => by show (i : Int) + 50 ≤ j + 50; omega) (by decide +kernel) (by decide +kernel)
    exMixed_ok _

example : computeDeleted (Scan.keys ((sync exEnvE (exMixed 1000)).2.os.fs.below exEnvE.loc))
    (Scan.keys (Scan.user ((sync exEnvE (exMixed 1000)).2.os.fs.below exEnvE.rem)))
    (sync exEnvE (exMixed 1000)).2.dbSaved (sync exEnvE (exMixed 1000)).2.rdbSaved true = some ⟨[], [], []⟩ :=
  C34_deleted_partial (exMixed_ready 1000) (exMixed_calm 1000) exMixed_ok true (by decide) (by decide)

example : ∃ pats, readPatterns exEnvE (sync exEnvE (exMixed 1000)).2.os.fs exEnvE.excl = .ok pats ∧
    computeAdded exEnvE.loc ((sync exEnvE (exMixed 1000)).2.os.fs.below exEnvE.loc)
      (Scan.user ((sync exEnvE (exMixed 1000)).2.os.fs.below exEnvE.rem)) (sync exEnvE (exMixed 1000)).2.dbSaved
      (allMatches pats (Scan.keys ((sync exEnvE (exMixed 1000)).2.os.fs.below exEnvE.loc))) = ⟨[], []⟩ := by
  have h : ∃ pats, readPatterns exEnvE (sync exEnvE (exMixed 1000)).2.os.fs exEnvE.excl = .ok pats := by
    have : (readPatterns exEnvE (sync exEnvE (exMixed 1000)).2.os.fs exEnvE.excl).isOk = true := by decide +kernel
    cases hr : readPatterns exEnvE (sync exEnvE (exMixed 1000)).2.os.fs exEnvE.excl with
    | ok p => exact ⟨p, rfl⟩
    | error e => rw [hr] at this; cases this
  obtain ⟨pats, hp⟩ := h
  exact ⟨pats, hp, C34_added_partial (exMixed_ready 1000) (exMixed_calm 1000) exMixed_ok (by decide) (by decide) hp⟩

end Verif
