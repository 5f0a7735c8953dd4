import Verif.WorldLemmas
import Verif.Spec.Excluded
import Verif.Props.C50_EmptyTrash
/-
C23: `rm_excluded_files`.
-/
namespace Verif
open Prog OSM Call FSTools WM

theorem mem_allMatches_fs {fs : FS} (w : fs.WF) {loc : Path} {pats : Patterns} {p : Path} :
    p ∈ allMatches pats ((fs.below loc).map Prod.fst) ↔ ExcludedIn fs loc pats p := by
  unfold allMatches ExcludedIn
  rw [List.mem_filter, mem_keys_below w, List.any_eq_true]
  constructor
  · rintro ⟨⟨h1, h2⟩, m, hm, h3⟩
    rw [Bool.and_eq_true, List.isPrefixOf_iff_prefix, List.any_eq_true] at h3
    exact ⟨h1, h2, m, ((mem_keys_below w).1 hm).1, h3.1, h3.2⟩
  · rintro ⟨h1, ⟨n, h2⟩, m, h3, h4, h5⟩
    refine ⟨⟨h1, n, h2⟩, m, ?_, ?_⟩
    · rw [mem_keys_below w]
      refine ⟨h3, ?_⟩
      by_cases hmp : m = p
      · subst hmp; exact ⟨n, h2⟩
      · obtain ⟨x, y, hd⟩ := FS.isDir_iff.1 (w.isDir_prefix h2 (loc ++ m)
          (by rw [List.prefix_append_right_inj]; exact h4) (fun h => hmp (List.append_cancel_left h)))
        exact ⟨_, hd⟩
    · rw [Bool.and_eq_true, List.isPrefixOf_iff_prefix, List.any_eq_true]
      exact ⟨h4, h5⟩

theorem globMatches_ok {fs : FS} {loc : Path} {pats : Patterns} {l : List Path}
    (h : globMatches fs loc pats = .ok l) : l = allMatches pats ((fs.below loc).map Prod.fst) := by
  unfold globMatches at h
  split at h
  · cases h
  · exact (Except.ok.inj h).symm

theorem readPatterns_ok {env : Env} {fs : FS} {p : Path} {pats : Patterns} :
    readPatterns env fs p = .ok pats ↔ ∃ q k m b, fs.stat p = .ok (q, .file k m b) ∧ pats = env.patsOf k := by
  unfold readPatterns
  constructor
  · intro h
    split at h
    · cases h; exact ⟨_, _, _, _, by assumption, rfl⟩
    · cases h
    · cases h
  · rintro ⟨q, k, m, b, h, rfl⟩
    rw [h]

theorem allExclude_ok {env : Env} {fs : FS} {p : Path} : ∀ {cs : List Path} {b : Bool},
    allExclude env fs p cs = .ok b →
      (b = true → ∀ c ∈ cs, ∃ l, clientMatches env fs c = .ok l ∧ p ∈ l) ∧
      (b = false → ∃ c ∈ cs, ∃ l, clientMatches env fs c = .ok l ∧ p ∉ l)
  | [], b, h => by
    unfold allExclude at h
    cases h; simp
  | c :: cs, b, h => by
    unfold allExclude at h
    split at h
    · rename_i l hl
      split at h
      · rename_i hp
        obtain ⟨h1, h2⟩ := allExclude_ok h
        refine ⟨fun hb => ?_, fun hb => ?_⟩
        · intro x hx
          rcases List.mem_cons.1 hx with rfl | hx
          · exact ⟨l, hl, hp⟩
          · exact h1 hb x hx
        · obtain ⟨x, hx, h3⟩ := h2 hb
          exact ⟨x, List.mem_cons_of_mem _ hx, h3⟩
      · rename_i hp
        cases h
        exact ⟨by simp, fun _ => ⟨c, List.mem_cons_self, l, hl, hp⟩⟩
    · cases h

theorem excludedLoop_ok {env : Env} {fs : FS} {cs : List Path} : ∀ {ps l : List Path},
    excludedLoop env fs cs ps = .ok l → ∀ p,
      (p ∈ l → p ∈ ps ∧ ∀ c ∈ cs, ∃ l, clientMatches env fs c = .ok l ∧ p ∈ l) ∧
      (p ∈ ps → p ∉ l → ∃ c ∈ cs, ∃ l, clientMatches env fs c = .ok l ∧ p ∉ l)
  | [], l, h, p => by
    unfold excludedLoop at h
    cases h; simp
  | q :: ps, l, h, p => by
    unfold excludedLoop at h
    split at h
    · rename_i b hb
      split at h
      · rename_i l' hl
        obtain ⟨ih1, ih2⟩ := excludedLoop_ok hl p
        obtain ⟨hb1, hb2⟩ := allExclude_ok hb
        cases h
        cases b with
        | true =>
          rw [if_pos rfl]
          refine ⟨?_, ?_⟩
          · intro h1
            rcases List.mem_cons.1 h1 with rfl | h1
            · exact ⟨List.mem_cons_self, hb1 rfl⟩
            · exact ⟨List.mem_cons_of_mem _ (ih1 h1).1, (ih1 h1).2⟩
          · intro h1 h2
            rcases List.mem_cons.1 h1 with rfl | h1
            · exact absurd List.mem_cons_self h2
            · exact ih2 h1 (fun h3 => h2 (List.mem_cons_of_mem _ h3))
        | false =>
          rw [if_neg (by simp)]
          refine ⟨?_, ?_⟩
          · intro h1
            exact ⟨List.mem_cons_of_mem _ (ih1 h1).1, (ih1 h1).2⟩
          · intro h1 h2
            rcases List.mem_cons.1 h1 with rfl | h1
            · exact hb2 rfl
            · exact ih2 h1 h2
      · cases h
    · cases h

theorem clientMatches_ok {env : Env} {fs : FS} (w : fs.WF) {c : Path} {l : List Path}
    (h : clientMatches env fs c = .ok l) : ∃ q k m b, fs.stat c = .ok (q, .file k m b) ∧
      ∀ p, p ∈ l ↔ ExcludedIn fs env.loc (env.patsOf k) p := by
  unfold clientMatches at h
  split at h
  · rename_i pats hp
    obtain ⟨q, k, m, b, h4, rfl⟩ := readPatterns_ok.1 hp
    have := globMatches_ok h
    subst this
    exact ⟨q, k, m, b, h4, fun p => mem_allMatches_fs w⟩
  · cases h

theorem checkExcluded_fs {env : Env} (ho : ∀ l, (env.order l).Perm l) {fs : FS} (w : fs.WF) {ps l : List Path}
    (h : checkExcluded env ps fs = .ok l) {p : Path} :
    p ∈ l ↔ p ∈ ps ∧ ∀ c, Client env fs c → ClientExcludes env fs c p := by
  unfold checkExcluded at h
  split at h
  · rename_i es hes
    obtain ⟨_, _, hmem⟩ := mem_scandir w hes
    obtain ⟨h1, h2⟩ := excludedLoop_ok h p
    rw [(ho ps).mem_iff] at h1 h2
    constructor
    · intro hp
      refine ⟨(h1 hp).1, ?_⟩
      rintro c ⟨n, hn⟩
      obtain ⟨l', h3, h4⟩ := (h1 hp).2 _ (List.mem_map.2 ⟨[c], (hmem [c]).2 ⟨rfl, n, hn⟩, rfl⟩)
      obtain ⟨q, k, m, b, h5, h6⟩ := clientMatches_ok w h3
      exact ⟨q, k, m, b, h5, (h6 p).1 h4⟩
    · rintro ⟨hp, hc⟩
      apply Classical.byContradiction
      intro hnot
      obtain ⟨x, hx, l', h3, h4⟩ := h2 hp hnot
      obtain ⟨y, hy, rfl⟩ := List.mem_map.1 hx
      obtain ⟨hy1, n, hn⟩ := (hmem y).1 hy
      obtain ⟨c, rfl⟩ := List.length_eq_one_iff.1 hy1
      obtain ⟨q, k, m, b, h5, h6⟩ := clientMatches_ok w h3
      obtain ⟨q', k', m', b', h7, h8⟩ := hc c ⟨n, hn⟩
      rw [h7] at h5
      cases h5
      exact h4 ((h6 p).2 h8)
  · cases h

/-- The paths that `rm_excluded_files` is to remove. -/
def ToDrop (env : Env) (w : World) (ps : List Path) (p : Path) : Prop :=
  p ∈ ps ∧ p ∈ ADB.paths w.rdb ∧ ∀ c, Client env w.os.fs c → ClientExcludes env w.os.fs c p

theorem wp_rmExcludedFiles {env : Env} (ho : ∀ l, (env.order l).Perm l) {ps : List Path} (hp : ∀ p ∈ ps, p ≠ [])
    {w : World} (wf : w.os.fs.WF) :
    wp (rmExcludedFiles env ps)
      (fun _ w' => Shrink (fun q => ∃ p, ToDrop env w ps p ∧ env.rem ++ p <+: q) w.os.fs w'.os.fs ∧
        (∀ p, ToDrop env w ps p → ∀ q, env.rem ++ p <+: q → w'.os.fs.get q = none) ∧
        ∃ l, (∀ p, p ∈ l ↔ ToDrop env w ps p) ∧ w' = { w.rmRows l with os := w'.os })
      (fun _ w' => Shrink (fun q => ∃ p, ToDrop env w ps p ∧ env.rem ++ p <+: q) w.os.fs w'.os.fs ∧
        w' = { w with os := w'.os }) w := by
  unfold rmExcludedFiles
  rw [wp_bind, wp_sys, wp_query]
  refine ⟨?_, fun _ _ => ⟨Shrink.refl _ _, rfl⟩⟩
  intro l hl
  rw [wp_bind, wp_gets]
  unfold rmRemoteFiles
  have hmem : ∀ p, p ∈ l.filter
      (fun p => decide (p ∈ ADB.paths w.rdb)) ↔ ToDrop env w ps p := by
    intro p
    rw [List.mem_filter, checkExcluded_fs ho wf hl]
    unfold ToDrop
    simp only [decide_eq_true_eq]
    constructor
    · rintro ⟨⟨a, b⟩, c⟩; exact ⟨a, c, b⟩
    · rintro ⟨a, c, b⟩; exact ⟨⟨a, b⟩, c⟩
  refine wp_mono (wp_rmFiles ho env.rem ?_ wf) ?_ ?_
  · intro p h
    exact hp p ((hmem p).1 h).1
  · rintro _ w' ⟨h1, h2, h3⟩
    refine ⟨h1.mono ?_, ?_, _, hmem, h3⟩
    · rintro q ⟨p, h4, h5⟩
      exact ⟨p, (hmem p).1 h4, h5⟩
    · intro p h4
      exact h2 p ((hmem p).2 h4)
  · rintro _ w' ⟨h1, h2⟩
    refine ⟨h1.mono ?_, h2⟩
    rintro q ⟨p, h4, h5⟩
    exact ⟨p, (hmem p).1 h4, h5⟩

/-- C23: however `rm_excluded_files` ends, a path of the file system is unchanged unless it is at or below the
remote copy of one of the given paths that every client excludes. So a file that some client does not exclude
stays. -/
theorem C23_kept {env : Env} (ho : ∀ l, (env.order l).Perm l) {ps : List Path} (hp : ∀ p ∈ ps, p ≠ [])
    {w : World} (wf : w.os.fs.WF) (q : Path)
    (hq : ∀ p ∈ ps, env.rem ++ p <+: q → ∃ c, Client env w.os.fs c ∧ ¬ ClientExcludes env w.os.fs c p) :
    (rmExcludedFiles env ps w).2.os.fs.get q = w.os.fs.get q := by
  have h : Shrink (fun q => ∃ p, ToDrop env w ps p ∧ env.rem ++ p <+: q) w.os.fs
      (rmExcludedFiles env ps w).2.os.fs :=
    wp_state (I := fun w' : World => Shrink (fun q => ∃ p, ToDrop env w ps p ∧ env.rem ++ p <+: q) w.os.fs w'.os.fs)
      (wp_mono (wp_rmExcludedFiles ho hp wf) (fun _ _ h => h.1) (fun _ _ h => h.1))
  apply h.keeps
  rintro ⟨p, ⟨h1, _, h2⟩, h3⟩
  obtain ⟨c, h4, h5⟩ := hq p h1 h3
  exact h5 (h2 c h4)

/-- C23: when `rm_excluded_files` succeeds, each given path of the remote database that every client excludes is
gone from the remote directory with everything below it, and from both databases; the rest of both databases
keeps its paths. -/
theorem C23_removed {env : Env} (ho : ∀ l, (env.order l).Perm l) {ps : List Path} (hp : ∀ p ∈ ps, p ≠ [])
    {w w' : World} (wf : w.os.fs.WF) (h : rmExcludedFiles env ps w = (.ok (), w')) :
    (∀ p ∈ ps, p ∈ ADB.paths w.rdb → (∀ c, Client env w.os.fs c → ClientExcludes env w.os.fs c p) →
      ∀ t, w'.os.fs.get (env.rem ++ p ++ t) = none ∧ p ++ t ∉ ADB.paths w'.rdb ∧ p ++ t ∉ ADB.paths w'.db) ∧
    (∀ q, (∀ p ∈ ps, p <+: q → ∃ c, Client env w.os.fs c ∧ ¬ ClientExcludes env w.os.fs c p) →
      (q ∈ ADB.paths w'.rdb ↔ q ∈ ADB.paths w.rdb) ∧ (q ∈ ADB.paths w'.db ↔ q ∈ ADB.paths w.db)) := by
  obtain ⟨h1, h2, l, hl, h3⟩ := wp_ok (wp_rmExcludedFiles ho hp wf) h
  have hr : ∀ q, q ∈ ADB.paths w'.rdb ↔ q ∈ ADB.paths w.rdb ∧ ∀ p ∈ l, ¬ p <+: q := by
    intro q
    rw [h3]
    exact mem_rmRows_rdb
  have hd : ∀ q, q ∈ ADB.paths w'.db ↔ q ∈ ADB.paths w.db ∧ ∀ p ∈ l, ¬ p <+: q := by
    intro q
    rw [h3]
    exact mem_rmRows_db
  refine ⟨?_, ?_⟩
  · intro p h4 h5 h6 t
    have hT : ToDrop env w ps p := ⟨h4, h5, h6⟩
    refine ⟨h2 p hT _ (List.prefix_append _ _), ?_, ?_⟩
    · rw [hr]
      rintro ⟨_, h7⟩
      exact h7 p ((hl p).2 hT) (List.prefix_append _ _)
    · rw [hd]
      rintro ⟨_, h7⟩
      exact h7 p ((hl p).2 hT) (List.prefix_append _ _)
  · intro q hq
    have : ∀ p ∈ l, ¬ p <+: q := by
      intro p h4 h5
      obtain ⟨h6, _, h7⟩ := (hl p).1 h4
      obtain ⟨c, h8, h9⟩ := hq p h6 h5
      exact h9 (h7 c h8)
    rw [hr, hd]
    exact ⟨⟨And.left, fun h => ⟨h, this⟩⟩, ⟨And.left, fun h => ⟨h, this⟩⟩⟩

/-! ### The hypotheses can be met -/

/-- Two clients: the first excludes `e`, the second excludes `e` or nothing, according to `k`. -/
def exExclFS (k : Nat) : FS :=
  [(["l".toList], .dir 1 8), (["l".toList, "e".toList], .dir 1 8), (["l".toList, "e".toList, "f".toList], .file 5 2 1),
    (["r".toList], .dir 1 8), (["r".toList, "a".toList], .file 7 3 1), (["r".toList, "e".toList], .dir 1 8),
    (["r".toList, "e".toList, "f".toList], .file 5 2 1), (exCmdEnv.util, .dir 1 8), (exCmdEnv.exclDir, .dir 1 8),
    (exCmdEnv.exclDir ++ ["id".toList], .file 1 2 1), (exCmdEnv.exclDir ++ ["other".toList], .file k 2 1)]

def exExclWorld (k : Nat) : World where
  os := ⟨exExclFS k, 100, 0, fun n => n + 10⟩
  db := [⟨["a".toList], false, ⟨1, true⟩⟩, ⟨["e".toList], true, ⟨1, true⟩⟩, ⟨["e".toList, "f".toList], false, ⟨1, true⟩⟩]
  dbSaved := []
  rdb := [⟨["a".toList], false, 1⟩, ⟨["e".toList], true, 1⟩, ⟨["e".toList, "f".toList], false, 1⟩]
  rdbSaved := []
  last := 1
  lastSaved := 1
  lmemo := []
  rmemo := []
  matches_ := none

theorem exExclFS_wf : (exExclFS 1).WF ∧ (exExclFS 2).WF :=
  ⟨⟨by decide +kernel, by decide +kernel, by decide +kernel, by decide +kernel⟩,
   ⟨by decide +kernel, by decide +kernel, by decide +kernel, by decide +kernel⟩⟩

example : (rmExcludedFiles exCmdEnv [["a".toList], ["e".toList]] (exExclWorld 1)).1 = .ok () ∧
    (rmExcludedFiles exCmdEnv [["a".toList], ["e".toList]] (exExclWorld 1)).2.os.fs.get
      ["r".toList, "e".toList, "f".toList] = none ∧
    (rmExcludedFiles exCmdEnv [["a".toList], ["e".toList]] (exExclWorld 1)).2.os.fs.get ["r".toList, "a".toList] =
      some (.file 7 3 1) ∧
    ADB.paths (rmExcludedFiles exCmdEnv [["a".toList], ["e".toList]] (exExclWorld 1)).2.db = [["a".toList]] := by
  decide +kernel

example : (rmExcludedFiles exCmdEnv [["a".toList], ["e".toList]] (exExclWorld 2)).1 = .ok () ∧
    (rmExcludedFiles exCmdEnv [["a".toList], ["e".toList]] (exExclWorld 2)).2.os.fs.get
      ["r".toList, "e".toList, "f".toList] = some (.file 5 2 1) := by decide +kernel

/-- The second client does not exclude `e` in the second case. -/
example : Client exCmdEnv (exExclFS 2) "other".toList ∧ ¬ ClientExcludes exCmdEnv (exExclFS 2) "other".toList ["e".toList] := by
  refine ⟨⟨.file 2 2 1, by decide +kernel⟩, ?_⟩
  rintro ⟨q, k, m, b, h, _, _, x, _, _, g, hg, _⟩
  have h2 : (exExclFS 2).stat (exCmdEnv.exclDir ++ ["other".toList]) =
      .ok (exCmdEnv.exclDir ++ ["other".toList], .file 2 2 1) := by decide +kernel
  rw [h2] at h
  cases h
  exact absurd hg (by simp [exCmdEnv])

/-- Both clients exclude `e` in the first case. -/
example : ∀ c, Client exCmdEnv (exExclFS 1) c → ClientExcludes exCmdEnv (exExclFS 1) c ["e".toList] := by
  rintro c ⟨n, hn⟩
  have hm := FS.mem_of_get (by simp) hn
  have hx : ExcludedIn (exExclFS 1) exCmdEnv.loc (exCmdEnv.patsOf 1) ["e".toList] :=
    ⟨by simp, ⟨.dir 1 8, by decide +kernel⟩, ["e".toList], by simp, List.prefix_refl _,
      fun p => decide (p = ["e".toList]), by simp [exCmdEnv], by decide⟩
  have hc : c = "id".toList ∨ c = "other".toList := by
    simp [exExclFS, exCmdEnv, Env.exclDir, Env.util, Env.utilName] at hm
    rcases hm with h | h
    · exact Or.inl h.1
    · exact Or.inr h.1
  rcases hc with rfl | rfl
  · exact ⟨exCmdEnv.exclDir ++ ["id".toList], 1, 2, 1, by decide +kernel, hx⟩
  · exact ⟨exCmdEnv.exclDir ++ ["other".toList], 1, 2, 1, by decide +kernel, hx⟩

end Verif
