import Verif.ExampleSync
import Verif.ExampleWorlds
import Verif.Props.C44_Init
/-
C24, C25, C31 and C56: what a whole sync leaves alone, however it ends. `World.os.fuel` is the number of file system
operations after which the process is killed; the theorems hold for every number.
-/
namespace Verif
open Prog OSM Call FSTools WM

section
variable {env : Env} {w : World}

theorem sync_end (r : SyncReady env w) : SyncEnd env w (sync env w).2.os :=
  wp_state (I := fun w' : World => SyncEnd env w w'.os) (wp_mono (wp_sync r) (fun _ _ h => h.1) (fun _ _ h => h.1))

/-- C56: a sync changes nothing outside the two directories. (The databases and the info file are not part of the
file system of the model.) -/
theorem C56_outside_partial (r : SyncReady env w) {q : Path} (hl : ¬ env.loc <+: q) (hr : ¬ env.rem <+: q) :
    ((sync env w).2.os.fs.get q).map Node.data = (w.os.fs.get q).map Node.data ∧
    ∀ n, w.os.fs.get q = some n → n.isDir = false → (sync env w).2.os.fs.get q = some n := by
  obtain ⟨fs, hf, hs⟩ := sync_end r
  have trash : ¬ env.trash <+: q := by
    intro h
    unfold Env.trash Env.util at h
    rw [List.append_assoc] at h
    exact hr ((List.prefix_append _ _).trans h)
  have h1 : ¬ EarlyMay env w q := by
    rintro (h | h | ⟨x, _, h, _⟩ | ⟨x, _, h, _⟩)
    · apply hr
      rw [h]
      unfold Env.exclDir Env.util
      rw [List.append_assoc, List.append_assoc]
      exact List.prefix_append _ _
    · exact trash h.below
    · exact hr (by rw [h]; exact List.prefix_append _ _)
    · exact hl (by rw [h]; exact List.prefix_append _ _)
  have h2 : ¬ LateMay env w (sync env w).2.os.tick fs q := by
    rintro (⟨_, _, _, _, _, _, _, _, _, _, h⟩ | ⟨e, _, h⟩)
    · exact trash ((List.prefix_append _ _).trans h)
    · exact hr ((List.prefix_append _ _).trans h)
  rw [hs.keeps q h2]
  exact ⟨hf.data q h1, fun n hn hd => hf.same q n h1 hn hd⟩

/-- C31: a remote file with nothing at or above it that was deleted, added, changed or excluded locally is
unchanged. What is missing in comparison with C31: the start has to be as in `SyncReady`. -/
theorem C31_partial (r : SyncReady env w) {p : Path} (hp : UserPath p) {n : Node}
    (hn : w.os.fs.get (env.rem ++ p) = some n) (hd : n.isDir = false)
    (deleted : ∀ d, d <+: p → d ∈ ADB.paths w.db → w.os.fs.get (env.loc ++ d) ≠ none)
    (changed : ∀ f, f <+: p → ¬ ChangedLocally env w f)
    (excluded : ∀ e, e <+: p → ¬ OwnExcludes env w.os.fs e) :
    (sync env w).2.os.fs.get (env.rem ++ p) = some n := by
  obtain ⟨fs, hf, hs⟩ := sync_end r
  have h1 : ¬ EarlyMay env w (env.rem ++ p) := by
    rintro (h | h | ⟨x, _, h, h1⟩ | ⟨x, _, h, _⟩)
    · exact plain_ne_slot hp.plain h
    · exact plain_not_trash hp.plain h.below rfl
    · rw [List.append_cancel_left_eq] at h
      subst h
      rcases h1 with ⟨d, ⟨h2, h3⟩, h4⟩ | ⟨f, h2, h3⟩ | ⟨h2, _⟩
      · exact deleted d h4 h2 h3
      · exact changed f h3 h2
      · rw [hn] at h2; cases h2
    · exact r.apart.ne x p h.symm
  have h2 : ¬ LateMay env w (sync env w).2.os.tick fs (env.rem ++ p) := by
    rintro (⟨_, _, _, _, _, _, _, _, _, _, h⟩ | ⟨e, h3, h⟩)
    · exact plain_not_trash hp.plain ((List.prefix_append _ _).trans h) rfl
    · exact excluded e ((List.prefix_append_right_inj _).1 h) h3
  rw [hs.keeps _ h2]
  exact hf.same _ n h1 hn hd

/-- C24: an excluded local file that is not in the remote directory stays as it is, if no path above it that is not
excluded has been deleted in the remote directory, and if nothing at or above it has been added or changed. -/
theorem C24_partial (r : SyncReady env w) {p : Path} {n : Node}
    (hn : w.os.fs.get (env.loc ++ p) = some n) (hd : n.isDir = false) (hex : OwnExcludes env w.os.fs p)
    (hrem : w.os.fs.get (env.rem ++ p) = none)
    (deleted : ∀ d, d <+: p → d ∈ ADB.paths w.db → ¬ OwnExcludes env w.os.fs d → w.os.fs.get (env.rem ++ d) ≠ none)
    (changed : ∀ f, f <+: p → ¬ ChangedLocally env w f) :
    (sync env w).2.os.fs.get (env.loc ++ p) = some n := by
  obtain ⟨fs, hf, hs⟩ := sync_end r
  have h1 : ¬ EarlyMay env w (env.loc ++ p) := by
    rintro (h | h | ⟨x, _, h, _⟩ | ⟨x, _, h, h1⟩)
    · exact loc_ne_slot' r.apart p h
    · exact loc_not_trash r.apart h.below rfl
    · exact r.apart.ne p x h
    · rw [List.append_cancel_left_eq] at h
      subst h
      rcases h1 with h1 | h1 | ⟨d, ⟨h1, h2⟩, h3, h4⟩ | ⟨b, h1⟩ | ⟨f, h1, h2⟩
      · rw [hn] at h1; cases h1
      · exact h1 hex
      · exact deleted d h4 h1 h3 h2
      · rw [hrem] at h1; cases h1
      · exact changed f h2 h1
  have h2 : ¬ LateMay env w (sync env w).2.os.tick fs (env.loc ++ p) := by
    rintro (⟨_, _, _, _, _, _, _, _, _, _, h⟩ | ⟨e, h3, t, h⟩)
    · exact loc_not_trash r.apart ((List.prefix_append _ _).trans h) rfl
    · rw [List.append_assoc] at h
      exact r.apart.ne p (e ++ t) h.symm
  rw [hs.keeps _ h2]
  exact hf.same _ n h1 hn hd

/-- C25: a local file that is excluded, or a local link that is not safe, that the profile does not know and that is
not in the remote directory is not put there, if no directory above it is new or changed. -/
theorem C25_partial (r : SyncReady env w) {p : Path} (hp : p ≠ []) {n : Node}
    (hn : w.os.fs.get (env.loc ++ p) = some n) (hd : n.isDir = false)
    (hex : OwnExcludes env w.os.fs p ∨ UnsafeLink env.loc p n) (hdb : p ∉ ADB.paths w.db)
    (hrem : w.os.fs.get (env.rem ++ p) = none)
    (above : ∀ f, f <+: p → f ≠ p → ¬ ChangedLocally env w f) :
    (sync env w).2.os.fs.get (env.rem ++ p) = none := by
  obtain ⟨fs, hf, hs⟩ := sync_end r
  have hu := r.local_user hp hn
  have same : ¬ ChangedLocally env w p := by
    rintro ⟨_, m, h1, h2, ⟨_, h3⟩ | ⟨h3, _⟩⟩
    · rw [hn] at h1; cases h1
      exact hex.elim h3 h2
    · exact hdb h3
  have h1 : ¬ EarlyMay env w (env.rem ++ p) := by
    rintro (h | h | ⟨x, _, h, h1⟩ | ⟨x, _, h, _⟩)
    · exact plain_ne_slot hu.plain h
    · exact plain_not_trash hu.plain h.below rfl
    · rw [List.append_cancel_left_eq] at h
      subst h
      rcases h1 with ⟨d, ⟨_, h3⟩, h4⟩ | ⟨f, h2, h3⟩ | ⟨_, f, h2, h3⟩
      · rw [gone_below r.wf h3 h4] at hn; cases hn
      · by_cases he : f = p
        · exact same (he ▸ h2)
        · exact above f h3 he h2
      · rcases h3 with h3 | ⟨k, hk, h3⟩
        · by_cases he : p = f
          · exact same (he ▸ h2)
          · obtain ⟨_, m, hm, _⟩ := h2
            have := r.wf.isDir_prefix hm (env.loc ++ p) ((List.prefix_append_right_inj _).2 h3)
              (fun e => he (List.append_cancel_left e))
            rw [isDir_iff_false hn, hd] at this
            cases this
        · obtain ⟨h4, m, hm, _⟩ := h2
          have := (r.free k f hk (r.local_user h4 hm) (goodPath_append.1 (r.wf.goodPath hm)).2).1
          rw [← h3, hn] at this; cases this
    · exact r.apart.ne x p h.symm
  have hnone := hf.none h1 hrem
  rcases hs.gone (env.rem ++ p) with h2 | h2
  · rw [h2, hnone]
  · exact h2

end

/-- `a` has been changed, `d/n` and `u` (an unsafe link) are new, `g` has been deleted, `c` has been changed on both
sides, `s` is a link to the remote `s`, `k` is new in the remote directory, `m` has been deleted there, `b` has not
changed, `e` is excluded. `/o` is somewhere else. -/
def exMixed (fuel : Nat) : World := exWorld exEnvE
  [(["o".toList], .file 20 3 1),
    (["l".toList, "a".toList], .file 7 45 1), (["r".toList, "a".toList], .file 6 3 1),
    (["l".toList, "b".toList], .file 9 3 1), (["r".toList, "b".toList], .file 9 3 1),
    (["l".toList, "c".toList], .file 11 44 1), (["r".toList, "c".toList], .file 12 46 1),
    (["l".toList, "d".toList], .dir 3 8), (["r".toList, "d".toList], .dir 3 8),
    (["l".toList, "d".toList, "n".toList], .file 13 45 1),
    (["l".toList, "u".toList], .link "/o".toList 45),
    (["l".toList, "e".toList], .file 14 45 1), (["l".toList, "m".toList], .file 15 3 1),
    (["l".toList, "s".toList], .link "/r/s".toList 3), (["r".toList, "s".toList], .file 16 3 1),
    (["r".toList, "g".toList], .file 17 3 1), (["r".toList, "k".toList], .file 18 45 1)]
  [exRow ["a".toList] false 1 true, exRow ["b".toList] false 2 true, exRow ["c".toList] false 1 true,
    exRow ["d".toList] true 1 true, exRow ["s".toList] false 1 false, exRow ["g".toList] false 1 true,
    exRow ["m".toList] false 1 true]
  [exRRow ["a".toList] false, exRRow ["b".toList] false, exRRow ["c".toList] false,
    exRRow ["d".toList] true, exRRow ["s".toList] false, exRRow ["g".toList] false, exRRow ["m".toList] false] fuel

theorem exMixed_ready (fuel : Nat) : SyncReady exEnvE (exMixed fuel) := by
  refine syncReady_of_readyB ?_ (fun _ => List.Perm.refl _) (by unfold Apart; decide +kernel) (fun _ => ?_) rfl
  · have : readyB exEnvE (exMixed fuel) = readyB exEnvE (exMixed 0) := rfl
    rw [this]
    decide +kernel
  · show GoodStamp "19700101-000000".toList
    decide +kernel

theorem exMixed_fs (fuel : Nat) : (exMixed fuel).os.fs = (exMixed 0).os.fs := rfl

theorem exMixed_excluded (fuel : Nat) : OwnExcludes exEnvE (exMixed fuel).os.fs ["e".toList] := by
  rw [exMixed_fs]
  exact ⟨["x".toList], 1, 1, 1, by decide +kernel, by decide, ⟨.file 14 45 1, by decide +kernel⟩,
    ["e".toList], by decide, List.prefix_refl _, _, List.mem_singleton.2 rfl, by decide⟩

theorem exMixed_not_excluded (fuel : Nat) {p : Path} (hp : p.all (fun c => decide (c ≠ "e".toList)) = true) :
    ¬ OwnExcludes exEnvE (exMixed fuel).os.fs p := by
  rintro ⟨q, k, m, b, h1, h2, _, x, h3, h4, g, h5, h6⟩
  rw [exMixed_fs, show (exMixed 0).os.fs.stat exEnvE.excl = .ok (["x".toList], .file 1 1 1) by decide +kernel] at h1
  cases h1
  rw [show exEnvE.patsOf 1 = [fun p => decide (p.getLastD [] = "e".toList)] from rfl, List.mem_singleton] at h5
  subst h5
  rw [decide_eq_true_eq] at h6
  have h7 : x.getLastD [] ∈ p := by
    refine h4.subset ?_
    cases x with
    | nil => exact absurd rfl h3
    | cons a x => rw [List.getLastD_cons, ← List.getLast_eq_getLastD]; exact List.getLast_mem (by simp)
  exact absurd h6 (of_decide_eq_true (List.all_eq_true.1 hp _ h7))

/-- A test that implies that a path has not been changed remotely. -/
def unchangedB (env : Env) (w : World) (p : Path) : Bool :=
  (w.os.fs.get (env.rem ++ p)).all (fun n => decide (p ∈ ADB.paths w.db) && (n.isDir || decide (n.mtime ≤ w.last))) &&
    w.rdb.all (fun e => decide (e.path ≠ p) || e.directory || decide (e.data ≤ w.last))

theorem not_changedRemotely {env : Env} {w : World} {p : Path} (h : unchangedB env w p = true) :
    ¬ ChangedRemotely env w p := by
  simp only [unchangedB, Bool.and_eq_true, List.all_eq_true, Bool.or_eq_true, decide_eq_true_eq] at h
  rintro (⟨_, n, h1, h2⟩ | ⟨e, h1, h2, h3, h4⟩)
  · rw [h1] at h
    simp only [Option.all_some, Bool.and_eq_true, decide_eq_true_eq, Bool.or_eq_true] at h
    rcases h2 with h2 | ⟨h2, h3⟩
    · exact h2 h.1.1
    · rcases h.1.2 with h4 | h4
      · rw [h2] at h4; cases h4
      · omega
  · rcases h.2 e h1 with (h5 | h5) | h5
    · exact h5 h2
    · rw [h3] at h5; cases h5
    · omega

theorem prefix_singleton {c : Str} {f : Path} (h : f <+: [c]) : f = [] ∨ f = [c] := by
  rw [← List.nil_append [c], List.prefix_concat_iff] at h
  rcases h with h | h
  · exact Or.inr h
  · exact Or.inl (List.prefix_nil.1 h)

/-- C31 at the remote file `b`. -/
example (fuel : Nat) : (sync exEnvE (exMixed fuel)).2.os.fs.get ["r".toList, "b".toList] = some (.file 9 3 1) := by
  refine C31_partial (exMixed_ready fuel) (p := ["b".toList]) (by decide) (n := .file 9 3 1) ?_ rfl ?_ ?_ ?_
  · rw [exMixed_fs]; decide +kernel
  · intro d hd _ h
    rcases prefix_singleton hd with rfl | rfl
    · rw [exMixed_fs] at h; exact absurd h (by decide +kernel)
    · rw [exMixed_fs] at h; exact absurd h (by decide +kernel)
  · rintro f hf ⟨h0, n, h1, _, h2⟩
    rcases prefix_singleton hf with rfl | rfl
    · exact h0 rfl
    · rw [exMixed_fs, show (exMixed 0).os.fs.get (exEnvE.loc ++ ["b".toList]) = some (.file 9 3 1) by decide +kernel] at h1
      cases h1
      rcases h2 with ⟨h2, _⟩ | ⟨_, _, h2⟩
      · exact h2 (show ["b".toList] ∈ ADB.paths (exMixed 0).db by decide +kernel)
      · exact absurd (show (40 : Int) < 3 from h2) (by decide)
  · rintro e he ⟨q, k, m, b, h1, h2, _, x, h3, h4, g, h5, h6⟩
    rw [exMixed_fs, show (exMixed 0).os.fs.stat exEnvE.excl = .ok (["x".toList], .file 1 1 1) by decide +kernel] at h1
    cases h1
    rcases prefix_singleton (h4.trans he) with rfl | rfl
    · exact h3 rfl
    · rw [show exEnvE.patsOf 1 = [fun p => decide (p.getLastD [] = "e".toList)] from rfl, List.mem_singleton] at h5
      subst h5
      exact absurd h6 (by decide)

theorem exMixed_unchanged (fuel : Nat) {p f : Path} (hp : p = ["e".toList] ∨ p = ["u".toList]) (hf : f <+: p) :
    ¬ ChangedLocally exEnvE (exMixed fuel) f := by
  rintro ⟨h0, n, h1, h2, h3⟩
  rcases hp with rfl | rfl
  · rcases prefix_singleton hf with rfl | rfl
    · exact h0 rfl
    · rcases h3 with ⟨_, h3⟩ | ⟨h3, _⟩
      · exact h3 (exMixed_excluded fuel)
      · exact absurd (show ["e".toList] ∈ ADB.paths (exMixed 0).db from h3) (by decide +kernel)
  · rcases prefix_singleton hf with rfl | rfl
    · exact h0 rfl
    · rw [exMixed_fs, show (exMixed 0).os.fs.get (exEnvE.loc ++ ["u".toList]) = some (.link "/o".toList 45)
        by decide +kernel] at h1
      cases h1
      exact h2 (unsafeLink_abs _ _ ["o".toList] _)

/-- C24 and C25 at the excluded file `e`. -/
example (fuel : Nat) : (sync exEnvE (exMixed fuel)).2.os.fs.get ["l".toList, "e".toList] = some (.file 14 45 1) ∧
    (sync exEnvE (exMixed fuel)).2.os.fs.get ["r".toList, "e".toList] = none := by
  have hl : (exMixed fuel).os.fs.get (exEnvE.loc ++ ["e".toList]) = some (.file 14 45 1) := by
    rw [exMixed_fs]; decide +kernel
  have hr : (exMixed fuel).os.fs.get (exEnvE.rem ++ ["e".toList]) = none := by rw [exMixed_fs]; decide +kernel
  refine ⟨C24_partial (exMixed_ready fuel) (p := ["e".toList]) hl rfl (exMixed_excluded fuel) hr ?_ ?_,
    C25_partial (exMixed_ready fuel) (p := ["e".toList]) (by decide) hl rfl (Or.inl (exMixed_excluded fuel)) ?_ hr ?_⟩
  · intro d hd h1 h2 _
    rcases prefix_singleton hd with rfl | rfl
    · exact absurd (show [] ∈ ADB.paths (exMixed 0).db from h1) (by decide +kernel)
    · exact h2 (exMixed_excluded fuel)
  · intro f hf; exact exMixed_unchanged fuel (Or.inl rfl) hf
  · show ["e".toList] ∉ ADB.paths (exMixed 0).db
    decide +kernel
  · intro f hf _; exact exMixed_unchanged fuel (Or.inl rfl) hf

/-- C25 at the unsafe link `u`, C56 at the file `/o` that it points to. -/
example (fuel : Nat) : (sync exEnvE (exMixed fuel)).2.os.fs.get ["r".toList, "u".toList] = none ∧
    (sync exEnvE (exMixed fuel)).2.os.fs.get ["o".toList] = some (.file 20 3 1) := by
  refine ⟨C25_partial (exMixed_ready fuel) (p := ["u".toList]) (n := .link "/o".toList 45) (by decide) ?_ rfl
    (Or.inr (unsafeLink_abs _ _ ["o".toList] _)) ?_ ?_ ?_, (C56_outside_partial (exMixed_ready fuel) (by decide) (by decide)).2 _ ?_ rfl⟩
  · rw [exMixed_fs]; decide +kernel
  · show ["u".toList] ∉ ADB.paths (exMixed 0).db
    decide +kernel
  · rw [exMixed_fs]; decide +kernel
  · intro f hf _; exact exMixed_unchanged fuel (Or.inr rfl) hf
  · rw [exMixed_fs]; decide +kernel

/-- The sync of `exMixed` succeeds and does all it has to. -/
example : (sync exEnvE (exMixed 1000)).1 = .ok () ∧
    (sync exEnvE (exMixed 1000)).2.os.fs.get ["r".toList, "a".toList] = some (.file 7 45 1) ∧
    (sync exEnvE (exMixed 1000)).2.os.fs.get ["r".toList, "d".toList, "n".toList] = some (.file 13 45 1) ∧
    (sync exEnvE (exMixed 1000)).2.os.fs.get ["l".toList, "k".toList] = some (.file 18 45 1) := by decide +kernel

/-- `a` has been replaced by a link to a file that is somewhere else. -/
def exThrough : World := exWorld exEnvE
  [(["o".toList], .file 20 3 1), (["l".toList, "a".toList], .link "/o".toList 45),
    (["r".toList, "a".toList], .file 7 3 1)]
  [exRow ["a".toList] false 1 true] [exRRow ["a".toList] false] 1000

/-- C56 in full is false: a sync writes through a local link into a file outside of both directories. -/
theorem C56_link_fails :
    (sync exEnvE exThrough).1 = .ok () ∧ exThrough.os.fs.get ["o".toList] = some (.file 20 3 1) ∧
    (sync exEnvE exThrough).2.os.fs.get ["o".toList] = some (.file 7 3 1) := by decide +kernel

end Verif
