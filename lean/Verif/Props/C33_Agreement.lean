import Verif.SyncAgree
import Verif.ExampleSync
import Verif.Props.SyncEffects
/-
C33: after a successful sync both databases and the remote directory hold the same set of paths, and each of them is
in the local directory either as an identical copy or as a link to the remote copy.

What the theorems assume beyond the claim, all of it about the state in which the sync starts: `SyncReady`, and
`Calm`, which says that the two databases differ only by remote changes of another client, and that nothing below a
path that has changed locally is excluded or an unsafe link. Without the latter the claim is false, see
`C33_excluded_fails`. Where the remote directory has a symbolic link, the local directory may have a different one,
see `C33_link_fails`.
-/
namespace Verif
open Prog OSM

variable {env : Env} {w : World}

theorem agree_of_sync (r : SyncReady env w) (c : Calm env w) (h : (sync env w).1 = .ok ()) : Agree env (sync env w).2 := by
  have h1 : sync env w = (.ok (), (sync env w).2) := by rw [← h]
  exact agree_of_done r c (wp_ok (wp_sync r) h1).2

/-- C33: both databases and the remote directory hold the same paths, and the databases are saved. -/
theorem C33_paths_partial (r : SyncReady env w) (c : Calm env w) (h : (sync env w).1 = .ok ()) (p : Path) :
    (p ∈ ADB.paths (sync env w).2.db ↔ p ∈ ADB.paths (sync env w).2.rdb) ∧
    (p ∈ ADB.paths (sync env w).2.rdb ↔
      UserPath p ∧ ∃ n, (sync env w).2.os.fs.get (env.rem ++ p) = some n) ∧
    (sync env w).2.dbSaved = (sync env w).2.db ∧ (sync env w).2.rdbSaved = (sync env w).2.rdb := by
  have a := agree_of_sync r c h
  exact ⟨a.same p, ⟨fun hp => ⟨a.user p hp, (a.remote p (a.user p hp)).1 hp⟩, fun hp => (a.remote p hp.1).2 hp.2⟩,
    a.dbSaved, a.rdbSaved⟩

/-- C33: a directory of the remote directory is a local directory. -/
theorem C33_dirs_partial (r : SyncReady env w) (c : Calm env w) (h : (sync env w).1 = .ok ()) {p : Path}
    (hp : UserPath p) (hd : (sync env w).2.os.fs.isDir (env.rem ++ p) = true) :
    (sync env w).2.os.fs.isDir (env.loc ++ p) = true := by
  obtain ⟨m, b, hn⟩ := FS.isDir_iff.1 hd
  exact ((agree_of_sync r c h).loc p _ hp hn).1 rfl

/-- C33: a regular file of the remote directory is locally the same file, or a link to it. -/
theorem C33_files_partial (r : SyncReady env w) (c : Calm env w) (h : (sync env w).1 = .ok ()) {p : Path}
    (hp : UserPath p) {k : Nat} {m : Int} {b : Nat}
    (hn : (sync env w).2.os.fs.get (env.rem ++ p) = some (.file k m b)) :
    (sync env w).2.os.fs.get (env.loc ++ p) = some (.file k m b) ∨
    ∃ t m, (sync env w).2.os.fs.get (env.loc ++ p) = some (.link t m) ∧
      FS.linkDest (env.loc ++ p) t = env.rem ++ p := by
  rcases ((agree_of_sync r c h).loc p _ hp hn).2 rfl with h1 | ⟨t, m, h1, h2 | h2⟩
  · exact Or.inl h1
  · exact Or.inr ⟨t, m, h1, h2⟩
  · cases h2

/-- C33: a symbolic link of the remote directory is locally a symbolic link. -/
theorem C33_links_partial (r : SyncReady env w) (c : Calm env w) (h : (sync env w).1 = .ok ()) {p : Path}
    (hp : UserPath p) {t : Str} {m : Int} (hn : (sync env w).2.os.fs.get (env.rem ++ p) = some (.link t m)) :
    ∃ t m, (sync env w).2.os.fs.get (env.loc ++ p) = some (.link t m) := by
  rcases ((agree_of_sync r c h).loc p _ hp hn).2 rfl with h1 | ⟨t, m, h1, _⟩
  · exact ⟨t, m, h1⟩
  · exact ⟨t, m, h1⟩

/-! ### Examples -/

/-- `exMixed`, in which nearly everything happens, is calm. -/
theorem exMixed_calm (fuel : Nat) : Calm exEnvE (exMixed fuel) where
  closed p hp q hq hq0 := by
    have h : ∀ p ∈ ADB.paths (exMixed 0).db, p.length = 1 := by decide +kernel
    have h1 := h p hp
    have h2 := hq.length_le
    have h3 := List.length_pos_iff.2 hq0
    rw [hq.eq_of_length (by omega)]; exact hp
  known p hp := by
    have h : ∀ p ∈ ADB.paths (exMixed 0).db, p ∈ ADB.paths (exMixed 0).rdb := by decide +kernel
    exact Or.inl (h p hp)
  remote p hp := by
    have h : ∀ p ∈ ADB.paths (exMixed 0).rdb, p ∈ ADB.paths (exMixed 0).db := by decide +kernel
    exact Or.inl (h p hp)
  below f hf q n hfq hne hn := by
    have hq : q = ["d".toList, "n".toList] := by
      have h : ∀ e ∈ (exMixed 0).os.fs, exEnvE.loc <+: e.1 → 3 ≤ e.1.length →
        e.1 = ["l".toList, "d".toList, "n".toList] := by decide +kernel
      have h1 : (exEnvE.loc ++ q, n) ∈ (exMixed 0).os.fs := FS.mem_of_get (by simp [exEnvE]) hn
      have h2 := h _ h1 (List.prefix_append _ _) (by
        have h3 := List.length_pos_iff.2 hf.1
        obtain ⟨t, rfl⟩ := hfq
        have h4 : t ≠ [] := by rintro rfl; simp at hne
        have h5 := List.length_pos_iff.2 h4
        simp [exEnvE]; omega)
      simpa [exEnvE] using h2
    subst hq
    rw [exMixed_fs, show (exMixed 0).os.fs.get (exEnvE.loc ++ ["d".toList, "n".toList]) = some (.file 13 45 1) by decide +kernel] at hn
    cases hn
    refine ⟨?_, fun ⟨_, _, h, _⟩ => by cases h⟩
    rintro ⟨q, k, m, b, h1, h2, _, x, h3, h4, g, h5, h6⟩
    rw [exMixed_fs, show (exMixed 0).os.fs.stat exEnvE.excl = .ok (["x".toList], .file 1 1 1) by decide +kernel] at h1
    cases h1
    rw [show exEnvE.patsOf 1 = [fun p => decide (p.getLastD [] = "e".toList)] from rfl, List.mem_singleton] at h5
    subst h5
    have h7 : ∀ x ∈ (List.range 3).map (["d".toList, "n".toList] : Path).take,
      decide (x.getLastD [] = "e".toList) = false := by decide
    have h8 : x ∈ (List.range 3).map (["d".toList, "n".toList] : Path).take := by
      obtain ⟨t, ht⟩ := h4
      refine List.mem_map.2 ⟨x.length, ?_, by rw [← ht]; simp⟩
      have := congrArg List.length ht
      simp at this
      simp; omega
    exact absurd ((h7 x h8).symm.trans h6) (by decide)

/-- After the sync of `exMixed`: `k` is a copy and `s` a link or a copy. -/
example : (sync exEnvE (exMixed 1000)).1 = .ok () ∧
    UserPath ["k".toList] ∧ UserPath ["s".toList] ∧
    (sync exEnvE (exMixed 1000)).2.os.fs.get ["r".toList, "k".toList] = some (.file 18 45 1) ∧
    (sync exEnvE (exMixed 1000)).2.os.fs.get ["r".toList, "s".toList] = some (.file 16 3 1) ∧
    (sync exEnvE (exMixed 1000)).2.os.fs.isDir ["r".toList, "d".toList] = true := by decide +kernel

example {p : Path} (hp : UserPath p) (hd : (sync exEnvE (exMixed 1000)).2.os.fs.isDir (exEnvE.rem ++ p) = true) :
    (sync exEnvE (exMixed 1000)).2.os.fs.isDir (exEnvE.loc ++ p) = true :=
  C33_dirs_partial (exMixed_ready 1000) (exMixed_calm 1000) (by decide +kernel) hp hd

/-! ### The claim in full is false -/

/-- C33 fails: the excluded file `d/e` in the new directory `d` is uploaded with it and is in no database. -/
theorem C33_excluded_fails :
    (sync exEnvE exNewDir).1 = .ok () ∧
    (sync exEnvE exNewDir).2.os.fs.get ["r".toList, "d".toList, "e".toList] = some (.file 7 45 1) ∧
    ["d".toList, "e".toList] ∉ ADB.paths (sync exEnvE exNewDir).2.rdb ∧
    ["d".toList, "e".toList] ∉ ADB.paths (sync exEnvE exNewDir).2.db := by decide +kernel

/-- The link `a` to `b` has been replaced in the remote directory by a link to `c`. There is no room for it. -/
def exChangedLink : World := exWorld exEnvE
  [(["l".toList, "a".toList], .link "b".toList 3), (["r".toList, "a".toList], .link "c".toList 45),
    (["l".toList, "b".toList], .file 9 3 1), (["r".toList, "b".toList], .file 9 3 1),
    (["l".toList, "c".toList], .file 8 3 1), (["r".toList, "c".toList], .file 8 3 1)]
  [exRow ["a".toList] false 1 true, exRow ["b".toList] false 2 true, exRow ["c".toList] false 2 true]
  [exRRow ["a".toList] false, exRRow ["b".toList] false, exRRow ["c".toList] false] 1000

/-- The settings of `exChangedLink`. -/
def exEnvTiny : Env := { exEnvE with storageLimit := 512, symlinkSize := 512 }

/-- C33 fails: the old link stays in the local directory. -/
theorem C33_link_fails :
    (sync exEnvTiny exChangedLink).1 = .ok () ∧
    (sync exEnvTiny exChangedLink).2.os.fs.get ["l".toList, "a".toList] = some (.link "b".toList 3) ∧
    (sync exEnvTiny exChangedLink).2.os.fs.get ["r".toList, "a".toList] = some (.link "c".toList 45) ∧
    FS.linkDest ["l".toList, "a".toList] "b".toList ≠ ["r".toList, "a".toList] := by decide +kernel

end Verif
