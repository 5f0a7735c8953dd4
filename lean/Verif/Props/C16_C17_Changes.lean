import Verif.Spec.Changes
import Verif.ADBView
/-
C16: additions are detected exactly. C17: modifications are detected exactly.
-/
namespace Verif

theorem unsafeEntry_iff {root : Path} (hr : GoodPath root) {e : Path × Node} (he : GoodPath e.1)
    (he0 : e.1 ≠ []) : unsafeEntry root e = true ↔ UnsafeLink root e.1 e.2 := by
  obtain ⟨p, n⟩ := e
  simp only at he he0
  unfold unsafeEntry UnsafeLink
  cases n with
  | file c m b => simp [Node.target?, C26_nonlink_safe]
  | dir m b => simp [Node.target?, C26_nonlink_safe]
  | link t m =>
    have := C26_unsafe_iff hr he he0 t
    simp only [Node.target?, Node.link.injEq]
    by_cases h : SafeTarget root p t
    · rw [this.1 h]
      simp only [Option.getD_some, Bool.false_eq_true, false_iff]
      rintro ⟨t', m', ⟨rfl, rfl⟩, h'⟩
      exact h' h
    · rw [this.2 h]
      simp only [Option.getD_some, true_iff]
      exact ⟨t, m, ⟨rfl, rfl⟩, h⟩

theorem nil_isPrefixOf (p : Path) : List.isPrefixOf [] p = true := by simp

theorem info_isNone {δ : Type} (a : ADB δ) (p : Path) :
    (ADB.info a p).isNone = true ↔ p ∉ ADB.paths a := by
  unfold ADB.info ADB.paths
  rw [Option.isNone_iff_eq_none, List.find?_eq_none, List.mem_map]
  constructor
  · rintro h ⟨e, he, rfl⟩
    exact h e he (by simp)
  · intro h e he
    simp only [decide_eq_true_eq]
    exact fun hp => h ⟨e, he, hp⟩

theorem info_isSome {δ : Type} (a : ADB δ) (p : Path) :
    (ADB.info a p).isSome = true ↔ p ∈ ADB.paths a := by
  have := info_isNone a p
  cases h : ADB.info a p <;> simp [h] at this ⊢ <;> exact this

/-- New local paths: scanned, not known to the profile, not an unsafe link, not excluded. -/
theorem C16_local {root : Path} (hr : GoodPath root) {lscan : Scan} (hl : GoodScan lscan)
    (rscan : Scan) (db : ALocal) (excl : List Path) (p : Path) :
    p ∈ (computeAdded root lscan rscan db excl).loc ↔
      ∃ n, (p, n) ∈ lscan ∧ p ∉ ADB.paths db ∧ ¬ UnsafeLink root p n ∧ p ∉ excl := by
  simp only [computeAdded, List.mem_filter, List.mem_map, decide_eq_true_eq, Bool.and_eq_true,
    Bool.not_eq_true', info_isNone]
  constructor
  · rintro ⟨⟨e, ⟨he, h1, h2⟩, rfl⟩, h3⟩
    refine ⟨e.2, he, h1, ?_, h3⟩
    rw [← unsafeEntry_iff hr (hl.1 e he).1 (hl.1 e he).2, h2]
    simp
  · rintro ⟨n, hn, h1, h2, h3⟩
    refine ⟨⟨(p, n), ⟨hn, h1, ?_⟩, rfl⟩, h3⟩
    rw [← unsafeEntry_iff hr (e := (p, n)) (hl.1 _ hn).1 (hl.1 _ hn).2] at h2
    simpa using h2

/-- New remote paths: scanned and not known to the profile. -/
theorem C16_remote (root : Path) (lscan rscan : Scan) (db : ALocal) (excl : List Path) (p : Path) :
    p ∈ (computeAdded root lscan rscan db excl).rem ↔ p ∈ rscan.keys ∧ p ∉ ADB.paths db := by
  simp only [computeAdded, Scan.keys, List.mem_filter, List.mem_map, info_isNone]
  constructor
  · rintro ⟨e, ⟨he, h1⟩, rfl⟩; exact ⟨⟨e, he, rfl⟩, h1⟩
  · rintro ⟨⟨e, he, rfl⟩, h1⟩; exact ⟨e, ⟨he, h1⟩, rfl⟩

/-- Modified local paths: known, not a directory, changed after the last sync, not an unsafe link. -/
theorem C17_local {root : Path} (hr : GoodPath root) {lscan : Scan} (hl : GoodScan lscan)
    (rscan : Scan) (db : ALocal) (rdb : ARemote) (lastSync : Int) (p : Path) :
    p ∈ (computeModified root lscan rscan db rdb lastSync).loc ↔
      ∃ n, (p, n) ∈ lscan ∧ n.isDir = false ∧ lastSync < n.mtime ∧ p ∈ ADB.paths db ∧
        ¬ UnsafeLink root p n := by
  simp only [computeModified, Scan.nonDirs, List.mem_filter, List.mem_map, decide_eq_true_eq,
    Bool.and_eq_true, Bool.not_eq_true', info_isSome]
  constructor
  · rintro ⟨e, ⟨⟨he, h0⟩, ⟨h1, h2⟩, h3⟩, rfl⟩
    refine ⟨e.2, he, h0, h1, h2, ?_⟩
    rw [← unsafeEntry_iff hr (hl.1 e he).1 (hl.1 e he).2, h3]
    simp
  · rintro ⟨n, hn, h0, h1, h2, h3⟩
    refine ⟨(p, n), ⟨⟨hn, h0⟩, ⟨h1, h2⟩, ?_⟩, rfl⟩
    rw [← unsafeEntry_iff hr (e := (p, n)) (hl.1 _ hn).1 (hl.1 _ hn).2] at h3
    simpa using h3

/-- Modified remote paths: known, not a directory and changed after the last
sync, or a file that the remote database says was synced after it. -/
theorem C17_remote (root : Path) (lscan rscan : Scan) (db : ALocal) (rdb : ARemote)
    (lastSync : Int) (p : Path) :
    p ∈ (computeModified root lscan rscan db rdb lastSync).rem ↔
      (∃ n, (p, n) ∈ rscan ∧ n.isDir = false ∧ lastSync < n.mtime ∧ p ∈ ADB.paths db) ∨
      (∃ e ∈ rdb, e.path = p ∧ e.directory = false ∧ lastSync < e.data) := by
  simp only [computeModified, Scan.nonDirs, List.mem_append, List.mem_filter, List.mem_map,
    decide_eq_true_eq, Bool.and_eq_true, Bool.not_eq_true', info_isSome, ARemote.getPaths, ADB.rows,
    nil_isPrefixOf, and_true]
  apply or_congr
  · constructor
    · rintro ⟨e, ⟨⟨he, h0⟩, h1, h2⟩, rfl⟩; exact ⟨e.2, he, h0, h1, h2⟩
    · rintro ⟨n, hn, h0, h1, h2⟩; exact ⟨(p, n), ⟨⟨hn, h0⟩, h1, h2⟩, rfl⟩
  · constructor
    · rintro ⟨e, ⟨he, h1, h2⟩, rfl⟩
      refine ⟨e, he, rfl, ?_, h2⟩
      rcases h1 with h1 | h1
      · simp at h1
      · simpa using h1.symm
    · rintro ⟨e, he, rfl, h1, h2⟩
      exact ⟨e, ⟨he, Or.inr (by rw [h1]), h2⟩, rfl⟩

/-! ### An example -/

/-- `a` is known and changed, `b` is new, `l` is a new link out of the
directory, `d/x` is new and excluded, `r` is known and unchanged. -/
def exLScan : Scan :=
  [(["a".toList], .file 1 20 8), (["b".toList], .file 2 5 8), (["l".toList], .link "../o".toList 20),
   (["d".toList], .dir 1 8), (["d".toList, "x".toList], .file 3 5 8), (["r".toList], .file 4 10 8)]

def exKnown : ALocal :=
  [⟨["a".toList], false, ⟨1, true⟩⟩, ⟨["d".toList], true, ⟨0, true⟩⟩, ⟨["r".toList], false, ⟨1, true⟩⟩]

example : GoodScan exLScan ∧ GoodPath ["home".toList] ∧
    computeAdded ["home".toList] exLScan [(["a".toList], .file 1 7 8), (["n".toList], .file 9 7 8)]
      exKnown [["d".toList, "x".toList]] = ⟨[["b".toList]], [["n".toList]]⟩ ∧
    computeModified ["home".toList] exLScan [(["a".toList], .file 1 11 8), (["n".toList], .file 9 12 8)]
      exKnown [⟨["r".toList], false, 11⟩, ⟨["d".toList], true, 11⟩] 10
      = ⟨[["a".toList]], [["a".toList], ["r".toList]]⟩ := by
  decide +kernel

end Verif
