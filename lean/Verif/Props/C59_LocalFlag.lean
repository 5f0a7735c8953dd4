import Verif.MarkLocal
import Verif.Props.C29_UpdateLocal
/-
C59: after a successful update_local the profile marks as local exactly the files of which the local directory holds
a copy. (compute_deleted relies on these marks to decide which remote files go to the trash.)

The theorems are about the files among the known paths, that is the paths without known paths below them. They assume
`UpdReady`, see C29. Only one direction of the claim is true: `C59_local_partial`. The other one is false:
`C59_copy_fails`.
-/
namespace Verif
open Prog OSM Call FSTools WM

variable {env : Env} {w : World} {ps : List Path}

/-- No known path is below `p`. -/
def KnownLeaf (w : World) (p : Path) : Prop :=
  ∀ q, q ∈ ADB.paths w.db ∨ q ∈ ADB.paths w.rdb → p <+: q → q = p

/-- C59: the rows and, for files, the priorities are unchanged. -/
theorem C59_rows_partial (h : UpdReady env w (setOf ps)) {w' : World} (hr : updateLocal env ps w = (.ok (), w'))
    {p : Path} (hleaf : KnownLeaf w p) {e : Entry PData} (he : ADB.info w.db p = some e) :
    ADB.paths w'.db = ADB.paths w.db ∧
    ∃ b, ADB.info w'.db p = some { e with data := { e.data with loc := b } } := by
  obtain ⟨_, _, new, _, hdb, hnew⟩ := wp_ok (wp_updateLocal h) hr
  rw [hdb]
  exact ⟨paths_markLocal _ _ _, _, info_markLocal (fun q hq => hleaf q (Or.inl hq))
    (fun q hq => hleaf q (Or.inr (hnew.row q hq))) he⟩

/-- C59: if only copies were marked as local before, only copies are marked as local afterwards. -/
theorem C59_local_partial (h : UpdReady env w (setOf ps)) {w' : World} (hr : updateLocal env ps w = (.ok (), w'))
    {p : Path} (hleaf : KnownLeaf w p) {e e' : Entry PData} (he : ADB.info w.db p = some e)
    (hp : p ∈ ADB.paths w.rdb) {k : Nat} {m : Int} {b : Nat} (hn : w.os.fs.get (env.rem ++ p) = some (.file k m b))
    (hbefore : e.data.loc = true → ∀ n, w.os.fs.get (env.loc ++ p) = some n → ∃ k m b, n = .file k m b)
    (he' : ADB.info w'.db p = some e') (hloc : e'.data.loc = true) :
    ∃ k m b, w'.os.fs.get (env.loc ++ p) = some (.file k m b) := by
  obtain ⟨hkept, hdone, new, _, hdb, hnew⟩ := wp_ok (wp_updateLocal h) hr
  rw [hdb, info_markLocal (fun q hq => hleaf q (Or.inl hq)) (fun q hq => hleaf q (Or.inr (hnew.row q hq))) he] at he'
  cases he'
  have hp0 : p ≠ [] := by
    obtain ⟨r, h1, rfl⟩ := List.mem_map.1 hp
    exact (h.rows r h1).1
  by_cases hpn : p ∈ new
  · simp [setLoc, hpn] at hloc
  by_cases hret : ∃ f ∈ setOf ps, f <+: p
  · obtain ⟨f, hf, hfp⟩ := hret
    exact ⟨k, m, b, hdone.copied p _ ⟨⟨_, hn⟩, hp0, f, hf, hfp⟩ hn rfl⟩
  · simp only [setLoc, hpn, hret, if_false] at hloc
    cases h0 : w.os.fs.get (env.loc ++ p) with
    | none => exact absurd (hnew.absent p hp h0) hpn
    | some n =>
      obtain ⟨k, m, b, rfl⟩ := hbefore hloc n h0
      rcases hkept.loc p _ h0 with h1 | ⟨h1, _⟩ | ⟨⟨_, _, f, hf, hpre⟩, _⟩
      · exact ⟨k, m, b, h1⟩
      · exact absurd (hnew.stale p hp h1 k m b h0) hpn
      · exact absurd ⟨f, hf, hpre⟩ hret

/-- C59: a copy that is retained is marked as local. -/
theorem C59_retained_partial (h : UpdReady env w (setOf ps)) {w' : World} (hr : updateLocal env ps w = (.ok (), w'))
    {p : Path} (hleaf : KnownLeaf w p) {e : Entry PData} (he : ADB.info w.db p = some e) {f : Path} (hf : f ∈ ps)
    (hfp : f <+: p) {n : Node} (hn : w.os.fs.get (env.loc ++ p) = some n) :
    ∃ e', ADB.info w'.db p = some e' ∧ e'.data.loc = true := by
  obtain ⟨_, _, new, _, hdb, hnew⟩ := wp_ok (wp_updateLocal h) hr
  rw [hdb, info_markLocal (fun q hq => hleaf q (Or.inl hq)) (fun q hq => hleaf q (Or.inr (hnew.row q hq))) he]
  refine ⟨_, rfl, ?_⟩
  have h1 : p ∉ new := fun h1 => (hnew.only p h1 n hn).1.2.2.2.1 ⟨f, mem_setOf.2 hf, hfp⟩
  have h2 : ∃ f ∈ setOf ps, f <+: p := ⟨f, mem_setOf.2 hf, hfp⟩
  simp [setLoc, h1, h2]

/-- C59: a file that is replaced by a link to the remote file is marked as not local. -/
theorem C59_freed_partial (h : UpdReady env w (setOf ps)) {w' : World} (hr : updateLocal env ps w = (.ok (), w'))
    {p : Path} (hleaf : KnownLeaf w p) {e : Entry PData} (he : ADB.info w.db p = some e)
    (hp : p ∈ ADB.paths w.rdb) (hw : w.os.fs.get (env.loc ++ p) = none ∨ ∃ k m b, w.os.fs.get (env.loc ++ p) = some (.file k m b))
    {t : Str} {m : Int} (hn : w'.os.fs.get (env.loc ++ p) = some (.link t m)) (hx : ∀ f ∈ ps, ¬ f <+: p) :
    ∃ e', ADB.info w'.db p = some e' ∧ e'.data.loc = false := by
  obtain ⟨hkept, _, new, _, hdb, hnew⟩ := wp_ok (wp_updateLocal h) hr
  rw [hdb, info_markLocal (fun q hq => hleaf q (Or.inl hq)) (fun q hq => hleaf q (Or.inr (hnew.row q hq))) he]
  refine ⟨_, rfl, ?_⟩
  have h1 : p ∈ new := by
    rcases hw with h1 | ⟨k, m', b, h1⟩
    · exact hnew.absent p hp h1
    · rcases hkept.loc p _ h1 with h2 | ⟨h2, _⟩ | ⟨⟨_, _, f, hf, hpre⟩, _⟩
      · rw [h2] at hn; cases hn
      · exact hnew.stale p hp h2 k m' b h1
      · exact absurd hpre (hx f (mem_setOf.1 hf))
  simp [setLoc, h1]

/-! ### Examples -/

theorem exUpd_leaf (fuel : Nat) (p : Path) (hp : p = ["b".toList] ∨ p = ["d".toList, "a".toList] ∨ p = ["k".toList]) :
    KnownLeaf (exUpd fuel) p := by
  have h : ∀ p ∈ ([["b".toList], ["d".toList, "a".toList], ["k".toList]] : List Path),
      ∀ q ∈ ([["d".toList], ["d".toList, "a".toList], ["b".toList], ["k".toList]] : List Path), p <+: q → q = p := by
    decide +kernel
  intro q hq
  exact h p (by simpa using hp) q (hq.elim id id)

/-- The hypotheses of the theorems at the retained file `b` and at the file `d/a`, of which the space is freed. -/
example : ADB.info (exUpd 100).db ["b".toList] = some (exRow ["b".toList] false 1 false) ∧
    ADB.info (exUpd 100).db ["d".toList, "a".toList] = some (exRow ["d".toList, "a".toList] false 1 true) ∧
    ["b".toList] ∈ ADB.paths (exUpd 100).rdb ∧ ["d".toList, "a".toList] ∈ ADB.paths (exUpd 100).rdb ∧
    (exUpd 100).os.fs.get ["r".toList, "b".toList] = some (.file 9 4 1) ∧
    (exUpd 100).os.fs.get ["l".toList, "d".toList, "a".toList] = some (.file 7 3 1) ∧
    ADB.info (updateLocal exEnvE [["b".toList]] (exUpd 100)).2.db ["b".toList] =
      some (exRow ["b".toList] false 1 true) ∧
    ADB.info (updateLocal exEnvE [["b".toList]] (exUpd 100)).2.db ["d".toList, "a".toList] =
      some (exRow ["d".toList, "a".toList] false 1 false) := by decide +kernel

/-- C59 in full is false: `k`, which is new in the remote directory, is copied and yet marked as not local, because it
has been a link in between. -/
theorem C59_copy_fails :
    (updateLocal exEnvE [["k".toList]] (exUpd 100)).1 = .ok () ∧
    (updateLocal exEnvE [["k".toList]] (exUpd 100)).2.os.fs.get ["l".toList, "k".toList] = some (.file 6 4 1) ∧
    ADB.info (updateLocal exEnvE [["k".toList]] (exUpd 100)).2.db ["k".toList] =
      some (exRow ["k".toList] false 1 false) := by decide +kernel

end Verif
