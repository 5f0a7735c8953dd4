import Verif.Props.C69_History
import Verif.Props.C33_Agreement
import Verif.Props.C61_Upload
import Verif.Props.C62_Deletions
import Verif.Props.SyncEffects
import Verif.ExampleOrderly
/-
C76: what one client changes or deletes reaches the other clients.
-/
namespace Verif
open Prog OSM Call FSTools WM

variable {ι : Type}

/-- The client has neither deleted nor changed nor excluded the path or a directory above it. -/
def NoInterest (env : Env) (w : World) (p : Path) : Prop :=
  ∀ d, d <+: p → ¬ GoneLocally env w d ∧ ¬ ChangedLocally env w d ∧ ¬ OwnExcludes env w.os.fs d

/-- After the state `v` clients synchronise one after the other, without an error, and each finds the remote directory as
the one before has left it. The last one is `c`, and `x` is the state in which it ends. `P` holds whenever a
sync starts. The first two conditions hold in a history of commands (`C69_ready_partial`). -/
inductive Relay (E : ι → Env) (P : Env → World → Prop) (v : World) : ι → World → Prop where
  | first (c : ι) (w : World) : SyncReady (E c) w → Calm (E c) w → SameRemote (E c) v w → P (E c) w →
      (sync (E c) w).1 = .ok () → Relay E P v c (sync (E c) w).2
  | next (c d : ι) (u w : World) : Relay E P v d u → SyncReady (E c) w → Calm (E c) w → SameRemote (E c) u w →
      P (E c) w → (sync (E c) w).1 = .ok () → Relay E P v c (sync (E c) w).2

/-- The local directory of the client has the remote file, as a copy or as a link to it. -/
def Has (env : Env) (x : World) (p : Path) (n : Node) : Prop :=
  x.os.fs.get (env.rem ++ p) = some n ∧
  (x.os.fs.get (env.loc ++ p) = some n ∨
    ∃ t m, x.os.fs.get (env.loc ++ p) = some (.link t m) ∧ FS.linkDest (env.loc ++ p) t = env.rem ++ p)

theorem has_of_sync {env : Env} {w : World} (r : SyncReady env w) (c : Calm env w) (h : (sync env w).1 = .ok ())
    {p : Path} (hp : UserPath p) {k : Nat} {m : Int} {b : Nat} (hn : w.os.fs.get (env.rem ++ p) = some (.file k m b))
    (hi : NoInterest env w p) : Has env (sync env w).2 p (.file k m b) := by
  have h1 := C31_partial r hp hn rfl (fun d hd hk h0 => (hi d hd).1 ⟨hk, h0⟩) (fun f hf => (hi f hf).2.1)
    (fun e he => (hi e he).2.2)
  exact ⟨h1, C33_files_partial r c h hp h1⟩

/-- C76: one client has a new or changed file and synchronises. However many syncs of any clients follow, if none of
these clients has changed, deleted or excluded the file in the meantime, each of them gets it. -/
theorem C76_changed_partial {E : ι → Env} (hrem : ∀ c d, (E c).rem = (E d).rem) {a c : ι} {w x : World} {p : Path}
    {k : Nat} {m : Int} {b : Nat} (r : SyncReady (E a) w) (h : (sync (E a) w).1 = .ok ()) (hp : UserPath p)
    (hn : w.os.fs.get ((E a).loc ++ p) = some (.file k m b)) (hc : ChangedLocally (E a) w p)
    (he : ¬ OwnExcludes (E a) w.os.fs p) (hr : ¬ ChangedRemotely (E a) w p)
    (hx : Relay E (fun env w => NoInterest env w p) (sync (E a) w).2 c x) : Has (E c) x p (.file k m b) := by
  have h0 := C61_files_partial r h hc hn rfl he hr
  induction hx with
  | first c w1 r1 c1 hs hi h1 =>
    exact has_of_sync r1 c1 h1 hp (by rw [hs p hp, hrem c a]; exact h0) hi
  | next c d u w1 _ r1 c1 hs hi h1 ih =>
    exact has_of_sync r1 c1 h1 hp (by rw [hs p hp, hrem c d]; exact ih.1) hi

/-- C76: one client has deleted a file or a directory and synchronises. However many syncs of clients that know the
path and do not exclude it follow, it is gone from the directories of each of them. -/
theorem C76_deleted_partial {E : ι → Env} (hrem : ∀ c d, (E c).rem = (E d).rem) {a c : ι} {w x : World} {p : Path}
    (r : SyncReady (E a) w) (h : (sync (E a) w).1 = .ok ()) (hp : UserPath p) (hd : GoneLocally (E a) w p)
    (hx : Relay E (fun env w => p ∈ ADB.paths w.db ∧ ¬ OwnExcludes env w.os.fs p) (sync (E a) w).2 c x)
    {q : Path} (hq : p <+: q) : x.os.fs.get ((E c).loc ++ q) = none ∧ x.os.fs.get ((E c).rem ++ q) = none := by
  have h0 := (C62_local_partial r h hd (List.prefix_refl p)).1
  have key : x.os.fs.get ((E c).rem ++ p) = none ∧ ∀ q, p <+: q →
      x.os.fs.get ((E c).loc ++ q) = none ∧ x.os.fs.get ((E c).rem ++ q) = none := by
    induction hx with
    | first c w1 r1 c1 hs hi h1 =>
      have hg : GoneRemotely (E c) w1 p := ⟨hi.1, by rw [hs p hp, hrem c a]; exact h0⟩
      have h2 := fun q hq => C62_remote_partial r1 h1 hg hi.2 (q := q) hq
      exact ⟨(h2 p (List.prefix_refl p)).2.1, fun q hq => ⟨(h2 q hq).1, (h2 q hq).2.1⟩⟩
    | next c d u w1 _ r1 c1 hs hi h1 ih =>
      have hg : GoneRemotely (E c) w1 p := ⟨hi.1, by rw [hs p hp, hrem c d]; exact ih.1⟩
      have h2 := fun q hq => C62_remote_partial r1 h1 hg hi.2 (q := q) hq
      exact ⟨(h2 p (List.prefix_refl p)).2.1, fun q hq => ⟨(h2 q hq).1, (h2 q hq).2.1⟩⟩
  exact key.2 q hq

/-- The second client wants to synchronise after the first one has deleted `d/a` and synchronised. -/
def exN5 : World where
  os := ⟨[(px ["l", "b"], .file 11 90 1), (px ["l", "n", "c"], .file 12 90 1), (px ["l", "n"], .dir 132 8),
     (px ["r", ".zielen", "Trash", "a"], .file 7 129 1), (px ["r", ".zielen", "exclude", "id"], .file 1 126 1),
     (px ["m", "b"], .file 11 90 1), (px ["m", "d", "a"], .file 7 3 1), (px ["m", "n", "c"], .file 12 90 1),
     (px ["r", "b"], .file 11 90 1), (px ["r", "n", "c"], .file 12 90 1), (px ["r", "n"], .dir 94 8),
     (px ["r", ".zielen", "exclude", "id2"], .file 1 92 1), (px ["m", "n"], .dir 90 8), (px ["m", "d"], .dir 82 8),
     (px ["m"], .dir 78 8), (px ["r", "d"], .dir 55 8),
     (px ["r", ".zielen", "Trash"], .dir 54 8), (px ["r", ".zielen", "exclude"], .dir 53 8),
     (px ["r", ".zielen"], .dir 52 8), (px ["r"], .dir 51 8), (px ["x"], .file 1 1 1), (px ["l"], .dir 1 8),
     (px ["l", "d"], .dir 2 8), (px ["l", "d", "e"], .file 8 3 1), (px ["l", "k"], .link "/q".toList 4)],
    1000, 98, fun n => n + 50⟩
  db := [⟨px ["b"], false, ⟨0, true⟩⟩, ⟨px ["d"], true, ⟨2, true⟩⟩, ⟨px ["d", "a"], false, ⟨2, true⟩⟩,
     ⟨px ["n"], true, ⟨0, true⟩⟩, ⟨px ["n", "c"], false, ⟨0, true⟩⟩]
  dbSaved := [⟨px ["b"], false, ⟨0, true⟩⟩, ⟨px ["d"], true, ⟨2, true⟩⟩, ⟨px ["d", "a"], false, ⟨2, true⟩⟩,
     ⟨px ["n"], true, ⟨0, true⟩⟩, ⟨px ["n", "c"], false, ⟨0, true⟩⟩]
  rdb := [⟨px ["b"], false, 102⟩, ⟨px ["d"], true, 65⟩, ⟨px ["n"], true, 102⟩, ⟨px ["n", "c"], false, 102⟩]
  rdbSaved := [⟨px ["b"], false, 102⟩, ⟨px ["d"], true, 65⟩, ⟨px ["n"], true, 102⟩, ⟨px ["n", "c"], false, 102⟩]
  last := 122
  lastSaved := 122
  lmemo := []
  rmemo := []
  matches_ := none

theorem exN5_fs : exN5.os.fs = (sync (exPair false) exN3).2.os.fs := by decide +kernel
theorem exN5_dbs : exN5.db = exH3.dbSaved ∧ exN5.last = exH3.lastSaved ∧ exN5.rdb = exH4.rdbSaved := by decide +kernel

/-- The exclude file excludes what is called `e`. -/
theorem exPair_not_excluded (c : Bool) {fs : FS} (hf : fs.stat ["x".toList] = .ok (["x".toList], .file 1 1 1)) {p : Path}
    (hp : p.all (fun c => decide (c ≠ "e".toList)) = true) : ¬ OwnExcludes (exPair c) fs p := by
  rintro ⟨q, k, m, b, h1, h2, _, x, h3, h4, g, h5, h6⟩
  rw [show (exPair c).excl = ["x".toList] by cases c <;> rfl, hf] at h1
  cases h1
  rw [show (exPair c).patsOf 1 = [fun p => decide (p.getLastD [] = "e".toList)] by cases c <;> rfl,
    List.mem_singleton] at h5
  subst h5
  rw [decide_eq_true_eq] at h6
  have h7 : x.getLastD [] ∈ p := by
    refine h4.subset ?_
    cases x with
    | nil => exact absurd rfl h3
    | cons a x => rw [List.getLastD_cons, ← List.getLast_eq_getLastD]; exact List.getLast_mem (by simp)
  exact absurd h6 (of_decide_eq_true (List.all_eq_true.1 hp _ h7))

theorem exN2_ready : SyncReady (exPair true) exN2 :=
  syncReady_of_readyB (by decide +kernel) (exPair_ready true).order (exPair_ready true).apart
    (fun _ => exPair_stamp true _) rfl

theorem exN3_ready : SyncReady (exPair false) exN3 :=
  syncReady_of_readyB (by decide +kernel) (exPair_ready false).order (exPair_ready false).apart
    (fun _ => exPair_stamp false _) rfl

theorem exN5_ready : SyncReady (exPair true) exN5 :=
  syncReady_of_readyB (by decide +kernel) (exPair_ready true).order (exPair_ready true).apart
    (fun _ => exPair_stamp true _) rfl

theorem exN3_calm : Calm (exPair false) exN3 :=
  calm_of_calmB (clear := fun p => p.all (fun c => decide (c ≠ "e".toList))) (by simp [exPair, exEnvE])
    (fun _ h => exPair_not_excluded false (by decide +kernel) h) (by decide +kernel)

theorem exN5_calm : Calm (exPair true) exN5 :=
  calm_of_calmB (clear := fun p => p.all (fun c => decide (c ≠ "e".toList))) (by simp [exPair])
    (fun _ h => exPair_not_excluded true (by decide +kernel) h) (by decide +kernel)

theorem exN2_sync : (sync (exPair true) exN2).1 = .ok () := by decide +kernel
theorem exN3_sync : (sync (exPair false) exN3).1 = .ok () := by decide +kernel
theorem exN5_sync : (sync (exPair true) exN5).1 = .ok () := by decide +kernel

theorem exN3_remote : SameRemote (exPair false) (sync (exPair true) exN2).2 exN3 := by
  have e : exN3.os.fs = (sync (exPair true) exN2).2.os.fs.rm (px ["l", "d", "a"]) := by decide +kernel
  intro p _
  rw [e]
  generalize (sync (exPair true) exN2).2.os.fs = fs
  exact FS.get_rm_ne _ (by intro e; simp [exPair, exEnvE, px] at e)

theorem exPair_rem (c d : Bool) : (exPair c).rem = (exPair d).rem := by cases c <;> cases d <;> rfl

/-- The second client has changed `b`. After it the first client synchronises and has the new `b`, although it has
changes of its own. -/
example : Has (exPair false) (sync (exPair false) exN3).2 ["b".toList] (.file 11 90 1) := by
  refine C76_changed_partial (E := exPair) (a := true) (c := false) (w := exN2) exPair_rem exN2_ready exN2_sync (by decide) (by decide +kernel)
    ⟨by decide, .file 11 90 1, by decide +kernel, (fun ⟨_, _, h, _⟩ => by cases h), ?_⟩
    (exPair_not_excluded true (by decide +kernel) (by decide)) (not_changedRemotely (by decide +kernel))
    (.first false exN3 exN3_ready exN3_calm exN3_remote ?_ exN3_sync)
  · exact Or.inr ⟨by decide +kernel, by decide, by decide⟩
  · intro d hd
    have hd' : d = [] ∨ d = ["b".toList] := by
      rcases List.prefix_cons_iff.1 hd with h | ⟨t, rfl, ht⟩
      · exact Or.inl h
      · rw [List.prefix_nil.1 ht]; exact Or.inr rfl
    rcases hd' with rfl | rfl
    · refine ⟨fun h => ?_, fun h => h.1 rfl, exPair_not_excluded false (by decide +kernel) (by decide)⟩
      exact absurd h.1 (by decide +kernel)
    · refine ⟨fun h => ?_, fun h => ?_, exPair_not_excluded false (by decide +kernel) (by decide)⟩
      · exact absurd h.2 (by decide +kernel)
      · exact absurd (mem_chL (by simp [exPair, exEnvE]) h) (by decide +kernel)

/-- The first client has deleted `d/a`. After it the second client synchronises, and its `d/a` is deleted, too. -/
example : exN5.os.fs.get ["m".toList, "d".toList, "a".toList] = some (.file 7 3 1) ∧
    (sync (exPair true) exN5).2.os.fs.get ["m".toList, "d".toList, "a".toList] = none := by
  refine ⟨by decide +kernel, (C76_deleted_partial (E := exPair) (a := false) (w := exN3) (c := true) (p := ["d".toList, "a".toList])
    exPair_rem exN3_ready exN3_sync (by decide) ⟨by decide +kernel, by decide +kernel⟩
    (.first true exN5 exN5_ready exN5_calm (fun p _ => by rw [exN5_fs])
      ⟨by decide +kernel, exPair_not_excluded true (by decide +kernel) (by decide)⟩ exN5_sync)
    (List.prefix_refl _)).1⟩

end Verif
