import Verif.SyncQuiet
import Verif.ExampleOrderly
/-
C71: a sync of a profile that is in order ends without an exception, unless the process is killed.

The claim in full is false (C71_Conflict.lean). It holds in the states that `Orderly` describes, in which files may be
new, changed or deleted on both sides, and conflicts are possible: there a sync ends normally, saves the databases,
leaves them in agreement with the two directories, and so do all the syncs after it.
-/
namespace Verif
open Prog OSM

variable {env : Env} {w : World}

/-- C71: a sync that starts in an orderly state ends without an exception, unless it is killed. -/
theorem C71_partial (r : SyncReady env w) (o : Orderly env w) (hk : (sync env w).1 ≠ .error .killed) :
    (sync env w).1 = .ok () :=
  (safe_sync r o).ok hk |>.elim (fun _ h => h)

/-- Afterwards what the databases say is saved, and agrees with the two directories. -/
theorem C71_rest_partial (r : SyncReady env w) (o : Orderly env w) (hk : (sync env w).1 ≠ .error .killed) :
    AtRest env (sync env w).2 :=
  rest_of_sync r o.toCalm (C71_partial r o hk)

/-- The state in which the sync number `n` starts, if nothing happens between the syncs. The number of system calls
after which the process is killed may be a different one each time. -/
def rounds (env : Env) (fuel : Nat → Nat) (w : World) : Nat → World
  | 0 => w
  | n + 1 => (sync env (rounds env fuel w n)).2.restart (fuel n)

/-- C71: what a sync leaves lets the next one do the same, and so on. The exclude file is not in one of the
directories, the clock does not go back, no file is from the future, no file has a name that a conflict would get, and
if new files are to get the highest priority, there is always a file that is known. -/
theorem C71_again_partial (r : SyncReady env w) (o : Orderly env w) (hx : ¬ env.loc <+: env.excl)
    (hx' : ¬ env.rem <+: env.excl) (hc : ∀ i j, i ≤ j → w.os.clk i ≤ w.os.clk j)
    (hf : ∀ e ∈ w.os.fs, e.2.mtime ≤ w.os.clk w.os.tick) (hr : ∀ e ∈ w.rdb, e.data ≤ w.os.clk w.os.tick)
    (fuel : Nat → Nat) (n : Nat) (hk : ∀ i ≤ n, (sync env (rounds env fuel w i)).1 ≠ .error .killed)
    (hfree : ∀ i < n, ∀ k p, (rounds env fuel w (i + 1)).os.tick ≤ k → UserPath p → GoodPath p →
      (rounds env fuel w (i + 1)).os.fs.get (env.loc ++ conflictPath (env.stamp (w.os.clk k)) p) = none ∧
      (rounds env fuel w (i + 1)).os.fs.get (env.rem ++ conflictPath (env.stamp (w.os.clk k)) p) = none)
    (hi : env.inflate = true → ∀ i < n, ∃ e ∈ (rounds env fuel w (i + 1)).db, e.directory = false) :
    ∀ i ≤ n, (sync env (rounds env fuel w i)).1 = .ok () := by
  have er : EnvReady env := ⟨r.order, r.apart, r.goodId, r.goodRem, r.excl_slot⟩
  have inv : ∀ i, i ≤ n → SyncReady env (rounds env fuel w i) ∧ Orderly env (rounds env fuel w i) ∧
      AgedW w.os.clk w.os.tick (rounds env fuel w i) := by
    intro i
    induction i with
    | zero => exact fun _ => ⟨r, o, ⟨rfl, hc, Nat.le_refl _, hf⟩, hr⟩
    | succ i ih =>
      intro hin
      obtain ⟨r1, o1, a1⟩ := ih (by omega)
      have h1 := C71_partial r1 o1 (hk i (by omega))
      have q := quiet_of_sync r1 o1 a1 hx hx' h1
      have a2 : AgedW w.os.clk w.os.tick (sync env (rounds env fuel w i)).2 :=
        wp_ok (a := ()) (TimelyW.sync env _ _ _ a1) (by rw [← h1])
      have rs : Resumes env (sync env (rounds env fuel w i)).2 ((sync env (rounds env fuel w i)).2.restart (fuel i)) := by
        refine q.resumes (fuel i) ?_ ?_
        · intro k hk'
          rw [a2.1.1]
          exact r.stamp k (Nat.le_trans a2.1.2.2.1 hk')
        · intro k p hk' hp hg
          rw [a2.1.1]
          exact hfree i (by omega) k p hk' hp hg
      refine ⟨rs.ready er q.rest, q.orderly rs ?_, a2.restart q.rest _⟩
      intro h2
      obtain ⟨e, he, hd⟩ := hi h2 i (by omega)
      refine ⟨e, ?_, hd⟩
      rw [← q.rest.dbSaved]; exact he
  intro i hin
  obtain ⟨r1, o1, _⟩ := inv i hin
  exact C71_partial r1 o1 (hk i hin)

/-! ### Examples -/

/-- New files get the highest priority, and old files are removed from the trash. -/
def exEnvO : Env := { exEnvE with inflate := true, cleanup := some 70 }

/-- `a` was changed here; `b` is as it was; `c` was changed on both sides, later here; `d/n` is new here, and `k` on the
other side; `e` is excluded; `m` was deleted on the other side, `g` and `h` here; `s` is a link. There is an old
file in the trash, and another client has an exclude file. -/
def exOrderlyAt (m : Int) (fuel : Nat) : World := exWorld exEnvO
  [(exEnvO.trash ++ ["t".toList], .file 30 3 1), (exEnvO.exclDir ++ ["id2".toList], .file 1 3 1),
    (["l".toList, "a".toList], .file 7 45 1), (["r".toList, "a".toList], .file 6 3 1),
    (["l".toList, "b".toList], .file 9 3 1), (["r".toList, "b".toList], .file 9 3 1),
    (["l".toList, "c".toList], .file 11 46 1), (["r".toList, "c".toList], .file 12 m 1),
    (["l".toList, "d".toList], .dir 45 8), (["l".toList, "d".toList, "n".toList], .file 13 45 1),
    (["l".toList, "e".toList], .file 14 45 1), (["l".toList, "m".toList], .file 15 3 1),
    (["l".toList, "s".toList], .link "/r/s".toList 3), (["r".toList, "s".toList], .file 16 3 1),
    (["r".toList, "g".toList], .file 17 3 1), (["r".toList, "h".toList], .file 19 3 1),
    (["r".toList, "k".toList], .file 18 45 1)]
  [exRow ["a".toList] false 1 true, exRow ["b".toList] false 2 true, exRow ["c".toList] false 1 true,
    exRow ["s".toList] false 1 false, exRow ["g".toList] false 1 true, exRow ["h".toList] false 1 false,
    exRow ["m".toList] false 1 true]
  [exRRow ["a".toList] false, exRRow ["b".toList] false, exRRow ["c".toList] false,
    exRRow ["s".toList] false, exRRow ["g".toList] false, exRRow ["h".toList] false, exRRow ["m".toList] false] fuel

def exOrderly (fuel : Nat) : World := exOrderlyAt 44 fuel

/-- The same, but `c` was changed here only. -/
def exPeace (fuel : Nat) : World := exOrderlyAt 4 fuel

theorem exOrderly_ready (fuel : Nat) : SyncReady exEnvO (exOrderly fuel) := by
  refine syncReady_of_readyB ?_ (fun _ => List.Perm.refl _) (by unfold Apart; decide +kernel) (fun _ => ?_) rfl
  · have : readyB exEnvO (exOrderly fuel) = readyB exEnvO (exOrderly 0) := rfl
    rw [this]
    decide +kernel
  · show GoodStamp "19700101-000000".toList
    decide +kernel

theorem exOrderly_clear (m : Int) (fuel : Nat) {p : Path} (hp : p.all (fun c => decide (c ≠ "e".toList)) = true) :
    ¬ OwnExcludes exEnvO (exOrderlyAt m fuel).os.fs p := by
  rintro ⟨q, k, m', b, h1, h2, _, x, h3, h4, g, h5, h6⟩
  rw [show (exOrderlyAt m fuel).os.fs.stat exEnvO.excl = .ok (["x".toList], .file 1 1 1) from rfl] at h1
  cases h1
  rw [show exEnvO.patsOf 1 = [fun p => decide (p.getLastD [] = "e".toList)] from rfl, List.mem_singleton] at h5
  subst h5
  rw [decide_eq_true_eq] at h6
  have h7 : x.getLastD [] ∈ p := by
    refine h4.subset ?_
    cases x with
    | nil => exact absurd rfl h3
    | cons a x => rw [List.getLastD_cons, ← List.getLast_eq_getLastD]; exact List.getLast_mem (by simp)
  exact absurd h6 (of_decide_eq_true (List.all_eq_true.1 hp _ h7))

theorem exOrderly_orderly (fuel : Nat) : Orderly exEnvO (exOrderly fuel) := by
  refine orderly_of_orderlyB (clear := fun p => p.all (fun c => decide (c ≠ "e".toList))) (by decide) (by decide)
    (fun p hp => exOrderly_clear 44 fuel hp) ?_
  have : orderlyB exEnvO (fun p => p.all (fun c => decide (c ≠ "e".toList))) (exOrderly fuel) =
    orderlyB exEnvO (fun p => p.all (fun c => decide (c ≠ "e".toList))) (exOrderly 0) := rfl
  rw [this]
  decide +kernel

/-- All steps of the sync are needed: `g` is removed, `h` goes to the trash, `t` is removed from it, and there is a conflict. -/
example : (sync exEnvO (exOrderly 1000)).1 = .ok () ∧
    (sync exEnvO (exOrderly 1000)).2.os.fs.get (exEnvO.trash ++ ["t".toList]) = none ∧
    (sync exEnvO (exOrderly 1000)).2.os.fs.get ["r".toList, "g".toList] = none ∧
    ((sync exEnvO (exOrderly 1000)).2.os.fs.get (exEnvO.trash ++ ["h".toList])).isSome = true ∧
    (sync exEnvO (exOrderly 1000)).2.os.fs.get ["l".toList, "m".toList] = none ∧
    (sync exEnvO (exOrderly 1000)).2.os.fs.get ["r".toList, "d".toList, "n".toList] = some (.file 13 45 1) ∧
    (sync exEnvO (exOrderly 1000)).2.os.fs.get ["l".toList, "c_conflict-19700101-000000".toList] =
      some (.file 12 44 1) := by decide +kernel

/-- Whenever it is killed, that is the only error. -/
example (fuel : Nat) : (sync exEnvO (exOrderly fuel)).1 = .ok () ∨ (sync exEnvO (exOrderly fuel)).1 = .error .killed := by
  by_cases h : (sync exEnvO (exOrderly fuel)).1 = .error .killed
  · exact Or.inr h
  · exact Or.inl (C71_partial (exOrderly_ready fuel) (exOrderly_orderly fuel) h)

theorem exPeace_ready (fuel : Nat) : SyncReady exEnvO (exPeace fuel) := by
  refine syncReady_of_readyB ?_ (fun _ => List.Perm.refl _) (by unfold Apart; decide +kernel) (fun _ => ?_) rfl
  · have : readyB exEnvO (exPeace fuel) = readyB exEnvO (exPeace 0) := rfl
    rw [this]
    decide +kernel
  · show GoodStamp "19700101-000000".toList
    decide +kernel

theorem exPeace_orderly (fuel : Nat) : Orderly exEnvO (exPeace fuel) := by
  refine orderly_of_orderlyB (clear := fun p => p.all (fun c => decide (c ≠ "e".toList))) (by decide) (by decide)
    (fun p hp => exOrderly_clear 4 fuel hp) ?_
  have : orderlyB exEnvO (fun p => p.all (fun c => decide (c ≠ "e".toList))) (exPeace fuel) =
    orderlyB exEnvO (fun p => p.all (fun c => decide (c ≠ "e".toList))) (exPeace 0) := rfl
  rw [this]
  decide +kernel

/-- Two syncs after each other. -/
example : ∀ i ≤ 1, (sync exEnvO (rounds exEnvO (fun _ => 1000) (exPeace 1000) i)).1 = .ok () := by
  have hk : ((sync exEnvO (rounds exEnvO (fun _ => 1000) (exPeace 1000) 0)).1 = .ok () ∧
      shortB ((rounds exEnvO (fun _ => 1000) (exPeace 1000) 1).os.fs.map Prod.fst) = true ∧
      (rounds exEnvO (fun _ => 1000) (exPeace 1000) 1).db.any (fun e => !e.directory) = true) ∧
      (sync exEnvO (rounds exEnvO (fun _ => 1000) (exPeace 1000) 1)).1 = .ok () := by decide +kernel
  have stamp : ∀ k, GoodStamp (exEnvO.stamp k) := by
    intro k
    show GoodStamp "19700101-000000".toList
    decide +kernel
  refine C71_again_partial (exPeace_ready 1000) (exPeace_orderly 1000) (by decide) (by decide) ?_ ?_ ?_ _ _ ?_ ?_ ?_
  · intro i j h
    show (i : Int) + 50 ≤ j + 50
    omega
  · decide +kernel
  · decide +kernel
  · intro i hi
    have : i = 0 ∨ i = 1 := by omega
    rcases this with rfl | rfl
    · rw [hk.1.1]; simp
    · rw [hk.2]; simp
  · intro i hi k p _ hp hg
    obtain rfl : i = 0 := by omega
    have free : ∀ root : Path, root ≠ [] → (rounds exEnvO (fun _ => 1000) (exPeace 1000) 1).os.fs.get
        (root ++ conflictPath (exEnvO.stamp ((exPeace 1000).os.clk k)) p) = none := by
      intro root hr
      rcases Option.eq_none_or_eq_some ((rounds exEnvO (fun _ => 1000) (exPeace 1000) 1).os.fs.get
        (root ++ conflictPath (exEnvO.stamp ((exPeace 1000).os.clk k)) p)) with h | ⟨n, h⟩
      · exact h
      · exact absurd (List.prefix_refl _) (not_short (stamp _) hp hg hk.1.2.1
          (List.mem_map.2 ⟨_, FS.mem_of_get (by simp [hr]) h, rfl⟩))
    exact ⟨free _ (by decide), free _ (by decide)⟩
  · intro _ i hi
    obtain rfl : i = 0 := by omega
    obtain ⟨e, he, h⟩ := List.any_eq_true.1 hk.1.2.2
    exact ⟨e, he, by simpa using h⟩

end Verif
