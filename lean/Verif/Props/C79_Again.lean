import Verif.SyncAgain
import Verif.Props.C71_Progress
import Verif.Props.C77_Storage
import Verif.Props.C78_PrioritySums
/-
C79: a sync to which nothing has happened since the last one changes nothing.
-/
namespace Verif
open Prog OSM Call FSTools WM

theorem SameAt.refl (root : Path) (fs : FS) (p : Path) : SameAt root fs fs p :=
  ⟨fun n h => ⟨n, h, rfl, fun _ => rfl⟩, fun n h => ⟨n, h⟩⟩

theorem SameAt.trans {root : Path} {a b c : FS} {p : Path} (h1 : SameAt root a b p) (h2 : SameAt root b c p) :
    SameAt root a c p := by
  refine ⟨fun n hn => ?_, fun n hn => ?_⟩
  · obtain ⟨n1, g1, k1, s1⟩ := h1.kept n hn
    obtain ⟨n2, g2, k2, s2⟩ := h2.kept n1 g1
    exact ⟨n2, g2, k2.trans k1, fun hd => (s2 (k1.trans hd)).trans (s1 hd)⟩
  · obtain ⟨n1, g1⟩ := h2.old n hn
    exact h1.old n1 g1

theorem SameAt.none {root : Path} {a b : FS} {p : Path} (h : SameAt root a b p) (hn : a.get (root ++ p) = none) :
    b.get (root ++ p) = none := by
  rcases Option.eq_none_or_eq_some (b.get (root ++ p)) with h1 | ⟨n, h1⟩
  · exact h1
  · obtain ⟨m, h2⟩ := h.old n h1
    rw [hn] at h2; cases h2

/-- Two states of a profile: the same files with the same contents, and the same rows. Directories may have been
touched, and the marks for local files may be different. -/
structure SameState (env : Env) (w v : World) : Prop where
  loc : ∀ p, p ≠ [] → SameAt env.loc w.os.fs v.os.fs p
  rem : ∀ p, UserPath p → SameAt env.rem w.os.fs v.os.fs p
  rows : pathDir v.db = pathDir w.db
  prio : ALocal.vPrio v.db = ALocal.vPrio w.db
  rdb : v.rdb = w.rdb

theorem SameState.refl (env : Env) (w : World) : SameState env w w :=
  ⟨fun p _ => SameAt.refl _ _ p, fun p _ => SameAt.refl _ _ p, rfl, rfl, rfl⟩

theorem SameState.trans {env : Env} {a b c : World} (h1 : SameState env a b) (h2 : SameState env b c) :
    SameState env a c :=
  ⟨fun p hp => (h1.loc p hp).trans (h2.loc p hp), fun p hp => (h1.rem p hp).trans (h2.rem p hp),
    h2.rows.trans h1.rows, h2.prio.trans h1.prio, h2.rdb.trans h1.rdb⟩

section
variable {env : Env} {w : World}

/-- The conditions under which the first sync starts, and which the next ones meet again. -/
structure Restartable (env : Env) (c : Nat → Int) (k : Nat) (w : World) : Prop where
  ready : SyncReady env w
  orderly : Orderly env w
  aged : AgedW c k w
  older : NoOlder env w
  sums : PrioSums w.db
  none : ∀ p, ¬ OwnExcludes env w.os.fs p

theorem fresh_next {c : Nat → Int} {k : Nat} (f : Restartable env c k w) (hx : ¬ env.loc <+: env.excl)
    (hx' : ¬ env.rem <+: env.excl) (h1 : (sync env w).1 = .ok ())
    (hn : ∀ p, ¬ OwnExcludes env (sync env w).2.os.fs p)
    (stamp : ∀ j, k ≤ j → GoodStamp (env.stamp (c j)))
    (free : ∀ j p, (sync env w).2.os.tick ≤ j → UserPath p → GoodPath p →
      (sync env w).2.os.fs.get (env.loc ++ conflictPath (env.stamp (c j)) p) = none ∧
      (sync env w).2.os.fs.get (env.rem ++ conflictPath (env.stamp (c j)) p) = none)
    (hi : env.inflate = true → ∃ e ∈ (sync env w).2.db, e.directory = false) (fuel : Nat) :
    Restartable env c k ((sync env w).2.restart fuel) ∧
      ((sync env ((sync env w).2.restart fuel)).1 = .ok () →
        SameState env (sync env w).2 (sync env ((sync env w).2.restart fuel)).2 ∧
        (∀ p, ¬ OwnExcludes env (sync env ((sync env w).2.restart fuel)).2.os.fs p) ∧
        (sync env w).2.os.tick ≤ (sync env ((sync env w).2.restart fuel)).2.os.tick) := by
  obtain ⟨r, o, ag, hc, hp, hne⟩ := f
  have er : EnvReady env := ⟨r.order, r.apart, r.goodId, r.goodRem, r.excl_slot⟩
  have e1 : sync env w = (.ok (), (sync env w).2) := by rw [← h1]
  have q := quiet_of_sync r o ag hx hx' h1
  have a2 : AgedW c k (sync env w).2 := wp_ok (a := ()) (TimelyW.sync env _ _ _ ag) (by rw [← h1])
  have done := (wp_ok (wp_sync r) e1).2
  have sums := sumsOfEntries_iff.1 (C78_sync_partial r o.toCalm h1 (sumsOfEntries_iff.2 hp))
  generalize (sync env w).2 = w' at *
  have rs : Resumes env w' (w'.restart fuel) := by
    refine q.resumes fuel ?_ ?_
    · intro j hj
      rw [a2.1.1]
      exact stamp j (Nat.le_trans a2.1.2.2.1 hj)
    · intro j p hj hp hg
      rw [a2.1.1]
      exact free j p hj hp hg
  have rv := rs.ready er q.rest
  have ov := q.orderly rs hi
  have edb : (w'.restart fuel).db = w'.db := q.rest.dbSaved
  have erdb : (w'.restart fuel).rdb = w'.rdb := q.rest.rdbSaved
  refine ⟨⟨rv, ov, a2.restart q.rest fuel, fun p a b h => absurd h (q.unchangedL fuel p), by rw [edb]; exact sums, hn⟩, ?_⟩
  intro h2
  have e2 : sync env (w'.restart fuel) = (.ok (), (sync env (w'.restart fuel)).2) := by rw [← h2]
  have := again_of_done (v := w'.restart fuel) r o.toCalm done hc hp hne q.rest rfl edb erdb rv ov.toCalm (q.idle fuel) hn (wp_ok (wp_sync rv) e2).2
  refine ⟨⟨this.1, this.2.1, this.2.2.1, this.2.2.2.1, this.2.2.2.2⟩, ?_, ?_⟩
  · intro p ho
    obtain ⟨x, m, b, he⟩ := q.excl
    have he' := (C56_outside_partial rv hx hx').2 _ he rfl
    have wf := (rest_of_sync rv ov.toCalm h2).wf
    obtain ⟨h0, y, hy⟩ := ownExcludes_exists ho
    exact hn p (ownExcludes_end wf q.rest.wf he' he ho (List.prefix_refl p) ((this.1 p h0).old y hy))
  · have ag2 := (a2.restart q.rest fuel)
    exact (wp_ok (a := ()) (TimelyW.sync env (w'.restart fuel) c w'.os.tick ⟨ag2.1.now, ag2.2⟩) e2).1.2.2.1

/-- C79: if nothing happens between the syncs, then all syncs after the first one end without an error and leave both
directories as the first one has left them: the same paths, the same files and links, and the same rows of the
databases apart from the marks for local files. Missing: excluded files, and a conflict in which the local version is
the older one. -/
theorem C79_partial (r : SyncReady env w) (o : Orderly env w) (hx : ¬ env.loc <+: env.excl)
    (hx' : ¬ env.rem <+: env.excl) (hc : ∀ i j, i ≤ j → w.os.clk i ≤ w.os.clk j)
    (hf : ∀ e ∈ w.os.fs, e.2.mtime ≤ w.os.clk w.os.tick) (hr : ∀ e ∈ w.rdb, e.data ≤ w.os.clk w.os.tick)
    (ho : ∀ p a b, ChangedLocally env w p → ChangedRemotely env w p → w.os.fs.get (env.loc ++ p) = some a →
      w.os.fs.get (env.rem ++ p) = some b → a.isDir = false → ¬ a.mtime < b.mtime)
    (hs : SumsOfEntries w.db) (hn : ∀ p, ¬ OwnExcludes env w.os.fs p)
    (hn' : ∀ p, ¬ OwnExcludes env (sync env w).2.os.fs p)
    (free : ∀ k p, (sync env w).2.os.tick ≤ k → UserPath p → GoodPath p →
      (sync env w).2.os.fs.get (env.loc ++ conflictPath (env.stamp (w.os.clk k)) p) = none ∧
      (sync env w).2.os.fs.get (env.rem ++ conflictPath (env.stamp (w.os.clk k)) p) = none)
    (hi : env.inflate = true → ∃ e ∈ (sync env w).2.db, e.directory = false)
    (fuel : Nat → Nat) (n : Nat) (hk : ∀ i ≤ n, (sync env (rounds env fuel w i)).1 ≠ .error .killed) :
    ∀ i ≤ n, (sync env (rounds env fuel w i)).1 = .ok () ∧
      SameState env (sync env w).2 (sync env (rounds env fuel w i)).2 := by
  have stamp : ∀ j, w.os.tick ≤ j → GoodStamp (env.stamp (w.os.clk j)) := fun j hj => r.stamp j hj
  have t0 : w.os.tick ≤ (sync env w).2.os.tick := by
    have h0 : (sync env w).1 = .ok () := C71_partial r o (hk 0 (Nat.zero_le _))
    exact (wp_ok (a := ()) (TimelyW.sync env w w.os.clk w.os.tick ⟨⟨rfl, hc, Nat.le_refl _, hf⟩, hr⟩) (by rw [← h0])).1.2.2.1
  have inv : ∀ i, i ≤ n → Restartable env w.os.clk w.os.tick (rounds env fuel w i) ∧
      (sync env (rounds env fuel w i)).1 = .ok () ∧
      SameState env (sync env w).2 (sync env (rounds env fuel w i)).2 ∧
      (∀ p, ¬ OwnExcludes env (sync env (rounds env fuel w i)).2.os.fs p) ∧
      (sync env w).2.os.tick ≤ (sync env (rounds env fuel w i)).2.os.tick := by
    intro i
    induction i with
    | zero =>
      intro h0
      exact ⟨⟨r, o, ⟨⟨rfl, hc, Nat.le_refl _, hf⟩, hr⟩, ho, sumsOfEntries_iff.1 hs, hn⟩, C71_partial r o (hk 0 h0),
        SameState.refl _ _, hn', Nat.le_refl _⟩
    | succ i ih =>
      intro hin
      obtain ⟨f, h1, sm, hne, tk⟩ := ih (by omega)
      obtain ⟨f', nx⟩ := fresh_next f hx hx' h1 hne stamp
        (fun j p hj hp hg => by
          have hu := userPath_conflictPath (stamp j (Nat.le_trans t0 (Nat.le_trans tk hj))) hg hp
          obtain ⟨f1, f2⟩ := free j p (Nat.le_trans tk hj) hp hg
          exact ⟨(sm.loc _ hu.1).none f1, (sm.rem _ hu).none f2⟩)
        (fun h => by
          obtain ⟨e, he, hd⟩ := hi h
          have : (e.path, e.directory) ∈ pathDir (sync env (rounds env fuel w i)).2.db := by
            rw [sm.rows]; exact List.mem_map.2 ⟨e, he, rfl⟩
          obtain ⟨e', he', h2⟩ := List.mem_map.1 this
          rw [Prod.mk.injEq] at h2
          exact ⟨e', he', h2.2.trans hd⟩) (fuel i)
      have h2 := C71_partial f'.ready f'.orderly (hk (i + 1) hin)
      obtain ⟨sm2, ne2, tk2⟩ := nx h2
      exact ⟨f', h2, sm.trans sm2, ne2, Nat.le_trans tk tk2⟩
  intro i hin
  exact ⟨(inv i hin).2.1, (inv i hin).2.2.1⟩

end

/-! ### Examples -/

theorem exSums_orderly : Orderly exEnvS exSums :=
  orderly_of_orderlyB (clear := fun p => p.all (fun c => decide (c ≠ "e".toList))) (by decide) (by decide)
    (fun _ h => exEnvS_not_excluded (by decide +kernel) h) (by decide +kernel)

theorem exEnvS_clear {fs : FS} (hf : fs.stat ["x".toList] = .ok (["x".toList], .file 1 1 1))
    (h : (localEntries exEnvS fs).all (fun x => x.1.all (fun c => decide (c ≠ "e".toList))) = true) (p : Path) :
    ¬ OwnExcludes exEnvS fs p := by
  intro ho
  obtain ⟨h0, n, h1⟩ := ownExcludes_exists ho
  exact exEnvS_not_excluded hf (List.all_eq_true.1 h _ (mem_localEntries (env := exEnvS) (by decide) h1)) ho

/-- The first sync removes the remote `d/b` and uploads `d/c`, of which only a link stays. -/
theorem exSums_first : (sync exEnvS exSums).2.os.fs.stat ["x".toList] = .ok (["x".toList], .file 1 1 1) ∧
    (localEntries exEnvS (sync exEnvS exSums).2.os.fs).all (fun x => x.1.all (fun c => decide (c ≠ "e".toList))) = true ∧
    shortB ((sync exEnvS exSums).2.os.fs.map Prod.fst) = true ∧
    (sync exEnvS exSums).2.os.fs.get ["l".toList, "d".toList, "a".toList] = some (.file 7 3 2) ∧
    ((sync exEnvS exSums).2.os.fs.get ["l".toList, "d".toList, "c".toList]).any Node.isLink = true ∧
    (sync exEnvS exSums).2.os.fs.get ["r".toList, "d".toList, "b".toList] = none ∧
    (sync exEnvS exSums).2.os.fs.get ["r".toList, "d".toList, "c".toList] = some (.file 9 45 4) := by decide +kernel

/-- However often the sync is repeated, nothing changes. -/
example (fuel : Nat → Nat) (n : Nat) (hk : ∀ i ≤ n, (sync exEnvS (rounds exEnvS fuel exSums i)).1 ≠ .error .killed) :
    ∀ i ≤ n, (sync exEnvS (rounds exEnvS fuel exSums i)).1 = .ok () ∧
      SameState exEnvS (sync exEnvS exSums).2 (sync exEnvS (rounds exEnvS fuel exSums i)).2 := by
  obtain ⟨h1, h2, h3, -⟩ := exSums_first
  have stamp : ∀ k, GoodStamp (exEnvS.stamp k) := by
    intro k
    show GoodStamp "19700101-000000".toList
    decide +kernel
  have older : ∀ p a b, ChangedLocally exEnvS exSums p → ChangedRemotely exEnvS exSums p →
      exSums.os.fs.get (exEnvS.loc ++ p) = some a → exSums.os.fs.get (exEnvS.rem ++ p) = some b → a.isDir = false →
      ¬ a.mtime < b.mtime := by
    intro p a b _ h
    have h1 : chR exEnvS exSums = [] := by decide +kernel
    have := mem_chR (by decide) h
    rw [h1] at this; cases this
  have free : ∀ (root : Path) (k : Int) (p : Path), root ≠ [] → UserPath p → GoodPath p →
      (sync exEnvS exSums).2.os.fs.get (root ++ conflictPath (exEnvS.stamp k) p) = none := by
    generalize (sync exEnvS exSums).2 = w at *
    intro root k p hr hp hg
    rcases Option.eq_none_or_eq_some (w.os.fs.get (root ++ conflictPath (exEnvS.stamp k) p)) with h | ⟨n, h⟩
    · exact h
    · exact absurd (List.prefix_refl _) (not_short (stamp _) hp hg h3
        (List.mem_map.2 ⟨_, FS.mem_of_get (by simp [hr]) h, rfl⟩))
  exact C79_partial (env := exEnvS) (w := exSums) exSums_ready exSums_orderly (by decide) (by decide)
    (fun i j h => by show (i : Int) + 50 ≤ j + 50; omega) (by decide +kernel) (by decide +kernel) older exSums_sums
    (exEnvS_clear (by decide +kernel) (by decide +kernel)) (exEnvS_clear h1 h2)
    (fun k p _ hp hg => ⟨free _ _ p (by decide) hp hg, free _ _ p (by decide) hp hg⟩) (fun h => by cases h) fuel n hk

/-! ### Where it is wrong -/

theorem exSpaceC_twice : (sync exEnvS exSpaceC).1 = .ok () ∧
    (sync exEnvS exSpaceC).2.os.fs.get (exEnvS.loc ++ ["a_conflict-19700101-000000".toList]) = some (.file 7 44 4) ∧
    (sync exEnvS ((sync exEnvS exSpaceC).2.restart 1000)).1 = .ok () ∧
    ((sync exEnvS ((sync exEnvS exSpaceC).2.restart 1000)).2.os.fs.get
      (exEnvS.loc ++ ["a_conflict-19700101-000000".toList])).any Node.isLink = true := by decide +kernel

theorem exSpaceX_twice : (sync exEnvS exSpaceX).1 = .ok () ∧
    (sync exEnvS exSpaceX).2.os.fs.get (exEnvS.loc ++ ["a".toList]) = some (.file 7 3 3) ∧
    (sync exEnvS ((sync exEnvS exSpaceX).2.restart 1000)).1 = .ok () ∧
    ((sync exEnvS ((sync exEnvS exSpaceX).2.restart 1000)).2.os.fs.get
      (exEnvS.loc ++ ["a".toList])).any Node.isLink = true := by decide +kernel

/-- C79 fails after a conflict: the older local version is renamed and stays although there is no space for it, and the
next sync makes a link of it. -/
theorem C79_conflict_fails : ∃ (env : Env) (w : World) (fuel : Nat), SyncReady env w ∧ (sync env w).1 = .ok () ∧
    (sync env ((sync env w).2.restart fuel)).1 = .ok () ∧ (∀ p, ¬ OwnExcludes env w.os.fs p) ∧
    ∃ p k m b t m', (sync env w).2.os.fs.get (env.loc ++ p) = some (.file k m b) ∧
      (sync env ((sync env w).2.restart fuel)).2.os.fs.get (env.loc ++ p) = some (.link t m') := by
  obtain ⟨h1, h2, h3, h4⟩ := exSpaceC_twice
  obtain ⟨t, m, h5⟩ := link_of_any h4
  exact ⟨exEnvS, exSpaceC, 1000, exSpaceC_ready, h1, h3, exEnvS_clear (by decide +kernel) (by decide +kernel), _, _, _, _, _, _,
    h2, h5⟩

/-- C79 fails if a file is excluded that is a link: the first sync copies it, and the next one has no space for `a`. -/
theorem C79_excluded_fails : ∃ (env : Env) (w : World) (fuel : Nat), SyncReady env w ∧ (sync env w).1 = .ok () ∧
    (sync env ((sync env w).2.restart fuel)).1 = .ok () ∧ (∀ p, ¬ ChangedLocally env w p) ∧
    ∃ p k m b t m', (sync env w).2.os.fs.get (env.loc ++ p) = some (.file k m b) ∧
      (sync env ((sync env w).2.restart fuel)).2.os.fs.get (env.loc ++ p) = some (.link t m') := by
  obtain ⟨h1, h2, h3, h4⟩ := exSpaceX_twice
  obtain ⟨t, m, h5⟩ := link_of_any h4
  refine ⟨exEnvS, exSpaceX, 1000, exSpaceX_ready, h1, h3, ?_, _, _, _, _, _, _, h2, h5⟩
  intro p h
  have h0 : chL exEnvS exSpaceX = [] := by decide +kernel
  have := mem_chL (by decide) h
  rw [h0] at this; cases this

end Verif
