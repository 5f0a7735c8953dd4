import Verif.Props.C69_History
import Verif.Props.C45_Reset
import Verif.Props.C88_RoundTrip
/-
C69, continued: the other commands. Between two syncs of a client, any client may empty the trash and the other clients
may leave with `reset --keep-remote` or `reset --no-retrieve`. These commands may also fail or be killed.
-/
namespace Verif
open Prog OSM Call FSTools WM

variable {ι : Type}

/-- Commands that are run between two syncs of the client `c`, given by what they do to the file system. -/
inductive Meanwhile (E : ι → Env) (c : ι) : FS → FS → Prop
  | nothing (fs : FS) : Meanwhile E c fs fs
  /-- A client, perhaps `c` itself, has emptied the trash. -/
  | emptied {fs : FS} (d : ι) (s : OS) : Meanwhile E c fs s.fs → GoodPath (E d).loc → s.fs.isDir (E d).loc = true →
      Meanwhile E c fs (emptyTrash (E d) s).2.fs
  /-- Another client, whose local directory and exclude file are not those of `c`, has left. -/
  | left {fs : FS} (d : ι) (w : World) (keep nor : Bool) : Meanwhile E c fs w.os.fs → keep = true ∨ nor = true →
      ResetReady (E d) w → (E d).id ≠ (E c).id → Apart (E d).loc (E c).loc → ¬ (E d).loc <+: (E c).excl →
      Meanwhile E c fs (reset (E d) keep nor w).2.os.fs

/-- What a client finds unchanged. -/
structure Unmoved (env : Env) (fs fs' : FS) : Prop where
  wf : fs.WF → fs'.WF
  loc : ∀ p, fs'.get (env.loc ++ p) = fs.get (env.loc ++ p)
  rem : fs'.get env.rem = fs.get env.rem
  user : ∀ p, UserPath p → fs'.get (env.rem ++ p) = fs.get (env.rem ++ p)
  slot : fs'.get (env.exclDir ++ [env.id]) = fs.get (env.exclDir ++ [env.id])
  excl : fs'.get env.excl = fs.get env.excl

theorem Unmoved.plain {env : Env} {fs fs' : FS} (u : Unmoved env fs fs') {p : Path} (hp : PlainPath p) :
    fs'.get (env.rem ++ p) = fs.get (env.rem ++ p) := by
  by_cases h0 : p = []
  · subst h0; simpa using u.rem
  · exact u.user p ⟨h0, hp⟩

theorem Unmoved.refl (env : Env) (fs : FS) : Unmoved env fs fs :=
  ⟨id, fun _ => rfl, rfl, fun _ _ => rfl, rfl, rfl⟩

theorem Unmoved.trans {env : Env} {a b c : FS} (h1 : Unmoved env a b) (h2 : Unmoved env b c) : Unmoved env a c :=
  ⟨fun h => h2.wf (h1.wf h), fun p => (h2.loc p).trans (h1.loc p), h2.rem.trans h1.rem,
    fun p hp => (h2.user p hp).trans (h1.user p hp), h2.slot.trans h1.slot, h2.excl.trans h1.excl⟩

/-- Emptying the trash leaves everything where it is that is not in the trash. -/
theorem unmoved_emptyTrash {c d : Env} (ho : ∀ l, (d.order l).Perm l) (hrem : d.rem = c.rem) (hl : GoodPath d.loc)
    (ha : Apart c.loc c.rem) (hx : ¬ c.rem <+: c.excl) {s : OS} (w : s.fs.WF) (hd : s.fs.isDir d.loc = true) :
    Unmoved c s.fs (emptyTrash d s).2.fs := by
  obtain ⟨h1, h2⟩ := C50_rest_unchanged ho hl w
  have hE : Emptied d s.fs (emptyTrash d s).2.fs :=
    wp_state (I := fun s' : OS => Emptied d s.fs s'.fs)
      (wp_mono (wp_emptyTrash d ho hl w) (fun _ _ h => h.1) (fun _ _ h => h.1))
  have same : ∀ q, (∀ p, p ≠ [] → q ≠ d.trash ++ p) → (emptyTrash d s).2.fs.get q = s.fs.get q := by
    intro q hq
    rcases Option.eq_none_or_eq_some (s.fs.get q) with h | ⟨n, h⟩
    · rw [h]
      apply Classical.byContradiction
      intro hn
      obtain ⟨h3, h4⟩ := h2 q h hn
      obtain ⟨m, b, hg⟩ := FS.isDir_iff.1 hd
      by_cases he : q = d.loc
      · subst he; rw [h] at hg; cases hg
      · obtain ⟨m', b', hg'⟩ := FS.isDir_iff.1 (w.isDir_prefix hg q h3 he)
        rw [h] at hg'; cases hg'
    · rw [h]; exact h1 q n h hq
  have ht : ∀ p, d.trash ++ p = c.rem ++ ([Env.utilName, "Trash".toList] ++ p) := by
    intro p
    unfold Env.trash Env.util
    rw [hrem]; simp
  refine ⟨fun h => ?_, fun p => same _ ?_, same _ ?_, fun p hp => same _ ?_, same _ ?_, same _ ?_⟩
  · obtain ⟨f1, g1, g2⟩ := hE.mid
    exact g2.wf (g1.wf (fun q hq => goodPath_of_prefix hl hq.2) h)
  · intro p' _
    rw [ht]; exact ha.ne _ _
  · intro p' _ he
    rw [ht] at he
    have := congrArg List.length he
    simp at this
  · intro p' _ he
    rw [ht] at he
    have := List.append_cancel_left he
    subst this
    exact hp.2 rfl
  · intro p' _ he
    rw [ht] at he
    unfold Env.exclDir Env.util at he
    simp only [List.append_assoc] at he
    have := List.append_cancel_left he
    simp at this
  · intro p' _ he
    rw [ht] at he
    exact hx ⟨_, he.symm⟩

/-- A client that leaves with one of the options touches only its own files. -/
theorem unmoved_reset {c d : Env} (hrem : d.rem = c.rem) (ha : Apart c.loc c.rem) (hx : ¬ c.rem <+: c.excl)
    (hid : d.id ≠ c.id) (hl : Apart d.loc c.loc) (hxd : ¬ d.loc <+: c.excl) {w : World} (h : ResetReady d w)
    {keep nor : Bool} (hk : keep = true ∨ nor = true) : Unmoved c w.os.fs (reset d keep nor w).2.os.fs := by
  have hk' : (keep || nor) = true := by rcases hk with rfl | rfl <;> simp
  have key : ResetKept d true (ADB.paths w.rdb) w.os.fs (reset d keep nor w).2.os.fs :=
    wp_state (I := fun w' : World => ResetKept d true (ADB.paths w.rdb) w.os.fs w'.os.fs)
      (wp_mono (wp_reset h keep nor) (fun _ _ h1 => by rw [← hk']; exact h1.2.1)
        (fun _ _ h1 => by rw [← hk']; exact h1.2))
  refine ⟨fun _ => key.wf, fun p => key.out _ ?_ ?_, ?_, fun p hp => ?_, ?_, key.out _ hxd (hrem ▸ hx)⟩
  · simpa using hl.not_prefix [] p
  · rw [hrem]; simpa using ha.symm.not_prefix [] p
  · rw [← hrem]
    refine key.kept rfl _ (List.prefix_refl _) ?_
    unfold Env.exclDir Env.util; simp
  · rw [← hrem]
    exact key.kept rfl _ (List.prefix_append _ _) (user_ne_slot hp)
  · refine key.kept rfl _ ?_ ?_
    · unfold Env.exclDir Env.util; rw [hrem]; simp
    · unfold Env.exclDir Env.util; rw [hrem]; simp [Ne.symm hid]

theorem Meanwhile.unmoved {E : ι → Env} (hE : ∀ c, EnvReady (E c)) (hrem : ∀ c d, (E c).rem = (E d).rem) {c : ι}
    (hx : ¬ (E c).rem <+: (E c).excl) {fs fs' : FS} (wf : fs.WF) (h : Meanwhile E c fs fs') :
    Unmoved (E c) fs fs' := by
  induction h with
  | nothing => exact .refl _ _
  | emptied d s _ hl hd ih =>
    exact ih.trans (unmoved_emptyTrash (hE d).order (hrem d c) hl (hE c).apart hx (ih.wf wf) hd)
  | left d w keep nor _ hk hr hid ha hxd ih =>
    exact ih.trans (unmoved_reset (hrem d c) (hE c).apart hx hid ha hxd hr hk)

/-- The world with another file system. -/
def World.withFS (w : World) (fs : FS) : World := { w with os := { w.os with fs := fs } }

theorem ownExcludes_unmoved {env : Env} {fs fs' : FS} (u : Unmoved env fs fs') (wf : fs.WF)
    (hx : ∃ c m b, fs.get env.excl = some (.file c m b)) (p : Path) :
    OwnExcludes env fs' p ↔ OwnExcludes env fs p := by
  obtain ⟨c, m, b, hx⟩ := hx
  have hx' : fs'.get env.excl = some (.file c m b) := u.excl.trans hx
  unfold OwnExcludes ExcludedIn
  rw [FS.stat_nonlink (wf.pathErr hx) hx rfl, FS.stat_nonlink ((u.wf wf).pathErr hx') hx' rfl, u.loc]

/-- What the user and the daemon have done remains what they may do. -/
theorem Edits.unmoved {env : Env} {w w' : World} (e : Edits env w w') {fs' : FS} (u : Unmoved env w'.os.fs fs') :
    Edits env w (w'.withFS fs') where
  db := e.db
  last := e.last
  lmemo := e.lmemo
  rmemo := e.rmemo
  matches_ := e.matches_
  wf := u.wf e.wf
  loc_dir := by
    have := u.loc []
    rw [List.append_nil] at this
    show fs'.isDir env.loc = true
    rw [FS.isDir_congr this]; exact e.loc_dir
  rem_dir n hn := e.rem_dir n (u.rem.symm.trans hn)
  slot n hn := e.slot n (u.slot.symm.trans hn)
  excl := by
    obtain ⟨c, m, b, h⟩ := e.excl
    exact ⟨c, m, b, u.excl.trans h⟩
  no_util := (u.loc _).trans e.no_util
  tidy := ⟨fun p hp a b h1 h2 => e.tidy.kind p hp a b ((u.loc p).symm.trans h1) ((u.plain hp).symm.trans h2),
    fun p hp a b h1 h2 => e.tidy.rlink p hp a b ((u.loc p).symm.trans h1) ((u.plain hp).symm.trans h2),
    fun p hp t m b h1 h2 => e.tidy.llink p hp t m b ((u.loc p).symm.trans h1) ((u.plain hp).symm.trans h2)⟩
  kinds p n n' hp hn h := e.kinds p n n' hp hn (h.imp (fun h => (u.loc p).symm.trans h)
    (fun h => (u.user p hp).symm.trans h))
  below f hf q n hq hne hg := by
    have hg' : w'.os.fs.get (env.loc ++ q) = some n := (u.loc q).symm.trans hg
    obtain ⟨h0, n', hn', hu, hc⟩ := hf
    have hf' : ChangedLocally env w' f := by
      refine ⟨h0, n', (u.loc f).symm.trans hn', hu, hc.imp (fun h => ⟨h.1, ?_⟩) id⟩
      rw [← ownExcludes_unmoved u e.wf e.excl]
      exact h.2
    have := e.below f hf' q n hq hne hg'
    refine ⟨?_, this.2⟩
    show ¬ OwnExcludes env fs' q
    rw [ownExcludes_unmoved u e.wf e.excl]
    exact this.1
  stamp := e.stamp
  free k p hk hp hg := ⟨(u.loc _).trans (e.free k p hk hp hg).1,
    (u.user _ (userPath_conflictPath (e.stamp k hk) hg hp)).trans (e.free k p hk hp hg).2⟩
  free_old := e.free_old

/-- Whatever commands of these two kinds are run in between, by however many clients and however they end: the next sync
of the client finds what the theorems about a sync assume, and when it succeeds the databases and the directories agree
again. Missing: as for `C69_agree_partial`; and of the clients that leave, those that have changed a file since their
last sync (`ResetReady`). -/
theorem C69_meanwhile_partial {E : ι → Env} (hE : ∀ c, EnvReady (E c)) (hrem : ∀ c d, (E c).rem = (E d).rem) {c d : ι}
    {v w w' : World} {h : List (ι × World)} (hh : History E ((d, v) :: h)) (hm : (c, w) ∈ (d, v) :: h)
    (he : Edits (E c) w w') (hd : w'.rdb = v.rdbSaved)
    (ho : w = v ∨ (SameRemote (E c) v w' ∧
      ∀ p ∈ ADB.paths w'.db, w'.os.fs.get ((E c).rem ++ p) = none → ¬ OwnExcludes (E c) w'.os.fs p))
    (hx : ¬ (E c).rem <+: (E c).excl) {fs' : FS} (hw : Meanwhile E c w'.os.fs fs') :
    SyncReady (E c) (w'.withFS fs') ∧ Calm (E c) (w'.withFS fs') ∧
      ((sync (E c) (w'.withFS fs')).1 = .ok () → AtRest (E c) (sync (E c) (w'.withFS fs')).2) := by
  have u := hw.unmoved hE hrem hx he.wf
  obtain ⟨h1, h2⟩ := C69_ready_partial hE hrem hh hm (w' := w'.withFS fs') (he.unmoved u) hd (ho.imp id (fun ⟨a, b⟩ =>
    ⟨fun p hp => (u.user p hp).trans (a p hp), fun p hp hn => by
      have hn' : w'.os.fs.get ((E c).rem ++ p) = none := by
        rw [← u.plain]
        · exact hn
        · have a : AtRest (E c) w := C69_agree_partial hE hrem hh _ hm
          have hp' : p ∈ ADB.paths w'.db := hp
          rw [he.db.paths_eq, a.dbSaved] at hp'
          exact (a.user p ((a.same p).1 hp')).plain
      show ¬ OwnExcludes (E c) fs' p
      rw [ownExcludes_unmoved u he.wf he.excl]
      exact b p hp hn'⟩))
  exact ⟨h1, h2, fun hr => rest_of_sync h1 h2 hr⟩

/-- The remote database is not changed by a client that leaves. -/
theorem C69_left_database {env : Env} {w : World} (h : ResetReady env w) (keep nor : Bool) :
    (reset env keep nor w).2.rdbSaved = w.rdbSaved :=
  wp_state (I := fun w' : World => w'.rdbSaved = w.rdbSaved)
    (wp_mono (wp_reset h keep nor) (fun _ _ h1 => h1.1) (fun _ _ h1 => h1.1))

/-! ### Example: between the third and the fourth command of `exHistory` -/

/-- The last command. -/
theorem History.rest {E : ι → Env} (hE : ∀ c, EnvReady (E c)) (hrem : ∀ c d, (E c).rem = (E d).rem) {c : ι} {w : World}
    {h : List (ι × World)} (hh : History E ((c, w) :: h)) : AtRest (E c) w :=
  C69_agree_partial hE hrem hh (c, w) List.mem_cons_self

/-- A change elsewhere does not disturb a client. -/
theorem AtRest.elsewhere {env : Env} {w v : World} (a : AtRest env w) (wf : v.os.fs.WF) (hdb : v.db = w.db)
    (hdbs : v.dbSaved = w.dbSaved) (hrdb : v.rdb = w.rdb) (hrdbs : v.rdbSaved = w.rdbSaved) (hlast : v.last = w.last)
    (hlasts : v.lastSaved = w.lastSaved) (hl : ∀ p, v.os.fs.get (env.loc ++ p) = w.os.fs.get (env.loc ++ p))
    (hr : ∀ p, v.os.fs.get (env.rem ++ p) = w.os.fs.get (env.rem ++ p)) : AtRest env v where
  same := by rw [hdb, hrdb]; exact a.same
  user := by rw [hrdb]; exact a.user
  remote p hp := by rw [hrdb, hr]; exact a.remote p hp
  loc p n hp hn := by
    rw [hr] at hn
    have := a.loc p n hp hn
    unfold Available at this ⊢
    rw [FS.isDir_congr (hl p), hl p]
    exact this
  dbSaved := by rw [hdbs, hdb]; exact a.dbSaved
  rdbSaved := by rw [hrdbs, hrdb]; exact a.rdbSaved
  lastSaved := by rw [hlasts, hlast]; exact a.lastSaved
  wf := wf
  kind_db e he n hn := a.kind_db e (hdb ▸ he) n ((hr _).symm.trans hn)
  kind_rdb e he n hn := a.kind_rdb e (hrdb ▸ he) n ((hr _).symm.trans hn)
  nodup_db := by rw [hdb]; exact a.nodup_db
  nodup := by rw [hrdb]; exact a.nodup

/-- The profile of the second client. -/
def exN4 : World where
  os := exN3.os
  db := [⟨px ["b"], false, ⟨0, true⟩⟩, ⟨px ["d"], true, ⟨2, true⟩⟩, ⟨px ["d", "a"], false, ⟨2, true⟩⟩,
    ⟨px ["n"], true, ⟨0, true⟩⟩, ⟨px ["n", "c"], false, ⟨0, true⟩⟩]
  dbSaved := [⟨px ["b"], false, ⟨0, true⟩⟩, ⟨px ["d"], true, ⟨2, true⟩⟩, ⟨px ["d", "a"], false, ⟨2, true⟩⟩,
    ⟨px ["n"], true, ⟨0, true⟩⟩, ⟨px ["n", "c"], false, ⟨0, true⟩⟩]
  rdb := exN3.rdb
  rdbSaved := exN3.rdb
  last := 122
  lastSaved := 122
  lmemo := []
  rmemo := []
  matches_ := none

theorem exN4_rest : AtRest (exPair true) exN4 := by
  have a : AtRest (exPair true) exH3 := History.rest exPair_ready (by intro c d; cases c <;> cases d <;> rfl) exHistory3
  have e : exN4.os.fs = exH3.os.fs.rm (px ["l", "d", "a"]) := exN3_fs
  refine a.elsewhere ⟨by decide +kernel, by decide +kernel, by decide +kernel, by decide +kernel⟩ (by decide +kernel)
    (by decide +kernel) (by decide +kernel) (by decide +kernel) (by decide +kernel) (by decide +kernel) ?_ ?_
  · intro p
    rw [e]
    refine FS.get_rm_ne _ (fun e => ?_)
    simp [exPair, exEnvE, px] at e
  · intro p
    rw [e]
    refine FS.get_rm_ne _ (fun e => ?_)
    simp [exPair, exEnvE, px] at e

/-- The second client leaves and keeps the remote files. Then the first one empties the trash. -/
def exMean1 : World := (reset (exPair true) true false (exN4.restart 1000)).2
def exMean2 : OS := (emptyTrash (exPair false) exMean1.os).2

theorem exMean : Meanwhile exPair false exN3.os.fs exMean2.fs := by
  have h1 : Meanwhile exPair false exN3.os.fs exMean1.os.fs := by
    unfold exMean1
    refine .left true (exN4.restart 1000) true false (.nothing _) (Or.inl rfl) ?_ (by decide +kernel)
      (by unfold Apart; decide +kernel) (by decide +kernel)
    exact ResetReady.of_rest (exPair_ready true) exN4_rest (by decide +kernel) ⟨1, 92, 1, by decide +kernel⟩ 1000
  unfold exMean2
  exact .emptied false exMean1.os h1 (by decide +kernel) (by decide +kernel)

/-- The second client has its files back, and the first one can still synchronise. -/
example : exMean2.fs.get (px ["m", "b"]) = some (.file 11 90 1) ∧
    exMean2.fs.get (px ["r", ".zielen", "exclude", "id2"]) = none ∧
    (sync (exPair false) (exN3.withFS exMean2.fs)).1 = .ok () := by decide +kernel

example : AtRest (exPair false) (sync (exPair false) (exN3.withFS exMean2.fs)).2 := by
  refine (C69_meanwhile_partial exPair_ready (by intro c d; cases c <;> cases d <;> rfl) (c := false) (d := true)
    (w := exH1) exHistory3 (List.mem_cons_of_mem _ (List.mem_cons_of_mem _ List.mem_cons_self))
    (edits_of_editsB (by decide +kernel) (exPair_ready false).apart (exPair_stamp false) exN3_counted (by decide +kernel) rfl)
    (by decide +kernel) (Or.inr ⟨?_, ?_⟩) (by decide +kernel) exMean).2.2 (by decide +kernel)
  · intro p _
    rw [exN3_fs]
    refine FS.get_rm_ne _ (fun e => ?_)
    simp [exPair, exEnvE, px] at e
  · intro p hp hn
    exfalso
    have h : ∀ p ∈ ADB.paths exN3.db, (exN3.os.fs.get ((exPair false).rem ++ p)).isSome = true := by decide +kernel
    have h1 := h p hp
    rw [hn] at h1; cases h1

end Verif
