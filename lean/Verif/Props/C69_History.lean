import Verif.Props.C70_AddRemote
import Verif.SyncRest
import Verif.ExampleSync
/-
C69: profiles that share a remote directory stay in order: whatever sequence of commands has been run and whatever the
user has done in between, after each successful command the saved databases and the remote directory list the same
paths, and each of them is available in the local directory of the client.

What the theorem assumes beyond the claim: every command succeeds (what an interrupted sync leaves behind is the subject
of C32), one runs after the other (C29), and what the user does between two commands obeys the restrictions of
`Edits`. If several clients are synchronised, nothing is done in the remote directory by hand, no client deletes what
another one excludes, and there is no link out of the remote directory when a client is added.
-/
namespace Verif
open Prog OSM Call FSTools WM

variable {ι : Type}

/-- No file of the remote directory has been changed. -/
def SameRemote (env : Env) (w w' : World) : Prop :=
  ∀ p, UserPath p → w'.os.fs.get (env.rem ++ p) = w.os.fs.get (env.rem ++ p)

/-- The commands of the clients of a remote directory, the last one first: who has run it, and the state in which it has
ended. -/
inductive History (E : ι → Env) : List (ι × World) → Prop where
  /-- The first client initialises the remote directory with its files. -/
  | first (c : ι) (w : World) : InitReady (E c) w → w.rdb = [] →
      (∀ p, UserPath p → w.os.fs.get ((E c).rem ++ p) = none) → (init (E c) false w).1 = .ok () →
      History E [(c, (init (E c) false w).2)]
  /-- A new client is added. Its local directory is empty. -/
  | join (c d : ι) (v w : World) (h : List (ι × World)) : History E ((d, v) :: h) → (∀ x ∈ (d, v) :: h, x.1 ≠ c) →
      AddReady (E c) w → w.rdb = v.rdbSaved → SameRemote (E c) v w →
      (∀ p n, UserPath p → w.os.fs.get ((E c).rem ++ p) = some n → ¬ UnsafeLink (E c).rem p n) →
      (∀ p, p ≠ [] → w.os.fs.get ((E c).loc ++ p) = none) → (init (E c) true w).1 = .ok () →
      History E ((c, (init (E c) true w).2) :: (d, v) :: h)
  /-- A client synchronises that has also run the last command. -/
  | again (c : ι) (w w' : World) (h : List (ι × World)) : History E ((c, w) :: h) → Edits (E c) w w' →
      w'.rdb = w.rdbSaved → (sync (E c) w').1 = .ok () → History E ((c, (sync (E c) w').2) :: (c, w) :: h)
  /-- A client synchronises that has last run a command in `w`; another one has run one since then. -/
  | sync (c d : ι) (v w w' : World) (h : List (ι × World)) : History E ((d, v) :: h) → (c, w) ∈ h →
      Edits (E c) w w' → w'.rdb = v.rdbSaved → SameRemote (E c) v w' →
      (∀ p ∈ ADB.paths w'.db, w'.os.fs.get ((E c).rem ++ p) = none → ¬ OwnExcludes (E c) w'.os.fs p) →
      (sync (E c) w').1 = .ok () → History E ((c, (sync (E c) w').2) :: (d, v) :: h)

/-- What one client leaves behind is what the next one finds. -/
theorem AtRest.synced {env env' : Env} {v w : World} (a : AtRest env v) (hr : env.rem = env'.rem)
    (hd : w.rdb = v.rdbSaved) (hs : SameRemote env' v w) : Synced env' w where
  user := by rw [hd, a.rdbSaved]; exact a.user
  remote p hp := by rw [hd, a.rdbSaved, hs p hp, ← hr]; exact a.remote p hp
  kind e he n hn := by
    rw [hd, a.rdbSaved] at he
    rw [hs _ (a.user _ (List.mem_map.2 ⟨e, he, rfl⟩)), ← hr] at hn
    exact a.kind_rdb e he n hn
  nodup := by rw [hd, a.rdbSaved]; exact a.nodup

/-- However many commands have been run: after each of them the databases and the two directories of the client that
has run it agree. Missing: interrupted commands, and what `Edits` and the other conditions of `History` exclude. -/
theorem C69_agree_partial {E : ι → Env} (hE : ∀ c, EnvReady (E c)) (hrem : ∀ c d, (E c).rem = (E d).rem)
    {h : List (ι × World)} (hh : History E h) : ∀ x ∈ h, AtRest (E x.1) x.2 := by
  induction hh with
  | first c w hi hd he hr =>
    intro x hx
    rw [List.mem_singleton] at hx
    subst hx
    exact (wp_ok (wp_init hi) (Prod.ext hr rfl)).2.2 hd he
  | join c d v w h _ _ ha hd hs hu he hr ih =>
    have a := ih _ List.mem_cons_self
    have sy := a.synced (hrem d c) hd hs
    intro x hx
    rcases List.mem_cons.1 hx with rfl | hx
    · refine (wp_ok (wp_initRemote ha) (Prod.ext hr rfl)).2 ?_ sy.nodup ?_ hu he
      · intro e hm
        have hp : e.path ∈ ADB.paths w.rdb := List.mem_map.2 ⟨e, hm, rfl⟩
        obtain ⟨n, hn⟩ := (sy.remote _ (sy.user _ hp)).1 hp
        rw [← sy.kind e hm n hn, isDir_iff_false hn]
      · exact fun p hp => ⟨sy.user p hp, (sy.remote p (sy.user p hp)).1 hp⟩
    · exact ih x hx
  | again c w w' h _ hed hd hr ih =>
    have a := ih _ List.mem_cons_self
    have rs : Resumes (E c) w w' := ⟨hed, Or.inl hd⟩
    intro x hx
    rcases List.mem_cons.1 hx with rfl | hx
    · exact rest_of_sync (rs.ready (hE c) a) (rs.calm a) hr
    · exact ih x hx
  | sync c d v w w' h _ hm hed hd hs hex hr ih =>
    have a := ih _ (List.mem_cons_of_mem _ hm)
    have sy := (ih _ List.mem_cons_self).synced (hrem d c) hd hs
    have rs : Resumes (E c) w w' := ⟨hed, Or.inr ⟨sy, hex⟩⟩
    intro x hx
    rcases List.mem_cons.1 hx with rfl | hx
    · exact rest_of_sync (rs.ready (hE c) a) (rs.calm a) hr
    · exact ih x hx

/-- What the theorems about a sync assume holds whenever a client of such a history starts one. -/
theorem C69_ready_partial {E : ι → Env} (hE : ∀ c, EnvReady (E c)) (hrem : ∀ c d, (E c).rem = (E d).rem) {c d : ι}
    {v w w' : World} {h : List (ι × World)} (hh : History E ((d, v) :: h)) (hm : (c, w) ∈ (d, v) :: h)
    (he : Edits (E c) w w') (hd : w'.rdb = v.rdbSaved)
    (ho : w = v ∨ (SameRemote (E c) v w' ∧
      ∀ p ∈ ADB.paths w'.db, w'.os.fs.get ((E c).rem ++ p) = none → ¬ OwnExcludes (E c) w'.os.fs p)) :
    SyncReady (E c) w' ∧ Calm (E c) w' := by
  have a := C69_agree_partial hE hrem hh _ hm
  have rs : Resumes (E c) w w' := by
    rcases ho with rfl | ⟨h1, h2⟩
    · exact ⟨he, Or.inl hd⟩
    · exact ⟨he, Or.inr ⟨(C69_agree_partial hE hrem hh _ List.mem_cons_self).synced (hrem d c) hd h1, h2⟩⟩
  exact ⟨rs.ready (hE c) a, rs.calm a⟩

/-! ### Example: two clients -/

/-- A test that implies `Edits.below`. -/
def belowB (env : Env) (w : World) (k : Nat) : Bool :=
  w.os.fs.all fun e => !(env.loc.isPrefixOf e.1) ||
    let q := e.1.drop env.loc.length
    ((List.range q.length).all fun i => i == 0 || (ADB.paths w.db).contains (q.take i)) ||
    (!e.2.isLink && (List.range (q.length + 1)).all fun i => (env.patsOf k).all fun g => !g (q.take i))

theorem below_of_belowB {env : Env} {w : World} {k : Nat} {m : Int} {b : Nat} (h : belowB env w k = true)
    (wf : w.os.fs.WF) (hl : env.loc ≠ []) (hx : w.os.fs.get env.excl = some (.file k m b)) :
    ∀ f, ChangedLocally env w f → ∀ q n, f <+: q → f ≠ q → w.os.fs.get (env.loc ++ q) = some n →
      ¬ OwnExcludes env w.os.fs q ∧ ¬ UnsafeLink env.loc q n := by
  rintro f ⟨h0, n', hn', _, hc⟩ q n hfq hne hn
  have h1 := List.all_eq_true.1 h _ (FS.mem_of_get (by simp [hl]) hn)
  have h2 : env.loc.isPrefixOf (env.loc ++ q) = true := List.isPrefixOf_iff_prefix.2 (List.prefix_append _ _)
  have hd : n'.isDir = true := by
    have := wf.isDir_prefix hn (env.loc ++ f) ((List.prefix_append_right_inj _).2 hfq)
      (fun e => hne (List.append_cancel_left e))
    rwa [isDir_iff_false hn'] at this
  have hlen : f.length < q.length := by
    obtain ⟨t, rfl⟩ := hfq
    cases t with
    | nil => simp at hne
    | cons x t => simp
  have htake : q.take f.length = f := by
    obtain ⟨t, rfl⟩ := hfq
    simp
  simp only [h2, List.drop_left, Bool.not_true, Bool.false_or, Bool.or_eq_true, Bool.and_eq_true, Bool.not_eq_true',
    List.all_eq_true, List.mem_range, beq_iff_eq, List.contains_iff_mem] at h1
  rcases h1 with h1 | ⟨h1, h3⟩
  · rcases h1 _ hlen with h4 | h4
    · exact absurd (List.length_eq_zero_iff.1 h4) h0
    · rw [htake] at h4
      rcases hc with ⟨h5, _⟩ | ⟨_, h5, _⟩
      · exact absurd h4 h5
      · rw [hd] at h5; cases h5
  · constructor
    · rintro ⟨q', k', m', b', h4, _, _, x, _, h6, g, h7, h8⟩
      rw [FS.stat_nonlink (wf.pathErr hx) hx rfl] at h4
      cases h4
      obtain ⟨t, rfl⟩ := h6
      have := h3 x.length (by simp; omega) g h7
      simp only [List.take_left] at this
      rw [this] at h8; cases h8
    · rintro ⟨t, m', rfl, _⟩
      cases h1

/-- A test that implies most of `Edits`. -/
def editsB (env : Env) (w w' : World) : Bool :=
  decide (w'.lmemo = []) && decide (w'.rmemo = []) &&
  decide (w'.os.fs.map Prod.fst).Nodup && (w'.os.fs.all fun e => decide (e.1 ≠ []) && decide (GoodPath e.1) &&
    w'.os.fs.isDir e.1.dropLast) && w'.os.fs.isDir env.loc && w'.os.fs.isDir env.rem &&
  (match w'.os.fs.get (env.exclDir ++ [env.id]) with
    | none => true
    | some (.file ..) => true
    | _ => false) &&
  (match w'.os.fs.get env.excl with
    | some (.file k ..) => belowB env w' k
    | _ => false) &&
  decide (w'.os.fs.get (env.loc ++ [Env.utilName]) = none) && tidyB env w'.os.fs &&
  (w.os.fs.all fun e => !(env.rem.isPrefixOf e.1) ||
    let p := e.1.drop env.rem.length
    ((w'.os.fs.get (env.loc ++ p)).all fun n => n.isDir == e.2.isDir) &&
    ((w'.os.fs.get (env.rem ++ p)).all fun n => n.isDir == e.2.isDir)) &&
  shortB (w.os.fs.map Prod.fst) && shortB (w'.os.fs.map Prod.fst)

theorem edits_of_editsB {env : Env} {w w' : World} (h : editsB env w w' = true) (ha : Apart env.loc env.rem)
    (hs : ∀ t, GoodStamp (env.stamp t)) (h1 : Counted w.dbSaved w'.db) (h2 : w'.last = w.lastSaved)
    (h3 : w'.matches_ = none) : Edits env w w' := by
  simp only [editsB, Bool.and_eq_true, decide_eq_true_eq, List.all_eq_true] at h
  obtain ⟨⟨⟨⟨⟨⟨⟨⟨⟨⟨⟨⟨k1, k2⟩, k3⟩, k4⟩, k5⟩, k6⟩, k7⟩, k8⟩, k9⟩, k10⟩, k11⟩, k12⟩, k13⟩ := h
  have hl := ha.ne_nil
  have hr := ha.symm.ne_nil
  have wf : w'.os.fs.WF := ⟨k3, fun e he => (k4 e he).1.1, fun e he => (k4 e he).1.2, fun e he => (k4 e he).2⟩
  have nofile : ∀ (fs : FS), shortB (fs.map Prod.fst) = true → ∀ root : Path, root ≠ [] → ∀ t p, UserPath p →
      GoodPath p → fs.get (root ++ conflictPath (env.stamp t) p) = none := by
    intro fs hsh root hroot t p hu hg
    rcases Option.eq_none_or_eq_some (fs.get (root ++ conflictPath (env.stamp t) p)) with h | ⟨n, h⟩
    · exact h
    · exact absurd (List.prefix_refl _) (not_short (hs t) hu hg hsh
        (List.mem_map.2 ⟨_, FS.mem_of_get (by simp [hroot]) h, rfl⟩))
  refine ⟨h1, h2, k1, k2, h3, wf, k5, ?_, ?_, ?_, k9, tidy_of_tidyB k10 hl, ?_, ?_, fun k _ => hs _,
    fun k p _ hu hg => ⟨nofile _ k13 _ hl _ p hu hg, nofile _ k13 _ hr _ p hu hg⟩,
    fun k p _ hu hg => nofile _ k12 _ hr _ p hu hg⟩
  · intro n hn
    rwa [isDir_iff_false hn] at k6
  · intro n hn
    rw [hn] at k7
    cases n with
    | file c m b => exact ⟨c, m, b, rfl⟩
    | _ => cases k7
  · rcases Option.eq_none_or_eq_some (w'.os.fs.get env.excl) with h | ⟨n, h⟩
    · rw [h] at k8; cases k8
    · rw [h] at k8
      cases n with
      | file c m b => exact ⟨c, m, b, h⟩
      | _ => cases k8
  · intro p n n' _ hn hn'
    have := k11 _ (FS.mem_of_get (by simp [hr]) hn)
    have hp : env.rem.isPrefixOf (env.rem ++ p) = true := List.isPrefixOf_iff_prefix.2 (List.prefix_append _ _)
    simp only [hp, List.drop_left, Bool.not_true, Bool.false_or, Bool.and_eq_true] at this
    rcases hn' with hn' | hn'
    · rw [hn'] at this; simpa using this.1
    · rw [hn'] at this; simpa using this.2
  · rcases Option.eq_none_or_eq_some (w'.os.fs.get env.excl) with h | ⟨n, h⟩
    · rw [h] at k8; cases k8
    · rw [h] at k8
      cases n with
      | file c m b => exact below_of_belowB k8 wf hl h
      | _ => cases k8

/-- Two clients with the same remote directory. -/
def exPair : Bool → Env
  | false => exEnvE
  | true => { exEnvE with loc := ["m".toList], id := "id2".toList }

/-- Short for a path. -/
def px (l : List String) : Path := l.map String.toList

/-- The second client is added when the first one has initialised the remote directory with `d/a` and `b`. -/
def exN1 : World where
  os := ⟨[(px ["r", ".zielen", "exclude", "id"], .file 1 74 1), (px ["l", "d", "a"], .link "/r/d/a".toList 72),
     (px ["l", "b"], .link "/r/b".toList 69), (px ["r", "b"], .file 9 4 1), (px ["r", "d", "a"], .file 7 3 1),
     (px ["r", "d"], .dir 55 8), (px ["r", ".zielen", "Trash"], .dir 54 8),
     (px ["r", ".zielen", "exclude"], .dir 53 8), (px ["r", ".zielen"], .dir 52 8), (px ["r"], .dir 51 8),
     (px ["x"], .file 1 1 1), (px ["l"], .dir 1 8), (px ["l", "d"], .dir 2 8), (px ["l", "d", "e"], .file 8 3 1),
     (px ["l", "k"], .link "/q".toList 4)],
    1000, 28, fun n => n + 50⟩
  db := []
  dbSaved := []
  rdb := [⟨px ["b"], false, 65⟩, ⟨px ["d"], true, 65⟩, ⟨px ["d", "a"], false, 65⟩]
  rdbSaved := [⟨px ["b"], false, 65⟩, ⟨px ["d"], true, 65⟩, ⟨px ["d", "a"], false, 65⟩]
  last := 0
  lastSaved := 0
  lmemo := []
  rmemo := []
  matches_ := none

/-- The second client has changed `b`, added `n/c` and opened `d/a` twice. -/
def exN2 : World where
  os := ⟨[(px ["m", "n", "c"], .file 12 90 1), (px ["m", "n"], .dir 90 8), (px ["m", "b"], .file 11 90 1),
     (px ["r", ".zielen", "exclude", "id2"], .file 1 86 1), (px ["m", "d", "a"], .link "/r/d/a".toList 84),
     (px ["m", "d"], .dir 82 8), (px ["m"], .dir 78 8), (px ["r", ".zielen", "exclude", "id"], .file 1 74 1),
     (px ["l", "d", "a"], .link "/r/d/a".toList 72), (px ["l", "b"], .link "/r/b".toList 69),
     (px ["r", "b"], .file 9 4 1), (px ["r", "d", "a"], .file 7 3 1), (px ["r", "d"], .dir 55 8),
     (px ["r", ".zielen", "Trash"], .dir 54 8), (px ["r", ".zielen", "exclude"], .dir 53 8),
     (px ["r", ".zielen"], .dir 52 8), (px ["r"], .dir 51 8), (px ["x"], .file 1 1 1), (px ["l"], .dir 1 8),
     (px ["l", "d"], .dir 2 8), (px ["l", "d", "e"], .file 8 3 1), (px ["l", "k"], .link "/q".toList 4)],
    1000, 40, fun n => n + 50⟩
  db := [⟨px ["b"], false, ⟨0, false⟩⟩, ⟨px ["d"], true, ⟨2, false⟩⟩, ⟨px ["d", "a"], false, ⟨2, false⟩⟩]
  dbSaved := [⟨px ["b"], false, ⟨0, false⟩⟩, ⟨px ["d"], true, ⟨2, false⟩⟩, ⟨px ["d", "a"], false, ⟨2, false⟩⟩]
  rdb := [⟨px ["b"], false, 65⟩, ⟨px ["d"], true, 65⟩, ⟨px ["d", "a"], false, 65⟩]
  rdbSaved := [⟨px ["b"], false, 65⟩, ⟨px ["d"], true, 65⟩, ⟨px ["d", "a"], false, 65⟩]
  last := 88
  lastSaved := 88
  lmemo := []
  rmemo := []
  matches_ := none

/-- The first client has deleted `d/a`. -/
def exN3 : World where
  os := ⟨[(px ["m", "b"], .file 11 90 1), (px ["m", "d", "a"], .file 7 3 1), (px ["m", "n", "c"], .file 12 90 1),
     (px ["r", "b"], .file 11 90 1), (px ["r", "n", "c"], .file 12 90 1), (px ["r", "n"], .dir 94 8),
     (px ["r", ".zielen", "exclude", "id2"], .file 1 92 1), (px ["m", "n"], .dir 90 8), (px ["m", "d"], .dir 82 8),
     (px ["m"], .dir 78 8), (px ["r", ".zielen", "exclude", "id"], .file 1 74 1),
     (px ["l", "b"], .link "/r/b".toList 69), (px ["r", "d", "a"], .file 7 3 1), (px ["r", "d"], .dir 55 8),
     (px ["r", ".zielen", "Trash"], .dir 54 8), (px ["r", ".zielen", "exclude"], .dir 53 8),
     (px ["r", ".zielen"], .dir 52 8), (px ["r"], .dir 51 8), (px ["x"], .file 1 1 1), (px ["l"], .dir 1 8),
     (px ["l", "d"], .dir 2 8), (px ["l", "d", "e"], .file 8 3 1), (px ["l", "k"], .link "/q".toList 4)],
    1000, 74, fun n => n + 50⟩
  db := [⟨px ["b"], false, ⟨0, false⟩⟩, ⟨px ["d"], true, ⟨0, false⟩⟩, ⟨px ["d", "a"], false, ⟨0, false⟩⟩]
  dbSaved := [⟨px ["b"], false, ⟨0, false⟩⟩, ⟨px ["d"], true, ⟨0, false⟩⟩, ⟨px ["d", "a"], false, ⟨0, false⟩⟩]
  rdb := [⟨px ["b"], false, 102⟩, ⟨px ["d"], true, 65⟩, ⟨px ["d", "a"], false, 65⟩, ⟨px ["n"], true, 102⟩,
     ⟨px ["n", "c"], false, 102⟩]
  rdbSaved := [⟨px ["b"], false, 102⟩, ⟨px ["d"], true, 65⟩, ⟨px ["d", "a"], false, 65⟩, ⟨px ["n"], true, 102⟩,
     ⟨px ["n", "c"], false, 102⟩]
  last := 76
  lastSaved := 76
  lmemo := []
  rmemo := []
  matches_ := none

/-- The states in which the four commands end. -/
def exH1 : World := (init (exPair false) false (exInit 1000)).2
def exH2 : World := (init (exPair true) true exN1).2
def exH3 : World := (sync (exPair true) exN2).2
def exH4 : World := (sync (exPair false) exN3).2

/-- What the user has done in between. -/
example : exN1.os.fs = exH1.os.fs := by decide +kernel
example : exN2.os.fs = ((exH2.os.fs.set (px ["m", "b"]) (.file 11 90 1)).set (px ["m", "n"]) (.dir 90 8)).set
    (px ["m", "n", "c"]) (.file 12 90 1) := by decide +kernel
theorem exN3_fs : exN3.os.fs = exH3.os.fs.rm (px ["l", "d", "a"]) := by decide +kernel

example : exH4.os.fs.get ["l".toList, "b".toList] = some (.file 11 90 1) ∧
    exH4.os.fs.get ["l".toList, "n".toList, "c".toList] = some (.file 12 90 1) ∧
    exH4.os.fs.get ["r".toList, "d".toList, "a".toList] = none ∧
    ADB.paths exH4.dbSaved = [["b".toList], ["d".toList], ["n".toList], ["n".toList, "c".toList]] := by decide +kernel

theorem exPair_ready (c : Bool) : EnvReady (exPair c) := by
  cases c
  · exact ⟨fun l => List.Perm.refl l, by unfold Apart; decide +kernel, by decide, by decide, by decide +kernel⟩
  · exact ⟨fun l => List.Perm.refl l, by unfold Apart; decide +kernel, by decide, by decide, by decide +kernel⟩

theorem exPair_stamp (c : Bool) (t : Int) : GoodStamp ((exPair c).stamp t) := by
  cases c <;> exact (by decide : GoodStamp "19700101-000000".toList)

theorem exHistory1 : History exPair [(false, exH1)] :=
  .first false (exInit 1000) (exInit_ready 1000) rfl (by
    intro p _
    change exInitFS.get (exEnvE.rem ++ p) = none
    rcases Option.eq_none_or_eq_some (exInitFS.get (exEnvE.rem ++ p)) with h | ⟨n, h⟩
    · exact h
    · have hm := FS.mem_of_get (by simp [exEnvE]) h
      simp [exInitFS, exEnvE] at hm) (by decide +kernel)

theorem exHistory2 : History exPair [(true, exH2), (false, exH1)] := by
  refine .join true false exH1 exN1 [] exHistory1 (by simp) ?_ (by decide +kernel) (fun p _ => by rw [show exN1.os.fs = exH1.os.fs by decide +kernel]) ?_ ?_
    (by decide +kernel)
  · refine ⟨⟨by decide +kernel, by decide +kernel, by decide +kernel, by decide +kernel⟩, by unfold Apart; decide +kernel,
      by decide, ?_, by decide, by decide, ?_, by decide +kernel, by decide +kernel⟩
    · intro n hn
      rw [show exN1.os.fs.get (exPair true).loc = none by decide +kernel] at hn; cases hn
    · intro n hn
      rw [show exN1.os.fs.get ((exPair true).exclDir ++ [(exPair true).id]) = none by decide +kernel] at hn; cases hn
  · rintro p n _ hn ⟨t, m, rfl, _⟩
    have h : (exN1.os.fs.all fun e => !((exPair true).rem.isPrefixOf e.1) || !e.2.isLink) = true := by decide +kernel
    have h1 := List.all_eq_true.1 h _ (FS.mem_of_get (by simp [exPair, exEnvE]) hn)
    have h2 : (exPair true).rem.isPrefixOf ((exPair true).rem ++ p) = true :=
      List.isPrefixOf_iff_prefix.2 (List.prefix_append _ _)
    simp only [h2, Bool.not_true, Bool.false_or] at h1
    cases h1
  · intro p _
    rcases Option.eq_none_or_eq_some (exN1.os.fs.get ((exPair true).loc ++ p)) with h | ⟨n, h⟩
    · exact h
    · have h' : (exN1.os.fs.all fun e => !((exPair true).loc.isPrefixOf e.1)) = true := by decide +kernel
      have h1 := List.all_eq_true.1 h' _ (FS.mem_of_get (by simp [exPair]) h)
      have h2 : (exPair true).loc.isPrefixOf ((exPair true).loc ++ p) = true :=
        List.isPrefixOf_iff_prefix.2 (List.prefix_append _ _)
      rw [h2] at h1; cases h1

/-- The daemon of the second client has counted the two openings. -/
theorem exN2_counted : Counted exH2.dbSaved exN2.db := by
  have e : exN2.db = ALocal.increment (ALocal.increment exH2.dbSaved [px ["d", "a"]] 1) [px ["d", "a"]] 1 := by
    decide +kernel
  have n : ∀ p ∈ [px ["d", "a"]], ∀ q ∈ ADB.paths exH2.dbSaved, q.dropLast ≠ p := by decide +kernel
  rw [e]
  refine .opened _ _ (.opened _ _ .none n) ?_
  rw [Counted.paths_eq (.opened _ _ .none n)]
  exact n

theorem exN3_counted : Counted exH1.dbSaved exN3.db := by
  have e : exN3.db = exH1.dbSaved := by decide +kernel
  rw [e]; exact .none

theorem exHistory3 : History exPair [(true, exH3), (true, exH2), (false, exH1)] :=
  .again true exH2 exN2 _ exHistory2
    (edits_of_editsB (by decide +kernel) (exPair_ready true).apart (exPair_stamp true) exN2_counted (by decide +kernel) rfl) (by decide +kernel)
    (by decide +kernel)

theorem exHistory : History exPair [(false, exH4), (true, exH3), (true, exH2), (false, exH1)] := by
  refine .sync false true exH3 exH1 exN3 _ exHistory3 (by simp)
    (edits_of_editsB (by decide +kernel) (exPair_ready false).apart (exPair_stamp false) exN3_counted (by decide +kernel) rfl)
    (by decide +kernel) ?_ ?_
    (by decide +kernel)
  · intro p _
    rw [exN3_fs]
    refine FS.get_rm_ne _ (fun e => ?_)
    simp [exPair, exEnvE, px] at e
  · intro p hp hn
    exfalso
    have h : ∀ p ∈ ADB.paths exN3.db, (exN3.os.fs.get ((exPair false).rem ++ p)).isSome = true := by decide +kernel
    have h1 := h p hp
    rw [hn] at h1; cases h1

/-- After each of the four commands the databases and the directories of the client agree. -/
example : ∀ x ∈ [(false, exH4), (true, exH3), (true, exH2), (false, exH1)], AtRest (exPair x.1) x.2 :=
  C69_agree_partial exPair_ready (by intro c d; cases c <;> cases d <;> rfl) exHistory

end Verif
