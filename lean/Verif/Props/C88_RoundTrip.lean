import Verif.SafeReset
import Verif.Props.C69_History

/-!
C88: giving up a profile. After commands that have succeeded, `reset` gives every file back as a regular file in the
local directory, and it does not fail. `init` followed by `reset` leaves the regular files as they were.
-/

namespace Verif

open Prog OSM Call FSTools WM

variable {env : Env} {w : World}

/-- A client at rest can run `reset`. -/
theorem ResetReady.of_rest (he : EnvReady env) (a : AtRest env w) (hl : w.os.fs.isDir env.loc = true)
    (hx : ∃ c m b, w.os.fs.get (env.exclDir ++ [env.id]) = some (.file c m b)) (fuel : Nat) :
    ResetReady env (w.restart fuel) := by
  obtain ⟨xc, xm, xb, hx⟩ := hx
  have hut : w.os.fs.isDir env.util = true := by
    refine a.wf.isDir_prefix hx env.util ?_ ?_
    · unfold Env.exclDir Env.util; simp
    · intro h
      have := congrArg List.length h
      simp [Env.exclDir, Env.util] at this
  have hrd : (w.restart fuel).rdb = w.rdb := a.rdbSaved
  have huser : ∀ f ∈ ADB.paths w.rdb, ∀ p q, f <+: p → q <+: p → q ≠ [] → UserPath q := by
    rintro f hf p q ⟨b, rfl⟩ hq h0
    obtain ⟨h1, h2⟩ := a.user f hf
    refine ⟨h0, ?_⟩
    obtain ⟨r, hb⟩ := hq
    cases q with
    | nil => exact absurd rfl h0
    | cons c q =>
      cases f with
      | nil => exact absurd rfl h1
      | cons d f =>
        simp only [List.cons_append, List.cons.injEq] at hb
        simpa [hb.1] using h2
  refine ⟨a.wf, he.apart, he.order, hl, hut, ?_, ?_, rfl, rfl⟩
  · intro f hf
    rw [hrd] at hf
    refine ⟨a.user f hf, ?_⟩
    intro q n hq hne hn
    have hn : w.os.fs.get (env.rem ++ q) = some n := hn
    obtain ⟨x, hx'⟩ := (a.remote f (a.user f hf)).1 hf
    have := a.wf.isDir_prefix hx' (env.rem ++ q) ((List.prefix_append_right_inj _).2 hq) (by simpa using hne)
    rw [isDir_iff_false hn] at this
    exact this
  · rw [hrd]
    show ∀ p, Listed w.os.fs env.rem (some (ADB.paths w.rdb)) p → ∀ q, q <+: p →
      Clean w.os.fs (env.rem ++ q) (env.loc ++ q)
    intro p hp q hq
    obtain ⟨y, hy, _⟩ := hp.some a.wf hq
    obtain ⟨_, _, f, hf, hfp⟩ := hp
    by_cases h0 : q = []
    · subst h0
      obtain ⟨lm, lb, hlg⟩ := FS.isDir_iff.1 hl
      unfold Clean
      rw [List.append_nil, List.append_nil, hlg]
      exact a.wf.isDir_prefix hx env.rem (rem_prefix_slot env) (by
        intro h
        have := congrArg List.length h
        simp [Env.exclDir, Env.util] at this)
    · obtain ⟨h1, h2⟩ := a.loc q y (huser f hf p q hfp hq h0) hy
      unfold Clean
      cases hd : y.isDir with
      | true =>
        obtain ⟨m, b, hg⟩ := FS.isDir_iff.1 (h1 hd)
        rw [hg]
        show w.os.fs.isDir (env.rem ++ q) = true
        rw [isDir_iff_false hy]; exact hd
      | false =>
        rcases h2 hd with h3 | ⟨t, m, h3, h4⟩
        · rw [h3]
          cases y with
          | dir m b => cases hd
          | file c m b => trivial
          | link t m =>
            exact ⟨by rw [isDir_iff_false hy]; rfl, Or.inr ⟨t, m, hy⟩⟩
        · rw [h3]
          refine ⟨by rw [isDir_iff_false hy]; exact hd, ?_⟩
          rcases h4 with h4 | h4
          · exact Or.inl h4
          · cases y with
            | link t' m' => exact Or.inr ⟨t', m', hy⟩
            | _ => cases h4

/-- C88: `reset`, with any options, does not fail at a client at rest, if there are no links in the remote directory and
every local link that is named like the directory it is in stands for a remote file. -/
theorem C88_ends_partial (he : EnvReady env) (a : AtRest env w) (hl : w.os.fs.isDir env.loc = true)
    (hx : ∃ c m b, w.os.fs.get (env.exclDir ++ [env.id]) = some (.file c m b))
    (hnl : ∀ p n, UserPath p → w.os.fs.get (env.rem ++ p) = some n → n.isLink = false)
    (hb : ∀ p c t m, UserPath (p ++ [c, c]) → w.os.fs.get (env.loc ++ (p ++ [c, c])) = some (.link t m) →
      ∃ n, w.os.fs.get (env.rem ++ (p ++ [c, c])) = some n)
    (keep nor : Bool) (fuel : Nat) :
    (reset env keep nor (w.restart fuel)).1 = .ok () ∨ (reset env keep nor (w.restart fuel)).1 = .error .killed := by
  have hr := ResetReady.of_rest he a hl hx fuel
  have hrd : (w.restart fuel).rdb = w.rdb := a.rdbSaved
  have hs : Safe (reset env keep nor) (w.restart fuel) := by
    refine safe_reset hr keep nor ?_ ?_ ?_ ?_ hx
    · intro p n hu hn
      rw [hrd]
      exact (a.remote p hu).2 ⟨n, hn⟩
    · rw [hrd]
      intro p hp
      obtain ⟨n, hn⟩ := (a.remote p (a.user p hp)).1 hp
      exact ⟨n, hn, hnl p n (a.user p hp) hn⟩
    · intro p hd hu
      obtain ⟨m, b, hg⟩ := FS.isDir_iff.1 hd
      exact (a.loc p _ hu hg).1 rfl
    · intro p c t m hu hg
      have hg : w.os.fs.get (env.loc ++ (p ++ [c, c])) = some (.link t m) := hg
      obtain ⟨n, hn⟩ := hb p c t m hu hg
      refine ⟨?_, ?_⟩
      · have hlk := hnl _ n hu hn
        obtain ⟨h1, h2⟩ := a.loc _ n hu hn
        cases hd : n.isDir with
        | true =>
          have := h1 hd
          rw [isDir_iff_false hg] at this; cases this
        | false =>
          rcases h2 hd with h3 | ⟨t', m', h3, h4⟩
          · rw [hg] at h3; cases h3; cases hlk
          · rw [hg] at h3; cases h3
            rcases h4 with h4 | h4
            · exact h4
            · rw [hlk] at h4; cases h4
      · intro t' m' h'
        have := hnl _ _ hu h'
        cases this
  have hs : wp (reset env keep nor) (fun _ _ => True) (fun e _ => e = .killed) (w.restart fuel) := hs
  cases hr1 : (reset env keep nor (w.restart fuel)).1 with
  | ok u => exact Or.inl rfl
  | error e => exact Or.inr (by rw [wp_error hs (Prod.ext hr1 rfl)])

/-- What a reset without options has done. -/
structure Restored (env : Env) (fs fs' : FS) : Prop where
  /-- The remote directory is empty. -/
  cleared : ∀ p, p ≠ [] → fs'.get (env.rem ++ p) = none
  /-- Every remote file is a local one. -/
  back : ∀ p c m b, UserPath p → fs.get (env.rem ++ p) = some (.file c m b) →
    fs'.get (env.loc ++ p) = some (.file c m b)
  /-- The local files and directories are as they were. -/
  kept : ∀ p n, fs.get (env.loc ++ p) = some n → n.isLink = false → fs'.get (env.loc ++ p) = some n
  /-- Every local file or directory is one that was there. -/
  only : ∀ p n, fs'.get (env.loc ++ p) = some n → fs.get (env.loc ++ p) = some n ∨
    (UserPath p ∧ ∃ x, fs.get (env.rem ++ p) = some x ∧ x.isDir = n.isDir ∧ (n.isDir = false → x = n))
  /-- No link to a remote path is left. -/
  unlinked : ∀ p q m, p ≠ [] → GoodPath q → fs'.get (env.loc ++ p) ≠ some (.link (absStr (env.rem ++ q)) m)

/-- C88: what a reset does at a client at rest. -/
theorem C88_restored_partial (he : EnvReady env) (a : AtRest env w) (hl : w.os.fs.isDir env.loc = true)
    (hx : ∃ c m b, w.os.fs.get (env.exclDir ++ [env.id]) = some (.file c m b)) {fuel : Nat} {w' : World}
    (hr : reset env false false (w.restart fuel) = (.ok (), w')) : Restored env w.os.fs w'.os.fs := by
  have h := ResetReady.of_rest he a hl hx fuel
  have hrd : (w.restart fuel).rdb = w.rdb := a.rdbSaved
  obtain ⟨hc, hb⟩ := C45_cleared_partial h hr
  obtain ⟨_, hk, hd⟩ := wp_ok (wp_reset h false false) hr
  refine ⟨hc, hb, ?_, hd.origin, hd.links he.goodRem⟩
  intro p n hn hnl
  cases hdir : n.isDir with
  | true =>
    have := hk.dirs p (show w.os.fs.isDir (env.loc ++ p) = true by rw [isDir_iff_false hn]; exact hdir)
    rw [this]; exact hn
  | false =>
    by_cases hlist : Listed w.os.fs env.rem (some (ADB.paths w.rdb)) p
    · obtain ⟨⟨x, hx'⟩, h0, f, hf, b, rfl⟩ := hlist
      have hu : UserPath (f ++ b) := by
        obtain ⟨h1, h2⟩ := a.user f hf
        refine ⟨h0, ?_⟩
        cases f with
        | nil => exact absurd rfl h1
        | cons d f => simpa using h2
      obtain ⟨h1, h2⟩ := a.loc _ x hu hx'
      cases hxd : x.isDir with
      | true =>
        have := h1 hxd
        rw [isDir_iff_false hn, hdir] at this; cases this
      | false =>
        rcases h2 hxd with h3 | ⟨t, m, h3, _⟩
        · rw [hn] at h3; cases h3
          cases n with
          | dir m b => cases hdir
          | link t m => cases hnl
          | file c m b => exact hb _ _ _ _ hu hx'
        · rw [hn] at h3; cases h3; cases hnl
    · exact hk.loc p n hn hnl (by rw [hrd]; exact hlist)

/-- C88: a reset by the client that has run the last command, however the remote directory has been used by the clients
before. -/
theorem C88_history_partial {ι : Type} {E : ι → Env} (hE : ∀ c, EnvReady (E c)) (hrem : ∀ c d, (E c).rem = (E d).rem)
    {c : ι} {w w' : World} {h : List (ι × World)} (hh : History E ((c, w) :: h))
    (hl : w.os.fs.isDir (E c).loc = true)
    (hx : ∃ k m b, w.os.fs.get ((E c).exclDir ++ [(E c).id]) = some (.file k m b)) {fuel : Nat}
    (hr : reset (E c) false false (w.restart fuel) = (.ok (), w')) : Restored (E c) w.os.fs w'.os.fs :=
  C88_restored_partial (hE c) (C69_agree_partial hE hrem hh _ (List.mem_cons_self)) hl hx hr

/-- C88: `init` in an empty remote directory and then `reset`. The regular files of the local directory, and its
directories, are the same ones afterwards as before, and the remote directory is empty. -/
theorem C88_roundtrip_partial (he : EnvReady env) (hi : InitReady env w) (hdb : w.rdb = [])
    (hem : ∀ p, UserPath p → w.os.fs.get (env.rem ++ p) = none) {w1 w2 : World} {fuel : Nat}
    (h1 : init env false w = (.ok (), w1)) (h2 : reset env false false (w1.restart fuel) = (.ok (), w2)) :
    (∀ p c m b, w2.os.fs.get (env.loc ++ p) = some (.file c m b) ↔ w.os.fs.get (env.loc ++ p) = some (.file c m b)) ∧
    (∀ p, w2.os.fs.isDir (env.loc ++ p) = w.os.fs.isDir (env.loc ++ p)) ∧
    (∀ p, p ≠ [] → w2.os.fs.get (env.rem ++ p) = none) := by
  obtain ⟨hd, hn, ha⟩ := wp_ok (wp_init hi) h1
  have a := ha hdb hem
  -- where a remote node comes from
  have horg : ∀ p n, UserPath p → w1.os.fs.get (env.rem ++ p) = some n →
      ∃ x, w.os.fs.get (env.loc ++ p) = some x ∧ x.isDir = n.isDir ∧ (n.isDir = false → x = n) := by
    intro p n hu hg
    rcases hd.origin p n hu hg with h3 | h3
    · rw [hem p hu] at h3; cases h3
    · exact h3
  have hdirs : ∀ p, w.os.fs.isDir (env.loc ++ p) = true → w1.os.fs.isDir (env.loc ++ p) = true := by
    intro p hp
    rcases hn.loc p with h3 | ⟨hu, n, hg, ⟨h4, _⟩ | ⟨_, h4⟩⟩
    · rw [FS.isDir_congr h3]; exact hp
    · obtain ⟨x, h5, h6, _⟩ := horg p n hu hg
      rw [isDir_iff_false h5, h6, h4] at hp; cases hp
    · exact h4
  have hl1 : w1.os.fs.isDir env.loc = true := by
    have := hdirs [] (by rw [List.append_nil]; exact hi.loc_dir)
    rwa [List.append_nil] at this
  have hr := C88_restored_partial he a hl1 hd.listed h2
  -- what is in the local directory after `init`
  have hnew : ∀ p n, n.isLink = false → w1.os.fs.get (env.loc ++ p) = some n →
      ∃ x, w.os.fs.get (env.loc ++ p) = some x ∧ x.isDir = n.isDir ∧ (n.isDir = false → x = n) := by
    intro p n hnl hg
    rcases hn.loc p with h3 | ⟨hu, y, hy, ⟨h4, h5 | ⟨m, h5⟩⟩ | ⟨h4, h5⟩⟩
    · exact ⟨n, h3 ▸ hg, rfl, fun _ => rfl⟩
    · rw [h5] at hg; cases hg
    · rw [h5] at hg; cases hg; cases hnl
    · obtain ⟨x, h6, h7, _⟩ := horg p y hu hy
      rw [isDir_iff_false hg] at h5
      exact ⟨x, h6, by rw [h7, h4, h5], fun h8 => by rw [h5] at h8; cases h8⟩
  have hall : ∀ p n, n.isLink = false → w2.os.fs.get (env.loc ++ p) = some n →
      ∃ x, w.os.fs.get (env.loc ++ p) = some x ∧ x.isDir = n.isDir ∧ (n.isDir = false → x = n) := by
    intro p n hnl hg
    rcases hr.only p n hg with h3 | ⟨hu, x, hx, h4, h5⟩
    · exact hnew p n hnl h3
    · obtain ⟨y, h6, h7, h8⟩ := horg p x hu hx
      refine ⟨y, h6, h7.trans h4, fun h9 => ?_⟩
      rw [h8 (h4.trans h9), h5 h9]
  refine ⟨?_, ?_, hr.cleared⟩
  · intro p c m b
    constructor
    · intro hg
      obtain ⟨x, h3, _, h4⟩ := hall p _ rfl hg
      rw [h3, h4 rfl]
    · intro hg
      have h0 : p ≠ [] := by
        rintro rfl
        have := hi.loc_dir
        rw [← List.append_nil env.loc, isDir_iff_false hg] at this; cases this
      have hu := hi.userPath h0 hg
      by_cases hx : OwnExcludes env w.os.fs p
      · rcases hn.loc p with h3 | ⟨_, n, h3, _⟩
        · exact hr.kept p _ (h3.trans hg) rfl
        · obtain ⟨x, h4, h5, h6⟩ := horg p n hu h3
          rw [hg] at h4; cases h4
          rw [← h6 h5.symm] at h3
          exact hr.back p c m b hu h3
      · exact hr.back p c m b hu (hd.moved p _ ⟨h0, hg, ⟨c, m, b, rfl⟩, hx⟩).1
  · intro p
    rw [Bool.eq_iff_iff]
    constructor
    · intro hg
      obtain ⟨m, b, hg⟩ := FS.isDir_iff.1 hg
      obtain ⟨x, h3, h4, _⟩ := hall p _ rfl hg
      rw [isDir_iff_false h3, h4]; rfl
    · intro hg
      obtain ⟨m, b, h3⟩ := FS.isDir_iff.1 (hdirs p hg)
      exact FS.isDir_iff.2 ⟨m, b, hr.kept p _ h3 rfl⟩

/-- C88: if there are no links in the local directory, the reset after `init` does not fail. -/
theorem C88_undo_ends_partial (he : EnvReady env) (hi : InitReady env w) (hdb : w.rdb = [])
    (hem : ∀ p, UserPath p → w.os.fs.get (env.rem ++ p) = none)
    (hnl : ∀ p n, w.os.fs.get (env.loc ++ p) = some n → n.isLink = false) {w1 : World}
    (h1 : init env false w = (.ok (), w1)) (keep nor : Bool) (fuel : Nat) :
    (reset env keep nor (w1.restart fuel)).1 = .ok () ∨
      (reset env keep nor (w1.restart fuel)).1 = .error .killed := by
  obtain ⟨hd, hn, ha⟩ := wp_ok (wp_init hi) h1
  have a := ha hdb hem
  have hlink : ∀ p n, UserPath p → w1.os.fs.get (env.rem ++ p) = some n → n.isLink = false := by
    intro p n hu hg
    rcases hd.origin p n hu hg with h3 | ⟨x, h3, _, h4⟩
    · rw [hem p hu] at h3; cases h3
    · cases hdir : n.isDir with
      | true => cases n with
        | dir m b => rfl
        | _ => cases hdir
      | false => rw [← h4 hdir]; exact hnl p x h3
  have hl1 : w1.os.fs.isDir env.loc = true := by
    have hl := hi.loc_dir
    rcases hn.loc [] with h3 | ⟨hu, _⟩
    · rw [List.append_nil] at h3
      rw [FS.isDir_congr h3]; exact hl
    · exact absurd rfl hu.1
  refine C88_ends_partial he a hl1 hd.listed hlink ?_ keep nor fuel
  intro p c t m hu hg
  rcases hn.loc (p ++ [c, c]) with h3 | ⟨_, n, h3, _⟩
  · rw [h3] at hg
    have := hnl _ _ hg
    cases this
  · exact ⟨n, h3⟩

/-! ### What stands in the way -/

/-- C88 in full is false. A link of the remote directory that leads nowhere stands in the way of every reset without
`--no-retrieve`: it fails, and changes nothing. -/
theorem C88_dangling_fails (wf : w.os.fs.WF) (hl : w.os.fs.isDir env.loc = true) {f : Path} {e : Err}
    (hf : f ∈ ADB.paths w.rdb) (hs : w.os.fs.stat (env.rem ++ f) = .error e) (hne : e ≠ .notDir)
    (hm : w.rmemo = []) (keep : Bool) :
    (reset env keep false w).1 ≠ .ok () ∧ (reset env keep false w).2.os.fs = w.os.fs := by
  have hsc : scanTree w.os.fs (env.rem ++ f) = .error e := by unfold scanTree; rw [hs]
  have key : wp (reset env keep false) (fun _ _ => False) (fun _ w' => w'.os.fs = w.os.fs) w := by
    unfold reset
    obtain ⟨lm, lb, hlg⟩ := FS.isDir_iff.1 hl
    rw [wp_bind, wp_sys]
    refine wp_mono (wp_makedirs_dir wf hlg) ?_ (fun _ _ h => h.1)
    intro _ s1 h1
    rw [wp_bind]
    unfold resetGet
    simp only [Bool.false_eq_true, if_false]
    rw [wp_bind]
    apply wp_scanRemote
    · intro h; exact absurd hm h
    swap
    · intro e; exact h1
    intro _
    rw [wp_bind, wp_gets, wp_bind, wp_sys]
    apply wp_orRemote
    unfold transferTree
    rw [wp_bind, wp_ask]
    split
    · rw [wp_bind, wp_query]
      refine ⟨?_, fun _ _ => ⟨h1, fun _ => h1⟩⟩
      intro ps hps
      have hps : relPaths s1.fs env.rem (ADB.paths w.rdb) [] = .ok ps := hps
      rw [h1] at hps
      exact absurd hps (relPaths_missing hsc hne hf)
    · rw [wp_throw]
      exact ⟨h1, fun _ => h1⟩
  cases hr : reset env keep false w with
  | mk r w' =>
    cases r with
    | ok u => exact absurd (wp_ok key hr) id
    | error e => exact ⟨by simp, wp_error key hr⟩

/-- C88 in full is false also for the other clients: when one client has run `reset`, every link of another client to a
remote file leads nowhere. -/
theorem C88_others_fails (h : ResetReady env w) {w' : World} (hr : reset env false false w = (.ok (), w')) {d : Env}
    (hd : d.rem = env.rem) (hg : GoodPath env.rem) (ha : Apart env.loc d.loc) (hb : Apart d.loc env.rem) {p : Path} {m : Int}
    (h0 : p ≠ []) (hp : w.os.fs.get (d.loc ++ p) = some (.link (absStr (d.rem ++ p)) m)) :
    w'.os.fs.get (d.loc ++ p) = some (.link (absStr (d.rem ++ p)) m) ∧ ∃ e, w'.os.fs.stat (d.loc ++ p) = .error e := by
  have hk := wp_ok (wp_reset h false false) hr
  have h1 : w'.os.fs.get (d.loc ++ p) = some (.link (absStr (d.rem ++ p)) m) := by
    rw [hk.2.1.out _ (by simpa using ha.not_prefix [] p) (by simpa using hb.symm.not_prefix [] p)]
    exact hp
  refine ⟨h1, ?_⟩
  have hgp : GoodPath (d.rem ++ p) := by
    rw [hd]
    have := h.wf.goodPath hp
    intro c hc
    rcases List.mem_append.1 hc with h2 | h2
    · exact hg c h2
    · exact this c (List.mem_append.2 (Or.inr h2))
  have hn : w'.os.fs.get (d.rem ++ p) = none := by
    rw [hd]; exact hk.2.2.cleared rfl rfl p h0
  have hpe : w'.os.fs.pathErr (d.loc ++ p) = none := hk.2.1.wf.pathErr h1
  unfold FS.stat
  rw [FS.follow_link hpe h1, FS.linkDest_abs hgp]
  cases hq : w'.os.fs.pathErr (d.rem ++ p) with
  | some e => exact ⟨e, by rw [FS.follow]; simp [hq]⟩
  | none =>
    rw [FS.follow_nonlink hq (by simp [hn])]
    simp [hn]

/-! ### Examples -/

/-- A local directory with a link that leads nowhere. -/
def exDangle : World :=
  { exWorld exEnvE [] [] [] 1000 with
    os := ⟨[(["x".toList], .file 1 1 1), (["l".toList], .dir 1 8), (["l".toList, "b".toList], .file 9 4 1),
      (["l".toList, "k".toList], .link "q".toList 4)], 1000, 0, fun n => n + 50⟩ }


/-- C88 in full is false in a state that `init` has reached: the local directory has had a link that leads nowhere. -/
theorem C88_dangling_init_fails : (init exEnvE false exDangle).1 = .ok () ∧
    exDangle.os.fs.get ["l".toList, "b".toList] = some (.file 9 4 1) ∧
    (reset exEnvE false false ((init exEnvE false exDangle).2.restart 1000)).1 = .error .notFound ∧
    (∃ m, (reset exEnvE false false ((init exEnvE false exDangle).2.restart 1000)).2.os.fs.get
      ["l".toList, "b".toList] = some (.link "/r/b".toList m)) :=
  ⟨by decide +kernel, by decide +kernel, by decide +kernel, 65, by decide +kernel⟩

example : ["k".toList] ∈ ADB.paths ((init exEnvE false exDangle).2.restart 1000).rdb ∧
    ((init exEnvE false exDangle).2.restart 1000).os.fs.stat (exEnvE.rem ++ ["k".toList]) = .error .notFound := by
  decide +kernel

/-- `init` and `reset`, with an excluded file and an unsafe link. -/
example : (init exEnvE false (exInit 1000)).1 = .ok () ∧
    (reset exEnvE false false ((init exEnvE false (exInit 1000)).2.restart 1000)).1 = .ok () ∧
    (reset exEnvE false false ((init exEnvE false (exInit 1000)).2.restart 1000)).2.os.fs.get
      ["l".toList, "d".toList, "a".toList] = some (.file 7 3 1) ∧
    (reset exEnvE false false ((init exEnvE false (exInit 1000)).2.restart 1000)).2.os.fs.get
      ["l".toList, "d".toList, "e".toList] = some (.file 8 3 1) := by
  decide +kernel

/-- A reset after a history of two clients. -/
example : (reset (exPair false) false false (exH4.restart 1000)).1 = .ok () ∧ exH4.os.fs.isDir (exPair false).loc = true ∧
    exH4.os.fs.get ((exPair false).exclDir ++ [(exPair false).id]) = some (.file 1 126 1) := by
  decide +kernel

/-- A local directory without links. -/
def exPlainFS : FS :=
  [(["x".toList], .file 1 1 1), (["l".toList], .dir 1 8), (["l".toList, "d".toList], .dir 2 8),
    (["l".toList, "d".toList, "d".toList], .file 7 3 1), (["l".toList, "d".toList, "e".toList], .file 8 3 1),
    (["l".toList, "b".toList], .file 9 4 1)]

def exPlain (fuel : Nat) : World :=
  { exWorld exEnvE [] [] [] fuel with os := ⟨exPlainFS, fuel, 0, fun n => n + 50⟩ }

theorem exPlain_rem (p : Path) : exPlainFS.get (exEnvE.rem ++ p) = none := by
  rcases Option.eq_none_or_eq_some (exPlainFS.get (exEnvE.rem ++ p)) with h | ⟨n, h⟩
  · exact h
  · have hm := FS.mem_of_get (by simp [exEnvE]) h
    simp [exPlainFS, exEnvE] at hm

theorem exPlain_ready (fuel : Nat) : InitReady exEnvE (exPlain fuel) where
  wf := (⟨by decide +kernel, by decide +kernel, by decide +kernel, by decide +kernel⟩ : exPlainFS.WF)
  apart := by unfold Apart; decide +kernel
  loc_dir := (by decide +kernel : exPlainFS.isDir exEnvE.loc = true)
  rem_good := by decide +kernel
  id_good := by decide +kernel
  excl := ⟨1, 1, 1, (by decide +kernel : exPlainFS.get exEnvE.excl = some (.file 1 1 1))⟩
  slot n hn := by
    have hn : exPlainFS.get (exEnvE.exclDir ++ [exEnvE.id]) = some n := hn
    rw [show exPlainFS.get (exEnvE.exclDir ++ [exEnvE.id]) = none by decide +kernel] at hn; cases hn
  no_util := (by decide +kernel : exPlainFS.get (exEnvE.loc ++ [Env.utilName]) = none)
  clean p n _ _ _ _ := clean_of_none (exPlain_rem p)
  lmemo := rfl
  rmemo := rfl
  fresh := rfl
  rows := rfl
  saved := rfl

/-- The premises of `C88_undo_ends_partial`, and what follows. -/
example (keep nor : Bool) (fuel : Nat) :
    (reset exEnvE keep nor ((init exEnvE false (exPlain 1000)).2.restart fuel)).1 = .ok () ∨
      (reset exEnvE keep nor ((init exEnvE false (exPlain 1000)).2.restart fuel)).1 = .error .killed := by
  have h1 : (init exEnvE false (exPlain 1000)).1 = .ok () := by decide +kernel
  generalize hx : init exEnvE false (exPlain 1000) = x at h1
  obtain ⟨r, w1⟩ := x
  subst h1
  refine C88_undo_ends_partial (env := exEnvE) (w := exPlain 1000) (exPair_ready false) (exPlain_ready 1000) rfl
    (fun p _ => exPlain_rem p) ?_ hx keep nor fuel
  intro p n hn
  have hn : exPlainFS.get (exEnvE.loc ++ p) = some n := hn
  have h : (exPlainFS.all fun e => !e.2.isLink) = true := by decide +kernel
  have h1 := List.all_eq_true.1 h _ (FS.mem_of_get (by simp [exEnvE]) hn)
  simpa using h1

example : (reset exEnvE false false ((init exEnvE false (exPlain 1000)).2.restart 1000)).1 = .ok () ∧
    (init exEnvE false (exPlain 1000)).1 = .ok () ∧
    (init exEnvE false (exPlain 1000)).2.os.fs.get ["l".toList, "d".toList, "d".toList] ≠
      (reset exEnvE false false ((init exEnvE false (exPlain 1000)).2.restart 1000)).2.os.fs.get
        ["l".toList, "d".toList, "d".toList] := by
  decide +kernel

/-- The second client of `exHistory2` has a link to `d/a`; the first one may run `reset` (`exReset`). -/
example : Apart (exPair false).loc (exPair true).loc ∧ Apart (exPair true).loc (exPair false).rem ∧
    exH2.os.fs.get ((exPair true).loc ++ ["d".toList, "a".toList]) =
      some (.link (absStr ((exPair true).rem ++ ["d".toList, "a".toList])) 84) ∧
    (reset (exPair false) false false ({ exH2 with db := exH1.db, dbSaved := exH1.db }.restart 1000)).1 = .ok () := by
  unfold Apart; decide +kernel

end Verif
