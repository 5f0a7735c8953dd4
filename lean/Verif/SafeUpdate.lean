import Verif.SafeSelect
/-
When updating the local directory raises nothing.
-/
namespace Verif
open Prog OSM Call FSTools WM

/-- What is assumed for an update of the local directory that raises nothing. -/
structure UpdSafe (env : Env) (w : World) (ps : List Path) : Prop extends UpdReady env w ps where
  ex : ∃ l, w.matches_ = some l
  seen : ∀ p, StalePath env w ps p → ∃ n, w.os.fs.get (env.loc ++ p) = some n
  keys : w.lmemo.keys.Nodup
  there : ∀ f ∈ ps, ∃ n, w.os.fs.get (env.rem ++ f) = some n
  nolink : ∀ p, Listed w.os.fs env.rem (some ps) p → ∀ s, p <+: s → ∀ t m, w.os.fs.get (env.rem ++ s) ≠ some (.link t m)
  kind : ∀ p, Listed w.os.fs env.rem (some ps) p → ∀ q, q <+: p → w.os.fs.isDir (env.rem ++ q) = true →
    w.os.fs.get (env.loc ++ q) = none ∨ w.os.fs.isDir (env.loc ++ q) = true
  own : ∀ p t m, p ≠ [] → w.os.fs.get (env.loc ++ p) = some (.link t m) → t = absStr (env.rem ++ p)
  above : ∀ e ∈ w.rdb, ∀ q, q <+: e.path → q ≠ e.path → q ≠ [] →
    (∃ d ∈ w.rdb, d.path = q ∧ d.directory = true) ∧
    (w.os.fs.get (env.loc ++ q) = none ∨ w.os.fs.isDir (env.loc ++ q) = true)

theorem nodup_computeStale {l : List Path} {db : ALocal} {ps : List Path} (h : l.Nodup) : (computeStale l db ps).Nodup :=
  ((h.filter _).filter _).filter _

theorem safe_staleLoop {env : Env} (hl : env.loc ≠ []) {s : OS} (w : s.fs.WF) {S : List Path} (hn : S.Nodup)
    (h : ∀ p ∈ S, ∃ n, s.fs.get (env.loc ++ p) = some n) : Safe (each (staleOne env) S) s := by
  refine Safe.each (fun done (s' : OS) => s'.fs.WF ∧ ∀ p ∈ S, p ∉ done → s'.fs.get (env.loc ++ p) = s.fs.get (env.loc ++ p))
    S (E := fun _ _ => True) ?_ ?_ ⟨w, fun _ _ _ => rfl⟩
  · rintro done x rest rfl s1 ⟨w1, h1⟩
    refine safe_staleOne w1 ?_
    rw [h1 x (by simp) ?_]
    · exact h x (by simp)
    · rw [List.nodup_append] at hn
      exact fun hx => hn.2.2 x hx x (by simp) rfl
  · rintro done x rest rfl s1 ⟨w1, h1⟩
    refine wp_mono (wp_staleOne (by simp [hl]) w1) ?_ (fun _ _ _ => trivial)
    rintro _ s2 ⟨h2, _⟩
    refine ⟨h2.wf w1, ?_⟩
    intro p hp hnd
    rw [List.mem_append, List.mem_singleton, not_or] at hnd
    rw [h2.keeps _ (fun h3 => hnd.2 (List.append_cancel_left h3.1))]
    exact h1 p hp hnd.1

theorem safe_removeStale {env : Env} {w : World} {ps : List Path} (h : UpdSafe env w ps) :
    Safe (removeStale env ps) w := by
  obtain ⟨ex, hex⟩ := h.ex
  have fin : ∀ (l : Scan) (w1 : World), w1.os = w.os → w1.matches_ = w.matches_ → w1.db = w.db → l.keys.Nodup →
      (∀ p, p ∈ l.keys → Seen env w p) →
      Safe (exclMatches env >>= fun ex => gets World.db >>= fun db =>
        WM.sys (each (staleOne env) (leafFirst (env.order (computeStale (l.keys.filter (fun p => decide (p ∉ ex))) db ps))))) w1 := by
    intro l w1 h1 h2 h3 h4 h5
    refine Safe.matches (h2.trans hex) ?_
    unfold Safe
    rw [wp_bind, wp_gets]
    refine Safe.sys ?_
    rw [h1, h3]
    have hp : (leafFirst (env.order (computeStale (l.keys.filter (fun p => decide (p ∉ ex))) w.db ps))).Perm
        (computeStale (l.keys.filter (fun p => decide (p ∉ ex))) w.db ps) :=
      (sortBy_perm _).trans (h.order _)
    refine safe_staleLoop h.apart.ne_nil h.wf (hp.nodup_iff.2 (nodup_computeStale (h4.filter _))) ?_
    intro p hpm
    rw [hp.mem_iff, C30_stale, List.mem_filter] at hpm
    obtain ⟨⟨k1, k2⟩, k3, k4⟩ := hpm
    refine h.seen p ⟨h5 p k1, ?_, k3, k4⟩
    rintro (⟨l', k5, k6⟩ | ⟨k5, _⟩)
    · rw [hex] at k5; cases k5
      simp [k6] at k2
    · rw [hex] at k5; cases k5
  unfold removeStale
  refine Safe.scanLocal h.wf h.loc_dir ?_ ?_
  · intro hm
    exact fin _ _ rfl rfl rfl h.keys (fun p hp => Or.inl ⟨hm, hp⟩)
  · intro hm
    refine fin _ _ rfl rfl rfl (nodup_keys_below h.wf env.loc) ?_
    intro p hp
    exact Or.inr ⟨hm, (mem_keys_below h.wf).1 hp⟩

theorem safe_updateLocal {env : Env} {w : World} {ps : List Path} (h : UpdSafe env w (setOf ps)) :
    Safe (updateLocal env ps) w := by
  have hr := h.toUpdReady
  unfold updateLocal
  refine Safe.bind (safe_removeStale h) (wp_removeStale h.order h.apart.ne_nil h.wf _) ?_
  rintro _ w1 ⟨hrest, ⟨S, hS, hs⟩, hfree, _⟩
  have hm1 := UpdMid.stale hr hS hs
  have hd1 : w1.os.fs.isDir env.loc = true := by
    rw [FS.isDir_congr (hm1.out env.loc (fun h1 => h1.2 rfl))]; exact h.loc_dir
  unfold Safe
  rw [wp_bind, wp_gets, hrest.rdb]
  refine Safe.then (Safe.sys (safe_orRemote ?_)) (fun _ _ => trivial)
  have hrow : ∀ p, p ∈ ADB.paths (ARemote.getPaths w.rdb [] (some true) none) ∨
      p ∈ ADB.paths (ARemote.getPaths w.rdb [] (some false) none) → ∃ e ∈ w.rdb, e.path = p := by
    intro p hp
    rw [mem_getPaths_rdir, mem_getPaths_rdir] at hp
    rcases hp with ⟨e, h1, rfl, _⟩ | ⟨e, h1, rfl, _⟩ <;> exact ⟨e, h1, rfl⟩
  have hrow' : ∀ p ∈ ADB.paths (ARemote.getPaths w.rdb [] (some false) none) ++
      ADB.paths (ARemote.getPaths w.rdb [] (some true) none), p ≠ [] := by
    intro p hp
    obtain ⟨e, he, rfl⟩ := hrow p (List.mem_append.1 hp).symm
    exact (h.rows e he).1
  have shr : ∀ q, w.os.fs.get (env.loc ++ q) = none ∨ w.os.fs.isDir (env.loc ++ q) = true →
      w1.os.fs.get (env.loc ++ q) = none ∨ w1.os.fs.isDir (env.loc ++ q) = true := by
    intro q hq
    rcases hs.gone (env.loc ++ q) with h1 | h1
    · rw [h1, FS.isDir_congr h1]; exact hq
    · exact Or.inl h1
  refine Safe.bind (safe_symlinkTree hm1.wf hd1 ?_ ?_)
    (wp_symlinkTree (ow := false) (nodup_getPaths_remote h.nodup _ _ _) hrow' w1.os) ?_
  · intro p hp
    obtain ⟨e, he, rfl⟩ := hrow p hp
    exact ⟨(h.rows e he).1, (h.rows e he).2.1⟩
  · intro p hp q h1 h2 h3
    obtain ⟨e, he, rfl⟩ := hrow p hp
    obtain ⟨⟨d, hd, hde, hdd⟩, h5⟩ := h.above e he q h1 h2 h3
    rcases shr q h5 with h6 | h6
    · exact Or.inr ⟨mem_getPaths_rdir.2 ⟨d, hd, hde, hdd⟩, h6⟩
    · exact Or.inl h6
  rintro new s2 ⟨f1, hg, hl, _⟩
  have hm2 := UpdMid.links hr hm1 hd1 hg hl
  have hf1 := hg.eq_of_dir hm1.wf hd1
  have hrd2 : s2.fs.isDir env.rem = true := by
    rw [FS.isDir_congr (by simpa using hm2.rem hr [])]; exact h.rem_dir
  have hld2 : s2.fs.isDir env.loc = true := by
    rw [FS.isDir_congr (hm2.out env.loc (fun h1 => h1.2 rfl))]; exact h.loc_dir
  have hgr : GoodPath env.rem := by
    obtain ⟨m, b, h1⟩ := FS.isDir_iff.1 h.rem_dir
    exact h.wf.goodPath h1
  have hlist : ∀ p, Listed s2.fs env.rem (some (setOf ps)) p ↔ Listed w.os.fs env.rem (some (setOf ps)) p :=
    fun p => Listed.congr (fun q => hm2.rem hr q)
  -- what a path in the local directory is after the links have been made
  have cases2 : ∀ p n, s2.fs.get (env.loc ++ p) = some n → w.os.fs.get (env.loc ++ p) = some n ∨
      (∃ e ∈ w.rdb, e.path = p ∧ e.directory = false ∧ ∃ m, n = .link (absStr (env.rem ++ p)) m) ∨ n.isDir = true := by
    intro p n hn
    rcases hl.at_ p with h4 | ⟨h4, h5⟩ | ⟨_, _, h5⟩
    · rw [hn, hf1] at h4
      exact Or.inl (hs.some h4.symm)
    · rcases h5 with h5 | ⟨now, h5⟩
      · rw [hn] at h5; cases h5
      · rw [hn] at h5; cases h5
        rcases Option.eq_none_or_eq_some (f1.get (env.loc ++ p)) with h6 | ⟨k, h6⟩
        · right; left
          by_cases hp : p ∈ ADB.paths (ARemote.getPaths w.rdb [] (some false) none) ++
              ADB.paths (ARemote.getPaths w.rdb [] (some true) none)
          · rw [List.mem_append, or_iff_left h4, mem_getPaths_rdir] at hp
            obtain ⟨e, he, rfl, hed⟩ := hp
            refine ⟨e, he, rfl, hed, now, ?_⟩
            unfold linkNode
            rw [if_neg h4]
          · exfalso
            have := hl.other (env.loc ++ p) (fun p' hp' he => hp (by
              rw [List.append_cancel_left_eq] at he; exact he ▸ hp'))
            rw [hn, h6] at this; cases this
        · left
          have := hl.keeps rfl _ _ h6
          rw [hn] at this; cases this
          rw [hf1] at h6
          exact hs.some h6
    · rw [isDir_iff_false hn] at h5
      exact Or.inr (Or.inr h5)
  refine Safe.then (safe_transferTree h.apart.symm hm2.wf hrd2 hld2 ?_ ?_ ?_ ?_ ?_) (fun _ _ => Safe.pure _)
  · intro f hf
    obtain ⟨n, hn⟩ := h.there f hf
    exact ⟨n, (hm2.rem hr f).trans hn⟩
  · intro p hp q hq
    exact hm2.clean p ((hlist p).1 hp) q hq
  · intro p hp t m hn
    rw [hm2.rem hr p] at hn
    exact h.nolink p ((hlist p).1 hp) p (List.prefix_refl _) t m hn
  · intro p hp q hq hd
    rw [FS.isDir_congr (hm2.rem hr q)] at hd
    rcases Option.eq_none_or_eq_some (s2.fs.get (env.loc ++ q)) with h1 | ⟨n, h1⟩
    · exact Or.inl h1
    · right
      rw [isDir_iff_false h1]
      rcases cases2 q n h1 with h2 | ⟨e, he, rfl, hed, _⟩ | h2
      · rcases h.kind p ((hlist p).1 hp) q hq hd with h3 | h3
        · rw [h2] at h3; cases h3
        · rw [← isDir_iff_false h2]; exact h3
      · exfalso
        obtain ⟨a, b, h3⟩ := FS.isDir_iff.1 hd
        have := (h.rows e he).2.2 _ h3
        rw [hed] at this
        cases this
      · exact h2
  · intro p hp t m hn
    have hg' := hm2.wf.goodPath hn
    have hgp := (goodPath_append.1 hg').2
    refine ⟨?_, ?_⟩
    · have ht : t = absStr (env.rem ++ (p ++ [p.getLastD []])) := by
        rcases cases2 _ _ hn with h2 | ⟨_, _, _, _, m', h2⟩ | h2
        · exact h.own _ t m (by simp) h2
        · cases h2; rfl
        · cases h2
      rw [ht]
      exact FS.linkDest_abs (goodPath_append.2 ⟨hgr, hgp⟩) _
    · intro t' m' h2
      rw [hm2.rem hr] at h2
      exact h.nolink p ((hlist p).1 hp) _ (List.prefix_append _ _) t' m' h2

end Verif
