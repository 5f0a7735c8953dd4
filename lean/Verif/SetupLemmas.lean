import Verif.Conflicts
import Verif.Props.C23_RmExcluded
import Verif.Props.C28_SymlinkTree
import Verif.Props.C21_Trash
import Verif.Props.C16_C17_Changes
/-
What `init`, `sync` and `reset` have in common: the exclude file, the matches of the patterns, linking a tree
and the kinds of the rows.
-/
namespace Verif
open Prog OSM Call FSTools WM

/-! ### Kinds of rows -/

section
variable {δ : Type}
open ADB

/-- Adding rows keeps the kinds right. -/
theorem typed_addCore {τ : Path → Bool} {a : ADB δ} {batch : List (Path × Bool)} {data : δ}
    (ha : ∀ e ∈ a, e.directory = τ e.path) (hb : ∀ e ∈ batch, e.2 = τ e.1)
    (hp : ∀ p ∈ batch.map Prod.fst, p.dropLast ≠ [] → τ p.dropLast = true) :
    ∀ e ∈ addCore a batch data, e.directory = τ e.path := by
  obtain ⟨news, h1, h2⟩ := addCore_eq a batch data
  rw [h1]
  intro e he
  unfold mark at he
  obtain ⟨e', he', rfl⟩ := List.mem_map.1 he
  have h3 : e'.directory = τ e'.path := by
    rcases List.mem_append.1 he' with h | h
    · exact ha _ h
    · exact hb _ (h2.mem _ h).1
  split
  · rename_i hm
    obtain ⟨h4, q, hq, h5⟩ := DB.mem_parentsOf.1 hm
    dsimp only
    rw [← h5] at h4 ⊢
    refine (hp q ?_ h4).symm
    obtain ⟨x, hx, rfl⟩ := List.mem_map.1 hq
    exact List.mem_map.2 ⟨x, mem_sortDepth.1 hx, rfl⟩
  · exact h3

theorem typed_of_pathDir {δ' : Type} {τ : Path → Bool} {a : ADB δ} {b : ADB δ'}
    (h : b.map (fun e => (e.path, e.directory)) = a.map (fun e => (e.path, e.directory)))
    (ha : ∀ e ∈ a, e.directory = τ e.path) : ∀ e ∈ b, e.directory = τ e.path := by
  intro e he
  have h1 : (e.path, e.directory) ∈ b.map (fun e => (e.path, e.directory)) := List.mem_map.2 ⟨e, he, rfl⟩
  rw [h] at h1
  obtain ⟨e', h2, h3⟩ := List.mem_map.1 h1
  have := ha e' h2
  rw [Prod.mk.injEq] at h3
  rw [← h3.1, ← h3.2]
  exact this

theorem typed_addPaths {τ : Path → Bool} {a : ALocal} {batch : List (Path × Bool)} {x : Rat} {l : Bool}
    (ha : ∀ e ∈ a, e.directory = τ e.path) (hb : ∀ e ∈ batch, e.2 = τ e.1)
    (hp : ∀ p ∈ batch.map Prod.fst, p.dropLast ≠ [] → τ p.dropLast = true) :
    ∀ e ∈ ALocal.addPaths a batch x l, e.directory = τ e.path :=
  typed_of_pathDir (pathDir_refresh _ _) (typed_addCore ha hb hp)

/-- `get_paths` for directories, or for everything else. -/
theorem mem_getPaths_dir {a : ALocal} {d : Bool} {p : Path} :
    p ∈ paths (ALocal.getPaths a [] (some d) none) ↔ ∃ e ∈ a, e.path = p ∧ e.directory = d := by
  unfold ALocal.getPaths rows paths
  simp only [List.mem_map, List.mem_filter, List.nil_prefix, List.isPrefixOf_iff_prefix, and_true,
    decide_eq_true_eq, reduceCtorEq, Option.some.injEq, false_or, true_or]
  constructor
  · rintro ⟨e, ⟨h1, h2⟩, h3⟩; exact ⟨e, h1, h3, h2.symm⟩
  · rintro ⟨e, h1, h3, h2⟩; exact ⟨e, ⟨h1, h2.symm⟩, h3⟩

theorem nodup_getPaths {a : ALocal} (h : (paths a).Nodup) (d : Option Bool) (l : Option Bool) (root : Path) :
    (paths (ALocal.getPaths a root d l)).Nodup := by
  unfold ALocal.getPaths rows paths at *
  exact h.sublist (List.Sublist.map _ (List.filter_sublist.trans List.filter_sublist))

end

/-! ### Linking a tree -/

theorem isDir_iff_false {fs : FS} {p : Path} {n : Node} (h : fs.get p = some n) : fs.isDir p = n.isDir := by
  unfold FS.isDir; rw [h]; rfl

/-- What holds while links are made. -/
structure Linking (src dest : Path) (ds ps : List Path) (ow : Bool) (f1 fs' : FS) : Prop where
  wf : f1.WF → (∀ p ∈ ps, GoodPath (dest ++ p)) → fs'.WF
  other : ∀ q, (∀ p ∈ ps, q ≠ dest ++ p) → fs'.get q = f1.get q
  isDir : ∀ q, f1.isDir q = true → fs'.get q = f1.get q
  keeps : ow = false → ∀ q n, f1.get q = some n → fs'.get q = some n
  at_ : ∀ p, fs'.get (dest ++ p) = f1.get (dest ++ p) ∨
    (p ∉ ds ∧ (fs'.get (dest ++ p) = none ∨ ∃ now, fs'.get (dest ++ p) = some (linkNode src ds p now))) ∨
    (p ∈ ds ∧ f1.get (dest ++ p) = none ∧ fs'.isDir (dest ++ p) = true)

theorem wp_symlinkTree {src dest : Path} {files dirs : List Path} {ow : Bool} (hd : dirs.Nodup)
    (hne : ∀ p ∈ files ++ dirs, p ≠ []) (s : OS) :
    wp (symlinkTree src dest files dirs ow)
      (fun new s' => ∃ f1, Grow (fun q => q ≠ [] ∧ q <+: dest) s.fs f1 ∧ Linking src dest dirs (files ++ dirs) ow f1 s'.fs ∧
        LoopEff src dest dirs ow (DB.sortDepth id (files.foldl (fun acc p => setAdd p acc) dirs)) f1 new s'.fs)
      (fun _ s' => ∃ f1, Grow (fun q => q ≠ [] ∧ q <+: dest) s.fs f1 ∧ Linking src dest dirs (files ++ dirs) ow f1 s'.fs)
      s := by
  have hmem : ∀ p, p ∈ DB.sortDepth id (files.foldl (fun acc p => setAdd p acc) dirs) ↔ p ∈ files ++ dirs :=
    fun p => by rw [mem_sortDepth, mem_foldl_setAdd, or_comm, List.mem_append]
  have hrefl : ∀ f1, Linking src dest dirs (files ++ dirs) ow f1 f1 := fun f1 =>
    ⟨fun h _ => h, fun _ _ => rfl, fun _ _ => rfl, fun _ _ _ h => h, fun _ => Or.inl rfl⟩
  unfold symlinkTree
  rw [wp_bind]
  refine wp_mono (wp_makedirs dest s) ?_ (fun _ s1 h => ⟨s1.fs, h, hrefl _⟩)
  rintro _ s1 ⟨h1, _⟩
  refine wp_mono (wp_and (wp_linkLoop src dest dirs ow _ (nodup_sortDepth (nodup_foldl_setAdd hd)) ?_ s1)
    (wp_linkLoop_inv src dest dirs ow _ (fun fs => Linking src dest dirs (files ++ dirs) ow s1.fs fs) ?_ ?_ s1 (hrefl _)))
    (fun _ s2 h => ⟨s1.fs, h1, h.2, h.1⟩) (fun _ s2 h => ⟨s1.fs, h1, h.2⟩)
  · intro p hp
    exact hne p ((hmem p).1 hp)
  · intro p hp fs now hi hnone hpe
    have hp' := (hmem p).1 hp
    refine ⟨?_, ?_, ?_, ?_, ?_⟩
    · intro hw hg
      have : fs.create (dest ++ p) (linkNode src dirs p now) = .ok (fs.set (dest ++ p) (linkNode src dirs p now)) :=
        FS.create_isSome hpe hnone
      exact FS.WF.create (hi.wf hw hg) (hg p hp') this
    · intro q hq
      rw [FS.get_set_ne _ (hq p hp'), hi.other q hq]
    · intro q hq
      obtain ⟨m, b, hq'⟩ := FS.isDir_iff.1 hq
      have h2 := hi.isDir q hq
      have : q ≠ dest ++ p := by rintro rfl; rw [hnone, hq'] at h2; cases h2
      rw [FS.get_set_ne _ this, h2]
    · intro ho q n hq
      have h2 := hi.keeps ho q n hq
      have : q ≠ dest ++ p := by rintro rfl; rw [hnone] at h2; cases h2
      rw [FS.get_set_ne _ this, h2]
    · intro q
      by_cases hqp : q = p
      · subst hqp
        have hset : (fs.set (dest ++ q) (linkNode src dirs q now)).get (dest ++ q) = some (linkNode src dirs q now) :=
          FS.get_set_self _ (by simp [hne q hp']) _
        rw [isDir_iff_false hset, hset]
        by_cases hqd : q ∈ dirs
        · right; right
          refine ⟨hqd, ?_, by unfold linkNode; rw [if_pos hqd]; rfl⟩
          rcases hi.at_ q with h2 | ⟨h2, _⟩ | ⟨_, h2, _⟩
          · rw [← h2]; exact hnone
          · exact absurd hqd h2
          · exact h2
        · exact Or.inr (Or.inl ⟨hqd, Or.inr ⟨now, rfl⟩⟩)
      · have hq : dest ++ q ≠ dest ++ p := fun he => hqp (List.append_cancel_left he)
        rw [FS.isDir_congr (FS.get_set_ne _ hq _), FS.get_set_ne _ hq]
        exact hi.at_ q
  · intro ho p hp hpd fs fs' hi hr
    have hp' := (hmem p).1 hp
    obtain ⟨n, _, hn, hnd, he⟩ := FS.remove_ok hr
    refine ⟨fun hw hg => (hi.wf hw hg).remove hr, ?_, ?_, ?_, ?_⟩
    · intro q hq
      rw [he, FS.get_rm_ne _ (hq p hp'), hi.other q hq]
    · intro q hq
      obtain ⟨m, b, hq'⟩ := FS.isDir_iff.1 hq
      have h2 := hi.isDir q hq
      have : q ≠ dest ++ p := by
        rintro rfl
        rw [hn, hq'] at h2
        cases h2
        cases hnd
      rw [he, FS.get_rm_ne _ this, h2]
    · intro h; rw [ho] at h; cases h
    · intro q
      by_cases hqp : q = p
      · subst hqp
        refine Or.inr (Or.inl ⟨hpd, Or.inl ?_⟩)
        rw [he]; exact FS.get_rm_self _ (by simp [hne q hp'])
      · have hq : fs'.get (dest ++ q) = fs.get (dest ++ q) := by
          rw [he, FS.get_rm_ne _ (fun he => hqp (List.append_cancel_left he))]
        rw [FS.isDir_congr hq, hq]
        exact hi.at_ q

/-! ### The exclude file -/

/-- Copying the exclude file changes at most the copy. -/
theorem wp_addExcludeFile {env : Env} {s : OS} (w : s.fs.WF) (hg : GoodPath (env.exclDir ++ [env.id]))
    (hslot : ∀ n, s.fs.get (env.exclDir ++ [env.id]) = some n → ∃ c m b, n = .file c m b) :
    wp (addExcludeFile env)
      (fun _ s' => OnlyAt (env.exclDir ++ [env.id]) s.fs s'.fs ∧ s'.fs.WF ∧
        ∃ q k m b now, s.fs.stat env.excl = .ok (q, .file k m b) ∧
          s'.fs.get (env.exclDir ++ [env.id]) = some (.file k now b))
      (fun _ s' => OnlyAt (env.exclDir ++ [env.id]) s.fs s'.fs ∧ s'.fs.WF ∧
        ∀ n, s'.fs.get (env.exclDir ++ [env.id]) = some n → ∃ c m b, n = .file c m b) s := by
  generalize hD : env.exclDir ++ [env.id] = D at hg hslot ⊢
  have hD0 : D ≠ [] := by rw [← hD]; simp
  have hnl : ∀ t m, s.fs.get D ≠ some (.link t m) := by
    intro t m h
    obtain ⟨c, m', b, h'⟩ := hslot _ h
    cases h'
  have hnd : s.fs.isDir D = false := by
    cases h : s.fs.isDir D with
    | false => rfl
    | true =>
      obtain ⟨m, b, h1⟩ := FS.isDir_iff.1 h
      obtain ⟨c, m', b', h'⟩ := hslot _ h1
      cases h'
  have hpid : s.fs.pathIsDir D = false := by
    unfold FS.pathIsDir
    rcases Option.eq_none_or_eq_some (s.fs.get D) with h | ⟨n, h⟩
    · obtain ⟨e, he⟩ := FS.stat_none h
      rw [he]
    · obtain ⟨c, m, b, rfl⟩ := hslot _ h
      rw [FS.stat_nonlink (w.pathErr h) h rfl]
      rfl
  unfold addExcludeFile
  apply wp_orRemote
  rw [hD]
  suffices H : wp (copyPlain env.excl D)
      (fun _ s' => OnlyAt D s.fs s'.fs ∧ s'.fs.WF ∧
        ∃ q k m b now, s.fs.stat env.excl = .ok (q, .file k m b) ∧ s'.fs.get D = some (.file k now b))
      (fun _ s' => OnlyAt D s.fs s'.fs ∧ s'.fs.WF ∧ ∀ n, s'.fs.get D = some n → ∃ c m b, n = .file c m b) s from
    wp_mono H (fun _ _ h => h) (fun _ _ h => ⟨h, fun _ => h⟩)
  unfold copyPlain
  rw [wp_bind, wp_ask]
  simp only [hpid, Bool.false_eq_true, if_false]
  rw [wp_bind, wp_ask]
  split
  · exact ⟨OnlyAt.refl _ _, w, hslot⟩
  · rw [wp_bind, wp_query]
    refine ⟨?_, fun _ _ => ⟨OnlyAt.refl _ _, w, hslot⟩⟩
    rintro ⟨q0, n0⟩ hst
    cases n0 with
    | link t m => exact ⟨OnlyAt.refl _ _, w, hslot⟩
    | dir m b => exact ⟨OnlyAt.refl _ _, w, hslot⟩
    | file k m b =>
      dsimp only
      rw [wp_bind, wp_query]
      refine ⟨?_, fun _ _ => ⟨OnlyAt.refl _ _, w, hslot⟩⟩
      intro q hq
      have hpe : s.fs.pathErr D = none := by
        rcases Option.eq_none_or_eq_some (s.fs.pathErr D) with h | ⟨e, h⟩
        · exact h
        · rw [FS.follow] at hq; simp [h] at hq
      rw [FS.follow_nonlink hpe hnl] at hq
      cases hq
      have hpar := FS.pathErr_none_iff.1 hpe _ (FS.dropLast_proper hD0).1 (FS.dropLast_proper hD0).2
      have hwf : ∀ n, (s.fs.set D n).WF := fun n =>
        w.set hD0 hg hpar (Or.inr (fun q hq hne => w.none_below hnd hq hne))
      have hset : ∀ c m b n, (s.fs.set D (.file c m b)).get D = some n → ∃ c m b, n = .file c m b := by
        intro c m b n h
        rw [FS.get_set_self _ hD0] at h
        cases h
        exact ⟨_, _, _, rfl⟩
      unfold truncate
      rw [wp_bind]
      apply wp_op
      · exact ⟨OnlyAt.refl _ _, w, hslot⟩
      · intro fs1 h1
        have h1' : fs1 = s.fs.set D (.file 0 (s.clk s.tick) 0) := by
          split at h1
          · cases h1
          · cases h1
          · exact (Except.ok.inj h1).symm
        subst h1'
        unfold update
        apply wp_op
        · exact ⟨OnlyAt.set _ _ _, hwf _, hset _ _ _⟩
        · intro fs2 h2
          have hfs : (OS.next s (s.fs.set D (.file 0 (s.clk s.tick) 0))).fs = s.fs.set D (.file 0 (s.clk s.tick) 0) := rfl
          rw [hfs, FS.get_set_self _ hD0] at h2
          dsimp only at h2
          cases h2
          have ho : OnlyAt D s.fs ((s.fs.set D (.file 0 (s.clk s.tick) 0)).set D
              (.file k ((OS.next s (s.fs.set D (.file 0 (s.clk s.tick) 0))).clk
                (OS.next s (s.fs.set D (.file 0 (s.clk s.tick) 0))).tick) b)) :=
            (OnlyAt.set _ _ _).trans (OnlyAt.set _ _ _)
          refine ⟨ho, ?_, q0, k, m, b, _, hst, FS.get_set_self _ hD0 _⟩
          refine (hwf (.file 0 (s.clk s.tick) 0)).set hD0 hg ?_ (Or.inr ?_)
          · rw [FS.isDir_congr (FS.get_set_ne _ (FS.dropLast_proper hD0).2 _)]
            exact hpar
          · intro q hq hne
            rw [FS.get_set_ne _ (Ne.symm hne)]
            exact w.none_below hnd hq hne
        · intro e h2
          exact ⟨OnlyAt.set _ _ _, hwf _, hset _ _ _⟩
      · intro e h1
        exact ⟨OnlyAt.refl _ _, w, hslot⟩

/-- The matches of the patterns of the profile, if they are not memoized. -/
theorem wp_exclMatches {env : Env} {w : World} {Q : List Path → World → Prop} {E : Err → World → Prop}
    (hm : ∀ l, w.matches_ = some l → Q l w)
    (hs : w.matches_ = none → ∀ q k m b, w.os.fs.stat env.excl = .ok (q, .file k m b) →
      Q (allMatches (env.patsOf k) ((w.os.fs.below env.loc).map Prod.fst))
        { w with matches_ := some (allMatches (env.patsOf k) ((w.os.fs.below env.loc).map Prod.fst)) })
    (hE : ∀ e, E e w) : wp (exclMatches env) Q E w := by
  unfold exclMatches
  rw [wp_bind, wp_gets]
  split
  · rename_i l h
    exact hm l h
  · rename_i h
    rw [wp_bind, wp_sys, wp_query]
    refine ⟨?_, fun e _ => hE e⟩
    intro pats h1
    obtain ⟨q, k, m, b, h2, rfl⟩ := readPatterns_ok.1 h1
    rw [wp_bind, wp_sys, wp_query]
    refine ⟨?_, fun e _ => hE e⟩
    intro l hl
    have := globMatches_ok hl
    subst this
    rw [wp_bind, wp_modify, wp_pure]
    exact hs h q k m b h2

/-- The links that a scan of the whole directory reports as unsafe. -/
theorem mem_unsafeLinks {fs : FS} (w : fs.WF) {root p : Path} (hr : GoodPath root) :
    p ∈ unsafeLinks root (fs.below root) ↔ p ≠ [] ∧ ∃ n, fs.get (root ++ p) = some n ∧ UnsafeLink root p n := by
  unfold unsafeLinks
  simp only [List.mem_map, List.mem_filter, Prod.exists, exists_and_right, exists_eq_right]
  constructor
  · rintro ⟨n, ⟨h1, h2⟩, h3⟩
    obtain ⟨h4, h5⟩ := w.mem_below_iff.1 h1
    refine ⟨h5, n, h4, ?_⟩
    exact (unsafeEntry_iff hr (e := (p, n)) (goodPath_append.1 (w.goodPath h4)).2 h5).1 h3
  · rintro ⟨h5, n, h4, h3⟩
    refine ⟨n, ⟨w.mem_below_iff.2 ⟨h4, h5⟩, ?_⟩, ?_⟩
    · obtain ⟨t, m, rfl, _⟩ := h3
      rfl
    · exact (unsafeEntry_iff hr (e := (p, n)) (goodPath_append.1 (w.goodPath h4)).2 h5).2 h3

end Verif
