import Mathlib.Data.List.Nodup
import Verif.ResetLemmas
import Verif.Props.C21_Trash
import Verif.Props.C30_Stale
/-
What `update_local` does to the file system.
-/
namespace Verif
open Prog OSM Call FSTools WM

/-! ### Removing what is stale -/

/-- What the stale loop may remove. -/
def StaleAt (env : Env) (fs : FS) (S : List Path) (q : Path) : Prop :=
  ∃ p ∈ S, q = env.loc ++ p ∧ ∀ t m, fs.get q ≠ some (.link t m)

theorem isLink_iff {fs : FS} (w : fs.WF) {p : Path} : isLink fs p = true ↔ ∃ t m, fs.get p = some (.link t m) := by
  unfold isLink
  constructor
  · intro h
    split at h
    · rename_i n hn
      have := w.lstat_iff.1 hn
      cases n with
      | link t m => exact ⟨t, m, this⟩
      | file => cases h
      | dir => cases h
    · cases h
  · rintro ⟨t, m, h⟩
    rw [w.lstat_iff.2 h]; rfl

theorem wp_staleOne {env : Env} {p : Path} (hp : env.loc ++ p ≠ []) {s : OS} (w : s.fs.WF) :
    wp (staleOne env p)
      (fun _ s' => Shrink (fun q => q = env.loc ++ p ∧ ∀ t m, s.fs.get q ≠ some (.link t m)) s.fs s'.fs ∧
        (∀ c m b, s'.fs.get (env.loc ++ p) ≠ some (.file c m b)) ∧
        ((∀ t m, s.fs.get (env.loc ++ p) ≠ some (.link t m)) →
          (∀ q, env.loc ++ p <+: q → q ≠ env.loc ++ p → s.fs.get q = none) → s'.fs.get (env.loc ++ p) = none))
      (fun _ s' => s'.fs = s.fs) s := by
  unfold staleOne
  rw [wp_bind, wp_ask]
  split
  · rename_i h
    obtain ⟨t, m, h⟩ := (isLink_iff w).1 h
    rw [wp_pure]
    refine ⟨Shrink.refl _ _, ?_, fun h1 => absurd h (h1 t m)⟩
    intro c m' b h'
    rw [h] at h'; cases h'
  · rename_i h
    have hnl : ∀ t m, s.fs.get (env.loc ++ p) ≠ some (.link t m) :=
      fun t m h' => h ((isLink_iff w).2 ⟨t, m, h'⟩)
    have hm : ∀ q, q = env.loc ++ p → q = env.loc ++ p ∧ ∀ t m, s.fs.get q ≠ some (.link t m) := by
      rintro q rfl; exact ⟨rfl, hnl⟩
    rw [wp_tryCatch]
    refine wp_mono (wp_remove _ s) ?_ ?_
    · rintro _ s' ⟨h1, h2⟩
      refine ⟨h1.mono hm, ?_, fun _ _ => h2⟩
      intro c m b h'; rw [h2] at h'; cases h'
    · rintro e s' ⟨h1, h2⟩
      unfold staleDir
      split
      · exact h1
      · by_cases he : e = .isDir
        · subst he
          simp only [if_true]
          have hd : ∀ c m b, s'.fs.get (env.loc ++ p) ≠ some (.file c m b) := by
            intro c m b hg
            rw [h1] at hg
            rcases h2 with h2 | h2
            · cases h2
            · unfold FS.remove at h2
              rw [w.lstat_iff.2 hg] at h2
              cases h2
          rw [wp_tryCatch]
          refine wp_mono (wp_rmdir hp s') ?_ ?_
          · rintro _ s2 ⟨h3, h4⟩
            rw [h1] at h3
            refine ⟨h3.mono hm, ?_, fun _ _ => h4⟩
            intro c m b h'; rw [h4] at h'; cases h'
          · rintro e s2 ⟨h3, h5⟩
            split
            · exact h3.trans h1
            · rename_i hk
              dsimp only
              rw [wp_pure, h3]
              refine ⟨?_, hd, ?_⟩
              · rw [h1]; exact Shrink.refl _ _
              · intro _ he
                rw [h1]
                rcases Option.eq_none_or_eq_some (s.fs.get (env.loc ++ p)) with h6 | ⟨n, h6⟩
                · exact h6
                exfalso
                rcases h5 with h5 | h5
                · exact hk h5
                rw [h1] at h5
                unfold FS.rmdir at h5
                rw [w.lstat_iff.2 h6] at h5
                cases n with
                | file c m b => exact hd c m b (by rw [h1]; exact h6)
                | link t m => exact hnl t m h6
                | dir m b =>
                  have h7 : s.fs.below (env.loc ++ p) = [] := by
                    rw [List.eq_nil_iff_forall_not_mem]
                    rintro ⟨q, n'⟩ hq
                    obtain ⟨h8, h9⟩ := w.mem_below_iff.1 hq
                    rw [he _ (List.prefix_append _ _) (by simpa using h9)] at h8; cases h8
                  simp [h7] at h5
        · simp only [he, if_false]
          exact h1

theorem wp_staleLoop {env : Env} (hl : env.loc ≠ []) {s : OS} (w : s.fs.WF) (S : List Path)
    (hsort : S.Pairwise (fun a b => b.length ≤ a.length)) :
    wp (each (staleOne env) S)
      (fun _ s' => Shrink (StaleAt env s.fs S) s.fs s'.fs ∧
        (∀ p ∈ S, ∀ c m b, s'.fs.get (env.loc ++ p) ≠ some (.file c m b)) ∧
        ∀ p ∈ S, (∀ q n, p <+: q → s.fs.get (env.loc ++ q) = some n → q ∈ S ∧ n.isLink = false) →
          s'.fs.get (env.loc ++ p) = none)
      (fun _ s' => Shrink (StaleAt env s.fs S) s.fs s'.fs) s := by
  apply wp_each (fun done (s' : OS) => Shrink (StaleAt env s.fs S) s.fs s'.fs ∧
    (∀ p ∈ done, ∀ c m b, s'.fs.get (env.loc ++ p) ≠ some (.file c m b)) ∧
    ∀ p ∈ done, (∀ q n, p <+: q → s.fs.get (env.loc ++ q) = some n → q ∈ S ∧ n.isLink = false) →
      s'.fs.get (env.loc ++ p) = none)
  · rintro done x rest hS s1 ⟨h1, h2, h2'⟩
    have hx : x ∈ S := by rw [hS]; simp
    have hm : ∀ q, (q = env.loc ++ x ∧ ∀ t m, s1.fs.get q ≠ some (.link t m)) → StaleAt env s.fs S q := by
      rintro q ⟨rfl, h3⟩
      refine ⟨x, hx, rfl, ?_⟩
      intro t m hg
      by_cases h4 : StaleAt env s.fs S (env.loc ++ x)
      · obtain ⟨_, _, _, h5⟩ := h4
        exact h5 t m hg
      · exact h3 t m ((h1.keeps _ h4).trans hg)
    refine wp_mono (wp_staleOne (by simp [hl]) (h1.wf w)) ?_ ?_
    · rintro _ s2 ⟨h3, h4, h5⟩
      refine ⟨h1.trans (h3.mono hm), ?_, ?_⟩
      · intro p hp
        rw [List.mem_append, List.mem_singleton] at hp
        rcases hp with hp | rfl
        · intro c m b hg
          exact h2 p hp c m b (h3.some hg)
        · exact h4
      · intro p hp hcl
        rw [List.mem_append, List.mem_singleton] at hp
        rcases hp with hp | rfl
        · rcases h3.gone (env.loc ++ p) with h6 | h6
          · rw [h6]; exact h2' p hp hcl
          · exact h6
        · refine h5 ?_ ?_
          · intro t m hg
            have := (hcl p _ (List.prefix_refl _) (h1.some hg)).2
            cases this
          · rintro q ⟨t, rfl⟩ hne
            rcases Option.eq_none_or_eq_some (s1.fs.get (env.loc ++ p ++ t)) with h6 | ⟨n, h6⟩
            · exact h6
            exfalso
            rw [List.append_assoc] at h6
            have h7 := h1.some h6
            obtain ⟨h8, _⟩ := hcl (p ++ t) n (List.prefix_append _ _) h7
            have ht : t ≠ [] := by rintro rfl; simp at hne
            have hd : p ++ t ∈ done := by
              rw [hS, List.mem_append, List.mem_cons] at h8
              rcases h8 with h8 | h8 | h8
              · exact h8
              · exact absurd (List.append_right_eq_self.1 h8) ht
              · exfalso
                rw [hS, List.pairwise_append, List.pairwise_cons] at hsort
                have := hsort.2.1.1 _ h8
                rw [List.length_append] at this
                have := List.length_pos_iff.2 ht
                omega
            rw [h2' _ hd (fun q n hq => hcl q n ((List.prefix_append _ _).trans hq))] at h6
            cases h6
    · intro e s2 h3
      rw [h3]; exact h1
  · exact ⟨Shrink.refl _ _, by simp, by simp⟩

/-- What the memoized or new scan of the local directory shows. -/
def Seen (env : Env) (w : World) (p : Path) : Prop :=
  (w.lmemo ≠ [] ∧ p ∈ w.lmemo.keys) ∨ (w.lmemo = [] ∧ p ≠ [] ∧ ∃ n, w.os.fs.get (env.loc ++ p) = some n)

/-- What the profile's exclude file excludes, by the memoized or a new search. -/
def Excl (env : Env) (w : World) (p : Path) : Prop :=
  (∃ l, w.matches_ = some l ∧ p ∈ l) ∨ (w.matches_ = none ∧ OwnExcludes env w.os.fs p)

/-- What `update_local` removes: a known path, not excluded, not in the way of a retained one. -/
def StalePath (env : Env) (w : World) (ps : List Path) (p : Path) : Prop :=
  Seen env w p ∧ ¬ Excl env w p ∧ p ∈ ADB.paths w.db ∧ ¬ Retained ps p ∧
    ¬ ∃ q ∈ ADB.paths w.db, p <+: q ∧ Retained ps q

/-- Everything that the local directory has at or below the path is removed by `update_local`. -/
def AllStale (env : Env) (w : World) (ps : List Path) (p : Path) : Prop :=
  ∀ q n, p <+: q → w.os.fs.get (env.loc ++ q) = some n → StalePath env w ps q ∧ n.isLink = false

/-- What the steps of a sync that work on the local directory keep of the rest of the state. -/
structure Rest (w w' : World) : Prop where
  db : w'.db = w.db
  rdb : w'.rdb = w.rdb
  rmemo : w'.rmemo = w.rmemo
  dbSaved : w'.dbSaved = w.dbSaved
  rdbSaved : w'.rdbSaved = w.rdbSaved
  last : w'.last = w.last
  lastSaved : w'.lastSaved = w.lastSaved

theorem wp_removeStale {env : Env} (ho : ∀ l, (env.order l).Perm l) (hl : env.loc ≠ []) {w : World} (wf : w.os.fs.WF)
    (ps : List Path) :
    wp (removeStale env ps)
      (fun _ w' => Rest w w' ∧
        (∃ S, (∀ p ∈ S, StalePath env w ps p) ∧ Shrink (StaleAt env w.os.fs S) w.os.fs w'.os.fs) ∧
        (∀ p, StalePath env w ps p → ∀ c m b, w'.os.fs.get (env.loc ++ p) ≠ some (.file c m b)) ∧
        ∀ p, AllStale env w ps p → w'.os.fs.get (env.loc ++ p) = none)
      (fun _ w' => ∃ S, (∀ p ∈ S, StalePath env w ps p) ∧ Shrink (StaleAt env w.os.fs S) w.os.fs w'.os.fs) w := by
  have hno : ∃ S, (∀ p ∈ S, StalePath env w ps p) ∧ Shrink (StaleAt env w.os.fs S) w.os.fs w.os.fs :=
    ⟨[], by simp, Shrink.refl _ _⟩
  have fin : ∀ (lk ex : List Path) (w1 : World), w1.os = w.os → Rest w w1 →
      (∀ p, p ∈ lk ↔ Seen env w p) → (∀ p, p ∈ lk → (p ∈ ex ↔ Excl env w p)) →
      wp (do
        let db ← gets World.db
        let stale := computeStale (lk.filter (fun p => decide (p ∉ ex))) db ps
        sys (each (staleOne env) (leafFirst (env.order stale))))
        (fun _ w' => Rest w w' ∧
          (∃ S, (∀ p ∈ S, StalePath env w ps p) ∧ Shrink (StaleAt env w.os.fs S) w.os.fs w'.os.fs) ∧
          (∀ p, StalePath env w ps p → ∀ c m b, w'.os.fs.get (env.loc ++ p) ≠ some (.file c m b)) ∧
        ∀ p, AllStale env w ps p → w'.os.fs.get (env.loc ++ p) = none)
        (fun _ w' => ∃ S, (∀ p ∈ S, StalePath env w ps p) ∧ Shrink (StaleAt env w.os.fs S) w.os.fs w'.os.fs) w1 := by
    intro lk ex w1 h1 h2 hlk hex
    rw [wp_bind, wp_gets, wp_sys, h1]
    have hS : ∀ p, p ∈ leafFirst (env.order (computeStale (lk.filter (fun p => decide (p ∉ ex))) w1.db ps)) ↔
        StalePath env w ps p := by
      intro p
      unfold leafFirst
      rw [(sortBy_perm _).mem_iff, (ho _).mem_iff, C30_stale, h2.db, List.mem_filter]
      unfold StalePath
      simp only [decide_eq_true_eq, and_assoc]
      constructor
      · rintro ⟨a, b, c⟩; exact ⟨(hlk p).1 a, fun h => b ((hex p a).2 h), c⟩
      · rintro ⟨a, b, c⟩
        have a' := (hlk p).2 a
        exact ⟨a', fun h => b ((hex p a').1 h), c⟩
    have hsort : (leafFirst (env.order (computeStale (lk.filter (fun p => decide (p ∉ ex))) w1.db ps))).Pairwise
        (fun a b => b.length ≤ a.length) := by
      refine (sortBy_sorted ?_ ?_ _).imp of_decide_eq_true
      · intro a b c h5 h6
        exact decide_eq_true (Nat.le_trans (of_decide_eq_true h6) (of_decide_eq_true h5))
      · intro a b
        rcases Nat.le_total b.length a.length with h5 | h5
        · exact Or.inl (decide_eq_true h5)
        · exact Or.inr (decide_eq_true h5)
    refine wp_mono (wp_staleLoop hl wf _ hsort) ?_ ?_
    · rintro _ s' ⟨h3, h4, h5⟩
      refine ⟨⟨h2.db, h2.rdb, h2.rmemo, h2.dbSaved, h2.rdbSaved, h2.last, h2.lastSaved⟩,
        ⟨_, fun p hp => (hS p).1 hp, h3⟩, fun p hp => h4 p ((hS p).2 hp), fun p hp => ?_⟩
      rcases Option.eq_none_or_eq_some (w.os.fs.get (env.loc ++ p)) with h6 | ⟨n, h6⟩
      · rcases h3.gone (env.loc ++ p) with h7 | h7
        · exact h7.trans h6
        · exact h7
      · exact h5 p ((hS p).2 (hp p n (List.prefix_refl _) h6).1)
          (fun q n hq hn => ⟨(hS q).2 (hp q n hq hn).1, (hp q n hq hn).2⟩)
    · intro e s' h3
      exact ⟨_, fun p hp => (hS p).1 hp, h3⟩
  have fin2 : ∀ (lk : List Path) (w1 : World), w1.os = w.os → w1.matches_ = w.matches_ → Rest w w1 →
      (∀ p, p ∈ lk ↔ Seen env w p) → (∀ p, Seen env w p → w.lmemo = [] → p ≠ [] ∧ ∃ n, w.os.fs.get (env.loc ++ p) = some n) →
      wp (do
        let ex ← exclMatches env
        let db ← gets World.db
        let stale := computeStale (lk.filter (fun p => decide (p ∉ ex))) db ps
        sys (each (staleOne env) (leafFirst (env.order stale))))
        (fun _ w' => Rest w w' ∧
          (∃ S, (∀ p ∈ S, StalePath env w ps p) ∧ Shrink (StaleAt env w.os.fs S) w.os.fs w'.os.fs) ∧
          (∀ p, StalePath env w ps p → ∀ c m b, w'.os.fs.get (env.loc ++ p) ≠ some (.file c m b)) ∧
        ∀ p, AllStale env w ps p → w'.os.fs.get (env.loc ++ p) = none)
        (fun _ w' => ∃ S, (∀ p ∈ S, StalePath env w ps p) ∧ Shrink (StaleAt env w.os.fs S) w.os.fs w'.os.fs) w1 := by
    intro lk w1 h1 hm h2 hlk _
    rw [wp_bind]
    apply wp_exclMatches
    · intro l hl'
      refine fin lk l w1 h1 h2 hlk ?_
      intro p _
      rw [hm] at hl'
      unfold Excl
      rw [hl']
      simp
    · intro hn q k m b hst
      refine fin lk _ _ h1 ⟨h2.db, h2.rdb, h2.rmemo, h2.dbSaved, h2.rdbSaved, h2.last, h2.lastSaved⟩ hlk ?_
      intro p _
      rw [hm] at hn
      rw [h1] at hst ⊢
      unfold Excl
      rw [hn, mem_allMatches_fs wf]
      simp only [reduceCtorEq, false_and, exists_false, false_or, true_and]
      constructor
      · intro h; exact ⟨q, k, m, b, hst, h⟩
      · rintro ⟨q', k', m', b', h3, h4⟩
        rw [hst] at h3; cases h3; exact h4
    · intro e; rw [h1]; exact hno
  unfold removeStale
  rw [wp_bind]
  have hR : ∀ m, Rest w { w with lmemo := m } := fun m => ⟨rfl, rfl, rfl, rfl, rfl, rfl, rfl⟩
  apply wp_scanLocal
  · intro hm
    refine fin2 w.lmemo.keys w rfl rfl (hR w.lmemo) ?_ (fun p _ h => absurd h hm)
    intro p
    unfold Seen
    simp [hm]
  · intro hm
    refine fin2 _ _ rfl rfl (hR _) ?_ ?_
    · intro p
      unfold Seen
      have := mem_keys_below wf (root := env.loc) (p := p)
      unfold Scan.keys
      rw [this]
      simp [hm]
    · intro p hp _
      rcases hp with ⟨h, _⟩ | ⟨_, h⟩
      · exact absurd hm h
      · exact h
  · intro e; exact hno

/-! ### Linking and copying -/

/-- The state in which the local directory is updated. -/
structure UpdReady (env : Env) (w : World) (ps : List Path) : Prop where
  wf : w.os.fs.WF
  apart : Apart env.loc env.rem
  order : ∀ l, (env.order l).Perm l
  loc_dir : w.os.fs.isDir env.loc = true
  rem_dir : w.os.fs.isDir env.rem = true
  sel : ∀ f ∈ ps, NoFileAbove w.os.fs env.rem f
  known : ∀ p ∈ ADB.paths w.db, p ≠ []
  nodup : (ADB.paths w.rdb).Nodup
  rows : ∀ e ∈ w.rdb, e.path ≠ [] ∧ GoodPath e.path ∧
    ∀ n, w.os.fs.get (env.rem ++ e.path) = some n → n.isDir = e.directory
  clean : ∀ p, Listed w.os.fs env.rem (some ps) p → ∀ q, q <+: p → Clean w.os.fs (env.rem ++ q) (env.loc ++ q)

/-- What holds however `update_local` ends. -/
structure UpdKept (env : Env) (w : World) (ps : List Path) (fs' : FS) : Prop where
  wf : fs'.WF
  out : ∀ q, ¬ (env.loc <+: q ∧ q ≠ env.loc) → fs'.get q = w.os.fs.get q
  loc : ∀ p n, w.os.fs.get (env.loc ++ p) = some n → fs'.get (env.loc ++ p) = some n ∨
    (StalePath env w ps p ∧ n.isLink = false) ∨ (Listed w.os.fs env.rem (some ps) p ∧ n.isDir = false)

/-- What holds after a success. -/
structure UpdDone (env : Env) (w : World) (ps : List Path) (fs' : FS) : Prop where
  sel : ∀ f ∈ ps, ∃ n, w.os.fs.get (env.rem ++ f) = some n
  copied : ∀ p n, Listed w.os.fs env.rem (some ps) p → w.os.fs.get (env.rem ++ p) = some n → n.isDir = false →
    fs'.get (env.loc ++ p) = some n
  files : ∀ e ∈ w.rdb, e.directory = false → ¬ Listed w.os.fs env.rem (some ps) e.path →
    (∃ n, w.os.fs.get (env.loc ++ e.path) = some n ∧ fs'.get (env.loc ++ e.path) = some n) ∨
    ∃ m, fs'.get (env.loc ++ e.path) = some (.link (absStr (env.rem ++ e.path)) m)
  dirs : ∀ e ∈ w.rdb, e.directory = true →
    (∀ n, w.os.fs.get (env.loc ++ e.path) = some n → n.isDir = true) → fs'.isDir (env.loc ++ e.path) = true
  present : ∀ e ∈ w.rdb, ∃ n, fs'.get (env.loc ++ e.path) = some n
  freed : ∀ p c m b, StalePath env w ps p → w.os.fs.get (env.loc ++ p) = some (.file c m b) →
    ¬ Listed w.os.fs env.rem (some ps) p → fs'.get (env.loc ++ p) ≠ some (.file c m b)
  made : ∀ p n, fs'.get (env.loc ++ p) = some n → (∃ n, w.os.fs.get (env.loc ++ p) = some n) ∨
    p ∈ ADB.paths w.rdb ∨ ∃ q, Listed w.os.fs env.rem (some ps) q ∧ p <+: q
  emptied : ∀ p, AllStale env w ps p → p ∉ ADB.paths w.rdb →
    (∀ q, Listed w.os.fs env.rem (some ps) q → ¬ p <+: q) → fs'.get (env.loc ++ p) = none

/-- Which paths are new, and therefore marked as not local. -/
structure NewPaths (env : Env) (w : World) (ps new : List Path) : Prop where
  row : ∀ p ∈ new, p ∈ ADB.paths w.rdb
  absent : ∀ p ∈ ADB.paths w.rdb, w.os.fs.get (env.loc ++ p) = none → p ∈ new
  stale : ∀ p ∈ ADB.paths w.rdb, StalePath env w ps p → ∀ c m b, w.os.fs.get (env.loc ++ p) = some (.file c m b) → p ∈ new
  only : ∀ p ∈ new, ∀ n, w.os.fs.get (env.loc ++ p) = some n → StalePath env w ps p ∧ n.isLink = false

theorem Clean.shrunk {P : Path → Prop} {fs fs' : FS} (h : Shrink P fs fs') {src dst : Path} (hc : Clean fs src dst)
    (hs : ¬ P src) : Clean fs' src dst := by
  rcases h.gone dst with h1 | h1
  · exact hc.congr (h.keeps _ hs) h1
  · exact clean_of_none h1

theorem mem_getPaths_rdir {a : ARemote} {d : Bool} {p : Path} :
    p ∈ ADB.paths (ARemote.getPaths a [] (some d) none) ↔ ∃ e ∈ a, e.path = p ∧ e.directory = d := by
  unfold ARemote.getPaths ADB.rows ADB.paths
  simp only [List.mem_map, List.mem_filter, List.nil_prefix, List.isPrefixOf_iff_prefix, and_true, Bool.and_true,
    decide_eq_true_eq, reduceCtorEq, Option.some.injEq, false_or, true_or]
  constructor
  · rintro ⟨e, ⟨h1, h2⟩, h3⟩; exact ⟨e, h1, h3, h2.symm⟩
  · rintro ⟨e, h1, h3, h2⟩; exact ⟨e, ⟨h1, h2.symm⟩, h3⟩

theorem nodup_getPaths_remote {a : ARemote} (h : (ADB.paths a).Nodup) (d : Option Bool) (l : Option Int) (root : Path) :
    (ADB.paths (ARemote.getPaths a root d l)).Nodup := by
  unfold ARemote.getPaths ADB.rows ADB.paths at *
  exact h.sublist (List.Sublist.map _ (List.filter_sublist.trans List.filter_sublist))

section
variable {env : Env} {w : World} {ps : List Path}

/-- After the links have been made. -/
structure UpdMid (env : Env) (w : World) (ps : List Path) (fs : FS) : Prop where
  wf : fs.WF
  out : ∀ q, ¬ (env.loc <+: q ∧ q ≠ env.loc) → fs.get q = w.os.fs.get q
  loc : ∀ p n, w.os.fs.get (env.loc ++ p) = some n → fs.get (env.loc ++ p) = some n ∨
    (StalePath env w ps p ∧ n.isLink = false)
  clean : ∀ p, Listed w.os.fs env.rem (some ps) p → ∀ q, q <+: p → Clean fs (env.rem ++ q) (env.loc ++ q)

theorem UpdReady.rem_out (h : UpdReady env w ps) (q : Path) : ¬ (env.loc <+: env.rem ++ q ∧ env.rem ++ q ≠ env.loc) :=
  fun h1 => h.apart.not_prefix [] q (by simpa using h1.1)

theorem UpdMid.rem (h : UpdReady env w ps) {fs : FS} (hm : UpdMid env w ps fs) (q : Path) :
    fs.get (env.rem ++ q) = w.os.fs.get (env.rem ++ q) := hm.out _ (h.rem_out q)

theorem UpdMid.kept {fs : FS} (hm : UpdMid env w ps fs) : UpdKept env w ps fs :=
  ⟨hm.wf, hm.out, fun p n hn => (hm.loc p n hn).imp_right Or.inl⟩

theorem UpdMid.refl (h : UpdReady env w ps) : UpdMid env w ps w.os.fs :=
  ⟨h.wf, fun _ _ => rfl, fun _ _ hn => Or.inl hn, h.clean⟩

theorem Listed.congr {fs fs' : FS} {root : Path} {files : Option (List Path)} {p : Path}
    (h : ∀ q, fs'.get (root ++ q) = fs.get (root ++ q)) : Listed fs' root files p ↔ Listed fs root files p := by
  unfold Listed; rw [h]

/-- Removing what is stale. -/
theorem UpdMid.stale (h : UpdReady env w ps) {S : List Path} (hS : ∀ p ∈ S, StalePath env w ps p)
    {fs : FS} (hs : Shrink (StaleAt env w.os.fs S) w.os.fs fs) : UpdMid env w ps fs where
  wf := hs.wf h.wf
  out := by
    intro q hq
    apply hs.keeps
    rintro ⟨p, hp, rfl, _⟩
    exact hq ⟨List.prefix_append _ _, by simpa using h.known p (hS p hp).2.2.1⟩
  loc := by
    intro p n hn
    by_cases hp : StaleAt env w.os.fs S (env.loc ++ p)
    · obtain ⟨p', hp', he, hl⟩ := hp
      rw [List.append_cancel_left_eq] at he
      subst he
      refine Or.inr ⟨hS p hp', ?_⟩
      cases n with
      | link t m => exact absurd hn (hl t m)
      | _ => rfl
    · exact Or.inl ((hs.keeps _ hp).trans hn)
  clean := by
    intro p hp q hq
    refine (h.clean p hp q hq).shrunk hs ?_
    rintro ⟨p', _, he, _⟩
    exact h.apart.ne p' q he.symm

/-- Making the links. -/
theorem UpdMid.links (h : UpdReady env w ps) {fs f1 f2 : FS} (hm : UpdMid env w ps fs)
    (hd : fs.isDir env.loc = true) (hg : Grow (fun q => q ≠ [] ∧ q <+: env.loc) fs f1)
    (hl : Linking env.rem env.loc (ADB.paths (ARemote.getPaths w.rdb [] (some true) none))
      (ADB.paths (ARemote.getPaths w.rdb [] (some false) none) ++ ADB.paths (ARemote.getPaths w.rdb [] (some true) none))
      false f1 f2) : UpdMid env w ps f2 := by
  have hf1 := hg.eq_of_dir hm.wf hd
  have hw1 := hg.wf_of_dir hm.wf hd
  have hmem : ∀ p, p ∈ ADB.paths (ARemote.getPaths w.rdb [] (some false) none) ++
      ADB.paths (ARemote.getPaths w.rdb [] (some true) none) → ∃ e ∈ w.rdb, e.path = p := by
    intro p hp
    rw [List.mem_append, mem_getPaths_rdir, mem_getPaths_rdir] at hp
    rcases hp with ⟨e, h1, h2, _⟩ | ⟨e, h1, h2, _⟩ <;> exact ⟨e, h1, h2⟩
  have hgl : GoodPath env.loc := by
    obtain ⟨m, b, h1⟩ := FS.isDir_iff.1 hd
    exact hm.wf.goodPath h1
  have hgr : GoodPath env.rem := by
    obtain ⟨m, b, h1⟩ := FS.isDir_iff.1 h.rem_dir
    exact h.wf.goodPath h1
  have hout : ∀ q, ¬ (env.loc <+: q ∧ q ≠ env.loc) → f2.get q = fs.get q := by
    intro q hq
    rw [hl.other q ?_, hf1]
    rintro p hp rfl
    obtain ⟨e, he, rfl⟩ := hmem p hp
    exact hq ⟨List.prefix_append _ _, by simpa using (h.rows e he).1⟩
  refine ⟨hl.wf hw1 ?_, ?_, ?_, ?_⟩
  · intro p hp
    obtain ⟨e, he, rfl⟩ := hmem p hp
    exact goodPath_append.2 ⟨hgl, (h.rows e he).2.1⟩
  · intro q hq
    rw [hout q hq, hm.out q hq]
  · intro p n hn
    rcases hm.loc p n hn with h1 | h1
    · exact Or.inl (hl.keeps rfl _ _ ((hf1 _).trans h1))
    · exact Or.inr h1
  · intro p hp q hq
    have hc := hm.clean p hp q hq
    have hs : f2.get (env.rem ++ q) = fs.get (env.rem ++ q) := hout _ (h.rem_out q)
    obtain ⟨n, hn, _⟩ := hp.some h.wf hq
    have hn2 : f2.get (env.rem ++ q) = some n := hs.trans ((hm.rem h q).trans hn)
    rcases Option.eq_none_or_eq_some (fs.get (env.loc ++ q)) with h1 | ⟨n', h1⟩
    · by_cases hq' : q ∈ ADB.paths (ARemote.getPaths w.rdb [] (some false) none) ++
        ADB.paths (ARemote.getPaths w.rdb [] (some true) none)
      · rcases hl.at_ q with h2 | ⟨h2, h3⟩ | ⟨h2, _, h3⟩
        · exact clean_of_none (h2.trans ((hf1 _).trans h1))
        · rcases h3 with h3 | ⟨now, h3⟩
          · exact clean_of_none h3
          · rw [List.mem_append, or_iff_left h2, mem_getPaths_rdir] at hq'
            obtain ⟨e, he, rfl, hed⟩ := hq'
            have hnd := ((h.rows e he).2.2 n hn).trans hed
            unfold Clean
            rw [h3]
            unfold linkNode
            rw [if_neg h2]
            refine ⟨by rw [isDir_iff_false hn2]; exact hnd, Or.inl ?_⟩
            exact FS.linkDest_abs (goodPath_append.2 ⟨hgr, (h.rows e he).2.1⟩) _
        · rw [mem_getPaths_rdir] at h2
          obtain ⟨e, he, rfl, hed⟩ := h2
          have hnd := ((h.rows e he).2.2 n hn).trans hed
          obtain ⟨m, b, h4⟩ := FS.isDir_iff.1 h3
          unfold Clean
          rw [h4]
          show f2.isDir _ = true
          rw [isDir_iff_false hn2]; exact hnd
      · refine clean_of_none ?_
        rw [hl.other _ ?_, hf1, h1]
        intro p' hp' he
        rw [List.append_cancel_left_eq] at he
        subst he
        exact hq' hp'
    · exact hc.congr hs ((hl.keeps rfl _ _ ((hf1 _).trans h1)).trans h1.symm)

/-- Copying. -/
theorem UpdMid.copy (h : UpdReady env w ps) {fs fs' : FS} (hm : UpdMid env w ps fs) {l : List Path}
    (hmv : Moving env.rem env.loc false fs l fs') (hl : ∀ p ∈ l, Listed fs env.rem (some ps) p) :
    UpdKept env w ps fs' := by
  have hl' : ∀ p ∈ l, Listed w.os.fs env.rem (some ps) p :=
    fun p hp => (Listed.congr (fun q => hm.rem h q)).1 (hl p hp)
  have hld : fs.isDir env.loc = true := by
    rw [FS.isDir_congr (hm.out env.loc (fun h1 => h1.2 rfl))]; exact h.loc_dir
  refine ⟨hmv.wf, ?_, ?_⟩
  · intro q hq
    rw [← hm.out q hq]
    by_cases hr : env.rem <+: q
    · obtain ⟨t, rfl⟩ := hr
      rcases hmv.src t with h1 | ⟨h1, _⟩
      · exact h1
      · cases h1
    · have hne : ∀ p ∈ l, q ≠ env.loc ++ p := by
        rintro p hp rfl
        exact hq ⟨List.prefix_append _ _, by simpa using (hl p hp).2.1⟩
      rcases Option.eq_none_or_eq_some (fs.get q) with hn | ⟨n, hn⟩
      · rcases hmv.new q hr hne hn with h1 | ⟨_, p, _, h1⟩
        · rw [h1, hn]
        · exfalso
          obtain ⟨m, b, hg⟩ := FS.isDir_iff.1 hld
          have hql : q <+: env.loc := by
            rcases List.prefix_or_prefix_of_prefix h1 (List.prefix_append env.loc p) with h2 | h2
            · exact h2
            · by_cases he : q = env.loc
              · rw [he]; exact List.prefix_refl _
              · exact absurd ⟨h2, he⟩ hq
          by_cases he : q = env.loc
          · rw [he, hg] at hn; cases hn
          · obtain ⟨m', b', h3⟩ := FS.isDir_iff.1 (hm.wf.isDir_prefix hg q hql he)
            rw [hn] at h3; cases h3
      · rw [hmv.keeps q hr hne n hn, hn]
  · intro p n hn
    rcases hm.loc p n hn with h1 | h1
    · have hnr : ¬ env.rem <+: env.loc ++ p := by simpa using h.apart.symm.not_prefix [] p
      by_cases hp : p ∈ l
      · cases hd : n.isDir with
        | true =>
          refine Or.inl ?_
          rw [hmv.ddir _ hnr (by rw [isDir_iff_false h1]; exact hd)]; exact h1
        | false => exact Or.inr (Or.inr ⟨hl' p hp, rfl⟩)
      · refine Or.inl (hmv.keeps _ hnr ?_ n h1)
        intro p' hp' he
        rw [List.append_cancel_left_eq] at he
        subst he
        exact hp hp'
    · exact Or.inr (Or.inl h1)

theorem wp_updateLocal (h : UpdReady env w (setOf ps)) :
    wp (updateLocal env ps)
      (fun _ w' => UpdKept env w (setOf ps) w'.os.fs ∧ UpdDone env w (setOf ps) w'.os.fs ∧
        ∃ new, Rest w { w' with db := w.db } ∧ w'.db = markLocal w.db (setOf ps) new ∧ NewPaths env w (setOf ps) new)
      (fun _ w' => UpdKept env w (setOf ps) w'.os.fs) w := by
  have hl0 : env.loc ≠ [] := h.apart.ne_nil
  unfold updateLocal
  rw [wp_bind]
  refine wp_mono (wp_removeStale h.order hl0 h.wf (setOf ps)) ?_ ?_
  swap
  · rintro e w1 ⟨S, hS, h1⟩
    exact (UpdMid.stale h hS h1).kept
  rintro _ w1 ⟨hrest, ⟨S, hS, hs⟩, hfree, hemp⟩
  have hm1 := UpdMid.stale h hS hs
  have hd1 : w1.os.fs.isDir env.loc = true := by
    rw [FS.isDir_congr (hm1.out env.loc (fun h1 => h1.2 rfl))]; exact h.loc_dir
  rw [wp_bind, wp_gets, wp_bind, wp_sys, hrest.rdb]
  apply wp_orRemote
  rw [wp_bind]
  have hrow : ∀ p ∈ ADB.paths (ARemote.getPaths w.rdb [] (some false) none) ++
      ADB.paths (ARemote.getPaths w.rdb [] (some true) none), p ≠ [] := by
    intro p hp
    rw [List.mem_append, mem_getPaths_rdir, mem_getPaths_rdir] at hp
    rcases hp with ⟨e, h1, rfl, _⟩ | ⟨e, h1, rfl, _⟩ <;> exact (h.rows e h1).1
  refine wp_mono (wp_symlinkTree (ow := false) (nodup_getPaths_remote h.nodup _ _ _) hrow w1.os) ?_ ?_
  swap
  · rintro e s2 ⟨f1, hg, hl⟩
    have := (UpdMid.links h hm1 hd1 hg hl).kept
    exact ⟨this, fun _ => this⟩
  rintro new s2 ⟨f1, hg, hl, hloop⟩
  have hm2 := UpdMid.links h hm1 hd1 hg hl
  have hf1 := hg.eq_of_dir hm1.wf hd1
  have hout2 : ∀ q, ¬ (env.loc <+: q ∧ q ≠ env.loc) → s2.fs.get q = w.os.fs.get q := hm2.out
  have hrd2 : s2.fs.isDir env.rem = true := by
    rw [FS.isDir_congr (by simpa using hm2.rem h [])]; exact h.rem_dir
  have hld2 : s2.fs.isDir env.loc = true := by
    rw [FS.isDir_congr (hm2.out env.loc (fun h1 => h1.2 rfl))]; exact h.loc_dir
  have hlist : ∀ p, Listed s2.fs env.rem (some (setOf ps)) p ↔ Listed w.os.fs env.rem (some (setOf ps)) p :=
    fun p => Listed.congr (fun q => hm2.rem h q)
  rw [wp_bind]
  refine wp_mono (wp_transferTree_missing (rm := false) (exclude := []) (fl := setOf ps) h.apart.symm hm2.wf hrd2 hld2 ?_ ?_) ?_ ?_
  · intro f hf q n h1 h2 h3
    rw [hm2.rem h q] at h3
    exact h.sel f hf q n h1 h2 h3
  · intro p hp _ q hq
    exact hm2.clean p ((hlist p).1 hp) q hq
  swap
  · rintro e s3 ⟨l, h1, h2⟩
    have := UpdMid.copy h hm2 h1 (fun p hp => (h2 p hp).1)
    exact ⟨this, fun _ => this⟩
  rintro _ s3 ⟨l, h1, h2, h3, hex⟩
  have hk := UpdMid.copy h hm2 h1.toMoving (fun p hp => (h2 p hp).1)
  rw [wp_pure, wp_modify]
  have hnr : ∀ p, ¬ env.rem <+: env.loc ++ p := fun p => by simpa using h.apart.symm.not_prefix [] p
  have hnl : ∀ p, p ∉ l → ∀ p' ∈ l, env.loc ++ p ≠ env.loc ++ p' := by
    intro p hp p' hp' he
    rw [List.append_cancel_left_eq] at he
    subst he
    exact hp hp'
  have hl' : ∀ p ∈ l, Listed w.os.fs env.rem (some (setOf ps)) p := fun p hp => (hlist p).1 (h2 p hp).1
  have hin : ∀ e ∈ w.rdb, e.path ∈ DB.sortDepth id ((ADB.paths (ARemote.getPaths w.rdb [] (some false) none)).foldl
      (fun acc p => setAdd p acc) (ADB.paths (ARemote.getPaths w.rdb [] (some true) none))) := by
    intro e he
    rw [mem_sortDepth, mem_foldl_setAdd, mem_getPaths_rdir, mem_getPaths_rdir]
    cases hd : e.directory with
    | true => exact Or.inl ⟨e, he, rfl, hd⟩
    | false => exact Or.inr ⟨e, he, rfl, hd⟩
  have hdirmem : ∀ e ∈ w.rdb, e.path ∈ ADB.paths (ARemote.getPaths w.rdb [] (some true) none) ↔ e.directory = true := by
    intro e he
    rw [mem_getPaths_rdir]
    constructor
    · rintro ⟨e', he', h4, h5⟩
      rw [← List.inj_on_of_nodup_map h.nodup he' he h4]; exact h5
    · intro h4; exact ⟨e, he, rfl, h4⟩
  have hpres : ∀ e ∈ w.rdb, ∃ n, s2.fs.get (env.loc ++ e.path) = some n := by
    intro e he
    rcases hloop.at_ e.path (hin e he) with ⟨now, h4, _⟩ | ⟨h4, h5, _⟩
    · exact ⟨_, h4⟩
    · rw [h4]; exact Option.isSome_iff_exists.1 h5
  have hin' : ∀ p, p ∈ DB.sortDepth id ((ADB.paths (ARemote.getPaths w.rdb [] (some false) none)).foldl
      (fun acc p => setAdd p acc) (ADB.paths (ARemote.getPaths w.rdb [] (some true) none))) → p ∈ ADB.paths w.rdb := by
    intro p hp
    rw [mem_sortDepth, mem_foldl_setAdd, mem_getPaths_rdir, mem_getPaths_rdir] at hp
    rcases hp with ⟨e, he, rfl, _⟩ | ⟨e, he, rfl, _⟩ <;> exact List.mem_map_of_mem he
  have stays : ∀ p, w1.os.fs.get (env.loc ++ p) = none → p ∉ ADB.paths w.rdb →
      (∀ q, Listed w.os.fs env.rem (some (setOf ps)) q → ¬ p <+: q) → s3.fs.get (env.loc ++ p) = none := by
    intro p h4 hx1 hx2
    have h5 : s2.fs.get (env.loc ++ p) = none := by
      rw [hloop.other _ ?_, hf1]; exact h4
      intro q hq he
      rw [List.append_cancel_left_eq] at he
      subst he
      exact hx1 (hin' _ hq)
    rcases h1.new _ (hnr _) (hnl p (fun h6 => hx2 p (hl' p h6) (List.prefix_refl _))) h5 with h6 | ⟨_, q, hq, h6⟩
    · exact h6
    · exact absurd ((List.prefix_append_right_inj _).1 h6) (hx2 q (hl' q hq))
  refine ⟨hk, ⟨?_, ?_, ?_, ?_, ?_, ?_, ?_, fun p h4 => stays p (hemp p h4)⟩, new, ?_, ?_, ?_, ?_, ?_, ?_⟩
  · intro f hf
    obtain ⟨n, h4⟩ := hex f hf
    exact ⟨n, (hm2.rem h f).symm.trans h4⟩
  · intro p n hp hn hnd
    have hn2 : s2.fs.get (env.rem ++ p) = some n := (hm2.rem h p).trans hn
    rcases h3 p ((hlist p).2 hp) (by simp) with h4 | h4
    · have := h1.copied p h4 n hn2
      unfold Copied at this
      cases n with
      | dir m b => cases hnd
      | file c m b => exact this
      | link t m => exact this
    · rw [isDir_iff_false hn2, hnd] at h4; cases h4
  · intro e he hed hx
    have hnl' := hnl e.path (fun h4 => hx (hl' _ h4))
    rcases hloop.at_ e.path (hin e he) with ⟨now, h4, _⟩ | ⟨h4, h5, _⟩
    · right
      unfold linkNode at h4
      rw [if_neg (by rw [hdirmem e he, hed]; simp)] at h4
      exact ⟨now, h1.keeps _ (hnr _) hnl' _ h4⟩
    · left
      obtain ⟨n, h6⟩ := Option.isSome_iff_exists.1 h5
      refine ⟨n, ?_, h1.keeps _ (hnr _) hnl' _ (h4.trans h6)⟩
      rw [hf1] at h6
      exact hs.some h6
  · intro e he hed hx
    have : s2.fs.isDir (env.loc ++ e.path) = true := by
      rcases hloop.at_ e.path (hin e he) with ⟨now, h4, _⟩ | ⟨h4, h5, _⟩
      · unfold linkNode at h4
        rw [if_pos ((hdirmem e he).2 hed)] at h4
        rw [isDir_iff_false h4]; rfl
      · obtain ⟨n, h6⟩ := Option.isSome_iff_exists.1 h5
        rw [isDir_iff_false (h4.trans h6)]
        rw [hf1] at h6
        exact hx n (hs.some h6)
    rw [FS.isDir_congr (h1.ddir _ (hnr _) this)]
    exact this
  · intro e he
    obtain ⟨n, hn⟩ := hpres e he
    by_cases hp : e.path ∈ l
    · obtain ⟨⟨n', hn'⟩, _⟩ := (h2 _ hp).1
      exact (h1.copied _ hp n' hn').isSome
    · exact ⟨n, h1.keeps _ (hnr _) (hnl _ hp) _ hn⟩
  · intro p c m b hp hn hx
    have hnl' := hnl p (fun h4 => hx (hl' _ h4))
    have hno : w1.os.fs.get (env.loc ++ p) = none := by
      rcases hs.gone (env.loc ++ p) with h4 | h4
      · exact absurd (h4.trans hn) (hfree p hp c m b)
      · exact h4
    have h2nf : s2.fs.get (env.loc ++ p) = none ∨ ∃ n, s2.fs.get (env.loc ++ p) = some n ∧ n ≠ .file c m b := by
      rcases hl.at_ p with h4 | ⟨h4, h5⟩ | ⟨_, _, h5⟩
      · exact Or.inl (h4.trans ((hf1 _).trans hno))
      · rcases h5 with h5 | ⟨now, h5⟩
        · exact Or.inl h5
        · refine Or.inr ⟨_, h5, ?_⟩
          unfold linkNode
          rw [if_neg h4]
          intro h6; cases h6
      · obtain ⟨m', b', h6⟩ := FS.isDir_iff.1 h5
        exact Or.inr ⟨_, h6, fun h7 => by cases h7⟩
    intro hcon
    rcases h2nf with h4 | ⟨n, h4, h5⟩
    · rcases h1.new _ (hnr _) hnl' h4 with h6 | ⟨h6, _⟩
      · rw [h6] at hcon; cases hcon
      · rw [isDir_iff_false hcon] at h6; cases h6
    · rw [h1.keeps _ (hnr _) hnl' _ h4] at hcon
      cases hcon
      exact h5 rfl
  · intro p n hn
    apply Classical.byContradiction
    intro hcon
    have hx : (∀ n, w.os.fs.get (env.loc ++ p) ≠ some n) ∧ p ∉ ADB.paths w.rdb ∧
        ∀ q, Listed w.os.fs env.rem (some (setOf ps)) q → ¬ p <+: q :=
      ⟨fun k hk => hcon (Or.inl ⟨k, hk⟩), fun h4 => hcon (Or.inr (Or.inl h4)),
        fun q h4 h5 => hcon (Or.inr (Or.inr ⟨q, h4, h5⟩))⟩
    have h0 : w.os.fs.get (env.loc ++ p) = none := by
      cases h4 : w.os.fs.get (env.loc ++ p) with
      | none => rfl
      | some k => exact absurd h4 (hx.1 k)
    have h4 : w1.os.fs.get (env.loc ++ p) = none := by
      rcases hs.gone (env.loc ++ p) with h4 | h4
      · exact h4.trans h0
      · exact h4
    rw [show s3.fs.get (env.loc ++ p) = none from stays p h4 hx.2.1 hx.2.2] at hn
    cases hn
  · exact ⟨rfl, rfl, hrest.rmemo, hrest.dbSaved, hrest.rdbSaved, hrest.last, hrest.lastSaved⟩
  · show markLocal w1.db _ _ = _
    rw [hrest.db]
  · intro p hp
    exact hin' p ((hloop.new p).1 hp).1
  · intro p hp h4
    obtain ⟨e, he, rfl⟩ := List.mem_map.1 hp
    refine (hloop.new _).2 ⟨hin e he, Or.inl ?_⟩
    rw [hf1]
    rcases hs.gone (env.loc ++ e.path) with h5 | h5
    · exact h5.trans h4
    · exact h5
  · intro p hp h4 c m b h5
    obtain ⟨e, he, rfl⟩ := List.mem_map.1 hp
    refine (hloop.new _).2 ⟨hin e he, Or.inl ?_⟩
    rw [hf1]
    rcases hs.gone (env.loc ++ e.path) with h6 | h6
    · exact absurd (h6.trans h5) (hfree _ h4 c m b)
    · exact h6
  · intro p hp n hn
    have h4 : w1.os.fs.get (env.loc ++ p) = none := by
      rcases (hloop.new p).1 hp with ⟨_, h4 | ⟨h4, _⟩⟩
      · rw [← hf1]; exact h4
      · cases h4
    by_cases hS1 : StaleAt env w.os.fs S (env.loc ++ p)
    · obtain ⟨q, hq, h5, h6⟩ := hS1
      rw [List.append_cancel_left_eq] at h5
      subst h5
      refine ⟨hS _ hq, ?_⟩
      cases n with
      | link t m => exact absurd hn (h6 t m)
      | _ => rfl
    · rw [hs.keeps _ hS1, hn] at h4; cases h4

end
end Verif
