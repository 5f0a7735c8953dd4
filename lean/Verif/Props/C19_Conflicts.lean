import Verif.Conflicts
import Verif.ExampleWorlds
/-
C19: `handle_conflicts`.
-/
namespace Verif
open Prog OSM Call FSTools WM

/-- `p` is among the changed paths of both sides, is not known as a directory, and the version in `root` is
older than the one in `other`. -/
def Older (db : ALocal) (fs : FS) (lps rps : List Path) (root other p : Path) : Prop :=
  p ∈ lps ∧ p ∈ rps ∧ ¬ DirRow db p ∧
    ∃ a b, fs.get (root ++ p) = some a ∧ fs.get (other ++ p) = some b ∧ a.mtime < b.mtime

/-- What is assumed about the state. The conflict names are free, and what has been changed on both sides is
not a directory in spite of the database; the scans, if there were any, are still right about these paths. -/
structure ConflictReady (env : Env) (w : World) (lps rps : List Path) : Prop where
  order : ∀ l, (env.order l).Perm l
  apart : Apart env.loc env.rem
  stamp : GoodStamp (env.stamp (w.os.clk w.os.tick))
  wf : w.os.fs.WF
  goodLoc : GoodPath env.loc
  goodRem : GoodPath env.rem
  paths : ∀ p ∈ lps, p ∈ rps → GoodPath p ∧ UserPath p
  lshows : w.lmemo ≠ [] → ∀ p ∈ lps, p ∈ rps → ¬ DirRow w.db p → w.lmemo.find p = w.os.fs.get (env.loc ++ p)
  rshows : w.rmemo ≠ [] → ∀ p ∈ lps, p ∈ rps → ¬ DirRow w.db p → w.rmemo.find p = w.os.fs.get (env.rem ++ p)
  lfile : ∀ p ∈ lps, p ∈ rps → ¬ DirRow w.db p → ∀ n, w.os.fs.get (env.loc ++ p) = some n → n.isDir = false
  rfile : ∀ p ∈ lps, p ∈ rps → ¬ DirRow w.db p → ∀ n, w.os.fs.get (env.rem ++ p) = some n → n.isDir = false
  lfree : ∀ p ∈ lps, p ∈ rps → ¬ DirRow w.db p →
    w.os.fs.get (env.loc ++ conflictPath (env.stamp (w.os.clk w.os.tick)) p) = none
  rfree : ∀ p ∈ lps, p ∈ rps → ¬ DirRow w.db p →
    w.os.fs.get (env.rem ++ conflictPath (env.stamp (w.os.clk w.os.tick)) p) = none

/-- The paths in `DL` have been renamed on the local side, those in `DR` on the remote side; nothing else has
changed. -/
structure ConflictEff (env : Env) (cp : Path → Path) (DL DR : Path → Prop) (fs fs' : FS) : Prop where
  wf : fs'.WF
  loc : ∀ p, DL p → fs'.get (env.loc ++ cp p) = fs.get (env.loc ++ p) ∧ fs'.get (env.loc ++ p) = none
  rem : ∀ p, DR p → fs'.get (env.rem ++ cp p) = fs.get (env.rem ++ p) ∧ fs'.get (env.rem ++ p) = none
  other : ∀ x, (∀ p, DL p → x ≠ env.loc ++ p ∧ x ≠ env.loc ++ cp p) →
    (∀ p, DR p → x ≠ env.rem ++ p ∧ x ≠ env.rem ++ cp p) → fs'.get x = fs.get x

section
variable {env : Env} {w : World} {lps rps : List Path}

theorem ConflictReady.canRename (h : ConflictReady env w lps rps) {root other : Path} (hg : GoodPath root)
    {fs : FS} (hsame : ∀ p, fs.get (root ++ p) = w.os.fs.get (root ++ p))
    (hfile : ∀ p ∈ lps, p ∈ rps → ¬ DirRow w.db p → ∀ n, w.os.fs.get (root ++ p) = some n → n.isDir = false)
    (hfree : ∀ p ∈ lps, p ∈ rps → ¬ DirRow w.db p →
      w.os.fs.get (root ++ conflictPath (env.stamp (w.os.clk w.os.tick)) p) = none)
    {prs : List (Path × Path)} (hn : (prs.map Prod.fst).Nodup)
    (hprs : ∀ p q, (p, q) ∈ prs ↔ Older w.db w.os.fs lps rps root other p ∧
      q = conflictPath (env.stamp (w.os.clk w.os.tick)) p) : CanRename root fs prs := by
  have key : ∀ pr ∈ prs, Older w.db w.os.fs lps rps root other pr.1 ∧
      pr.2 = conflictPath (env.stamp (w.os.clk w.os.tick)) pr.1 := fun pr hpr => (hprs pr.1 pr.2).1 hpr
  refine ⟨?_, ?_, ?_, hn, ?_, ?_⟩
  · intro pr hpr
    obtain ⟨⟨h1, h2, _⟩, h3⟩ := key pr hpr
    obtain ⟨h4, h5⟩ := h.paths _ h1 h2
    rw [h3]
    exact goodPath_append.2 ⟨hg, goodPath_conflictPath h.stamp h4 h5.1⟩
  · intro pr hpr n hn
    obtain ⟨⟨h1, h2, hd, _⟩, h3⟩ := key pr hpr
    rw [hsame] at hn
    exact hfile _ h1 h2 hd n hn
  · intro pr hpr
    obtain ⟨⟨h1, h2, hd, _⟩, h3⟩ := key pr hpr
    rw [hsame, h3]
    exact hfree _ h1 h2 hd
  · rw [List.nodup_iff_pairwise_ne, List.pairwise_map] at hn ⊢
    refine List.Pairwise.imp_of_mem ?_ hn
    intro a b ha hb hne he
    obtain ⟨⟨h1, h2, _⟩, h3⟩ := key a ha
    obtain ⟨⟨h1', h2', _⟩, h3'⟩ := key b hb
    rw [h3, h3'] at he
    exact hne (conflictPath_inj h.stamp (h.paths _ h1 h2).1 (h.paths _ h1 h2).2.1 (h.paths _ h1' h2').1
      (h.paths _ h1' h2').2.1 he)
  · intro a ha b hb he
    obtain ⟨⟨_, _, _, n, _, hn, _⟩, _⟩ := key a ha
    obtain ⟨⟨h1', h2', hd, _⟩, h3'⟩ := key b hb
    rw [he, h3', hfree _ h1' h2' hd] at hn
    cases hn

/-- The effect on the files at a crash point. -/
def HandledPart (env : Env) (w : World) (lps rps : List Path) (w' : World) : Prop :=
  ∃ DL DR : Path → Prop,
    (∀ p, DL p → Older w.db w.os.fs lps rps env.loc env.rem p) ∧
    (∀ p, DR p → Older w.db w.os.fs lps rps env.rem env.loc p) ∧
    ConflictEff env (conflictPath (env.stamp (w.os.clk w.os.tick))) DL DR w.os.fs w'.os.fs

/-- All files that were changed on both sides are there. -/
def BothThere (env : Env) (w : World) (lps rps : List Path) : Prop :=
  ∀ p ∈ lps, p ∈ rps → ¬ DirRow w.db p → ∃ a b, w.os.fs.get (env.loc ++ p) = some a ∧
    w.os.fs.get (env.rem ++ p) = some b

/-- The effect at success. -/
structure Handled (env : Env) (w : World) (lps rps : List Path) (r : UpdatedPaths) (w' : World) : Prop where
  files : ConflictEff env (conflictPath (env.stamp (w.os.clk w.os.tick)))
    (Older w.db w.os.fs lps rps env.loc env.rem) (Older w.db w.os.fs lps rps env.rem env.loc) w.os.fs w'.os.fs
  found : ∀ p ∈ lps, p ∈ rps → ¬ DirRow w.db p → ∃ a b, w.os.fs.get (env.loc ++ p) = some a ∧
    w.os.fs.get (env.rem ++ p) = some b
  rows : ∃ prsL prsR n1 n2 m1 m2,
    w' = { (({ w with lmemo := m1, rmemo := m2 } : World).renamedRows prsL n1).renamedRows prsR n2
      with os := w'.os } ∧
    (m1 = w.lmemo ∨ (w.lmemo = [] ∧ m1 = w.os.fs.below env.loc)) ∧ (m2 = w.rmemo ∨ m2 = w.os.fs.below env.rem) ∧
    (∀ p q, (p, q) ∈ prsL ↔ Older w.db w.os.fs lps rps env.loc env.rem p ∧
      q = conflictPath (env.stamp (w.os.clk w.os.tick)) p) ∧
    (∀ p q, (p, q) ∈ prsR ↔ Older w.db w.os.fs lps rps env.rem env.loc p ∧
      q = conflictPath (env.stamp (w.os.clk w.os.tick)) p)
  loc : ∀ q, q ≠ [] → (q ∈ r.loc ↔ (q ∈ lps ∧ ¬ Older w.db w.os.fs lps rps env.loc env.rem q) ∨
    ∃ p, Older w.db w.os.fs lps rps env.loc env.rem p ∧ q = conflictPath (env.stamp (w.os.clk w.os.tick)) p)
  rem : ∀ q, q ≠ [] → (q ∈ r.rem ↔ (q ∈ rps ∧ ¬ Older w.db w.os.fs lps rps env.rem env.loc q) ∨
    ∃ p, Older w.db w.os.fs lps rps env.rem env.loc p ∧ q = conflictPath (env.stamp (w.os.clk w.os.tick)) p)
  nonempty : ∀ q, q ∈ r.loc ∨ q ∈ r.rem → q ≠ []

/-- `handle_conflicts` after the scans. -/
def conflictTail (env : Env) (lps rps : List Path) (l r : Scan) : WM UpdatedPaths := do
  let db ← gets World.db
  let now ← sys time
  let d ← sys (query (fun _ => conflictLoop env db now l r
    (env.order ((setOf lps).filter (fun p => decide (p ∈ setOf rps))))
      (PathsDiff.init (setOf lps), PathsDiff.init (setOf rps))))
  renameLocal env (PathsDiff.modPaths d.1)
  renameRemote env (PathsDiff.modPaths d.2)
  pure ⟨setOf (PathsDiff.resPaths d.1), setOf (PathsDiff.resPaths d.2)⟩

theorem handledPart_refl (h : ConflictReady env w lps rps) {w' : World} (hw : w'.os.fs = w.os.fs) :
    HandledPart env w lps rps w' :=
  ⟨fun _ => False, fun _ => False, fun _ x => x.elim, fun _ x => x.elim, by rw [hw]; exact h.wf, fun _ x => x.elim,
    fun _ x => x.elim, fun _ _ _ => by rw [hw]⟩

open Classical in
theorem wp_conflictTail (h : ConflictReady env w lps rps) {l r m1 m2 : Scan}
    (hm1 : m1 = w.lmemo ∨ (w.lmemo = [] ∧ m1 = w.os.fs.below env.loc)) (hm2 : m2 = w.rmemo ∨ m2 = w.os.fs.below env.rem)
    (hl : ∀ p ∈ lps, p ∈ rps → ¬ DirRow w.db p → l.find p = w.os.fs.get (env.loc ++ p))
    (hr : ∀ p ∈ lps, p ∈ rps → ¬ DirRow w.db p → r.find p = w.os.fs.get (env.rem ++ p)) :
    wp (conflictTail env lps rps l r) (Handled env w lps rps)
      (fun e w' => HandledPart env w lps rps w' ∧ (BothThere env w lps rps → e = .killed))
      { w with lmemo := m1, rmemo := m2 } := by
  have hml : ∀ {p}, p ∈ setOf lps ↔ p ∈ lps := mem_setOf
  have hmr : ∀ {p}, p ∈ setOf rps ↔ p ∈ rps := mem_setOf
  unfold conflictTail
  rw [wp_bind, wp_gets, wp_bind, wp_sys, wp_time, wp_bind, wp_sys, wp_query]
  have hmem : ∀ p, p ∈ env.order ((setOf lps).filter (fun p => decide (p ∈ setOf rps))) ↔ p ∈ lps ∧ p ∈ rps := by
    intro p
    rw [(h.order _).mem_iff, List.mem_filter, hml, decide_eq_true_eq, hmr]
  refine ⟨?_, fun e he => ⟨handledPart_refl h rfl, fun hb => ?_⟩⟩
  swap
  · exfalso
    obtain ⟨d, hd⟩ := conflictLoop_some (env := env) (db := w.db) (now := w.os.clk w.os.tick) (l := l) (r := r)
      (ps := env.order ((setOf lps).filter (fun p => decide (p ∈ setOf rps))))
      (d := (PathsDiff.init (setOf lps), PathsDiff.init (setOf rps))) (by
        intro p hp hD
        obtain ⟨h1, h2⟩ := (hmem p).1 hp
        rw [hl p h1 h2 hD, hr p h1 h2 hD]
        exact hb p h1 h2 hD)
    have := he.symm.trans hd
    cases this
  intro d hd
  dsimp only at hd ⊢
  have hd' := conflictLoop_ok (L := setOf lps) (R := setOf rps) (o1 := []) (o2 := []) hd
  obtain ⟨hd1, hfound⟩ := hd'
  simp only [List.nil_append] at hd1
  have older : ∀ {p}, p ∈ lps → p ∈ rps → ((OlderIn w.db l r p ↔ Older w.db w.os.fs lps rps env.loc env.rem p) ∧
      (OlderIn w.db r l p ↔ Older w.db w.os.fs lps rps env.rem env.loc p)) := by
    intro p h1 h2
    unfold OlderIn Older
    by_cases hD : DirRow w.db p
    · simp [hD]
    · rw [hl p h1 h2 hD, hr p h1 h2 hD]
      simp [hD, h1, h2]
  generalize hSL : (env.order ((setOf lps).filter (fun p => decide (p ∈ setOf rps)))).filter
    (fun p => decide (OlderIn w.db l r p)) = SL at hd1
  generalize hSR : (env.order ((setOf lps).filter (fun p => decide (p ∈ setOf rps)))).filter
    (fun p => decide (OlderIn w.db r l p)) = SR at hd1
  have mSL : ∀ p, p ∈ SL ↔ Older w.db w.os.fs lps rps env.loc env.rem p := by
    intro p
    rw [← hSL, List.mem_filter, hmem, decide_eq_true_eq]
    constructor
    · rintro ⟨⟨h1, h2⟩, h3⟩; exact (older h1 h2).1.1 h3
    · intro h1; exact ⟨⟨h1.1, h1.2.1⟩, (older h1.1 h1.2.1).1.2 h1⟩
  have mSR : ∀ p, p ∈ SR ↔ Older w.db w.os.fs lps rps env.rem env.loc p := by
    intro p
    rw [← hSR, List.mem_filter, hmem, decide_eq_true_eq]
    constructor
    · rintro ⟨⟨h1, h2⟩, h3⟩; exact (older h1 h2).2.1 h3
    · intro h1; exact ⟨⟨h1.1, h1.2.1⟩, (older h1.1 h1.2.1).2.2 h1⟩
  have good : ∀ {p root other}, Older w.db w.os.fs lps rps root other p → p ≠ [] ∧
      p ≠ conflictPath (env.stamp (w.os.clk w.os.tick)) p ∧ conflictPath (env.stamp (w.os.clk w.os.tick)) p ≠ [] := by
    intro p root other h1
    obtain ⟨h2, h3⟩ := h.paths p h1.1 h1.2.1
    exact ⟨h3.1, fun e => conflictPath_ne h.stamp h2 h3.1 e.symm, conflictPath_ne_nil h.stamp h2 h3.1⟩
  have mPL : ∀ p q, (p, q) ∈ PathsDiff.modPaths d.1 ↔ Older w.db w.os.fs lps rps env.loc env.rem p ∧
      q = conflictPath (env.stamp (w.os.clk w.os.tick)) p := by
    intro p q
    rw [hd1, PathsDiff.mem_mod_renames, mSL, hml]
    constructor
    · rintro ⟨_, h2, h3, _⟩; exact ⟨h2, h3⟩
    · rintro ⟨h2, rfl⟩
      exact ⟨h2.1, h2, rfl, (good h2).2.1, (good h2).1, (good h2).2.2⟩
  have mPR : ∀ p q, (p, q) ∈ PathsDiff.modPaths d.2 ↔ Older w.db w.os.fs lps rps env.rem env.loc p ∧
      q = conflictPath (env.stamp (w.os.clk w.os.tick)) p := by
    intro p q
    rw [hd1, PathsDiff.mem_mod_renames, mSR, hmr]
    constructor
    · rintro ⟨_, h2, h3, _⟩; exact ⟨h2, h3⟩
    · rintro ⟨h2, rfl⟩
      exact ⟨h2.2.1, h2, rfl, (good h2).2.1, (good h2).1, (good h2).2.2⟩
  have nPL : ((PathsDiff.modPaths d.1).map Prod.fst).Nodup := by
    rw [hd1]; exact PathsDiff.nodup_mod_renames (nodup_setOf _)
  have nPR : ((PathsDiff.modPaths d.2).map Prod.fst).Nodup := by
    rw [hd1]; exact PathsDiff.nodup_mod_renames (nodup_setOf _)
  have rL : ∀ q, q ≠ [] → (q ∈ setOf (PathsDiff.resPaths d.1) ↔
      (q ∈ lps ∧ ¬ Older w.db w.os.fs lps rps env.loc env.rem q) ∨
      ∃ p, Older w.db w.os.fs lps rps env.loc env.rem p ∧
        q = conflictPath (env.stamp (w.os.clk w.os.tick)) p) := by
    intro q hq
    rw [mem_setOf, hd1, PathsDiff.mem_res_renames hq]
    constructor
    · rintro ⟨p, h1, h2⟩
      split at h2
      · rename_i h3; exact Or.inr ⟨p, (mSL p).1 h3, h2⟩
      · rename_i h3; subst h2; exact Or.inl ⟨hml.1 h1, fun h4 => h3 ((mSL _).2 h4)⟩
    · rintro (⟨h1, h2⟩ | ⟨p, h1, h2⟩)
      · exact ⟨q, hml.2 h1, by rw [if_neg (fun h4 => h2 ((mSL _).1 h4))]⟩
      · exact ⟨p, hml.2 h1.1, by rw [if_pos ((mSL _).2 h1)]; exact h2⟩
  have rR : ∀ q, q ≠ [] → (q ∈ setOf (PathsDiff.resPaths d.2) ↔
      (q ∈ rps ∧ ¬ Older w.db w.os.fs lps rps env.rem env.loc q) ∨
      ∃ p, Older w.db w.os.fs lps rps env.rem env.loc p ∧
        q = conflictPath (env.stamp (w.os.clk w.os.tick)) p) := by
    intro q hq
    rw [mem_setOf, hd1, PathsDiff.mem_res_renames hq]
    constructor
    · rintro ⟨p, h1, h2⟩
      split at h2
      · rename_i h3; exact Or.inr ⟨p, (mSR p).1 h3, h2⟩
      · rename_i h3; subst h2; exact Or.inl ⟨hmr.1 h1, fun h4 => h3 ((mSR _).2 h4)⟩
    · rintro (⟨h1, h2⟩ | ⟨p, h1, h2⟩)
      · exact ⟨q, hmr.2 h1, by rw [if_neg (fun h4 => h2 ((mSR _).1 h4))]⟩
      · exact ⟨p, hmr.2 h1.2.1, by rw [if_pos ((mSR _).2 h1)]; exact h2⟩
  -- local renames
  have cl := h.canRename (other := env.rem) h.goodLoc (fs := w.os.fs) (fun _ => rfl) h.lfile h.lfree nPL mPL
  rw [wp_bind]
  unfold renameLocal
  refine wp_mono (wp_renameFiles (Q := fun s => Renamed env.loc w.os.fs (PathsDiff.modPaths d.1) s.fs)
    (E := fun e s => (∃ done, done <+: PathsDiff.modPaths d.1 ∧ Renamed env.loc w.os.fs done s.fs) ∧ e = .killed)
    (wp_mono (wp_renameAll h.wf cl) (fun _ _ x => x) (fun _ _ x => ⟨x.1, x.2 (fun pr hpr => ?_)⟩))) ?_ ?_
  · obtain ⟨h1, h2⟩ := (mPL pr.1 pr.2).1 hpr
    obtain ⟨g1, _, g3⟩ := good h1
    obtain ⟨h3, h4⟩ := h.paths _ h1.1 h1.2.1
    obtain ⟨_, _, _, n, _, hn, _⟩ := h1
    exact ⟨g1, by rw [h2]; exact g3, ⟨n, hn⟩, by rw [h2]; exact dropLast_conflictPath h.stamp h3 h4.1⟩
  · rintro _ w1 ⟨hR, n1, hw1⟩
    have same : ∀ p, w1.os.fs.get (env.rem ++ p) = w.os.fs.get (env.rem ++ p) := by
      intro p
      apply hR.other
      intro pr _
      exact ⟨fun e => h.apart.ne pr.1 p e.symm, fun e => h.apart.ne pr.2 p e.symm⟩
    have cr := h.canRename (other := env.loc) h.goodRem same h.rfile h.rfree nPR mPR
    rw [wp_bind]
    unfold renameRemote
    -- both renames together
    have comb : ∀ (done : List (Path × Path)) (s : OS), (∀ pr ∈ done, pr ∈ PathsDiff.modPaths d.2) →
        Renamed env.rem w1.os.fs done s.fs →
        ConflictEff env (conflictPath (env.stamp (w.os.clk w.os.tick)))
          (Older w.db w.os.fs lps rps env.loc env.rem)
          (fun p => (p, conflictPath (env.stamp (w.os.clk w.os.tick)) p) ∈ done) w.os.fs s.fs := by
      intro done s hdone hD
      refine ⟨hD.wf, ?_, ?_, ?_⟩
      · intro p hp
        obtain ⟨⟨n, a1, a2⟩, a3⟩ := hR.moved _ ((mPL p _).2 ⟨hp, rfl⟩)
        have : ∀ x, s.fs.get (env.loc ++ x) = w1.os.fs.get (env.loc ++ x) := by
          intro x
          apply hD.other
          intro pr _
          exact ⟨fun e => h.apart.ne x pr.1 e, fun e => h.apart.ne x pr.2 e⟩
        rw [this, this, a1]
        exact ⟨a2, a3⟩
      · intro p hp
        obtain ⟨⟨n, a1, a2⟩, a3⟩ := hD.moved _ hp
        rw [same] at a1
        dsimp only at a1 a2 a3
        rw [a1]
        exact ⟨a2, a3⟩
      · intro x hx hx'
        rw [hD.other, hR.other]
        · rintro ⟨p, q⟩ hpq
          obtain ⟨h1, rfl⟩ := (mPL p q).1 hpq
          exact hx p h1
        · rintro ⟨p, q⟩ hpq
          obtain ⟨h1, rfl⟩ := (mPR p q).1 (hdone _ hpq)
          exact hx' p hpq
    refine wp_mono (wp_renameFiles (Q := fun s => Renamed env.rem w1.os.fs (PathsDiff.modPaths d.2) s.fs)
      (E := fun e s => (∃ done, done <+: PathsDiff.modPaths d.2 ∧ Renamed env.rem w1.os.fs done s.fs) ∧ e = .killed)
      (wp_orRemote_killed (wp_mono (wp_renameAll hR.wf cr) (fun _ _ x => x)
        (fun _ _ x => ⟨x.1, x.2 (fun pr hpr => ?_)⟩)))) ?_ ?_
    · obtain ⟨h1, h2⟩ := (mPR pr.1 pr.2).1 hpr
      obtain ⟨g1, _, g3⟩ := good h1
      obtain ⟨h3, h4⟩ := h.paths _ h1.1 h1.2.1
      obtain ⟨_, _, _, n, _, hn, _⟩ := h1
      exact ⟨g1, by rw [h2]; exact g3, ⟨n, by rw [same]; exact hn⟩, by rw [h2]; exact dropLast_conflictPath h.stamp h3 h4.1⟩
    · rintro _ w2 ⟨hR2, n2, hw2⟩
      rw [wp_pure]
      have hf := comb _ w2.os (fun _ x => x) hR2
      refine ⟨⟨hf.wf, hf.loc, ?_, ?_⟩, ?_, ⟨PathsDiff.modPaths d.1, PathsDiff.modPaths d.2, n1, n2, m1, m2, ?_,
        hm1, hm2, mPL, mPR⟩, rL, rR,
        fun q hq => hq.elim (fun x => PathsDiff.ne_nil_of_mem_resPaths (mem_setOf.1 x)) (fun x => PathsDiff.ne_nil_of_mem_resPaths (mem_setOf.1 x))⟩
      · intro p hp; exact hf.rem p ((mPR _ _).2 ⟨hp, rfl⟩)
      · intro x hx hx'
        exact hf.other x hx (fun p hp => hx' p ((mPR _ _).1 hp).1)
      · intro p h1 h2 hD
        obtain ⟨a, b, h3, h4⟩ := hfound p ((hmem p).2 ⟨h1, h2⟩) hD
        rw [hl p h1 h2 hD] at h3
        rw [hr p h1 h2 hD] at h4
        exact ⟨a, b, h3, h4⟩
      · rw [hw2]
        conv => lhs; rw [hw1]
        rfl
    · rintro _ w2 ⟨⟨⟨done, hp, hD⟩, hk⟩, hw2⟩
      exact ⟨⟨_, _, fun p hp => hp, fun p hpd => ((mPR _ _).1 (hp.subset hpd)).1,
        comb done w2.os (fun pr hpr => hp.subset hpr) hD⟩, fun _ => hk⟩
  · rintro _ w1 ⟨⟨⟨done, hp, hD⟩, hk⟩, hw1⟩
    refine ⟨?_, fun _ => hk⟩
    refine ⟨fun p => (p, conflictPath (env.stamp (w.os.clk w.os.tick)) p) ∈ done, fun _ => False,
      fun p hpd => ((mPL _ _).1 (hp.subset hpd)).1, fun _ x => x.elim, hD.wf, ?_, fun _ x => x.elim, ?_⟩
    · intro p hp
      obtain ⟨⟨n, a1, a2⟩, a3⟩ := hD.moved _ hp
      dsimp only at a1 a2 a3
      rw [a1]
      exact ⟨a2, a3⟩
    · intro x hx _
      apply hD.other
      rintro ⟨p, q⟩ hpq
      obtain ⟨h1, rfl⟩ := (mPL p q).1 (hp.subset hpq)
      exact hx p hpq

/-- What `handle_conflicts` does: to the files at success and at every crash point, to the rest at success. -/
theorem wp_handleConflicts (h : ConflictReady env w lps rps) :
    wp (handleConflicts env lps rps) (Handled env w lps rps) (fun e w' => HandledPart env w lps rps w' ∧
      (w.os.fs.isDir env.loc = true → w.os.fs.isDir env.rem = true → BothThere env w lps rps → e = .killed)) w := by
  have e : handleConflicts env lps rps = scanLocal env >>= fun l => scanRemote env >>= fun r =>
    conflictTail env lps rps l r := rfl
  have e0 := handledPart_refl h (w' := w) rfl
  have tail : ∀ {l r m1 m2 : Scan}, (m1 = w.lmemo ∨ (w.lmemo = [] ∧ m1 = w.os.fs.below env.loc)) →
      (m2 = w.rmemo ∨ m2 = w.os.fs.below env.rem) →
      (∀ p ∈ lps, p ∈ rps → ¬ DirRow w.db p → l.find p = w.os.fs.get (env.loc ++ p)) →
      (∀ p ∈ lps, p ∈ rps → ¬ DirRow w.db p → r.find p = w.os.fs.get (env.rem ++ p)) →
      wp (conflictTail env lps rps l r) (Handled env w lps rps) (fun e w' => HandledPart env w lps rps w' ∧
        (w.os.fs.isDir env.loc = true → w.os.fs.isDir env.rem = true → BothThere env w lps rps → e = .killed))
        { w with lmemo := m1, rmemo := m2 } :=
    fun a b c d => wp_mono (wp_conflictTail h a b c d) (fun _ _ x => x) (fun _ _ x => ⟨x.1, fun _ _ => x.2⟩)
  have fr : ∀ p ∈ lps, p ∈ rps → ¬ DirRow w.db p →
      (Scan.user (w.os.fs.below env.rem)).find p = w.os.fs.get (env.rem ++ p) := by
    intro p h1 h2 _
    rw [find_user (h.paths p h1 h2).2]
    exact find_below h.wf (h.paths p h1 h2).2.1
  have fm : w.rmemo ≠ [] → ∀ p ∈ lps, p ∈ rps → ¬ DirRow w.db p →
      w.rmemo.user.find p = w.os.fs.get (env.rem ++ p) := by
    intro hm p h1 h2 hd
    rw [find_user (h.paths p h1 h2).2]
    exact h.rshows hm p h1 h2 hd
  have fl : ∀ p ∈ lps, p ∈ rps → ¬ DirRow w.db p →
      Scan.find (w.os.fs.below env.loc) p = w.os.fs.get (env.loc ++ p) :=
    fun p h1 h2 _ => find_below h.wf (h.paths p h1 h2).2.1
  rw [e, wp_bind]
  refine wp_scanLocal' h.wf ?_ ?_ (fun e x => ⟨e0, fun y _ _ => x y⟩)
  · intro hm
    rw [wp_bind]
    refine wp_scanRemote' h.wf ?_ ?_ (fun e x => ⟨e0, fun _ y _ => x y⟩)
    · intro hm'
      exact tail (m1 := w.lmemo) (m2 := w.rmemo) (Or.inl rfl) (Or.inl rfl) (h.lshows hm) (fm hm')
    · intro hm'
      exact tail (m1 := w.lmemo) (Or.inl rfl) (Or.inr rfl) (h.lshows hm) fr
  · intro hm
    rw [wp_bind]
    refine wp_scanRemote' h.wf ?_ ?_ (fun e x => ⟨handledPart_refl h rfl, fun _ y _ => x y⟩)
    · intro hm'
      exact tail (m2 := w.rmemo) (Or.inr ⟨hm, rfl⟩) (Or.inl rfl) fl (fm hm')
    · intro hm'
      exact tail (Or.inr ⟨hm, rfl⟩) (Or.inr rfl) fl fr

/-- C19 at success: of a file that was changed on both sides, the older version is on its own side under the
conflict name, and the newer one is in place. Not covered: conflict names that are taken (see
`C19_taken_fails`). -/
theorem C19_both_kept_partial (h : ConflictReady env w lps rps) {r : UpdatedPaths} {w' : World}
    (hrun : handleConflicts env lps rps w = (.ok r, w')) {p : Path} (hl : p ∈ lps) (hr : p ∈ rps)
    (hd : ¬ DirRow w.db p) :
    ∃ a b, w.os.fs.get (env.loc ++ p) = some a ∧ w.os.fs.get (env.rem ++ p) = some b ∧
      (a.mtime < b.mtime →
        w'.os.fs.get (env.loc ++ conflictPath (env.stamp (w.os.clk w.os.tick)) p) = some a ∧
        w'.os.fs.get (env.loc ++ p) = none ∧ w'.os.fs.get (env.rem ++ p) = some b) ∧
      (b.mtime < a.mtime →
        w'.os.fs.get (env.rem ++ conflictPath (env.stamp (w.os.clk w.os.tick)) p) = some b ∧
        w'.os.fs.get (env.rem ++ p) = none ∧ w'.os.fs.get (env.loc ++ p) = some a) := by
  have H := wp_ok (wp_handleConflicts h) hrun
  obtain ⟨a, b, ha, hb⟩ := H.found p hl hr hd
  refine ⟨a, b, ha, hb, ?_, ?_⟩
  · intro hlt
    have ho : Older w.db w.os.fs lps rps env.loc env.rem p := ⟨hl, hr, hd, a, b, ha, hb, hlt⟩
    obtain ⟨h1, h2⟩ := H.files.loc p ho
    refine ⟨by rw [h1, ha], h2, ?_⟩
    rw [H.files.other, hb]
    · intro q _
      exact ⟨fun e => h.apart.ne q p e.symm, fun e => h.apart.ne _ p e.symm⟩
    · intro q hq
      constructor
      · intro e
        rw [List.append_cancel_left_eq] at e
        subst e
        obtain ⟨_, _, _, a', b', h3, h4, h5⟩ := hq
        rw [hb] at h3; rw [ha] at h4; cases h3; cases h4; omega
      · intro e
        rw [e, h.rfree q hq.1 hq.2.1 hq.2.2.1] at hb
        cases hb
  · intro hlt
    have ho : Older w.db w.os.fs lps rps env.rem env.loc p := ⟨hl, hr, hd, b, a, hb, ha, hlt⟩
    obtain ⟨h1, h2⟩ := H.files.rem p ho
    refine ⟨by rw [h1, hb], h2, ?_⟩
    rw [H.files.other, ha]
    · intro q hq
      constructor
      · intro e
        rw [List.append_cancel_left_eq] at e
        subst e
        obtain ⟨_, _, _, a', b', h3, h4, h5⟩ := hq
        rw [ha] at h3; rw [hb] at h4; cases h3; cases h4; omega
      · intro e
        rw [e, h.lfree q hq.1 hq.2.1 hq.2.2.1] at ha
        cases ha
    · intro q _
      exact ⟨fun e => h.apart.ne p q e, fun e => h.apart.ne p _ e⟩

/-- C19 at every end, including every crash point: both versions are at their place or at the conflict name of
their side. -/
theorem C19_crash_partial (h : ConflictReady env w lps rps) {p : Path} (hl : p ∈ lps) (hr : p ∈ rps)
    (hd : ¬ DirRow w.db p) {root : Path} (hroot : root = env.loc ∨ root = env.rem) {n : Node}
    (hn : w.os.fs.get (root ++ p) = some n) :
    let fs' := (handleConflicts env lps rps w).2.os.fs
    fs'.get (root ++ p) = some n ∨
      fs'.get (root ++ conflictPath (env.stamp (w.os.clk w.os.tick)) p) = some n := by
  have key : ∀ (w' : World) (DL DR : Path → Prop),
      (∀ p, DL p → Older w.db w.os.fs lps rps env.loc env.rem p) →
      (∀ p, DR p → Older w.db w.os.fs lps rps env.rem env.loc p) →
      ConflictEff env (conflictPath (env.stamp (w.os.clk w.os.tick))) DL DR w.os.fs w'.os.fs →
      w'.os.fs.get (root ++ p) = some n ∨
        w'.os.fs.get (root ++ conflictPath (env.stamp (w.os.clk w.os.tick)) p) = some n := by
    intro w' DL DR h1 h2 hE
    by_cases hDL : root = env.loc ∧ DL p
    · obtain ⟨rfl, hDL⟩ := hDL
      exact Or.inr (by rw [(hE.loc p hDL).1, hn])
    by_cases hDR : root = env.rem ∧ DR p
    · obtain ⟨rfl, hDR⟩ := hDR
      exact Or.inr (by rw [(hE.rem p hDR).1, hn])
    left
    rw [hE.other, hn]
    · intro q hq
      rcases hroot with rfl | rfl
      · constructor
        · intro e
          rw [List.append_cancel_left_eq] at e
          subst e
          exact hDL ⟨rfl, hq⟩
        · intro e
          have := h1 q hq
          rw [e, h.lfree q this.1 this.2.1 this.2.2.1] at hn
          cases hn
      · exact ⟨fun e => h.apart.ne q p e.symm, fun e => h.apart.ne _ p e.symm⟩
    · intro q hq
      rcases hroot with rfl | rfl
      · exact ⟨fun e => h.apart.ne p q e, fun e => h.apart.ne p _ e⟩
      · constructor
        · intro e
          rw [List.append_cancel_left_eq] at e
          subst e
          exact hDR ⟨rfl, hq⟩
        · intro e
          have := h2 q hq
          rw [e, h.rfree q this.1 this.2.1 this.2.2.1] at hn
          cases hn
  refine wp_state (I := fun w' : World => w'.os.fs.get (root ++ p) = some n ∨
        w'.os.fs.get (root ++ conflictPath (env.stamp (w.os.clk w.os.tick)) p) = some n) ?_
  refine wp_mono (wp_handleConflicts h) ?_ ?_
  · intro r w' H
    exact key w' _ _ (fun _ x => x) (fun _ x => x) H.files
  · rintro _ w' ⟨⟨DL, DR, h1, h2, hE⟩, _⟩
    exact key w' DL DR h1 h2 hE

/-- C19: at every end, a path that is neither a file changed on both sides nor the conflict name of one is
unchanged; files changed on one side only are not touched. -/
theorem C19_untouched_partial (h : ConflictReady env w lps rps) {x : Path}
    (hx : ∀ p ∈ lps, p ∈ rps → ¬ DirRow w.db p →
      (x ≠ env.loc ++ p ∧ x ≠ env.loc ++ conflictPath (env.stamp (w.os.clk w.os.tick)) p) ∧
      (x ≠ env.rem ++ p ∧ x ≠ env.rem ++ conflictPath (env.stamp (w.os.clk w.os.tick)) p)) :
    (handleConflicts env lps rps w).2.os.fs.get x = w.os.fs.get x := by
  refine wp_state (I := fun w' : World => w'.os.fs.get x = w.os.fs.get x) ?_
  refine wp_mono (wp_handleConflicts h) ?_ ?_
  · intro r w' H
    exact H.files.other x (fun p hp => (hx p hp.1 hp.2.1 hp.2.2.1).1) (fun p hp => (hx p hp.1 hp.2.1 hp.2.2.1).2)
  · rintro _ w' ⟨⟨DL, DR, h1, h2, hE⟩, _⟩
    refine hE.other x (fun p hp => ?_) (fun p hp => ?_)
    · have hp := h1 p hp
      exact (hx p hp.1 hp.2.1 hp.2.2.1).1
    · have hp := h2 p hp
      exact (hx p hp.1 hp.2.1 hp.2.2.1).2

end

/-- `a` and `d/b` have been changed on both sides: `a` is older locally, `d/b` remotely. -/
def exConflict : World := exWorld exEnvE
  [(["l".toList, "a".toList], .file 7 45 1), (["r".toList, "a".toList], .file 8 46 1),
    (["l".toList, "d".toList], .dir 3 8), (["r".toList, "d".toList], .dir 3 8),
    (["l".toList, "d".toList, "b".toList], .file 9 46 1), (["r".toList, "d".toList, "b".toList], .file 10 45 1)]
  [exRow ["a".toList] false 1 true, exRow ["d".toList] true 1 true, exRow ["d".toList, "b".toList] false 1 true]
  [exRRow ["a".toList] false, exRRow ["d".toList] true, exRRow ["d".toList, "b".toList] false] 1000

/-- The paths changed on both sides. -/
def exConflictPaths : List Path := [["a".toList], ["d".toList, "b".toList]]

example : ConflictReady exEnvE exConflict exConflictPaths exConflictPaths where
  order _ := List.Perm.refl _
  apart := by unfold Apart; decide +kernel
  stamp := by decide +kernel
  wf := ⟨by decide +kernel, by decide +kernel, by decide +kernel, by decide +kernel⟩
  goodLoc := by decide +kernel
  goodRem := by decide +kernel
  paths := by decide +kernel
  lshows h := absurd rfl h
  rshows h := absurd rfl h
  lfile := by
    intro p hp _ _
    have H : ∀ p ∈ exConflictPaths, (exConflict.os.fs.get (exEnvE.loc ++ p)).all (fun n => !n.isDir) = true := by
      decide +kernel
    intro n hn
    have := H p hp
    rw [hn] at this
    simpa using this
  rfile := by
    intro p hp _ _
    have H : ∀ p ∈ exConflictPaths, (exConflict.os.fs.get (exEnvE.rem ++ p)).all (fun n => !n.isDir) = true := by
      decide +kernel
    intro n hn
    have := H p hp
    rw [hn] at this
    simpa using this
  lfree := by
    have H : ∀ p ∈ exConflictPaths, exConflict.os.fs.get (exEnvE.loc ++
        conflictPath (exEnvE.stamp (exConflict.os.clk exConflict.os.tick)) p) = none := by decide +kernel
    intro p hp _ _
    exact H p hp
  rfree := by
    have H : ∀ p ∈ exConflictPaths, exConflict.os.fs.get (exEnvE.rem ++
        conflictPath (exEnvE.stamp (exConflict.os.clk exConflict.os.tick)) p) = none := by decide +kernel
    intro p hp _ _
    exact H p hp

example :
    (handleConflicts exEnvE exConflictPaths exConflictPaths exConflict).2.os.fs.get
      ["l".toList, "a_conflict-19700101-000000".toList] = some (.file 7 45 1) ∧
    (handleConflicts exEnvE exConflictPaths exConflictPaths exConflict).2.os.fs.get
      ["r".toList, "d".toList, "b_conflict-19700101-000000".toList] = some (.file 10 45 1) := by decide +kernel

/-- A file of the user has the conflict name of `a`. -/
def exTaken : World := exWorld exEnvE
  [(["l".toList, "a".toList], .file 7 45 1), (["r".toList, "a".toList], .file 8 46 1),
    (["l".toList, "a_conflict-19700101-000000".toList], .file 9 3 1)]
  [exRow ["a".toList] false 1 true] [exRRow ["a".toList] false] 1000

/-- C19 in full is false: `os.rename` replaces a file that has the conflict name. Its content is in no file any
more. -/
theorem C19_taken_fails :
    exTaken.os.fs.get ["l".toList, "a_conflict-19700101-000000".toList] = some (.file 9 3 1) ∧
    (∃ r, (handleConflicts exEnvE [["a".toList]] [["a".toList]] exTaken).1 = .ok r) ∧
    (∀ e ∈ (handleConflicts exEnvE [["a".toList]] [["a".toList]] exTaken).2.os.fs, ∀ m b, e.2 ≠ .file 9 m b) := by
  refine ⟨by decide +kernel, ⟨⟨[["a_conflict-19700101-000000".toList]], [["a".toList]]⟩, by decide +kernel⟩, ?_⟩
  have h : (handleConflicts exEnvE [["a".toList]] [["a".toList]] exTaken).2.os.fs.all
      (fun e => match e.2 with | .file c _ _ => c != 9 | _ => true) = true := by decide +kernel
  intro e he m b hc
  have := List.all_eq_true.1 h e he
  rw [hc] at this
  simp at this

/-- `a` has been changed on both sides at the same time. -/
def exEqual : World := exWorld exEnvE
  [(["l".toList, "a".toList], .file 7 45 1), (["r".toList, "a".toList], .file 8 45 1)]
  [exRow ["a".toList] false 1 true] [exRRow ["a".toList] false] 1000

/-- Different mtimes are needed in C19: with equal ones a sync overwrites the remote version. -/
theorem C19_equal_mtimes :
    (sync exEnvE exEqual).1 = .ok () ∧ (sync exEnvE exEqual).2.os.fs.get ["r".toList, "a".toList] = some (.file 7 45 1) ∧
    (sync exEnvE exEqual).2.os.fs.get ["l".toList, "a".toList] = some (.file 7 45 1) := by decide +kernel

end Verif
