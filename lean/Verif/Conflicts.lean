import Verif.RenameFiles
import Verif.Props.C48_PathsDiff
/-
Lemmas about `handle_conflicts`.
-/
namespace Verif
open Prog OSM Call FSTools WM

/-! ### Scans show the file system -/

theorem find_below {fs : FS} (w : fs.WF) {root p : Path} (hp : p ≠ []) :
    Scan.find (fs.below root) p = fs.get (root ++ p) := by
  have hn := nodup_keys_below w root
  unfold Scan.find
  rcases Option.eq_none_or_eq_some (fs.get (root ++ p)) with h | ⟨n, h⟩
  · rw [h, Option.map_eq_none_iff, List.find?_eq_none]
    rintro ⟨q, n⟩ he
    simp only [decide_eq_true_eq]
    rintro rfl
    rw [(w.mem_below_iff.1 he).1] at h
    cases h
  · rw [h]
    exact FS.find_of_mem hn (w.mem_below_iff.2 ⟨h, hp⟩)

theorem find_user {s : Scan} {p : Path} (hp : UserPath p) : s.user.find p = s.find p := by
  unfold Scan.user Scan.find
  rw [List.find?_filter]
  congr 2
  funext e
  by_cases he : e.1 = p
  · have : e.1.head? ≠ some Env.utilName := he ▸ hp.2
    simp [he, hp.2]
  · simp [he]

theorem scanNodes_ok {fs : FS} {p : Path} {s : Scan} (h : scanNodes fs p = .ok s) : s = fs.below p := by
  unfold scanNodes at h
  split at h
  · exact (Except.ok.inj h).symm
  · cases h

/-- Scanning the local directory: the memo, or the current state. -/
theorem scanNodes_of {fs : FS} (wf : fs.WF) {p : Path} (h : fs.isDir p = true) : scanNodes fs p = .ok (fs.below p) := by
  obtain ⟨m, b, hg⟩ := FS.isDir_iff.1 h
  unfold scanNodes scanTree
  rw [FS.stat_nonlink (wf.pathErr hg) hg rfl]
  simp

theorem wp_scanLocal {env : Env} {w : World} {Q : Scan → World → Prop} {E : Err → World → Prop}
    (hm : w.lmemo ≠ [] → Q w.lmemo w)
    (hs : w.lmemo = [] → Q (w.os.fs.below env.loc) { w with lmemo := w.os.fs.below env.loc })
    (hE : ∀ e, E e w) : wp (scanLocal env) Q E w := by
  unfold scanLocal
  rw [wp_bind, wp_gets]
  split
  · rename_i h
    rw [wp_bind, wp_sys, wp_query]
    refine ⟨?_, fun e _ => hE e⟩
    intro s h1
    rw [scanNodes_ok h1, wp_bind, wp_modify, wp_pure]
    exact hs (List.isEmpty_iff.1 h)
  · rename_i h
    rw [wp_pure]
    exact hm (fun h' => h (List.isEmpty_iff.2 h'))

theorem wp_rescanRemote {env : Env} {w : World} {Q : Scan → World → Prop} {E : Err → World → Prop}
    (hs : Q (Scan.user (w.os.fs.below env.rem)) { w with rmemo := w.os.fs.below env.rem })
    (hE : ∀ e, E e w) : wp (rescanRemote env) Q E w := by
  unfold rescanRemote
  rw [wp_bind, wp_sys, wp_query]
  refine ⟨?_, fun e _ => hE e⟩
  intro s h1
  rw [scanNodes_ok h1, wp_bind, wp_modify, wp_pure]
  exact hs

theorem wp_scanRemote {env : Env} {w : World} {Q : Scan → World → Prop} {E : Err → World → Prop}
    (hm : w.rmemo ≠ [] → Q w.rmemo.user w)
    (hs : w.rmemo = [] → Q (Scan.user (w.os.fs.below env.rem)) { w with rmemo := w.os.fs.below env.rem })
    (hE : ∀ e, E e w) : wp (scanRemote env) Q E w := by
  unfold scanRemote
  rw [wp_bind, wp_gets]
  split
  · rename_i h
    exact wp_rescanRemote (hs (List.isEmpty_iff.1 h)) hE
  · rename_i h
    rw [wp_pure]
    exact hm (fun h' => h (List.isEmpty_iff.2 h'))

theorem wp_scanLocal' {env : Env} {w : World} {Q : Scan → World → Prop} {E : Err → World → Prop} (wf : w.os.fs.WF)
    (hm : w.lmemo ≠ [] → Q w.lmemo w)
    (hs : w.lmemo = [] → Q (w.os.fs.below env.loc) { w with lmemo := w.os.fs.below env.loc })
    (hE : ∀ e, (w.os.fs.isDir env.loc = true → e = .killed) → E e w) : wp (scanLocal env) Q E w := by
  by_cases h : w.os.fs.isDir env.loc = true
  · unfold scanLocal
    rw [wp_bind, wp_gets]
    split
    · rename_i hl
      rw [wp_bind, wp_sys, wp_query, scanNodes_of wf h]
      refine ⟨fun a ha => ?_, fun e h => by cases h⟩
      cases ha
      rw [wp_bind, wp_modify, wp_pure]
      exact hs (List.isEmpty_iff.1 hl)
    · rename_i hl
      rw [wp_pure]
      exact hm (fun h' => hl (List.isEmpty_iff.2 h'))
  · exact wp_scanLocal hm hs (fun e => hE e (fun x => absurd x h))

theorem wp_scanRemote' {env : Env} {w : World} {Q : Scan → World → Prop} {E : Err → World → Prop} (wf : w.os.fs.WF)
    (hm : w.rmemo ≠ [] → Q w.rmemo.user w)
    (hs : w.rmemo = [] → Q (Scan.user (w.os.fs.below env.rem)) { w with rmemo := w.os.fs.below env.rem })
    (hE : ∀ e, (w.os.fs.isDir env.rem = true → e = .killed) → E e w) : wp (scanRemote env) Q E w := by
  by_cases h : w.os.fs.isDir env.rem = true
  · unfold scanRemote rescanRemote
    rw [wp_bind, wp_gets]
    split
    · rename_i hl
      rw [wp_bind, wp_sys, wp_query, scanNodes_of wf h]
      refine ⟨fun a ha => ?_, fun e h => by cases h⟩
      cases ha
      rw [wp_bind, wp_modify, wp_pure]
      exact hs (List.isEmpty_iff.1 hl)
    · rename_i hl
      rw [wp_pure]
      exact hm (fun h' => hl (List.isEmpty_iff.2 h'))
  · exact wp_scanRemote hm hs (fun e => hE e (fun x => absurd x h))

/-! ### Renames in a `PathsDiff` -/

namespace PathsDiff

/-- One `rename` for each path. -/
def renames (S : List Path) (f : Path → Path) : List Op := S.map (fun p => Op.rename [(p, f p)])

theorem current_renames (S : List Path) (f : Path → Path) (p : Path) :
    current (renames S f) p = some (if p ∈ S then f p else p) := by
  suffices H : ∀ c, (renames S f).foldl (curStep p) c = if p ∈ S then some (f p) else c by
    unfold current
    rw [H]; split <;> rfl
  induction S with
  | nil => intro c; simp [renames]
  | cons a S ih =>
    intro c
    show (renames S f).foldl (curStep p) (curStep p c (.rename [(a, f a)])) = _
    rw [ih]
    by_cases h : p ∈ S
    · simp [h]
    · by_cases hpa : p = a
      · subst hpa; simp [curStep]
      · have : ¬ a = p := fun e => hpa e.symm
        simp [h, hpa, curStep, this]

theorem extra_renames (S : List Path) (f : Path → Path) (q : Path) : extra (renames S f) q = false := by
  unfold extra
  induction S with
  | nil => rfl
  | cons a S ih => exact ih

theorem mem_mod_renames {L S : List Path} {f : Path → Path} {p q : Path} :
    (p, q) ∈ modPaths (run L (renames S f)) ↔ p ∈ L ∧ p ∈ S ∧ q = f p ∧ p ≠ q ∧ p ≠ [] ∧ q ≠ [] := by
  rw [C48_mod, current_renames]
  by_cases h : p ∈ S
  · simp only [h, if_true, Option.some.injEq, true_and, eq_comm]
  · simp only [h, if_false, Option.some.injEq, false_and, and_false, iff_false]
    rintro ⟨_, h1, h2, _⟩
    exact h2 h1

theorem mem_res_renames {L S : List Path} {f : Path → Path} {q : Path} (hq : q ≠ []) :
    q ∈ resPaths (run L (renames S f)) ↔ ∃ p ∈ L, q = if p ∈ S then f p else p := by
  rw [C48_res _ _ _ hq, extra_renames]
  simp only [current_renames, Option.some.injEq, Bool.false_eq_true, or_false, eq_comm]

theorem ne_nil_of_mem_resPaths {s : PairSet} {q : Path} (h : q ∈ resPaths s) : q ≠ [] := by
  unfold resPaths at h
  rw [List.mem_filterMap] at h
  obtain ⟨x, h1, h2⟩ := h
  rw [List.mem_filter, h2] at h1
  exact of_decide_eq_true h1.2

theorem fst_run_renames (L S : List Path) (f : Path → Path) :
    (run L (renames S f)).map Prod.fst = L.map some := by
  suffices H : ∀ s : PairSet, ((renames S f).foldl step s).map Prod.fst = s.map Prod.fst by
    unfold run
    rw [H]; unfold init
    rw [List.map_map]; rfl
  induction S with
  | nil => intro s; rfl
  | cons a S ih =>
    intro s
    show ((renames S f).foldl step (step s (.rename [(a, f a)]))).map Prod.fst = _
    rw [ih]
    show ((s.map _)).map Prod.fst = _
    rw [List.map_map]
    apply List.map_congr_left
    intro x _
    simp only [Function.comp]
    split <;> rfl

theorem nodup_mod_renames {L S : List Path} {f : Path → Path} (hL : L.Nodup) :
    ((modPaths (run L (renames S f))).map Prod.fst).Nodup := by
  have h : ∀ s : PairSet, ((modPaths s).map Prod.fst).map some |>.Sublist (s.map Prod.fst) := by
    intro s
    induction s with
    | nil => exact List.Sublist.refl _
    | cons x s ih =>
      unfold modPaths at ih ⊢
      rw [List.filterMap_cons]
      split
      · exact ih.cons _
      · rename_i y hy
        split at hy
        · split at hy
          · simp only [Option.some.injEq] at hy
            subst hy
            exact ih.cons_cons _
          · cases hy
        · cases hy
  have h1 := h (run L (renames S f))
  rw [fst_run_renames] at h1
  have h2 : (L.map some).Nodup := by
    rw [List.nodup_iff_pairwise_ne, List.pairwise_map]
    exact List.Pairwise.imp (fun h e => h (Option.some.inj e)) (List.nodup_iff_pairwise_ne.1 hL)
  have h3 := h2.sublist h1
  rw [List.nodup_iff_pairwise_ne, List.pairwise_map] at h3
  exact List.nodup_iff_pairwise_ne.2 (List.Pairwise.imp (fun h e => h (congrArg some e)) h3)

end PathsDiff

/-! ### The loop of `handle_conflicts` -/

/-- The database says that `p` is a directory. -/
def DirRow (db : ALocal) (p : Path) : Prop := ∃ e, ADB.info db p = some e ∧ e.directory = true

/-- Both scans have a file at `p`, and the one in `l` is older. -/
def OlderIn (db : ALocal) (l r : Scan) (p : Path) : Prop :=
  ¬ DirRow db p ∧ ∃ a b, l.find p = some a ∧ r.find p = some b ∧ a.mtime < b.mtime

open Classical in
theorem conflictLoop_ok {env : Env} {db : ALocal} {now : Int} {l r : Scan} {L R : List Path} :
    ∀ {ps : List Path} {o1 o2 : List PathsDiff.Op} {d : Diffs},
    conflictLoop env db now l r ps (PathsDiff.run L o1, PathsDiff.run R o2) = .ok d →
    d = (PathsDiff.run L (o1 ++ PathsDiff.renames (ps.filter (fun p => decide (OlderIn db l r p)))
          (conflictPath (env.stamp now))),
        PathsDiff.run R (o2 ++ PathsDiff.renames (ps.filter (fun p => decide (OlderIn db r l p)))
          (conflictPath (env.stamp now)))) ∧
      ∀ p ∈ ps, ¬ DirRow db p → ∃ a b, l.find p = some a ∧ r.find p = some b := by
  intro ps
  induction ps with
  | nil =>
    intro o1 o2 d h
    cases h
    simp [PathsDiff.renames]
  | cons p ps ih =>
    intro o1 o2 d h
    rw [conflictLoop] at h
    have hdir : (((ADB.info db p).map Entry.directory).getD false = true) ↔ DirRow db p := by
      unfold DirRow
      cases ADB.info db p <;> simp
    have snoc : ∀ (L : List Path) (o : List PathsDiff.Op) (pr : Path × Path),
        PathsDiff.rename (PathsDiff.run L o) [pr] = PathsDiff.run L (o ++ [.rename [pr]]) := by
      intro L o pr; simp [PathsDiff.run, PathsDiff.step]
    unfold conflictStep at h
    by_cases hd : DirRow db p
    · rw [if_pos (hdir.2 hd)] at h
      dsimp only at h
      obtain ⟨h1, h2⟩ := ih h
      have n1 : ¬ OlderIn db l r p := fun x => x.1 hd
      have n2 : ¬ OlderIn db r l p := fun x => x.1 hd
      refine ⟨by rw [h1]; simp [n1, n2], ?_⟩
      intro q hq hnd
      rw [List.mem_cons] at hq
      rcases hq with rfl | hq
      · exact absurd hd hnd
      · exact h2 q hq hnd
    · rw [if_neg (fun x => hd (hdir.1 x))] at h
      rcases Option.eq_none_or_eq_some (l.find p) with hl | ⟨a, hl⟩
      · rw [hl] at h; cases h
      rcases Option.eq_none_or_eq_some (r.find p) with hr | ⟨b, hr⟩
      · rw [hl, hr] at h; cases h
      rw [hl, hr] at h
      have i1 : OlderIn db l r p ↔ a.mtime < b.mtime := by
        unfold OlderIn; simp [hd, hl, hr]
      have i2 : OlderIn db r l p ↔ b.mtime < a.mtime := by
        unfold OlderIn; simp [hd, hl, hr]
      have fin : ∀ q ∈ p :: ps, ¬ DirRow db q → (∀ q ∈ ps, ¬ DirRow db q →
          ∃ a b, l.find q = some a ∧ r.find q = some b) → ∃ a b, l.find q = some a ∧ r.find q = some b := by
        intro q hq hnd h2
        rw [List.mem_cons] at hq
        rcases hq with rfl | hq
        · exact ⟨a, b, hl, hr⟩
        · exact h2 q hq hnd
      dsimp only at h
      by_cases h1 : a.mtime < b.mtime
      · have h2 : ¬ b.mtime < a.mtime := by omega
        rw [if_pos h1] at h
        dsimp only at h
        rw [snoc] at h
        obtain ⟨e1, e2⟩ := ih h
        refine ⟨?_, fun q hq hnd => fin q hq hnd e2⟩
        rw [e1]
        simp [i1, i2, h1, h2, PathsDiff.renames]
      · by_cases h2 : b.mtime < a.mtime
        · rw [if_neg h1, if_pos h2] at h
          dsimp only at h
          rw [snoc] at h
          obtain ⟨e1, e2⟩ := ih h
          refine ⟨?_, fun q hq hnd => fin q hq hnd e2⟩
          rw [e1]
          simp [i1, i2, h1, h2, PathsDiff.renames]
        · rw [if_neg h1, if_neg h2] at h
          dsimp only at h
          obtain ⟨e1, e2⟩ := ih h
          refine ⟨?_, fun q hq hnd => fin q hq hnd e2⟩
          rw [e1]
          simp [i1, i2, h1, h2]

/-- The loop ends normally if both scans have the files. -/
theorem conflictLoop_some {env : Env} {db : ALocal} {now : Int} {l r : Scan} : ∀ {ps : List Path} {d : Diffs},
    (∀ p ∈ ps, ¬ DirRow db p → ∃ a b, l.find p = some a ∧ r.find p = some b) →
    ∃ d', conflictLoop env db now l r ps d = .ok d'
  | [], d, _ => ⟨d, rfl⟩
  | p :: ps, d, h => by
    have step : ∃ d', conflictStep env db now l r d p = .ok d' := by
      unfold conflictStep
      split
      · exact ⟨_, rfl⟩
      · rename_i hd
        obtain ⟨a, b, h1, h2⟩ := h p (by simp) (by
          rintro ⟨e, he, hed⟩
          rw [he] at hd; simp [hed] at hd)
        rw [h1, h2]
        dsimp only
        split
        · exact ⟨_, rfl⟩
        · split <;> exact ⟨_, rfl⟩
    obtain ⟨d', hd'⟩ := step
    rw [conflictLoop, hd']
    exact conflictLoop_some (fun q hq => h q (by simp [hq]))

/-! ### Renaming and the rows -/

/-- What `_rename_files` does to the databases. -/
def World.renamedRows (w : World) (prs : List (Path × Path)) (now : Int) : World :=
  let isD := fun p => (((ADB.info w.db p).map Entry.directory).getD false : Bool)
  let dirs := (prs.filter (fun pr => isD pr.1)).map Prod.snd
  let files := (prs.filter (fun pr => !isD pr.1)).map Prod.snd
  { w with
    db := ALocal.addPaths (ADB.rmCore w.db (prs.map Prod.fst)) (batchOf files dirs) 0 true
    rdb := w.rdb.addPaths (batchOf files dirs) now }

theorem wp_renameFiles {moves : OSM Unit} {prs : List (Path × Path)} {w : World} {Q : OS → Prop}
    {E : Err → OS → Prop} (h : wp moves (fun _ => Q) E w.os) :
    wp (renameFiles moves prs) (fun _ w' => Q w'.os ∧ ∃ now, w' = { w.renamedRows prs now with os := w'.os })
      (fun e w' => E e w'.os ∧ w' = { w with os := w'.os }) w := by
  unfold renameFiles
  rw [wp_bind, wp_sys]
  refine wp_mono h ?_ ?_
  · intro _ s1 h1
    rw [wp_bind, wp_gets]
    dsimp only
    rw [wp_bind, wp_modify, wp_bind]
    unfold addLocal addRemote
    rw [wp_modify, wp_bind, wp_sys, wp_time, wp_modify]
    exact ⟨h1, _, rfl⟩
  · intro _ s1 h1
    exact ⟨h1, rfl⟩

end Verif
