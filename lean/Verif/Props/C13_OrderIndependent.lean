import Verif.PrioritizeInv
import Verif.Spec.Selection
/-
C13: the selection does not depend on the order of the database rows.
-/
namespace Verif
open ADB

/-- Two readings of the same databases. -/
structure SameRows (env env' : SelEnv) : Prop where
  loc : env.loc.Perm env'.loc
  rem : env.rem.Perm env'.rem
  stat : env.stat = env'.stat
  account : env.accountForSize = env'.accountForSize
  limit : env.storageLimit = env'.storageLimit
  link : env.symlinkSize = env'.symlinkSize

theorem map_eq_of_inj {cs : List Cand} (hn : (cs.map Cand.path).Nodup) {a b : Cand}
    (ha : a ∈ cs) (hb : b ∈ cs) (h : a.path = b.path) : a = b := by
  induction cs with
  | nil => simp at ha
  | cons c cs ih =>
    simp only [List.map_cons, List.nodup_cons] at hn
    rcases List.mem_cons.1 ha with rfl | ha' <;> rcases List.mem_cons.1 hb with rfl | hb'
    · rfl
    · exact absurd (h ▸ List.mem_map_of_mem hb') hn.1
    · exact absurd (h ▸ List.mem_map_of_mem ha') hn.1
    · exact ih hn.2 ha' hb'

theorem rank_eq_of_perm {cs cs' : List Cand} (hp : cs.Perm cs') (hn : (cs.map Cand.path).Nodup)
    (hg : ∀ c ∈ cs, GoodPath c.path) : rank cs = rank cs' := by
  refine List.Perm.eq_of_pairwise ?_ (rank_sorted cs) (rank_sorted cs')
    ((rank_perm cs).trans (hp.trans (rank_perm cs').symm))
  intro a b ha hb h1 h2
  have ha' := (rank_perm cs).mem_iff.1 ha
  have hb' := hp.mem_iff.2 ((rank_perm cs').mem_iff.1 hb)
  exact map_eq_of_inj hn ha' hb' (toStr_injective (hg a ha') (hg b hb') (rankLe_antisymm h1 h2))

theorem rank_cands {f : Entry PData → Option Cand} {l l' : ALocal} (hp : l.Perm l')
    (hf : ∀ e c, f e = some c → c.path = e.path)
    (hn : (paths l).Nodup) (hg : ∀ p ∈ paths l, GoodPath p) :
    (l.mapM f).map rank = (l'.mapM f).map rank := by
  cases h : l.mapM f with
  | none => rw [mapM_perm_none hp h]
  | some r =>
    obtain ⟨r', h1, h2⟩ := mapM_perm hp h
    have hpath : r.map Cand.path = paths l := map_mapM hf h
    rw [h1, Option.map_some, Option.map_some, rank_eq_of_perm h2 (by rw [hpath]; exact hn)
      (fun c hc => hg _ (by rw [← hpath]; exact List.mem_map_of_mem hc))]

theorem paths_filter {l : ALocal} (P : Entry PData → Bool) : (paths (l.filter P)).Sublist (paths l) :=
  List.filter_sublist.map _

/-- `prioritize_files` returns the same selection, in the same order, and the
same remaining space, or fails, for every order of the rows and of the excluded
paths. -/
theorem C13_files {env env' : SelEnv} (hs : SameRows env env') (hn : (paths env.loc).Nodup)
    (hg : ∀ p ∈ paths env.loc, GoodPath p) {ex ex' : List Path} (hex : ∀ p, p ∈ ex ↔ p ∈ ex')
    (limit : Int) : prioritizeFiles env limit ex = prioritizeFiles env' limit ex' := by
  have hany : ∀ q : Path, ex.any (fun x => x.isPrefixOf q) = ex'.any (fun x => x.isPrefixOf q) := by
    intro q
    rw [Bool.eq_iff_iff, List.any_eq_true, List.any_eq_true]
    exact exists_congr (fun x => by rw [hex])
  have key : (fileCands env ex).map rank = (fileCands env' ex').map rank := by
    unfold fileCands
    rw [hs.stat, hs.account]
    simp only [hany]
    refine rank_cands (hs.loc.filter _) ?_ (hn.sublist (paths_filter _))
      (fun p hp => hg p ((paths_filter _).subset hp))
    intro e c hc
    split at hc
    · simp only [Option.some.injEq] at hc; rw [← hc]
    · simp at hc
  have e : ∀ (v : SelEnv) (x : List Path), prioritizeFiles v limit x
      = ((fileCands v x).map rank).map (fun cs => selectFiles v.symlinkSize cs (limit, [])) := by
    intro v x; unfold prioritizeFiles; rw [Option.map_map]; rfl
  rw [e, e, key, hs.link]

theorem dirSize_perm {env env' : SelEnv} (hs : SameRows env env') (d : Path) :
    dirSize env d = dirSize env' d := by
  unfold dirSize
  rw [hs.stat]
  have hp : (rows env.rem d).Perm (rows env'.rem d) := hs.rem.filter _
  cases h : (rows env.rem d).mapM (fun e => (env'.stat e.path).map (fun s => s.2 * 512)) with
  | none => rw [mapM_perm_none hp h]
  | some r =>
    obtain ⟨r', h1, h2⟩ := mapM_perm hp h
    rw [h1, Option.map_some, Option.map_some, h2.sum_nat]

theorem sizeOf_perm {cs cs' : List Cand} (hp : cs.Perm cs') (hn : (cs.map Cand.path).Nodup)
    (p : Path) : sizeOf cs p = sizeOf cs' p := by
  by_cases h : ∃ c ∈ cs, c.path = p
  · obtain ⟨c, hc, rfl⟩ := h
    rw [sizeOf_mem hn hc, sizeOf_mem ((hp.map _).nodup_iff.1 hn) (hp.mem_iff.1 hc)]
  · have h1 : cs.find? (fun c => decide (c.path = p)) = none := by
      rw [List.find?_eq_none]; intro c hc; simp; exact fun e => h ⟨c, hc, e⟩
    have h2 : cs'.find? (fun c => decide (c.path = p)) = none := by
      rw [List.find?_eq_none]; intro c hc; simp; exact fun e => h ⟨c, hp.mem_iff.2 hc, e⟩
    unfold sizeOf
    rw [h1, h2]

/-- Two states of the loop that differ only in the order of the two sets. -/
structure SimSel (st st' : DirSel) : Prop where
  dirs : st.dirs = st'.dirs
  remaining : st.remaining = st'.remaining
  subdirs : ∀ p, p ∈ st.subdirs ↔ p ∈ st'.subdirs
  files : ∀ p, p ∈ st.files ↔ p ∈ st'.files

theorem simSel_step {env env' : SelEnv} (hs : SameRows env env') {cs cs' : List Cand}
    (hp : cs.Perm cs') (hn : (cs.map Cand.path).Nodup) {st st' : DirSel} (h : SimSel st st')
    (c : Cand) : SimSel (dirStep env cs st c) (dirStep env' cs' st' c) := by
  have hrows : (rows env.loc c.path).Perm (rows env'.loc c.path) := hs.loc.filter _
  have hF : (((rows env.loc c.path).filter (fun e => !e.directory)).map Entry.path).Perm
      (((rows env'.loc c.path).filter (fun e => !e.directory)).map Entry.path) :=
    (hrows.filter _).map _
  have hD : (((rows env.loc c.path).filter (fun e => e.directory)).map Entry.path).Perm
      (((rows env'.loc c.path).filter (fun e => e.directory)).map Entry.path) :=
    (hrows.filter _).map _
  have hS : ((((rows env.loc c.path).map Entry.path).filter (fun p => decide (p ∈ st.dirs))).map
      (sizeOf cs)).sum = ((((rows env'.loc c.path).map Entry.path).filter
        (fun p => decide (p ∈ st'.dirs))).map (sizeOf cs')).sum := by
    have : sizeOf cs = sizeOf cs' := funext (sizeOf_perm hp hn)
    rw [this, h.dirs]
    exact (((hrows.map _).filter _).map _).sum_nat
  unfold dirStep
  dsimp only
  rw [← hs.limit, ← hs.link, ← hS, ← h.remaining]
  generalize ((rows env.loc c.path).filter (fun e => !e.directory)).map Entry.path = CF at *
  generalize ((rows env'.loc c.path).filter (fun e => !e.directory)).map Entry.path = CF' at *
  generalize ((rows env.loc c.path).filter (fun e => e.directory)).map Entry.path = CD at *
  generalize ((rows env'.loc c.path).filter (fun e => e.directory)).map Entry.path = CD' at *
  have hnew : (CF.filter (fun p => decide (p ∉ st.files))).Perm
      (CF'.filter (fun p => decide (p ∉ st'.files))) := by
    have : (fun p => decide (p ∉ st.files)) = (fun p => decide (p ∉ st'.files)) := by
      funext p; simp only [h.files]
    rw [this]; exact hF.filter _
  rw [← hnew.length_eq]
  simp only [h.subdirs]
  split
  · exact h
  · split
    · exact h
    · split
      · refine ⟨?_, rfl, ?_, ?_⟩
        · simp only [h.dirs]
          congr 1
          apply List.filter_congr
          intro p _
          simp only [hD.mem_iff]
        · intro p
          simp only [List.mem_append, h.subdirs, hD.mem_iff]
        · intro p
          rw [List.mem_append, List.mem_append, h.files, hnew.mem_iff]
      · exact h

theorem simSel_fold {env env' : SelEnv} (hs : SameRows env env') {cs cs' : List Cand}
    (hp : cs.Perm cs') (hn : (cs.map Cand.path).Nodup) (l : List Cand) {st st' : DirSel}
    (h : SimSel st st') : SimSel (l.foldl (dirStep env cs) st) (l.foldl (dirStep env' cs') st') := by
  induction l generalizing st st' with
  | nil => exact h
  | cons c l ih => exact ih (simSel_step hs hp hn h c)

/-- `prioritize_dirs` returns the same selection, in the same order, and the
same remaining space, or fails, for every order of the rows of both databases. -/
theorem C13_dirs {env env' : SelEnv} (hs : SameRows env env') (hn : (paths env.loc).Nodup)
    (hg : ∀ p ∈ paths env.loc, GoodPath p) (limit : Int) :
    prioritizeDirs env limit = prioritizeDirs env' limit := by
  have hf : (fun e : Entry PData => (dirSize env e.path).map (fun size =>
      (⟨e.path, adjustedPriority env.accountForSize e.data.priority size, size⟩ : Cand)))
    = (fun e : Entry PData => (dirSize env' e.path).map (fun size =>
      (⟨e.path, adjustedPriority env'.accountForSize e.data.priority size, size⟩ : Cand))) := by
    funext e; rw [dirSize_perm hs, hs.account]
  have hpd : (env.loc.filter (fun e => e.directory)).Perm
      (env'.loc.filter (fun e => e.directory)) := hs.loc.filter _
  unfold prioritizeDirs
  cases h : dirCands env with
  | none =>
    have : dirCands env' = none := by
      unfold dirCands at h ⊢
      rw [← hf]
      exact mapM_perm_none hpd h
    rw [this]; rfl
  | some cs =>
    have hpath := dirCands_paths h
    have hcn : (cs.map Cand.path).Nodup := by
      rw [hpath]; exact hn.sublist (paths_filter _)
    obtain ⟨cs', h1, h2⟩ : ∃ cs', dirCands env' = some cs' ∧ cs.Perm cs' := by
      unfold dirCands at h ⊢
      rw [← hf]
      exact mapM_perm hpd h
    have hrank : rank cs = rank cs' := rank_eq_of_perm h2 hcn (fun c hc =>
      hg _ ((paths_filter (fun e => e.directory)).subset (by
        have : c.path ∈ cs.map Cand.path := List.mem_map_of_mem hc
        rw [hpath] at this; exact this)))
    have hnf : nFiles env = nFiles env' := (hs.loc.filter _).length_eq
    rw [h1, Option.map_some, Option.map_some, ← hrank, hnf, hs.link]
    have := simSel_fold hs h2 hcn (rank cs)
      (st := ⟨[], [], [], limit - nFiles env' * env'.symlinkSize⟩)
      (st' := ⟨[], [], [], limit - nFiles env' * env'.symlinkSize⟩)
      ⟨rfl, rfl, fun _ => Iff.rfl, fun _ => Iff.rfl⟩
    simp only [this.dirs, this.remaining]

example : SameRows exEnv { exEnv with loc := exEnv.loc.reverse, rem := exEnv.rem.reverse } ∧
    (paths exEnv.loc).Nodup ∧ (∀ p ∈ paths exEnv.loc, GoodPath p) ∧
    exEnv.loc.reverse ≠ exEnv.loc ∧ (prioritizeDirs exEnv 60000).isSome :=
  ⟨⟨(List.reverse_perm _).symm, (List.reverse_perm _).symm, rfl, rfl, rfl, rfl⟩,
    by decide +kernel, by decide +kernel, by decide +kernel, by decide +kernel⟩

end Verif
