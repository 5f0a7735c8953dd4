import Verif.Props.C12_SpaceLimit
/-
C14: higher priority wins. C52: no space is wasted.
-/
namespace Verif
open ADB

/-- A file of the profile database that competes for space. -/
def Competes (env : SelEnv) (ex : List Path) (e : Entry PData) : Prop :=
  e ∈ env.loc ∧ e.directory = false ∧ ∀ x ∈ ex, ¬ x <+: e.path

/-- The priority the user configured: absolute, or per byte of disk usage
(nothing for an empty file). -/
def effPriority (env : SelEnv) (e : Entry PData) : Rat :=
  match env.accountForSize with
  | false => e.data.priority
  | true => if fileUsage env e.path = 0 then 0 else e.data.priority / (fileUsage env e.path : Rat)

/-- `a` has priority over `b`. -/
def Beats (env : SelEnv) (a b : Entry PData) : Prop :=
  effPriority env b < effPriority env a ∨
    (effPriority env a = effPriority env b ∧ strLe (toStr a.path) (toStr b.path) = true)

theorem cand_of_competes {env : SelEnv} {ex : List Path} {cs : List Cand}
    (h : fileCands env ex = some cs) {e : Entry PData} (he : Competes env ex e) :
    (⟨e.path, effPriority env e, fileUsage env e.path⟩ : Cand) ∈ cs := by
  have hmem : e ∈ env.loc.filter
      (fun e => !e.directory && !ex.any (fun x => x.isPrefixOf e.path)) := by
    rw [List.mem_filter]
    refine ⟨he.1, ?_⟩
    simp only [he.2.1, Bool.not_false, Bool.true_and, Bool.not_eq_true', List.any_eq_false]
    intro x hx hpre
    exact he.2.2 x hx (List.isPrefixOf_iff_prefix.1 hpre)
  unfold fileCands at h
  obtain ⟨c, hc⟩ : ∃ c, (match env.stat e.path with
      | some (false, blocks) =>
        some (⟨e.path, adjustedPriority env.accountForSize e.data.priority (blocks * 512),
          blocks * 512⟩ : Cand)
      | _ => none) = some c := by
    cases hc : (match env.stat e.path with
      | some (false, blocks) =>
        some (⟨e.path, adjustedPriority env.accountForSize e.data.priority (blocks * 512),
          blocks * 512⟩ : Cand)
      | _ => none) with
    | some c => exact ⟨c, rfl⟩
    | none =>
      exfalso
      have := map_mapM (g := fun e : Entry PData => (match env.stat e.path with
        | some (false, blocks) =>
          some (⟨e.path, adjustedPriority env.accountForSize e.data.priority (blocks * 512),
            blocks * 512⟩ : Cand)
        | _ => none)) (k := some) (fun a b hab => hab.symm) h
      have h2 : (none : Option Cand) ∈ cs.map some := by
        rw [this]
        exact List.mem_map.2 ⟨e, hmem, hc⟩
      simp at h2
  have key : c = ⟨e.path, effPriority env e, fileUsage env e.path⟩ := by
    split at hc
    · rename_i b hb
      simp only [Option.some.injEq] at hc
      subst hc
      unfold effPriority adjustedPriority fileUsage
      rw [hb]
      cases env.accountForSize <;> simp
    · simp at hc
  exact (mem_mapM h _).2 ⟨e, hmem, hc.trans (congrArg some key)⟩

theorem eq_of_path {l : ALocal} (hn : (paths l).Nodup) {a b : Entry PData} (ha : a ∈ l) (hb : b ∈ l)
    (h : a.path = b.path) : a = b := by
  induction l with
  | nil => simp at ha
  | cons d l ih =>
    simp only [paths, List.map_cons, List.nodup_cons] at hn ih
    rcases List.mem_cons.1 ha with rfl | ha' <;> rcases List.mem_cons.1 hb with rfl | hb'
    · rfl
    · exact absurd (List.mem_map.2 ⟨b, hb', h.symm⟩) hn.1
    · exact absurd (List.mem_map.2 ⟨a, ha', h⟩) hn.1
    · exact ih hn.2 ha' hb'

theorem competes_of_cand {env : SelEnv} {ex : List Path} {cs : List Cand}
    (h : fileCands env ex = some cs) {c : Cand} (hc : c ∈ cs) :
    ∃ e, Competes env ex e ∧ c.path = e.path ∧ c.size = fileUsage env e.path := by
  have hs := fileCands_size h hc
  have : c.path ∈ cs.map Cand.path := List.mem_map_of_mem hc
  rw [fileCands_paths h, mem_filter_path] at this
  obtain ⟨e, he, hp, hb⟩ := this
  simp only [Bool.and_eq_true, Bool.not_eq_true', List.any_eq_false] at hb
  exact ⟨e, ⟨he, hb.1, fun x hx hpre => hb.2 x hx (List.isPrefixOf_iff_prefix.2 hpre)⟩, hp.symm,
    by rw [hs, hp]⟩

theorem mem_F {env : SelEnv} {ex : List Path} {cs : List Cand} (hn : (paths env.loc).Nodup)
    (h : fileCands env ex = some cs) {S : List Cand} (hS : ∀ c ∈ S, c ∈ cs) {e : Entry PData}
    (he : Competes env ex e) : e.path ∈ S.map Cand.path ↔
      (⟨e.path, effPriority env e, fileUsage env e.path⟩ : Cand) ∈ S := by
  constructor
  · intro hm
    obtain ⟨c, hc, hce⟩ := List.mem_map.1 hm
    have h1 := cand_of_competes h he
    have hcn : (cs.map Cand.path).Nodup := by
      rw [fileCands_paths h]; exact hn.sublist (List.filter_sublist.map _)
    have : c = (⟨e.path, effPriority env e, fileUsage env e.path⟩ : Cand) := by
      have h2 := hS c hc
      clear hm h hS he
      induction cs with
      | nil => simp at h1
      | cons d cs ih =>
        simp only [List.map_cons, List.nodup_cons] at hcn
        rcases List.mem_cons.1 h1 with h1 | h1 <;> rcases List.mem_cons.1 h2 with h2 | h2
        · rw [h2, h1]
        · exact absurd (by rw [← h1]; exact List.mem_map.2 ⟨c, h2, hce⟩) hcn.1
        · exact absurd (by rw [← h2, hce]; exact List.mem_map.2 ⟨_, h1, rfl⟩) hcn.1
        · exact ih h1 hcn.2 h2
    rw [← this]; exact hc
  · intro hm
    exact List.mem_map.2 ⟨_, hm, rfl⟩

/-- Among the files that compete for space, if every one occupies at least as
much as the link that replaces it, a file is selected whenever a file that it
beats and that is not smaller is selected. -/
theorem C14_priority {env : SelEnv} (hn : (paths env.loc).Nodup)
    (hg : ∀ p ∈ paths env.loc, GoodPath p) {limit r : Int} {ex F : List Path}
    (h : prioritizeFiles env limit ex = some (r, F))
    (hsize : ∀ e, Competes env ex e → env.symlinkSize ≤ fileUsage env e.path)
    {a b : Entry PData} (ha : Competes env ex a) (hb : Competes env ex b) (hab : Beats env a b)
    (hle : fileUsage env a.path ≤ fileUsage env b.path) (hbF : b.path ∈ F) : a.path ∈ F := by
  unfold prioritizeFiles at h
  rw [Option.map_eq_some_iff] at h
  obtain ⟨cs, h1, h2⟩ := h
  rw [selectFiles_eq] at h2
  simp only [List.nil_append, Prod.mk.injEq] at h2
  obtain ⟨_, rfl⟩ := h2
  have hS : ∀ c ∈ accept env.symlinkSize limit (rank cs), c ∈ cs := fun c hc =>
    (rank_perm cs).mem_iff.1 ((accept_sublist _ _ _).subset hc)
  rw [mem_F hn h1 hS hb] at hbF
  rw [mem_F hn h1 hS ha]
  have ca := (rank_perm cs).mem_iff.2 (cand_of_competes h1 ha)
  have hsz : ∀ c ∈ rank cs, env.symlinkSize ≤ c.size := by
    intro c hc
    obtain ⟨e, he, _, hce⟩ := competes_of_cand h1 ((rank_perm cs).mem_iff.1 hc)
    rw [hce]; exact hsize e he
  have hsorted := rank_sorted cs
  obtain ⟨l₁, l₂, hl⟩ := List.append_of_mem ca
  rw [hl] at hbF hsz hsorted ⊢
  by_cases hb1 : (⟨b.path, effPriority env b, fileUsage env b.path⟩ : Cand) ∈ l₁
  · -- then `b` is ranked before `a`, so they are the same candidate
    have hba := (List.pairwise_append.1 hsorted).2.2 _ hb1
      ⟨a.path, effPriority env a, fileUsage env a.path⟩ (by simp)
    have hab' : RankLe ⟨a.path, effPriority env a, fileUsage env a.path⟩
      ⟨b.path, effPriority env b, fileUsage env b.path⟩ := hab
    have heq := rankLe_antisymm hab' hba
    simp only at heq
    have hab2 : a.path = b.path :=
      toStr_injective (hg _ (List.mem_map_of_mem ha.1)) (hg _ (List.mem_map_of_mem hb.1)) heq
    have he : a = b := eq_of_path hn ha.1 hb.1 hab2
    rw [he]; rw [he] at hbF; exact hbF
  · exact accept_wins hsz hle hb1 hbF

/-- The bound on the sizes is needed: `b` occupies less than the link that
would replace it, so selecting it frees space; `a` has the higher priority, is
no larger, and is not selected. -/
theorem C14_small_files :
    ∃ (env : SelEnv) (a b : Entry PData) (limit r : Int) (F : List Path),
      (paths env.loc).Nodup ∧ Competes env [] a ∧ Competes env [] b ∧ Beats env a b ∧
      fileUsage env a.path ≤ fileUsage env b.path ∧
      prioritizeFiles env limit [] = some (r, F) ∧ b.path ∈ F ∧ a.path ∉ F := by
  refine ⟨{ loc := [⟨["a".toList], false, ⟨3, false⟩⟩, ⟨["s".toList], false, ⟨2, false⟩⟩,
              ⟨["b".toList], false, ⟨1, false⟩⟩]
            rem := []
            stat := fun p => if p = ["a".toList] then some (false, 16)
              else if p = ["b".toList] then some (false, 16)
              else if p = ["s".toList] then some (false, 0) else none
            accountForSize := false
            storageLimit := 100000
            symlinkSize := 4096 },
    ⟨["a".toList], false, ⟨3, false⟩⟩, ⟨["b".toList], false, ⟨1, false⟩⟩, 4000, 4000,
    [["s".toList], ["b".toList]], ?_⟩
  refine ⟨by decide +kernel, ⟨by decide +kernel, rfl, by simp⟩, ⟨by decide +kernel, rfl, by simp⟩,
    Or.inl (by decide +kernel), by decide +kernel, by decide +kernel, by decide +kernel,
    by decide +kernel⟩

/-- No space is wasted: under the same bound, a file that was not selected does
not fit in the space that is left. -/
theorem C52_maximal {env : SelEnv} (hn : (paths env.loc).Nodup) {limit r : Int} {ex F : List Path}
    (h : prioritizeFiles env limit ex = some (r, F))
    (hsize : ∀ e, Competes env ex e → env.symlinkSize ≤ fileUsage env e.path)
    {a : Entry PData} (ha : Competes env ex a) (haF : a.path ∉ F) :
    r + env.symlinkSize ≤ fileUsage env a.path := by
  unfold prioritizeFiles at h
  rw [Option.map_eq_some_iff] at h
  obtain ⟨cs, h1, h2⟩ := h
  rw [selectFiles_eq] at h2
  simp only [List.nil_append, Prod.mk.injEq] at h2
  obtain ⟨rfl, rfl⟩ := h2
  have hS : ∀ c ∈ accept env.symlinkSize limit (rank cs), c ∈ cs := fun c hc =>
    (rank_perm cs).mem_iff.1 ((accept_sublist _ _ _).subset hc)
  rw [mem_F hn h1 hS ha] at haF
  have hsz : ∀ c ∈ rank cs, env.symlinkSize ≤ c.size := by
    intro c hc
    obtain ⟨e, he, _, hce⟩ := competes_of_cand h1 ((rank_perm cs).mem_iff.1 hc)
    rw [hce]; exact hsize e he
  have := accept_maximal hsz ((rank_perm cs).mem_iff.2 (cand_of_competes h1 ha)) haF
  simp only at this
  omega

/-- The hypotheses hold in the example: `x` beats `docs/b`. -/
example : (∀ e, Competes exEnv [] e → exEnv.symlinkSize ≤ fileUsage exEnv e.path) ∧
    Competes exEnv [] ⟨["x".toList], false, ⟨3, false⟩⟩ ∧
    Competes exEnv [] ⟨["docs".toList, "b".toList], false, ⟨1, false⟩⟩ ∧
    Beats exEnv ⟨["x".toList], false, ⟨3, false⟩⟩ ⟨["docs".toList, "b".toList], false, ⟨1, false⟩⟩ ∧
    (prioritizeFiles exEnv 7712 []).map Prod.snd
      = some [["docs".toList, "a".toList], ["x".toList]] := by
  refine ⟨?_, ⟨by decide +kernel, rfl, by simp⟩, ⟨by decide +kernel, rfl, by simp⟩,
    Or.inl (by decide +kernel), by decide +kernel⟩
  rintro e ⟨he, hd, _⟩
  have : ∀ e ∈ exEnv.loc, e.directory = false → exEnv.symlinkSize ≤ fileUsage exEnv e.path := by
    decide +kernel
  exact this e he hd

end Verif
