import Verif.PrioritizeInv
import Verif.Spec.Selection
/-
C12: the selection respects the storage limit.
-/
namespace Verif
open ADB

theorem dirSize_eq {env : SelEnv} {d : Path} {n : Nat} (h : dirSize env d = some n) :
    n = treeUsage env d := by
  unfold dirSize at h
  rw [Option.map_eq_some_iff] at h
  obtain ⟨l, h1, rfl⟩ := h
  unfold treeUsage
  congr 1
  have := map_mapM (g := fun e : Entry Int => fileUsage env e.path) (k := id) ?_ h1
  · simpa [rows] using this
  · intro e n hn
    simp [fileUsage, hn]

theorem fileCands_size {env : SelEnv} {ex : List Path} {cs : List Cand}
    (h : fileCands env ex = some cs) {c : Cand} (hc : c ∈ cs) : c.size = fileUsage env c.path := by
  unfold fileCands at h
  obtain ⟨e, he, hce⟩ := (mem_mapM h c).1 hc
  split at hce
  · rename_i b hb
    simp only [Option.some.injEq] at hce
    subst hce
    simp [fileUsage, hb]
  · simp at hce

theorem sum_natCast (l : List Cand) (sl : Nat) :
    cost sl l = ((l.map Cand.size).sum : Nat) - (l.length * sl : Nat) := by
  induction l with
  | nil => simp [cost]
  | cons c l ih =>
    simp only [cost, List.map_cons, List.sum_cons, List.length_cons] at ih ⊢
    rw [ih]
    push_cast
    ring

theorem length_filter_add {α : Type} (l : List α) (P : α → Bool) :
    l.length = (l.filter P).length + (l.filter (fun x => !P x)).length := by
  have h1 : ∀ k : List α, (k.map (fun _ => 1)).sum = k.length := by
    intro k
    induction k with
    | nil => rfl
    | cons a k ih => rw [List.map_cons, List.sum_cons, ih, List.length_cons, Nat.add_comm]
  have := sum_filter_add l P (fun _ => 1)
  rwa [h1, h1, h1] at this

/-- The space that the two calls of a sync report as remaining is the limit
minus what the selection occupies, and it is not negative unless nothing was
selected. -/
theorem C12_limit {env : SelEnv} (hn : (paths env.loc).Nodup) {limit r₁ r₂ : Int}
    {D F : List Path} (hD : prioritizeDirs env limit = some (r₁, D))
    (hF : prioritizeFiles env r₁ D = some (r₂, F)) :
    r₂ = limit - usage env D F ∧ (D ≠ [] ∨ F ≠ [] → (usage env D F : Int) ≤ limit) := by
  obtain ⟨cs, st, h1, w, h2⟩ := prioritizeDirs_inv hn hD
  simp only [Prod.mk.injEq] at h2
  obtain ⟨rfl, rfl⟩ := h2
  have hp := dirCands_paths h1
  have hcn : (cs.map Cand.path).Nodup := by
    rw [hp]; exact hn.sublist (List.filter_sublist.map _)
  -- sizes of the selected directories
  have hsz : st.dirs.map (sizeOf cs) = st.dirs.map (treeUsage env) := by
    apply List.map_congr_left
    intro d hd
    have : d ∈ cs.map Cand.path := by
      rw [hp, mem_filter_path]; exact w.known d hd
    obtain ⟨c, hc, rfl⟩ := List.mem_map.1 this
    rw [sizeOf_mem hcn hc]
    obtain ⟨e, _, hce⟩ := (mem_mapM h1 c).1 hc
    rw [Option.map_eq_some_iff] at hce
    obtain ⟨n, hn, rfl⟩ := hce
    exact dirSize_eq hn
  -- number of files below them
  set files := env.loc.filter (fun e => !e.directory) with hfiles
  have hlen : st.files.length
      = (files.filter (fun e => st.dirs.any (fun d => d.isPrefixOf e.path))).length := by
    have : st.files.Perm ((files.filter
        (fun e => st.dirs.any (fun d => d.isPrefixOf e.path))).map Entry.path) := by
      apply perm_of_nodup_mem w.fnodup
      · exact hn.sublist ((List.filter_sublist.trans List.filter_sublist).map _)
      · intro p
        rw [w.file, hfiles, List.filter_filter, mem_filter_path]
        constructor
        · rintro ⟨⟨e, he, rfl, hd⟩, d, hdd, hpre⟩
          refine ⟨e, he, rfl, ?_⟩
          simp only [hd, Bool.not_false, Bool.and_true, List.any_eq_true]
          exact ⟨d, hdd, List.isPrefixOf_iff_prefix.2 hpre⟩
        · rintro ⟨e, he, rfl, h⟩
          simp only [Bool.and_eq_true, Bool.not_eq_true', List.any_eq_true] at h
          obtain ⟨⟨d, hd, hpre⟩, hdir⟩ := h
          exact ⟨⟨e, he, rfl, hdir⟩, d, hd, List.isPrefixOf_iff_prefix.1 hpre⟩
    rw [this.length_eq, List.length_map]
  -- the files
  unfold prioritizeFiles at hF
  rw [Option.map_eq_some_iff] at hF
  obtain ⟨fs, g1, g2⟩ := hF
  rw [selectFiles_eq] at g2
  simp only [List.nil_append, Prod.mk.injEq] at g2
  obtain ⟨g2, g3⟩ := g2
  have hsub := accept_sublist env.symlinkSize st.remaining (rank fs)
  have hpos := accept_pos env.symlinkSize st.remaining (rank fs)
  generalize accept env.symlinkSize st.remaining (rank fs) = S at *
  have hmem : ∀ c ∈ S, c ∈ fs := fun c hc => (rank_perm fs).mem_iff.1 (hsub.subset hc)
  have hfp := fileCands_paths g1
  have hfn : (fs.map Cand.path).Nodup := by
    rw [hfp]; exact hn.sublist (List.filter_sublist.map _)
  have hFn : F.Nodup := by
    rw [← g3]
    have : ((rank fs).map Cand.path).Nodup := ((rank_perm fs).map _).nodup_iff.2 hfn
    exact this.sublist (hsub.map _)
  have hFs : (S.map Cand.size).sum = (F.map (fileUsage env)).sum := by
    rw [← g3, List.map_map]
    congr 1
    apply List.map_congr_left
    intro c hc
    exact fileCands_size g1 (hmem c hc)
  have hSF : S.length = F.length := by rw [← g3, List.length_map]
  set cand := files.filter (fun e => !st.dirs.any (fun d => d.isPrefixOf e.path)) with hcand
  have hFc : ∀ p, p ∈ F → p ∈ cand.map Entry.path := by
    intro p hp
    rw [← g3] at hp
    obtain ⟨c, hc, rfl⟩ := List.mem_map.1 hp
    have : c.path ∈ fs.map Cand.path := List.mem_map_of_mem (hmem c hc)
    rw [hfp] at this
    rw [hcand, hfiles, List.filter_filter]
    have e : (fun e : Entry PData => !e.directory && !st.dirs.any (fun d => d.isPrefixOf e.path))
        = (fun e => (!st.dirs.any (fun d => d.isPrefixOf e.path)) && !e.directory) := by
      funext e; rw [Bool.and_comm]
    rwa [← e]
  have hFl : F.length = (cand.filter (fun e => decide (e.path ∈ F))).length := by
    have : F.Perm ((cand.filter (fun e => decide (e.path ∈ F))).map Entry.path) := by
      apply perm_of_nodup_mem hFn
      · exact hn.sublist ((List.filter_sublist.trans (List.filter_sublist.trans
          List.filter_sublist)).map _)
      · intro p
        constructor
        · intro hpF
          obtain ⟨e, he, rfl⟩ := List.mem_map.1 (hFc p hpF)
          exact List.mem_map.2 ⟨e, List.mem_filter.2 ⟨he, by simpa using hpF⟩, rfl⟩
        · intro hpm
          obtain ⟨e, he, rfl⟩ := List.mem_map.1 hpm
          simpa using (List.mem_filter.1 he).2
    rw [← List.length_map (f := Entry.path) (as := cand.filter _)]
    exact this.length_eq
  have hlinks : linksLeft env st.dirs F
      = (cand.filter (fun e => !decide (e.path ∈ F))).length := by
    unfold linksLeft
    rw [hcand, hfiles, List.filter_filter, List.filter_filter]
    congr 1
    apply List.filter_congr
    intro e _
    cases e.directory <;> cases st.dirs.any (fun d => d.isPrefixOf e.path) <;> simp
  have c1 := length_filter_add files (fun e => st.dirs.any (fun d => d.isPrefixOf e.path))
  have c2 := length_filter_add cand (fun e => decide (e.path ∈ F))
  rw [← hlen, ← hcand] at c1
  rw [← hFl, ← hlinks] at c2
  have hnf : nFiles env = files.length := rfl
  have hsp := w.space
  rw [hsz, hnf, c1, c2] at hsp
  rw [sum_natCast, hFs, hSF] at g2
  have hfin : r₂ = limit - usage env st.dirs F := by
    rw [← g2, hsp]
    unfold usage
    push_cast
    ring
  refine ⟨hfin, ?_⟩
  intro hne
  have hr2 : 0 ≤ r₂ := by
    rw [sum_natCast, hFs, hSF] at hpos
    by_cases hS : S = []
    · have hF0 : F = [] := by rw [← g3, hS]; rfl
      have hD0 : st.dirs ≠ [] := by
        rcases hne with h | h
        · exact h
        · exact absurd hF0 h
      have := w.fits.resolve_left hD0
      rw [hF0] at g2
      simp at g2
      omega
    · have := hpos hS
      omega
  omega

/-- The space the selected directories take is never more than the storage limit each. -/
theorem C12_each {env : SelEnv} (hn : (paths env.loc).Nodup) {limit r : Int} {D : List Path}
    (hD : prioritizeDirs env limit = some (r, D)) {d : Path} (hd : d ∈ D) :
    (treeUsage env d : Int) ≤ env.storageLimit := by
  obtain ⟨cs, st, h1, w, h2⟩ := prioritizeDirs_inv hn hD
  simp only [Prod.mk.injEq] at h2
  obtain ⟨rfl, rfl⟩ := h2
  have hp := dirCands_paths h1
  have hcn : (cs.map Cand.path).Nodup := by
    rw [hp]; exact hn.sublist (List.filter_sublist.map _)
  have : d ∈ cs.map Cand.path := by
    rw [hp, mem_filter_path]; exact w.known d hd
  obtain ⟨c, hc, rfl⟩ := List.mem_map.1 this
  have hs := w.small _ hd
  rw [sizeOf_mem hcn hc] at hs
  obtain ⟨e, _, hce⟩ := (mem_mapM h1 c).1 hc
  rw [Option.map_eq_some_iff] at hce
  obtain ⟨n, hn, rfl⟩ := hce
  simp only at hs ⊢
  rw [← dirSize_eq hn]
  exact hs

/-- 60000 bytes: the directory is kept, `x` as well. -/
example : prioritizeDirs exEnv 60000 = some (60000 - 45056 - 4096, [["docs".toList]]) ∧
    prioritizeFiles exEnv (60000 - 45056 - 4096) [["docs".toList]]
      = some (60000 - 45056 - 4096, [["x".toList]]) ∧
    usage exEnv [["docs".toList]] [["x".toList]] = 49152 := by
  decide +kernel

/-- 20000 bytes: the directory does not fit, two files do. -/
example : prioritizeDirs exEnv 20000 = some (7712, []) ∧
    prioritizeFiles exEnv 7712 [] = some (3616, [["docs".toList, "a".toList], ["x".toList]]) ∧
    usage exEnv [] [["docs".toList, "a".toList], ["x".toList]] = 16384 := by
  decide +kernel

end Verif
