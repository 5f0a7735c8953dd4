import Verif.PrioritizeInv
import Verif.Spec.Selection
/-
C15: whole directory trees are selected.
-/
namespace Verif
open ADB

/-- The selected directories are known directories, no two of them nested. -/
theorem C15_dirs {env : SelEnv} (hn : (paths env.loc).Nodup) {limit r : Int} {D : List Path}
    (hD : prioritizeDirs env limit = some (r, D)) :
    D.Nodup ∧ (∀ d ∈ D, ∃ e ∈ env.loc, e.path = d ∧ e.directory = true) ∧
      ∀ d ∈ D, ∀ d' ∈ D, d <+: d' → d = d' := by
  obtain ⟨cs, st, _, w, h2⟩ := prioritizeDirs_inv hn hD
  simp only [Prod.mk.injEq] at h2
  obtain ⟨_, rfl⟩ := h2
  exact ⟨w.nodup, w.known, w.anti⟩

/-- The selected files are known files, none of them below an excluded directory. -/
theorem C15_files {env : SelEnv} (hn : (paths env.loc).Nodup) {limit r : Int} {ex F : List Path}
    (hF : prioritizeFiles env limit ex = some (r, F)) :
    F.Nodup ∧ ∀ f ∈ F, (∃ e ∈ env.loc, e.path = f ∧ e.directory = false) ∧
      ∀ d ∈ ex, ¬ d <+: f := by
  unfold prioritizeFiles at hF
  rw [Option.map_eq_some_iff] at hF
  obtain ⟨fs, h1, h2⟩ := hF
  rw [selectFiles_eq] at h2
  simp only [List.nil_append, Prod.mk.injEq] at h2
  obtain ⟨_, rfl⟩ := h2
  have hp := fileCands_paths h1
  have hsub : ((accept env.symlinkSize limit (rank fs)).map Cand.path).Sublist
      ((rank fs).map Cand.path) := (accept_sublist _ _ _).map _
  constructor
  · have : ((rank fs).map Cand.path).Nodup := by
      rw [((rank_perm fs).map Cand.path).nodup_iff, hp]
      exact hn.sublist (List.filter_sublist.map _)
    exact this.sublist hsub
  · intro f hf
    have := ((rank_perm fs).map Cand.path).mem_iff.1 (hsub.subset hf)
    rw [hp, mem_filter_path] at this
    obtain ⟨e, he, rfl, hb⟩ := this
    simp only [Bool.and_eq_true, Bool.not_eq_true', List.any_eq_false] at hb
    exact ⟨⟨e, he, rfl, hb.1⟩, fun d hd hpre => hb.2 d hd (List.isPrefixOf_iff_prefix.2 hpre)⟩

/-- The two calls of a sync: no selected file lies in a selected directory. -/
theorem C15_disjoint {env : SelEnv} (hn : (paths env.loc).Nodup) {limit r₁ r₂ : Int}
    {D F : List Path} (_hD : prioritizeDirs env limit = some (r₁, D))
    (hF : prioritizeFiles env r₁ D = some (r₂, F)) : ∀ d ∈ D, ∀ f ∈ F, ¬ d <+: f :=
  fun d hd f hf => ((C15_files hn hF).2 f hf).2 d hd

/-- With nested directories of different priority only the outer one remains,
even when the inner one was selected first. -/
example : ∃ r, prioritizeDirs
    { loc := [⟨["d".toList], true, ⟨5, false⟩⟩, ⟨["d".toList, "e".toList], true, ⟨5, false⟩⟩,
        ⟨["d".toList, "e".toList, "f".toList], false, ⟨5, false⟩⟩]
      rem := [⟨["d".toList], true, 0⟩, ⟨["d".toList, "e".toList], true, 0⟩,
        ⟨["d".toList, "e".toList, "f".toList], false, 0⟩]
      stat := fun _ => some (true, 8)
      accountForSize := true
      storageLimit := 100000
      symlinkSize := 4096 } 50000 = some (r, [["d".toList]]) := ⟨37712, by decide +kernel⟩

end Verif
