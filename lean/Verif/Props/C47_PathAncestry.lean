import Verif.Utils
/-
C47: `get_path_ancestry` is complete, duplicate-free and ordered leaf to trunk.
-/
namespace Verif

/-- Exactly the given paths and their non-empty leading parts are returned. -/
theorem C47_complete (paths : List Path) (a : Path) :
    a ∈ pathAncestry paths ↔ ∃ p ∈ paths, a = p ∨ (a ≠ [] ∧ ∃ rest, p = a ++ rest) := by
  rw [mem_pathAncestry]
  constructor
  · rintro ⟨p, hp, h | ⟨h1, t, h2⟩⟩
    · exact ⟨p, hp, Or.inl h⟩
    · exact ⟨p, hp, Or.inr ⟨h1, t, h2.symm⟩⟩
  · rintro ⟨p, hp, h | ⟨h1, t, h2⟩⟩
    · exact ⟨p, hp, Or.inl h⟩
    · exact ⟨p, hp, Or.inr ⟨h1, t, h2.symm⟩⟩

/-- Each path is returned once. -/
theorem C47_nodup (paths : List Path) : (pathAncestry paths).Nodup := pathAncestry_nodup paths

/-- A directory never comes before something below it. -/
theorem C47_leaf_to_trunk (paths : List Path) (l₁ l₂ : List Path) (a : Path)
    (h : pathAncestry paths = l₁ ++ a :: l₂) (rest : Path) (hr : rest ≠ []) :
    a ++ rest ∉ l₂ := by
  intro hm
  have hs := pathAncestry_sorted paths
  rw [h, List.pairwise_append] at hs
  have := (List.pairwise_cons.1 hs.2.1).1 _ hm
  have h1 := List.length_pos_iff.2 hr
  simp only [List.length_append] at this
  omega

/-- Non-vacuity: `["a/b/c", "a/d"]`. -/
example : pathAncestry [["a".toList, "b".toList, "c".toList], ["a".toList, "d".toList]]
    = [["a".toList, "b".toList, "c".toList], ["a".toList, "d".toList],
       ["a".toList, "b".toList], ["a".toList]] := by decide +kernel

end Verif
