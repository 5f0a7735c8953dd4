import Verif.Overlap
/-
C49: a profile can be selected by its local directory.
-/
namespace Verif

/-- The full claim C49, for given local directories of the profiles: the path of an
existing local directory selects its profile (the names of profiles take
precedence). -/
def C49Claim : Prop := ∀ (profiles : List Str) (localDir : Str → Str) (pathExists : Str → Bool) (name : Str),
  name ∈ profiles → (∀ n ∈ profiles, localDir n ∉ profiles) →
  (∀ n ∈ profiles, ∀ m ∈ profiles, localDir n = localDir m → n = m) →
  (∀ n ∈ profiles, pathExists (localDir n) = true) →
  selectProfile profiles pathExists (localDir name) = .profile name

/-- It does not hold. -/
theorem C49_fails : ¬ C49Claim := by
  intro h
  have := h ["p".toList] (fun _ => "/d".toList) (fun _ => true) "p".toList (by simp) (by simp)
    (by simp) (by simp)
  exact absurd this (by decide)

/-- No path ever selects a profile: an existing path that is not a profile name ends in
an `AttributeError` as soon as there is a profile. -/
theorem C49_path_never (profiles : List Str) (pathExists : Str → Bool) (input : Str)
    (h : input ∉ profiles) (name : Str) :
    selectProfile profiles pathExists input ≠ .profile name ∧
    (pathExists input = true → profiles ≠ [] → selectProfile profiles pathExists input = .attributeError) := by
  unfold selectProfile
  rw [if_neg h]
  constructor
  · split
    · cases profiles <;> simp
    · simp
  · intro he hp
    rw [if_pos he]
    cases profiles with
    | nil => exact absurd rfl hp
    | cons a as => rfl

/-- The name of a profile selects it, whatever paths exist; anything else never selects a
profile. Missing from C49: selection by path. -/
theorem C49_name_partial (profiles : List Str) (pathExists : Str → Bool) (input name : Str) :
    selectProfile profiles pathExists input = .profile name ↔ (input = name ∧ name ∈ profiles) := by
  constructor
  · intro h
    by_cases hi : input ∈ profiles
    · unfold selectProfile at h
      rw [if_pos hi] at h
      cases h
      exact ⟨rfl, hi⟩
    · exact absurd h (C49_path_never profiles pathExists input hi name).1
  · rintro ⟨rfl, h⟩
    unfold selectProfile
    rw [if_pos h]

end Verif
