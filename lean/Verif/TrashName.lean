import Batteries.Data.List.Perm
import Verif.FilesManager
/-
The names of files in the trash.
-/
namespace Verif
open Posix

theorem splitext_join (s : Str) : (splitext s).1 ++ (splitext s).2 = s := by
  have h := rawHead_append_basename s
  rcases base_cases (basename s) with ⟨stem, ext, hb, hd, hn⟩ | ⟨dots, w, hb, hd, hn⟩
  · have hs : '/' ∉ stem ++ '.' :: ext := hb ▸ noSep_basename s
    have h1 : '/' ∉ stem := fun h => hs (by simp [h])
    have h2 : '/' ∉ ext := fun h => hs (by simp [h])
    rw [hb] at h
    have := splitext_ext (isHead_rawHead s) h1 h2 hd hn
    rw [h] at this
    rw [this]
    exact (List.append_assoc _ _ _).trans h
  · have hs : '/' ∉ dots ++ w := hb ▸ noSep_basename s
    have h1 : '/' ∉ w := fun h => hs (by simp [h])
    rw [hb] at h
    have := splitext_noext (isHead_rawHead s) h1 hd hn
    rw [h] at this
    rw [this]
    simp

theorem length_trashCand (name : Str) (k : Nat) (hk : k ≠ 0) : name.length < (trashCand name k).length := by
  unfold trashCand
  rw [if_neg hk]
  have := congrArg List.length (splitext_join name)
  simp at this ⊢
  omega

theorem trashCand_inj {name : Str} {i j : Nat} (h : trashCand name i = trashCand name j) : i = j := by
  by_cases hi : i = 0
  · by_cases hj : j = 0
    · rw [hi, hj]
    · have := length_trashCand name j hj
      rw [← h, hi, trashCand, if_pos rfl] at this
      omega
  · by_cases hj : j = 0
    · have := length_trashCand name i hi
      rw [h, hj, trashCand, if_pos rfl] at this
      omega
    · unfold trashCand at h
      rw [if_neg hi, if_neg hj, List.append_cancel_right_eq, List.append_cancel_right_eq,
        List.append_cancel_left_eq] at h
      have := congrArg (fun l => Nat.ofDigitChars 10 l 0) h
      simpa only [Nat.ofDigitChars_ten_toDigits] using this

theorem nodup_trashCands (name : Str) (n : Nat) : ((List.range n).map (trashCand name)).Nodup := by
  rw [List.nodup_iff_pairwise_ne, List.pairwise_map]
  exact (List.nodup_iff_pairwise_ne.1 List.nodup_range).imp (fun h h' => h (trashCand_inj h'))

/-- The first candidate that is not in use. -/
theorem trashName_spec (names : List Str) (name : Str) :
    ∃ k, trashName names name = trashCand name k ∧ trashCand name k ∉ names ∧ ∀ j < k, trashCand name j ∈ names := by
  unfold trashName
  cases hf : ((List.range (names.length + 1)).map (trashCand name)).find? (fun n => decide (n ∉ names)) with
  | none =>
    rw [List.find?_eq_none] at hf
    have hsub : ((List.range (names.length + 1)).map (trashCand name)) ⊆ names := by
      intro x hx
      have := hf x hx
      simpa using this
    have := (List.subperm_of_subset (nodup_trashCands name _) hsub).length_le
    simp at this
    omega
  | some x =>
    rw [List.find?_eq_some_iff_getElem] at hf
    obtain ⟨hx, i, hi, he, hl⟩ := hf
    simp at hi he
    refine ⟨i, he.symm, ?_, ?_⟩
    · rw [he]; simpa using hx
    · intro j hj
      have := hl j hj
      simpa using this

theorem trashName_fresh (names : List Str) (name : Str) : trashName names name ∉ names := by
  obtain ⟨k, h1, h2, _⟩ := trashName_spec names name
  rw [h1]; exact h2

theorem goodName_trashCand {name : Str} (h : GoodName name) (k : Nat) : GoodName (trashCand name k) := by
  by_cases hk : k = 0
  · rw [hk, trashCand, if_pos rfl]; exact h
  · have hj := splitext_join name
    have hmem : '(' ∈ trashCand name k := by unfold trashCand; rw [if_neg hk]; simp
    refine ⟨by intro h0; rw [h0] at hmem; simp at hmem, ?_, by intro h0; rw [h0] at hmem; simp at hmem,
      by intro h0; rw [h0] at hmem; simp at hmem⟩
    have h1 : '/' ∉ (splitext name).1 := fun hm => h.2.1 (by rw [← hj]; simp [hm])
    have h2 : '/' ∉ (splitext name).2 := fun hm => h.2.1 (by rw [← hj]; simp [hm])
    have h3 : '/' ∉ Nat.toDigits 10 k := by
      intro hm
      have := Nat.isDigit_of_mem_toDigits (by omega) (by omega) hm
      exact absurd this (by decide)
    unfold trashCand
    rw [if_neg hk]
    simp [h1, h2, h3]

end Verif
