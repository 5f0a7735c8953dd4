import Verif.Utils
/-
C20: conflict names are unambiguous. `timestampPath` models
`timestamp_path(path, keyword)`; the timestamp text has neither dots nor
slashes (`%Y%m%d-%H%M%S`).
-/
namespace Verif
open Posix

/-- The conflict name of a path at an instant. -/
abbrev conflictName (ts : Str) (p : Str) : Str := timestampPath p "conflict".toList ts

theorem timestampPath_shape (ts p : Str) (hts : '.' ∉ ts ∧ '/' ∉ ts) :
    ∃ name ext, p = name ++ ext ∧ conflictName ts p = name ++ ("_conflict-".toList ++ ts) ++ ext ∧
      splitext p = (name, ext) ∧
      splitext (conflictName ts p) = (name ++ ("_conflict-".toList ++ ts), ext) ∧
      rawHead (conflictName ts p) = rawHead p := by
  have hh := isHead_rawHead p
  have hb := noSep_basename p
  have hp := rawHead_append_basename p
  have hmid1 : '.' ∉ ("_conflict-".toList ++ ts) := by simp [hts.1]
  have hmid2 : '/' ∉ ("_conflict-".toList ++ ts) := by simp [hts.2]
  rcases base_cases (basename p) with ⟨stem, ext, hbe, hd, hn⟩ | ⟨dots, w, hbe, hd, hn⟩
  · have hs1 : '/' ∉ stem := fun h => hb (by rw [hbe]; simp [h])
    have he1 : '/' ∉ ext := fun h => hb (by rw [hbe]; simp [h])
    have hsp : splitext p = (rawHead p ++ stem, '.' :: ext) := by
      have := splitext_ext hh hs1 he1 hd hn
      rwa [← hbe, hp] at this
    have hcn : conflictName ts p
        = rawHead p ++ ((stem ++ ("_conflict-".toList ++ ts)) ++ '.' :: ext) := by
      simp only [conflictName, timestampPath, hsp]
      simp
    refine ⟨rawHead p ++ stem, '.' :: ext, by simpa [hbe] using hp.symm, by rw [hcn]; simp, hsp, ?_, ?_⟩
    · rw [hcn, splitext_ext hh (by simpa [hs1] using hmid2) he1 hd (by simp [hn])]
      simp
    · rw [hcn, rawHead_head hh (by simpa [hs1, he1] using hmid2)]
  · have hw1 : '/' ∉ w := fun h => hb (by rw [hbe]; simp [h])
    have hdots1 : '/' ∉ dots := fun h => hb (by rw [hbe]; simp [h])
    have hsp : splitext p = (p, []) := by
      have := splitext_noext hh hw1 hd hn
      rwa [← hbe, hp] at this
    have hcn : conflictName ts p = rawHead p ++ (dots ++ (w ++ ("_conflict-".toList ++ ts))) := by
      have h1 : p = rawHead p ++ (dots ++ w) := by rw [← hbe, hp]
      simp only [conflictName, timestampPath, hsp]
      rw [show p ++ '_' :: ("conflict".toList ++ if "conflict".toList ≠ [] then ['-']
        else "conflict".toList) ++ ts ++ [] = p ++ ("_conflict-".toList ++ ts) by simp]
      conv => lhs; rw [h1]
      simp
    refine ⟨p, [], by simp, ?_, hsp, ?_, ?_⟩
    · simp only [conflictName, timestampPath, hsp]
      simp
    · rw [hcn, splitext_noext hh (by simpa [hw1] using hmid2) (by simpa [hd] using hmid1) hn]
      rw [← hcn]
      simp only [conflictName, timestampPath, hsp]
      simp
    · rw [hcn, rawHead_head hh (by simpa [hw1, hdots1] using hmid2)]

/-- The conflict name is in the same directory. -/
theorem C20_same_directory (ts p : Str) (hts : '.' ∉ ts ∧ '/' ∉ ts) :
    dirname (conflictName ts p) = dirname p := by
  obtain ⟨_, _, _, _, _, _, h⟩ := timestampPath_shape ts p hts
  simp only [dirname, h]

/-- The conflict name has the same extension. -/
theorem C20_same_extension (ts p : Str) (hts : '.' ∉ ts ∧ '/' ∉ ts) :
    (splitext (conflictName ts p)).2 = (splitext p).2 := by
  obtain ⟨_, _, _, _, h1, h2, _⟩ := timestampPath_shape ts p hts
  rw [h1, h2]

/-- The conflict name is a different path, whatever the path. -/
theorem C20_changes_name (ts p : Str) (hts : '.' ∉ ts ∧ '/' ∉ ts) : conflictName ts p ≠ p := by
  obtain ⟨n, e, h1, h2, _⟩ := timestampPath_shape ts p hts
  intro h
  rw [h2] at h
  have h3 := congrArg List.length (h.trans h1)
  simp at h3
  omega

/-- Different paths have different conflict names at the same instant. -/
theorem C20_injective (ts p q : Str) (hts : '.' ∉ ts ∧ '/' ∉ ts)
    (h : conflictName ts p = conflictName ts q) : p = q := by
  obtain ⟨n, e, hp, hp2, _, hp3, _⟩ := timestampPath_shape ts p hts
  obtain ⟨m, f, hq, hq2, _, hq3, _⟩ := timestampPath_shape ts q hts
  rw [h] at hp3
  rw [hp3] at hq3
  obtain ⟨h1, h2⟩ := Prod.mk.inj hq3
  have h3 : n = m := List.append_cancel_right h1
  rw [hp, hq, h2, h3]

/-- Non-vacuity: the documented example and a hidden file. -/
example : conflictName "20170219-145503".toList "guido/notes.txt".toList
    = "guido/notes_conflict-20170219-145503.txt".toList ∧
    conflictName "20170219-145503".toList "a.b/.bashrc".toList
    = "a.b/.bashrc_conflict-20170219-145503".toList ∧
    '.' ∉ "20170219-145503".toList ∧ '/' ∉ "20170219-145503".toList := by decide +kernel

end Verif
