import Verif.ConflictPath
import Verif.Props.C21_Trash
/-
What the loop over `os.rename` in `_rename_files` does.
-/
namespace Verif
open Prog OSM Call FSTools WM

/-- Renaming something that is not a directory to a name that is free. -/
theorem wp_rename_file {p q : Path} {s : OS} (w : s.fs.WF) (hg : GoodPath q) (hpq : p ≠ q)
    (hfree : s.fs.get q = none) (hnd : ∀ n, s.fs.get p = some n → n.isDir = false) :
    wp (rename p q)
      (fun _ s' => s'.fs.WF ∧ ∃ n, s.fs.get p = some n ∧
        ∀ x, s'.fs.get x = if x = p then none else if x = q then some n else s.fs.get x)
      (fun e s' => s'.fs = s.fs ∧
        (p ≠ [] → q ≠ [] → (∃ n, s.fs.get p = some n) → q.dropLast = p.dropLast → e = .killed)) s := by
  apply wp_rename w hg
  · intro s' h
    rcases h with ⟨h, _⟩ | ⟨ha, hw, ⟨n, hn, _⟩, hb, hx⟩
    · exact absurd h hpq
    · refine ⟨hw, n, hn, ?_⟩
      have hd : s.fs.isDir p = false := by unfold FS.isDir; rw [hn]; simpa using hnd n hn
      intro x
      rw [hx]
      by_cases h1 : x = p
      · subst h1; simp
      · rw [if_neg h1]
        by_cases h2 : p <+: x
        · rw [if_pos h2]
          have h3 := w.none_below hd h2 (Ne.symm h1)
          rw [h3]
          split
          · rename_i h4
            subst h4
            exact absurd h2 ha.1
          · rfl
        · rw [if_neg h2]
          by_cases h4 : x = q
          · subst h4; simp [hn]
          · rw [if_neg h4]
            split
            · rename_i h5
              rw [hb x h5 (Ne.symm h4)]
              obtain ⟨t, rfl⟩ := h5
              apply w.none_below hd
              · exact List.prefix_append _ _
              · intro h6
                simp at h6 h4
                exact h4 h6
            · rfl
  · intro e s' h1 h2
    refine ⟨h1, ?_⟩
    rintro hp hq ⟨n, hn⟩ hd
    rcases h2 with h2 | h2
    · exact h2
    · exfalso
      have hpd : s.fs.isDir p.dropLast = true := by
        refine w.isDir_prefix hn _ (List.dropLast_prefix p) (fun h => ?_)
        have := congrArg List.length h
        have := List.length_pos_iff.2 hp
        simp at *; omega
      have hpe : s.fs.pathErr q = none := pathErr_of_parent w hq (by rw [hd]; exact hpd)
      have hnp : ¬ p <+: q := by
        intro h
        refine hpq (h.eq_of_length ?_)
        have := congrArg List.length hd
        have := List.length_pos_iff.2 hp
        have := List.length_pos_iff.2 hq
        simp at *; omega
      unfold FS.rename at h2
      rw [w.lstat_iff.2 hn] at h2
      simp only [hpe, hpq, hp, hq, hfree, if_false, false_or] at h2
      rw [if_neg (by simpa using hnp)] at h2
      cases h2

/-- The pairs in `done` have been renamed and nothing else has changed. -/
structure Renamed (parent : Path) (fs : FS) (done : List (Path × Path)) (fs' : FS) : Prop where
  wf : fs'.WF
  moved : ∀ pr ∈ done, (∃ n, fs.get (parent ++ pr.1) = some n ∧ fs'.get (parent ++ pr.2) = some n) ∧
    fs'.get (parent ++ pr.1) = none
  other : ∀ x, (∀ pr ∈ done, x ≠ parent ++ pr.1 ∧ x ≠ parent ++ pr.2) → fs'.get x = fs.get x

/-- What is assumed about the names: the sources are not directories, the new names are free and all different. -/
structure CanRename (parent : Path) (fs : FS) (prs : List (Path × Path)) : Prop where
  good : ∀ pr ∈ prs, GoodPath (parent ++ pr.2)
  file : ∀ pr ∈ prs, ∀ n, fs.get (parent ++ pr.1) = some n → n.isDir = false
  free : ∀ pr ∈ prs, fs.get (parent ++ pr.2) = none
  sources : (prs.map Prod.fst).Nodup
  targets : (prs.map Prod.snd).Nodup
  apart : ∀ pr ∈ prs, ∀ pr' ∈ prs, pr.1 ≠ pr'.2

theorem wp_renameAll {parent : Path} {prs : List (Path × Path)} {s : OS} (w : s.fs.WF)
    (h : CanRename parent s.fs prs) :
    wp (renameAll parent prs)
      (fun _ s' => Renamed parent s.fs prs s'.fs)
      (fun e s' => (∃ done, done <+: prs ∧ Renamed parent s.fs done s'.fs) ∧
        ((∀ pr ∈ prs, pr.1 ≠ [] ∧ pr.2 ≠ [] ∧ (∃ n, s.fs.get (parent ++ pr.1) = some n) ∧
          pr.2.dropLast = pr.1.dropLast) → e = .killed)) s := by
  unfold renameAll
  refine wp_each (fun done (s' : OS) => Renamed parent s.fs done s'.fs) prs ?_
    ⟨w, by simp, fun _ _ => rfl⟩
  intro done pr rest hl s1 i
  have hin : ∀ pr' ∈ done, pr' ∈ prs := by intro pr' h'; rw [hl]; simp [h']
  have hpr : pr ∈ prs := by rw [hl]; simp
  have hs1 : ∀ pr' ∈ done, pr'.1 ≠ pr.1 := by
    have := h.sources
    rw [hl, List.map_append, List.nodup_append] at this
    intro pr' h' he
    exact this.2.2 pr'.1 (List.mem_map_of_mem h') pr.1 (by simp) he
  have ht1 : ∀ pr' ∈ done, pr'.2 ≠ pr.2 := by
    have := h.targets
    rw [hl, List.map_append, List.nodup_append] at this
    intro pr' h' he
    exact this.2.2 pr'.2 (List.mem_map_of_mem h') pr.2 (by simp) he
  have e1 : s1.fs.get (parent ++ pr.1) = s.fs.get (parent ++ pr.1) := by
    apply i.other
    intro pr' h'
    simp only [ne_eq, List.append_cancel_left_eq]
    exact ⟨fun e => hs1 pr' h' e.symm, h.apart pr hpr pr' (hin pr' h')⟩
  have e2 : s1.fs.get (parent ++ pr.2) = none := by
    rw [i.other, h.free pr hpr]
    intro pr' h'
    simp only [ne_eq, List.append_cancel_left_eq]
    exact ⟨fun e => h.apart pr' (hin pr' h') pr hpr e.symm, fun e => ht1 pr' h' e.symm⟩
  refine wp_mono (wp_rename_file i.wf (h.good pr hpr) (by simpa using h.apart pr hpr pr hpr) e2
    (by rw [e1]; exact h.file pr hpr)) ?_ ?_
  · rintro _ s2 ⟨hw, n, hn, hx⟩
    rw [e1] at hn
    refine ⟨hw, ?_, ?_⟩
    · intro pr' h'
      rw [List.mem_append, List.mem_singleton] at h'
      rcases h' with h' | rfl
      · obtain ⟨⟨n', a1, a2⟩, a3⟩ := i.moved pr' h'
        refine ⟨⟨n', a1, ?_⟩, ?_⟩
        · rw [hx, if_neg, if_neg]
          · exact a2
          · simpa using ht1 pr' h'
          · simpa using fun e => h.apart pr hpr pr' (hin pr' h') e.symm
        · rw [hx, if_neg, if_neg]
          · exact a3
          · simpa using h.apart pr' (hin pr' h') pr hpr
          · simpa using hs1 pr' h'
      · refine ⟨⟨n, hn, ?_⟩, by rw [hx]; simp⟩
        rw [hx, if_neg, if_pos rfl]
        simpa using fun e => h.apart pr' hpr pr' hpr e.symm
    · intro x hxx
      have := hxx pr (by simp)
      rw [hx, if_neg this.1, if_neg this.2]
      exact i.other x (fun pr' h' => hxx pr' (by simp [h']))
  · rintro e s2 ⟨he, hk⟩
    refine ⟨⟨done, ⟨pr :: rest, hl.symm⟩, by rw [he]; exact i⟩, fun hall => ?_⟩
    obtain ⟨h1, h2, h3, h4⟩ := hall pr hpr
    refine hk (by simp [h1]) (by simp [h2]) (by rw [e1]; exact h3) ?_
    rw [List.dropLast_append_of_ne_nil h1, List.dropLast_append_of_ne_nil h2, h4]

end Verif
