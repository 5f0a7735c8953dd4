import Verif.CallLemmas
import Verif.Transfer
/-
What `os.rename` does to the file system.
-/
namespace Verif
namespace FS

theorem get_move {fs : FS} {p q : Path} (ha : Apart p q) (x : Path) :
    (fs.move p q).get x =
      if p <+: x then none else if q <+: x then fs.get (p ++ x.drop q.length) else fs.get x := by
  by_cases hx : x = []
  · subst hx
    have h1 : ¬ p <+: [] := by
      intro h
      exact ha.1 ((List.prefix_nil.1 h) ▸ List.nil_prefix)
    have h2 : ¬ q <+: [] := by
      intro h
      exact ha.2 ((List.prefix_nil.1 h) ▸ List.nil_prefix)
    rw [if_neg h1, if_neg h2]; simp
  rw [get_of_ne hx]
  unfold move
  rw [List.find?_append]
  have hsecond : ¬ q <+: x → ((fs.filter (fun e => p.isPrefixOf e.1)).map
      (fun e => (q ++ e.1.drop p.length, e.2))).find? (fun e => decide (e.1 = x)) = none := by
    intro h
    rw [List.find?_eq_none]
    intro e he
    obtain ⟨e', _, rfl⟩ := List.mem_map.1 he
    simp only [decide_eq_true_eq]
    intro h'
    exact h ⟨_, h'⟩
  have hfirst : p <+: x ∨ q <+: x → (fs.filter (fun e => !p.isPrefixOf e.1 && !q.isPrefixOf e.1)).find?
      (fun e => decide (e.1 = x)) = none := by
    intro h
    rw [List.find?_eq_none]
    intro e he
    have := (List.mem_filter.1 he).2
    simp only [Bool.and_eq_true, Bool.not_eq_true', ← Bool.not_eq_true, List.isPrefixOf_iff_prefix] at this
    simp only [decide_eq_true_eq]
    rintro rfl
    rcases h with h | h
    · exact this.1 h
    · exact this.2 h
  split
  · rename_i hp
    have hq : ¬ q <+: x := by
      intro hq
      rcases List.prefix_or_prefix_of_prefix hp hq with h | h
      · exact ha.1 h
      · exact ha.2 h
    rw [hfirst (Or.inl hp), hsecond hq]; rfl
  · rename_i hp
    split
    · rename_i hq
      rw [hfirst (Or.inr hq), Option.none_or]
      have hne : p ++ x.drop q.length ≠ [] := by
        intro h
        rw [List.append_eq_nil_iff] at h
        exact ha.1 (h.1 ▸ List.nil_prefix)
      rw [get_of_ne hne, List.find?_map, List.find?_filter, Option.map_map]
      obtain ⟨t, rfl⟩ := hq
      simp only [List.drop_left]
      have hfun : (fun a : Path × Node => decide (p.isPrefixOf a.1 = true ∧
            ((fun e : Path × Node => decide (e.1 = q ++ t)) ∘ fun e => (q ++ e.1.drop p.length, e.2)) a = true)) =
          (fun e => decide (e.1 = p ++ t)) := by
        funext e
        simp only [Function.comp, decide_eq_true_eq, List.isPrefixOf_iff_prefix, List.append_cancel_left_eq]
        congr 1
        apply propext
        constructor
        · rintro ⟨⟨u, hu⟩, h⟩
          rw [← hu] at h ⊢
          simp at h
          rw [h]
        · intro h
          rw [h]
          exact ⟨List.prefix_append _ _, by simp⟩
      rw [hfun]
      cases fs.find? (fun e => decide (e.1 = p ++ t)) <;> rfl
    · rename_i hq
      rw [hsecond hq, Option.or_none, List.find?_filter, get_of_ne hx]
      congr 2
      funext e
      by_cases he : e.1 = x
      · rw [he]
        have h1 : p.isPrefixOf x = false := by
          rw [Bool.eq_false_iff]; intro h; exact hp (List.isPrefixOf_iff_prefix.1 h)
        have h2 : q.isPrefixOf x = false := by
          rw [Bool.eq_false_iff]; intro h; exact hq (List.isPrefixOf_iff_prefix.1 h)
        simp [h1, h2]
      · simp [he]

theorem WF.move {fs : FS} (w : fs.WF) {p q : Path} (ha : Apart p q) (hg : GoodPath q)
    (hpar : fs.isDir q.dropLast = true) (hq0 : q ≠ []) : (fs.move p q).WF := by
  apply WF.of_get (fs := fs)
  · unfold FS.move
    rw [List.map_append, List.nodup_append]
    refine ⟨w.nodup.sublist (List.Sublist.map _ List.filter_sublist), ?_, ?_⟩
    · rw [List.map_map]
      have h1 : ((fs.filter (fun e => p.isPrefixOf e.1)).map Prod.fst).Nodup :=
        w.nodup.sublist (List.Sublist.map _ List.filter_sublist)
      have h2 : (fs.filter (fun e => p.isPrefixOf e.1)).map (Prod.fst ∘ fun e => (q ++ e.1.drop p.length, e.2)) =
          ((fs.filter (fun e => p.isPrefixOf e.1)).map Prod.fst).map (fun x => q ++ x.drop p.length) := by
        rw [List.map_map]; rfl
      rw [h2]
      rw [List.nodup_iff_pairwise_ne] at h1 ⊢
      rw [List.pairwise_map]
      refine List.Pairwise.imp_of_mem ?_ h1
      intro a b ha' hb' hne heq
      obtain ⟨e, he, rfl⟩ := List.mem_map.1 ha'
      obtain ⟨f, hf, rfl⟩ := List.mem_map.1 hb'
      obtain ⟨u, hu⟩ := List.isPrefixOf_iff_prefix.1 (List.mem_filter.1 he).2
      obtain ⟨v, hv⟩ := List.isPrefixOf_iff_prefix.1 (List.mem_filter.1 hf).2
      rw [← hu, ← hv] at heq hne
      simp at heq
      exact hne (by rw [heq])
    · intro a ha' b hb' hab
      obtain ⟨e, he, rfl⟩ := List.mem_map.1 ha'
      obtain ⟨f, hf, rfl⟩ := List.mem_map.1 hb'
      obtain ⟨g, _, rfl⟩ := List.mem_map.1 hf
      have := (List.mem_filter.1 he).2
      simp only [Bool.and_eq_true, Bool.not_eq_true', ← Bool.not_eq_true, List.isPrefixOf_iff_prefix] at this
      exact this.2 (by rw [hab]; exact List.prefix_append _ _)
  · intro e he
    rcases List.mem_append.1 he with he | he
    · exact w.ne_nil e (List.mem_filter.1 he).1
    · obtain ⟨f, _, rfl⟩ := List.mem_map.1 he
      simp [hq0]
  · intro e he
    rcases List.mem_append.1 he with he | he
    · exact w.good e (List.mem_filter.1 he).1
    · obtain ⟨f, hf, rfl⟩ := List.mem_map.1 he
      intro c hc
      rcases List.mem_append.1 hc with hc | hc
      · exact hg c hc
      · exact w.good f (List.mem_filter.1 hf).1 c (List.mem_of_mem_drop hc)
  · intro x n hx hgx
    rw [get_move ha] at hgx
    split at hgx
    · cases hgx
    · rename_i hp
      have hp' : ¬ p <+: x.dropLast := fun h => hp (h.trans (List.dropLast_prefix x))
      unfold isDir
      rw [get_move ha, if_neg hp']
      split at hgx
      · rename_i hq
        obtain ⟨t, rfl⟩ := hq
        simp only [List.drop_left] at hgx
        by_cases ht : t = []
        · subst ht
          have : ¬ q <+: (q ++ []).dropLast := by
            intro h
            have := h.length_le
            have h' := List.length_pos_iff.2 hq0
            simp at this
            omega
          rw [if_neg this, List.append_nil]
          exact hpar
        · rw [List.dropLast_append_of_ne_nil ht, if_pos (List.prefix_append _ _)]
          simp only [List.drop_left]
          have := w.parent hgx (by simp [ht])
          rw [List.dropLast_append_of_ne_nil ht] at this
          exact this
      · rename_i hq
        rw [if_neg (fun h => hq (h.trans (List.dropLast_prefix x)))]
        exact w.parent hgx hx

/-- What a successful `os.rename` did. What was at the new path has been overwritten; it was missing, or neither
it nor the old path was a directory, or both were directories and it was empty. -/
theorem rename_ok {fs fs' : FS} (w : fs.WF) {p q : Path} (hg : GoodPath q) (h : fs.rename p q = .ok fs') :
    (p = q ∧ fs' = fs) ∨ (Apart p q ∧ fs'.WF ∧ (∃ n, fs.get p = some n ∧
        (fs.get q = none ∨ ∃ n', fs.get q = some n' ∧ n'.isDir = n.isDir)) ∧
      (∀ x, q <+: x → q ≠ x → fs.get x = none) ∧
      ∀ x, fs'.get x = if p <+: x then none else if q <+: x then fs.get (p ++ x.drop q.length) else fs.get x) := by
  unfold rename at h
  split at h
  · cases h
  · rename_i n hn
    have hn := w.lstat_iff.1 hn
    split at h
    · cases h
    · rename_i hpe
      split at h
      · rename_i hpq
        cases h
        exact Or.inl ⟨hpq, rfl⟩
      · rename_i hpq
        split at h
        · cases h
        · rename_i hinv
          rw [not_or, not_or, Bool.not_eq_true] at hinv
          obtain ⟨hp0, hq0, hpre⟩ := hinv
          have hpre : ¬ p <+: q := by
            intro h; rw [List.isPrefixOf_iff_prefix.2 h] at hpre; cases hpre
          right
          have hpar : fs.isDir q.dropLast = true :=
            pathErr_none_iff.1 hpe _ (dropLast_proper hq0).1 (dropLast_proper hq0).2
          have fin : ∀ (hb : ∀ x, q <+: x → q ≠ x → fs.get x = none)
              (hov : fs.get q = none ∨ ∃ n', fs.get q = some n' ∧ n'.isDir = n.isDir), fs' = fs.move p q →
              Apart p q ∧ fs'.WF ∧ (∃ n, fs.get p = some n ∧
                (fs.get q = none ∨ ∃ n', fs.get q = some n' ∧ n'.isDir = n.isDir)) ∧
              (∀ x, q <+: x → q ≠ x → fs.get x = none) ∧
              ∀ x, fs'.get x = if p <+: x then none else
                if q <+: x then fs.get (p ++ x.drop q.length) else fs.get x := by
            intro hb hov he
            have ha : Apart p q := by
              refine ⟨hpre, ?_⟩
              intro h
              rw [hb p h (Ne.symm hpq)] at hn
              cases hn
            subst he
            exact ⟨ha, w.move ha hg hpar hq0, ⟨n, hn, hov⟩, hb, get_move ha⟩
          rcases Option.eq_none_or_eq_some (fs.get q) with hq | ⟨k, hq⟩
          · rw [hq] at h
            have hb : ∀ x, q <+: x → q ≠ x → fs.get x = none := fun x hx hne =>
              w.none_below (by unfold isDir; rw [hq]; rfl) hx hne
            cases n <;> exact fin hb (Or.inl hq) (Except.ok.inj h).symm
          · rw [hq] at h
            cases k with
            | dir km kb =>
              cases n with
              | dir nm nb =>
                dsimp only at h
                split at h
                · rename_i hb
                  exact fin ((below_nil_iff w).1 hb) (Or.inr ⟨_, hq, rfl⟩) (Except.ok.inj h).symm
                · cases h
              | _ => cases h
            | _ =>
              have hb : ∀ x, q <+: x → q ≠ x → fs.get x = none := fun x hx hne =>
                w.none_below (by unfold isDir; rw [hq]; rfl) hx hne
              cases n with
              | dir nm nb => cases h
              | _ => exact fin hb (Or.inr ⟨_, hq, rfl⟩) (Except.ok.inj h).symm

end FS

open Prog OSM Call

theorem wp_rename {p q : Path} {s : OS} (w : s.fs.WF) (hg : GoodPath q) {Q : Unit → OS → Prop} {E : Err → OS → Prop}
    (hQ : ∀ s' : OS, (p = q ∧ s'.fs = s.fs) ∨ (Apart p q ∧ s'.fs.WF ∧ (∃ n, s.fs.get p = some n ∧
        (s.fs.get q = none ∨ ∃ n', s.fs.get q = some n' ∧ n'.isDir = n.isDir)) ∧
      (∀ x, q <+: x → q ≠ x → s.fs.get x = none) ∧
      ∀ x, s'.fs.get x = if p <+: x then none else if q <+: x then s.fs.get (p ++ x.drop q.length)
        else s.fs.get x) → Q () s')
    (hE : ∀ e (s' : OS), s'.fs = s.fs → e = .killed ∨ s.fs.rename p q = .error e → E e s') :
    wp (rename p q) Q E s := by
  apply wp_op
  · exact hE _ _ rfl (Or.inl rfl)
  · intro fs' h
    exact hQ _ (FS.rename_ok w hg h)
  · intro e h
    exact hE _ _ rfl (Or.inr h)

end Verif
