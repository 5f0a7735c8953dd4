import Verif.CallLemmas
import Verif.Transfer
import Verif.FilesManager
/-
What removing does to the file system.
-/
namespace Verif
open Prog OSM Call FSTools

/-- Only paths that satisfy `P` have been removed; everything else is as before. -/
structure Shrink (P : Path → Prop) (fs fs' : FS) : Prop where
  keeps : ∀ q, ¬ P q → fs'.get q = fs.get q
  gone : ∀ q, fs'.get q = fs.get q ∨ fs'.get q = none
  wf : fs.WF → fs'.WF

namespace Shrink
variable {P P' : Path → Prop} {a b c : FS}

theorem refl (P : Path → Prop) (fs : FS) : Shrink P fs fs := ⟨fun _ _ => rfl, fun _ => Or.inl rfl, id⟩

theorem trans (h1 : Shrink P a b) (h2 : Shrink P b c) : Shrink P a c :=
  ⟨fun q hq => (h2.keeps q hq).trans (h1.keeps q hq),
   fun q => by
    rcases h2.gone q with h | h
    · rcases h1.gone q with h' | h'
      · exact Or.inl (h.trans h')
      · exact Or.inr (h.trans h')
    · exact Or.inr h,
   fun w => h2.wf (h1.wf w)⟩

theorem mono (h : Shrink P a b) (hP : ∀ q, P q → P' q) : Shrink P' a b :=
  ⟨fun q hq => h.keeps q (fun h' => hq (hP q h')), h.gone, h.wf⟩

theorem none (h : Shrink P a b) {q : Path} (hq : a.get q = none) : b.get q = none := by
  rcases h.gone q with h' | h'
  · rw [h', hq]
  · exact h'

theorem some (h : Shrink P a b) {q : Path} {n : Node} (hq : b.get q = some n) : a.get q = some n := by
  rcases h.gone q with h' | h'
  · rw [← h', hq]
  · rw [h'] at hq; cases hq

end Shrink

theorem shrink_rm {fs : FS} {p : Path} (hp : p ≠ []) (h : ∀ q, p <+: q → p ≠ q → fs.get q = none ∨ ¬ fs.WF) :
    Shrink (· = p) fs (fs.rm p) := by
  refine ⟨fun q hq => FS.get_rm_ne fs hq, ?_, ?_⟩
  · intro q
    by_cases hq : q = p
    · subst hq; exact Or.inr (FS.get_rm_self fs hp)
    · exact Or.inl (FS.get_rm_ne fs hq)
  · intro w
    exact w.rm (fun q h1 h2 => (h q h1 h2).resolve_right (fun h => h w))

theorem remove_shrink {fs fs' : FS} {p : Path} (h : fs.remove p = .ok fs') :
    Shrink (· = p) fs fs' ∧ fs'.get p = none ∧ ∃ n, fs.get p = some n ∧ n.isDir = false := by
  have hp := FS.remove_ne_nil h
  obtain ⟨n, _, h2, h3, rfl⟩ := FS.remove_ok h
  refine ⟨shrink_rm hp ?_, FS.get_rm_self fs hp, n, h2, h3⟩
  intro q hq hne
  by_cases w : fs.WF
  · exact Or.inl (w.none_below (by unfold FS.isDir; rw [h2]; simpa using h3) hq hne)
  · exact Or.inr w

theorem rmdir_shrink {fs fs' : FS} {p : Path} (hp : p ≠ []) (h : fs.rmdir p = .ok fs') :
    Shrink (· = p) fs fs' ∧ fs'.get p = none ∧ fs.isDir p = true := by
  obtain ⟨m, b, _, h2, h3, rfl⟩ := FS.rmdir_ok h
  refine ⟨shrink_rm hp ?_, FS.get_rm_self fs hp, FS.isDir_iff.2 ⟨m, b, h2⟩⟩
  intro q hq hne
  by_cases w : fs.WF
  · exact Or.inl ((FS.below_nil_iff w).1 h3 q hq hne)
  · exact Or.inr w

/-- Why `os.remove` fails. -/
theorem remove_error {fs : FS} (w : fs.WF) {p : Path} {e : Err} (h : fs.remove p = .error e) :
    (fs.get p = none ∧ e ≠ .isDir) ∨ (fs.isDir p = true ∧ e = .isDir) := by
  unfold FS.remove at h
  cases hl : fs.lstat p with
  | error e' =>
    left
    rw [hl] at h
    cases h
    cases hg : fs.get p with
    | none =>
      refine ⟨rfl, ?_⟩
      rintro rfl
      unfold FS.lstat at hl
      rw [hg] at hl
      cases hpe : fs.pathErr p with
      | none => simp [hpe] at hl
      | some e =>
        simp only [hpe, Except.error.injEq] at hl
        subst hl
        unfold FS.pathErr at hpe
        obtain ⟨q, _, hq⟩ := List.exists_of_findSome?_eq_some hpe
        split at hq <;> cases hq
    | some n =>
      rw [w.lstat_iff.2 hg] at hl
      cases hl
  | ok n =>
    rw [hl] at h
    right
    cases n with
    | dir m b =>
      cases h
      exact ⟨FS.isDir_iff.2 ⟨m, b, w.lstat_iff.1 hl⟩, rfl⟩
    | _ => cases h

/-- Why `os.rmdir` fails. -/
theorem rmdir_error {fs : FS} (w : fs.WF) {p : Path} {e : Err} (h : fs.rmdir p = .error e) :
    fs.isDir p = false ∨ ∃ q, p <+: q ∧ p ≠ q ∧ fs.get q ≠ none := by
  cases hd : fs.isDir p with
  | false => exact Or.inl rfl
  | true =>
    right
    obtain ⟨m, b, hg⟩ := FS.isDir_iff.1 hd
    apply Classical.byContradiction
    intro hx
    have : (fs.below p).isEmpty = true := by
      rw [FS.below_nil_iff w]
      intro q hq hne
      apply Classical.byContradiction
      intro hn
      exact hx ⟨q, hq, hne, hn⟩
    unfold FS.rmdir at h
    rw [w.lstat_iff.2 hg] at h
    simp [this] at h

theorem wp_remove (p : Path) (s : OS) :
    wp (remove p)
      (fun _ s' => Shrink (· = p) s.fs s'.fs ∧ s'.fs.get p = none)
      (fun e s' => s'.fs = s.fs ∧ (e = .killed ∨ s.fs.remove p = .error e)) s := by
  apply wp_op
  · exact ⟨rfl, Or.inl rfl⟩
  · intro fs' h
    exact ⟨(remove_shrink h).1, (remove_shrink h).2.1⟩
  · intro e h
    exact ⟨rfl, Or.inr h⟩

theorem wp_rmdir {p : Path} (hp : p ≠ []) (s : OS) :
    wp (rmdir p)
      (fun _ s' => Shrink (· = p) s.fs s'.fs ∧ s'.fs.get p = none)
      (fun e s' => s'.fs = s.fs ∧ (e = .killed ∨ s.fs.rmdir p = .error e)) s := by
  apply wp_op
  · exact ⟨rfl, Or.inl rfl⟩
  · intro fs' h
    exact ⟨(rmdir_shrink hp h).1, (rmdir_shrink hp h).2.1⟩
  · intro e h
    exact ⟨rfl, Or.inr h⟩

theorem wp_rmEntry {p : Path} (hp : p ≠ []) {s : OS} (w : s.fs.WF)
    (hb : ∀ q, p <+: q → p ≠ q → s.fs.get q = none) {n : Node} (hn : s.fs.get p = some n) :
    wp (rmEntry p)
      (fun _ s' => Shrink (· = p) s.fs s'.fs ∧ s'.fs.get p = none)
      (fun e s' => s'.fs = s.fs ∧ e = .killed) s := by
  unfold rmEntry
  rw [wp_bind, wp_query, w.lstat_iff.2 hn]
  refine ⟨?_, fun e h => by cases h⟩
  rintro _ ⟨rfl⟩
  split
  · rename_i hd
    refine wp_mono (wp_rmdir hp s) (fun _ _ h => h) ?_
    rintro e s' ⟨h1, h2 | h2⟩
    · exact ⟨h1, h2⟩
    · rcases rmdir_error w h2 with h3 | ⟨q, h3, h4, h5⟩
      · unfold FS.isDir at h3; rw [hn] at h3; simp [hd] at h3
      · exact absurd (hb q h3 h4) h5
  · rename_i hd
    refine wp_mono (wp_remove p s) (fun _ _ h => h) ?_
    rintro e s' ⟨h1, h2 | h2⟩
    · exact ⟨h1, h2⟩
    · rcases remove_error w h2 with ⟨h3, _⟩ | ⟨h3, _⟩
      · rw [hn] at h3; cases h3
      · unfold FS.isDir at h3; rw [hn] at h3; exact absurd (by simpa using h3) hd

/-! ### Descending order puts contents first -/

theorem strLe_prefix_append (s t : Str) : strLe s (s ++ t) = true := by
  induction s with
  | nil => cases t <;> rfl
  | cons a s ih => simp [strLe, ih]

theorem toStr_append {a b : Path} (ha : a ≠ []) (hb : b ≠ []) : toStr (a ++ b) = toStr a ++ '/' :: toStr b := by
  induction a with
  | nil => exact absurd rfl ha
  | cons x a ih =>
    cases a with
    | nil =>
      cases b with
      | nil => exact absurd rfl hb
      | cons y b => rfl
    | cons y a =>
      have := ih (by simp)
      show x ++ '/' :: toStr ((y :: a) ++ b) = (x ++ '/' :: toStr (y :: a)) ++ '/' :: toStr b
      rw [this]; simp

/-- In descending order, what is below a path comes before the path. -/
theorem descending_below {l done rest : List Path} {x q : Path} (hx0 : x ≠ [])
    (h : descending l = done ++ x :: rest) (hq : q ∈ l) (hxq : x <+: q) (hne : x ≠ q) : q ∈ done := by
  have hs : (descending l).Pairwise (fun a b => strLe (toStr b) (toStr a) = true) :=
    sortBy_sorted (le := fun a b => strLe (toStr b) (toStr a))
      (fun a b c h1 h2 => strLe_trans _ _ _ h2 h1) (fun a b => strLe_total _ _) l
  have hm : q ∈ done ++ x :: rest := by rw [← h]; exact mem_descending.2 hq
  rw [List.mem_append, List.mem_cons] at hm
  rcases hm with hm | hm | hm
  · exact hm
  · exact absurd hm.symm hne
  · rw [h, List.pairwise_append] at hs
    have h1 := (List.pairwise_cons.1 hs.2.1).1 q hm
    obtain ⟨t, rfl⟩ := hxq
    have ht : t ≠ [] := by rintro rfl; simp at hne
    rw [toStr_append hx0 ht] at h1
    have h2 := strLe_prefix_append (toStr x) ('/' :: toStr t)
    have := strLe_antisymm _ _ h1 h2
    have := congrArg List.length this
    simp at this

/-- `shutil.rmtree` of a directory removes exactly the directory and what is below it. It fails only if it
is killed. -/
theorem wp_rmtree {p : Path} (hp : p ≠ []) {s : OS} (w : s.fs.WF) (hd : s.fs.isDir p = true) :
    wp (rmtree p)
      (fun _ s' => Shrink (p <+: ·) s.fs s'.fs ∧ ∀ q, p <+: q → s'.fs.get q = none)
      (fun e s' => Shrink (p <+: ·) s.fs s'.fs ∧ e = .killed) s := by
  obtain ⟨m, b, hg⟩ := FS.isDir_iff.1 hd
  unfold rmtree
  rw [wp_bind, wp_query, w.lstat_iff.2 hg]
  refine ⟨?_, fun e h => by cases h⟩
  rintro _ ⟨rfl⟩
  dsimp only
  rw [wp_bind, wp_ask, wp_bind]
  have hsub : ∀ l : List Path, ∀ q, (∃ e ∈ l, q = p ++ e) → p <+: q := by
    rintro l q ⟨e, _, rfl⟩
    exact List.prefix_append _ _
  refine wp_mono (Q := fun _ s' => Shrink (fun q => ∃ e ∈ descending ((s.fs.below p).map Prod.fst), q = p ++ e)
      s.fs s'.fs ∧ ∀ e ∈ descending ((s.fs.below p).map Prod.fst), s'.fs.get (p ++ e) = none)
    (E := fun e s' => Shrink (p <+: ·) s.fs s'.fs ∧ e = .killed)
    (wp_each (fun done (s' : OS) => Shrink (fun q => ∃ e ∈ done, q = p ++ e) s.fs s'.fs ∧
      ∀ e ∈ done, s'.fs.get (p ++ e) = none) _ ?_ ⟨Shrink.refl _ _, by simp⟩) ?_ (fun _ _ h => h)
  · rintro done x rest hl s1 ⟨h1, h2⟩
    have hx : x ∈ (s.fs.below p).map Prod.fst := by rw [← mem_descending, hl]; simp
    obtain ⟨hx0, n, hn⟩ := (mem_keys_below w).1 hx
    have w1 := h1.wf w
    have hnd : x ∉ done := by
      have := nodup_descending (nodup_keys_below w p)
      rw [hl, List.nodup_append] at this
      intro hxd
      exact this.2.2 x hxd x (by simp) rfl
    have hb : ∀ q, p ++ x <+: q → p ++ x ≠ q → s1.fs.get q = none := by
      rintro q ⟨t, rfl⟩ hne
      have ht : t ≠ [] := by rintro rfl; simp at hne
      cases hg0 : s.fs.get (p ++ x ++ t) with
      | none => exact h1.none hg0
      | some k =>
        have := descending_below (q := x ++ t) hx0 hl
          ((mem_keys_below w).2 ⟨by simp [hx0], k, by rw [← List.append_assoc]; exact hg0⟩)
          (List.prefix_append _ _) (by simpa using ht)
        have := h2 _ this
        rwa [← List.append_assoc] at this
    have h3 : s1.fs.get (p ++ x) = some n := by
      rw [h1.keeps _ ?_, hn]
      rintro ⟨e, he, h⟩
      exact hnd (List.append_cancel_left h ▸ he)
    refine wp_mono (wp_rmEntry (by simp [hx0]) w1 hb h3) ?_ ?_
    · rintro _ s2 ⟨h4, h5⟩
      refine ⟨(h1.mono ?_).trans (h4.mono ?_), ?_⟩
      · rintro q ⟨e, he, rfl⟩
        exact ⟨e, by simp [he], rfl⟩
      · rintro q rfl
        exact ⟨x, by simp, rfl⟩
      · intro e he
        rw [List.mem_append, List.mem_singleton] at he
        rcases he with he | rfl
        · exact h4.none (h2 e he)
        · exact h5
    · rintro e s2 ⟨h4, rfl⟩
      rw [h4]
      exact ⟨h1.mono (hsub _), rfl⟩
  · rintro _ s1 ⟨h1, h2⟩
    have hb : ∀ q, p <+: q → p ≠ q → s1.fs.get q = none := by
      rintro q ⟨t, rfl⟩ hne
      cases hg0 : s.fs.get (p ++ t) with
      | none => exact h1.none hg0
      | some k =>
        exact h2 t (mem_descending.2 ((mem_keys_below w).2 ⟨by rintro rfl; simp at hne, k, hg0⟩))
    have hd1 : s1.fs.isDir p = true := by
      rw [FS.isDir_congr (h1.keeps p ?_)]
      · exact hd
      · rintro ⟨e, he, h⟩
        have := ((mem_keys_below w).1 (mem_descending.1 he)).1
        exact this (by simpa using h.symm)
    refine wp_mono (wp_rmdir hp s1) ?_ ?_
    · rintro _ s2 ⟨h3, h4⟩
      refine ⟨(h1.mono (hsub _)).trans (h3.mono (by rintro q rfl; exact List.prefix_refl _)), ?_⟩
      intro q hq
      by_cases hqp : p = q
      · subst hqp; exact h4
      · exact h3.none (hb q hq hqp)
    · rintro e s2 ⟨h3, h4⟩
      rw [h3]
      refine ⟨h1.mono (hsub _), ?_⟩
      rcases h4 with h4 | h4
      · exact h4
      · rcases rmdir_error (h1.wf w) h4 with h5 | ⟨q, h5, h6, h7⟩
        · rw [hd1] at h5; cases h5
        · exact absurd (hb q h5 h6) h7

theorem pathErr_of_parent {fs : FS} (w : fs.WF) {p : Path} (hp : p ≠ []) (hd : fs.isDir p.dropLast = true) :
    fs.pathErr p = none := by
  obtain ⟨m, b, hg⟩ := FS.isDir_iff.1 hd
  rw [FS.pathErr_none_iff]
  intro q hq hne
  by_cases h : q = p.dropLast
  · rw [h]; exact hd
  · exact w.isDir_prefix hg q (FS.prefix_dropLast hq hne) h

/-- Removing a file, a link or a whole directory, the way `_rm_files` and `empty-trash` do it. It fails only
if it is killed or if the parent is not a directory. -/
theorem wp_rmAny {p : Path} (hp : p ≠ []) {s : OS} (w : s.fs.WF) :
    wp (tryCatch (remove p) (rmFailed p))
      (fun _ s' => Shrink (p <+: ·) s.fs s'.fs ∧ ∀ q, p <+: q → s'.fs.get q = none)
      (fun e s' => Shrink (p <+: ·) s.fs s'.fs ∧
        (e = .killed ∨ (e = .notDir ∧ s.fs.isDir p.dropLast = false))) s := by
  rw [wp_tryCatch]
  refine wp_mono (wp_remove p s) ?_ ?_
  · rintro _ s' ⟨h1, h2⟩
    have hsub := h1.mono (P' := (p <+: ·)) (by rintro q rfl; exact List.prefix_refl _)
    refine ⟨hsub, ?_⟩
    intro q hq
    by_cases hqp : p = q
    · subst hqp; exact h2
    · exact (hsub.wf w).none_below (by unfold FS.isDir; rw [h2]; rfl) hq hqp
  · rintro e s' ⟨h1, h2⟩
    split
    · rename_i hk
      exact ⟨by rw [h1]; exact Shrink.refl _ _, Or.inl hk⟩
    · rename_i hk
      have h2 := h2.resolve_left hk
      rcases remove_error w h2 with ⟨h3, h4⟩ | ⟨h3, rfl⟩
      · cases e with
        | notFound =>
          show wp (pure ()) _ _ _
          rw [wp_pure, h1]
          refine ⟨Shrink.refl _ _, ?_⟩
          intro q hq
          by_cases hqp : p = q
          · subst hqp; exact h3
          · exact w.none_below (by unfold FS.isDir; rw [h3]; rfl) hq hqp
        | isDir => exact absurd rfl h4
        | killed => exact absurd rfl hk
        | _ =>
          refine ⟨by rw [h1]; exact Shrink.refl _ _, Or.inr ?_⟩
          unfold FS.remove at h2
          cases hpe : s.fs.pathErr p with
          | none => simp [FS.lstat, hpe, h3] at h2
          | some e =>
            simp only [FS.lstat, hpe, Except.error.injEq] at h2
            have hx : e = .notDir := by
              unfold FS.pathErr at hpe
              obtain ⟨q, _, hq⟩ := List.exists_of_findSome?_eq_some hpe
              split at hq
              · cases hq
              · cases hq; rfl
              · cases hq; cases h2
            refine ⟨h2.symm.trans hx, ?_⟩
            cases hd : s.fs.isDir p.dropLast with
            | false => rfl
            | true => rw [pathErr_of_parent w hp hd] at hpe; cases hpe
      · show wp (rmtree p) _ _ _
        have hw' : s'.fs.WF := by rw [h1]; exact w
        have hd' : s'.fs.isDir p = true := by rw [h1]; exact h3
        refine wp_mono (wp_rmtree hp hw' hd') ?_ ?_
        · rintro _ s2 h; rw [h1] at h; exact h
        · rintro _ s2 ⟨h, hk⟩; rw [h1] at h; exact ⟨h, Or.inl hk⟩

end Verif
