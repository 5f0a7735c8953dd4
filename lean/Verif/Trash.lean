import Verif.TrashName
import Verif.Rename
import Verif.WorldLemmas
import Verif.Props.C50_EmptyTrash
/-
What `trash_files` does.
-/
namespace Verif
open Prog OSM Call FSTools WM

/-- What is stored, apart from the mtime. -/
def Node.data (n : Node) : Node := n.touch 0

@[simp] theorem Node.data_touch (n : Node) (m : Int) : (n.touch m).data = n.data := by cases n <;> rfl

theorem Node.data_isDir {a b : Node} (h : a.data = b.data) : a.isDir = b.isDir := by
  cases a <;> cases b <;> simp_all [Node.data, Node.touch, Node.isDir]

/-- A relative path in the remote directory that is not in the util directory. -/
def UserPath (p : Path) : Prop := p ≠ [] ∧ p.head? ≠ some Env.utilName

instance (p : Path) : Decidable (UserPath p) := by unfold UserPath; infer_instance

theorem UserPath.not_prefix {p q : Path} (h : UserPath p) (env : Env) : ¬ env.rem ++ p <+: env.util ++ q := by
  obtain ⟨h1, h2⟩ := h
  cases p with
  | nil => exact absurd rfl h1
  | cons c p =>
    unfold Env.util
    rw [List.append_assoc, List.prefix_append_right_inj, List.singleton_append, List.cons_prefix_cons]
    rintro ⟨rfl, _⟩
    exact h2 rfl

theorem UserPath.apart {p q : Path} (h : UserPath p) (env : Env) : Apart (env.rem ++ p) (env.util ++ q) := by
  refine ⟨h.not_prefix env, ?_⟩
  obtain ⟨h1, h2⟩ := h
  cases p with
  | nil => exact absurd rfl h1
  | cons c p =>
    unfold Env.util
    rw [List.append_assoc, List.prefix_append_right_inj, List.singleton_append, List.cons_prefix_cons]
    rintro ⟨rfl, _⟩
    exact h2 rfl

/-- Only mtimes of directories, and the one of `p`, may have changed. -/
structure Touched (p : Path) (fs fs' : FS) : Prop where
  wf : fs'.WF
  data : ∀ x, (fs'.get x).map Node.data = (fs.get x).map Node.data
  same : ∀ x n, x ≠ p → fs.get x = some n → n.isDir = false → fs'.get x = some n

theorem Touched.refl {fs : FS} (p : Path) (w : fs.WF) : Touched p fs fs :=
  ⟨w, fun _ => rfl, fun _ _ _ h _ => h⟩

theorem touched_set {fs : FS} (w : fs.WF) {p q : Path} (hq : q ≠ []) {n : Node} (hn : fs.get q = some n) (m : Int)
    (h : q = p ∨ n.isDir = true) : Touched p fs (fs.set q (n.touch m)) := by
  refine ⟨w.set hq (w.goodPath hn) (w.parent hn hq) ?_, ?_, ?_⟩
  · cases hd : n.isDir with
    | true => left; cases n <;> simp_all [Node.touch, Node.isDir]
    | false =>
      right
      intro x hx hne
      exact w.none_below (by unfold FS.isDir; rw [hn]; exact hd) hx hne
  · intro x
    by_cases hx : x = q
    · subst hx
      rw [FS.get_set_self _ hq, hn]; simp
    · rw [FS.get_set_ne _ hx]
  · intro x k hx hk hd
    by_cases hxq : x = q
    · subst hxq
      rcases h with rfl | h
      · exact absurd rfl hx
      · rw [hn] at hk; cases hk; rw [h] at hd; cases hd
    · rw [FS.get_set_ne _ hxq]; exact hk

theorem wp_update_touch {p q : Path} {s : OS} (w : s.fs.WF) {n : Node} (hq : q ≠ []) (hn : s.fs.get q = some n)
    (h : q = p ∨ n.isDir = true) :
    wp (update q (fun n now => n.touch now)) (fun _ s' => Touched p s.fs s'.fs)
      (fun e s' => Touched p s.fs s'.fs ∧ e = .killed) s := by
  unfold update
  apply wp_op
  · exact ⟨Touched.refl _ w, rfl⟩
  · intro fs' hfs
    rw [hn] at hfs
    cases hfs
    exact touched_set w hq hn _ h
  · intro e he
    rw [hn] at he
    cases he

theorem wp_updateMtime {p : Path} {s : OS} (w : s.fs.WF) (hp : p ≠ []) :
    wp (updateMtime p) (fun _ s' => Touched p s.fs s'.fs) (fun e s' => Touched p s.fs s'.fs ∧ e = .killed) s := by
  unfold updateMtime
  rw [wp_bind, wp_ask]
  cases hst : s.fs.stat p with
  | error e => exact Touched.refl _ w
  | ok r =>
    obtain ⟨q, n⟩ := r
    obtain ⟨h1, h2⟩ := FS.stat_ok hst
    have hex : ∃ k, s.fs.get p = some k := by
      cases hg : s.fs.get p with
      | some k => exact ⟨k, rfl⟩
      | none =>
        obtain ⟨e, he⟩ := FS.stat_none hg
        rw [he] at hst; cases hst
    obtain ⟨k, hk⟩ := hex
    cases n with
    | dir m b =>
      cases q with
      | nil => exact Touched.refl _ w
      | cons c q => exact wp_update_touch w (by simp) h1 (Or.inr rfl)
    | _ => cases q <;> exact wp_update_touch w hp hk (Or.inl rfl)

/-- `p` has been moved to `q`, where nothing was; apart from that only mtimes of directories and of `q` may have
changed. -/
structure MovedTo (p q : Path) (fs fs' : FS) : Prop where
  wf : fs'.WF
  apart : Apart p q
  was : ∃ n, fs.get p = some n
  empty : ∀ x, q <+: x → q ≠ x → fs.get x = none
  data : ∀ x, (fs'.get x).map Node.data =
    (if p <+: x then none else if q <+: x then fs.get (p ++ x.drop q.length) else fs.get x).map Node.data
  same : ∀ x n, ¬ p <+: x → ¬ q <+: x → fs.get x = some n → n.isDir = false → fs'.get x = some n

/-- One round of the second loop of `trash_files`. -/
theorem wp_trashOne {env : Env} {names : List Str} {p : Path} {s : OS} (w : s.fs.WF) (hu : UserPath p)
    (hg : GoodPath (env.trash ++ [trashName names (p.getLastD [])])) (ht : s.fs.isDir env.trash = true) :
    wp (trashOne env names p)
      (fun _ s' => (s'.fs = s.fs ∧ s.fs.get (env.rem ++ p) = none) ∨
        MovedTo (env.rem ++ p) (env.trash ++ [trashName names (p.getLastD [])]) s.fs s'.fs)
      (fun _ s' => s'.fs = s.fs ∨
        MovedTo (env.rem ++ p) (env.trash ++ [trashName names (p.getLastD [])]) s.fs s'.fs) s := by
  unfold trashOne
  generalize trashName names (p.getLastD []) = t at *
  have hap : Apart (env.rem ++ p) (env.trash ++ [t]) := by
    have := hu.apart (q := "Trash".toList :: [t]) env
    unfold Env.trash
    rw [List.append_assoc]; exact this
  rw [wp_tryCatch, wp_bind]
  apply wp_rename w hg
  · rintro s1 (⟨h, _⟩ | ⟨h1, h2, ⟨n, h3, _⟩, h4, h5⟩)
    · exact absurd h (by rw [← List.append_nil (env.rem ++ p), ← List.append_nil (env.trash ++ [t])]; exact hap.ne _ _)
    have fin : ∀ s2 : OS, Touched (env.trash ++ [t]) s1.fs s2.fs →
        MovedTo (env.rem ++ p) (env.trash ++ [t]) s.fs s2.fs := by
      intro s2 h
      refine ⟨h.wf, h1, ⟨n, h3⟩, h4, fun x => by rw [h.data, h5], ?_⟩
      intro x k hx hx' hk hd
      apply h.same x k (by rintro rfl; exact hx' (List.prefix_refl _)) _ hd
      rw [h5, if_neg hx, if_neg hx']; exact hk
    refine wp_mono (wp_updateMtime h2 (by simp)) ?_ ?_
    · intro _ s2 h
      exact Or.inr (fin s2 h)
    · rintro e s2 ⟨h, rfl⟩
      simp only [if_true]
      exact Or.inr (fin s2 h)
  · intro e s1 hs he
    split
    · exact Or.inl hs
    · rename_i hk
      have he := he.resolve_left hk
      by_cases hne : e = .notFound
      · subst hne
        simp only [if_true]
        rw [wp_pure]
        left
        refine ⟨hs, ?_⟩
        apply Classical.byContradiction
        intro hgp
        obtain ⟨n, hn⟩ := Option.ne_none_iff_exists'.1 hgp
        have hpe : s.fs.pathErr (env.trash ++ [t]) = none :=
          pathErr_of_parent w (by simp) (by simpa using ht)
        unfold FS.rename at he
        rw [w.lstat_iff.2 hn] at he
        simp only [hpe] at he
        split at he
        · cases he
        · split at he
          · cases he
          · split at he <;> first | cases he | skip
            split at he <;> cases he
      · simp only [hne, if_false]
        exact Or.inl hs

end Verif
