import Verif.FSTools
import Verif.CallLemmas
import Mathlib.Tactic.Tauto
/-
What `symlink_tree` does to the file system.
-/
namespace Verif
open Prog OSM Call FSTools

/-- The node that `symlink_tree` makes for `p`. -/
def linkNode (src : Path) (dirs : List Path) (p : Path) (now : Int) : Node :=
  if p ∈ dirs then .dir now 8 else .link (absStr (src ++ p)) now

/-- The effect of one round of `symlink_tree`. -/
inductive LinkEff (src dest : Path) (dirs : List Path) (ow : Bool) (p : Path) (fs : FS) :
    Option Path → FS → Prop
  | make (now : Int) : fs.get (dest ++ p) = none → fs.pathErr (dest ++ p) = none →
      LinkEff src dest dirs ow p fs (some p) (fs.set (dest ++ p) (linkNode src dirs p now))
  | keep (n : Node) : fs.get (dest ++ p) = some n → (p ∈ dirs ∨ ow = false) →
      LinkEff src dest dirs ow p fs none fs
  | replace (n : Node) (now : Int) : ow = true → p ∉ dirs → fs.get (dest ++ p) = some n → n.isDir = false →
      fs.pathErr (dest ++ p) = none →
      LinkEff src dest dirs ow p fs (some p)
        ((fs.rm (dest ++ p)).set (dest ++ p) (.link (absStr (src ++ p)) now))

theorem wp_linkOne (src dest : Path) (dirs : List Path) (ow : Bool) (p : Path) (s : OS) :
    wp (linkOne src dest dirs ow p)
      (fun o s' => LinkEff src dest dirs ow p s.fs o s'.fs)
      (fun _ s' => s'.fs = s.fs ∨ (ow = true ∧ p ∉ dirs ∧ s.fs.remove (dest ++ p) = .ok s'.fs)) s := by
  unfold linkOne
  split
  · rename_i hd
    unfold linkDir
    rw [wp_tryCatch, wp_bind]
    apply wp_op
    · simp
    · intro fs' h
      rw [wp_pure]
      obtain ⟨h0, h1, h2, rfl⟩ := mkdir_ok h
      have := LinkEff.make (src := src) (dirs := dirs) (ow := ow) (s.clk s.tick) h1 h2
      rwa [linkNode, if_pos hd] at this
    · intro e he
      split
      · exact Or.inl rfl
      · by_cases hx : e = .exists_
        · subst hx
          simp only [if_true]
          rw [wp_pure]
          obtain ⟨m, _, hm⟩ := FS.create_exists he
          exact LinkEff.keep m hm (Or.inl hd)
        · simp only [hx, if_false]
          exact Or.inl rfl
  · rename_i hd
    rw [wp_tryCatch]
    unfold linkNew
    rw [wp_bind]
    apply wp_op
    · simp
    · intro fs' h
      rw [wp_pure]
      obtain ⟨h2, h1, rfl⟩ := FS.create_ok h
      have := LinkEff.make (src := src) (dirs := dirs) (ow := ow) (s.clk s.tick) h1 h2
      rwa [linkNode, if_neg hd] at this
    · intro e he
      split
      · exact Or.inl rfl
      · by_cases hx : e = .exists_
        · subst hx
          simp only [if_true]
          obtain ⟨m, hpe, hm⟩ := FS.create_exists he
          unfold linkOver
          split
          · rename_i how
            rw [wp_bind]
            apply wp_op
            · exact Or.inl rfl
            · intro fs1 h1
              unfold linkNew
              rw [wp_bind]
              apply wp_op
              · exact Or.inr ⟨how, hd, h1⟩
              · intro fs2 h2
                rw [wp_pure]
                obtain ⟨n, h3, h4, h5, rfl⟩ := FS.remove_ok h1
                obtain ⟨_, _, rfl⟩ := FS.create_ok h2
                exact LinkEff.replace n _ how hd h4 h5 h3
              · intro e he2
                exact Or.inr ⟨how, hd, h1⟩
            · intro e he2
              exact Or.inl rfl
          · rename_i how
            rw [wp_pure]
            exact LinkEff.keep m hm (Or.inr (by simpa using how))
        · simp only [hx, if_false]
          exact Or.inl rfl

/-! ### The loop -/

/-- The effect of the loop of `symlink_tree` for the paths `ps` with the result `l`. -/
structure LoopEff (src dest : Path) (dirs : List Path) (ow : Bool) (ps : List Path) (fs : FS)
    (l : List Path) (fs' : FS) : Prop where
  other : ∀ q, (∀ p ∈ ps, q ≠ dest ++ p) → fs'.get q = fs.get q
  at_ : ∀ p ∈ ps, (∃ now, fs'.get (dest ++ p) = some (linkNode src dirs p now) ∧
      (fs.get (dest ++ p) = none ∨
        (ow = true ∧ p ∉ dirs ∧ ∃ n, fs.get (dest ++ p) = some n ∧ n.isDir = false))) ∨
    (fs'.get (dest ++ p) = fs.get (dest ++ p) ∧ (fs.get (dest ++ p)).isSome ∧ (p ∈ dirs ∨ ow = false))
  new : ∀ p, p ∈ l ↔ p ∈ ps ∧ (fs.get (dest ++ p) = none ∨ (ow = true ∧ p ∉ dirs))

theorem wp_linkLoop (src dest : Path) (dirs : List Path) (ow : Bool) (ps : List Path)
    (hn : ps.Nodup) (hne : ∀ p ∈ ps, p ≠ []) (s : OS) :
    wp (linkLoop src dest dirs ow ps)
      (fun l s' => LoopEff src dest dirs ow ps s.fs l s'.fs)
      (fun _ _ => True) s := by
  induction ps generalizing s with
  | nil =>
    rw [linkLoop, wp_pure]
    exact ⟨fun _ _ => rfl, by simp, by simp⟩
  | cons p ps ih =>
    rw [List.nodup_cons] at hn
    rw [linkLoop, wp_bind]
    refine wp_mono (wp_linkOne src dest dirs ow p s) ?_ (fun _ _ _ => trivial)
    intro o s1 h1
    rw [wp_bind]
    refine wp_mono (ih hn.2 (fun p hp => hne p (by simp [hp])) s1) ?_ (fun _ _ _ => trivial)
    intro l s2 h2
    rw [wp_pure]
    generalize s1.fs = f1 at h1 h2
    have hp0 : dest ++ p ≠ [] := by
      have := hne p (by simp)
      simp [this]
    have hpne : ∀ q ∈ ps, dest ++ p ≠ dest ++ q := by
      intro q hq h
      rw [List.append_cancel_left_eq] at h
      subst h; exact hn.1 hq
    have hfin : s2.fs.get (dest ++ p) = f1.get (dest ++ p) := h2.other _ hpne
    -- outside `dest ++ p` the first step changes nothing
    have hout : ∀ q, q ≠ dest ++ p → f1.get q = s.fs.get q := by
      intro q hq
      cases h1 with
      | make now _ _ => rw [FS.get_set_ne _ hq]
      | keep => rfl
      | replace => rw [FS.get_set_ne _ hq, FS.get_rm_ne _ hq]
    refine ⟨?_, ?_, ?_⟩
    · intro q hq
      rw [h2.other q (fun x hx => hq x (by simp [hx])), hout q (hq p (by simp))]
    · intro x hx
      rcases List.mem_cons.1 hx with rfl | hx
      · rw [hfin]
        cases h1 with
        | make now h3 _ => exact Or.inl ⟨now, FS.get_set_self _ hp0 _, Or.inl h3⟩
        | keep n h3 h4 => exact Or.inr ⟨rfl, by simp [h3], h4⟩
        | replace n now h3 h4 h5 h6 _ =>
          refine Or.inl ⟨now, ?_, Or.inr ⟨h3, h4, n, h5, h6⟩⟩
          rw [FS.get_set_self _ hp0, linkNode, if_neg h4]
      · have := h2.at_ x hx
        rwa [hout _ (Ne.symm (hpne x hx))] at this
    · intro x
      have h2n := h2.new x
      by_cases hxp : x = p
      · subst hxp
        have hxl : x ∉ l := fun h => hn.1 (h2n.1 h).1
        simp only [List.mem_append, hxl, or_false, List.mem_cons_self, true_and]
        cases h1 with
        | make now h3 _ => simp [h3]
        | keep n h3 h4 =>
          simp only [Option.toList_none, List.not_mem_nil, h3, reduceCtorEq, false_or, false_iff]
          rintro ⟨ho, hd⟩
          rcases h4 with h4 | h4
          · exact hd h4
          · rw [h4] at ho; cases ho
        | replace n now h3 h4 h5 h6 _ => simp [h3, h4]
      · have hxo : x ∉ o.toList := by
          cases h1 <;> simp [hxp]
        simp only [List.mem_append, hxo, false_or, List.mem_cons, hxp]
        by_cases hx : x ∈ ps
        · rw [h2n, hout _ (Ne.symm (hpne x hx))]
        · simp [h2n, hx]

/-! ### Crash points -/

/-- What `symlink_tree` may do to the file system at any time: make directories on the way to `dest`,
and change the listed paths. -/
theorem wp_linkLoop_inv (src dest : Path) (dirs : List Path) (ow : Bool) (ps : List Path)
    (I : FS → Prop)
    (hset : ∀ p ∈ ps, ∀ fs now, I fs → fs.get (dest ++ p) = none → fs.pathErr (dest ++ p) = none →
      I (fs.set (dest ++ p) (linkNode src dirs p now)))
    (hrm : ow = true → ∀ p ∈ ps, p ∉ dirs → ∀ fs fs', I fs → fs.remove (dest ++ p) = .ok fs' → I fs')
    (s : OS) (h0 : I s.fs) :
    wp (linkLoop src dest dirs ow ps) (fun _ s' => I s'.fs) (fun _ s' => I s'.fs) s := by
  induction ps generalizing s with
  | nil => rw [linkLoop, wp_pure]; exact h0
  | cons p ps ih =>
    rw [linkLoop, wp_bind]
    refine wp_mono (wp_linkOne src dest dirs ow p s) ?_ ?_
    · intro o s1 h1
      have hi : I s1.fs := by
        generalize s1.fs = f1 at h1
        cases h1 with
        | make now h3 h4 => exact hset p (by simp) _ now h0 h3 h4
        | keep => exact h0
        | replace n now h3 h4 h5 h6 h7 =>
          have hpe : s.fs.pathErr (dest ++ p) = (s.fs.rm (dest ++ p)).pathErr (dest ++ p) :=
            FS.pathErr_congr (fun q _ hne => (FS.get_rm_ne _ hne).symm)
          have hp : dest ++ p ≠ [] := by
            intro h
            rw [h] at h5; simp at h5; subst h5; simp [Node.isDir] at h6
          have hr : s.fs.remove (dest ++ p) = .ok (s.fs.rm (dest ++ p)) := by
            unfold FS.remove
            rw [FS.lstat_ok_iff.2 ⟨h7, h5⟩]
            cases n <;> simp [Node.isDir] at h6 ⊢
          have := hset p (by simp) _ now (hrm h3 p (by simp) h4 _ _ h0 hr) (FS.get_rm_self _ hp)
            (by rw [← hpe]; exact h7)
          rwa [linkNode, if_neg h4] at this
      rw [wp_bind]
      refine wp_mono (ih (fun x hx => hset x (by simp [hx])) (fun ho x hx => hrm ho x (by simp [hx])) s1 hi) ?_ (fun _ _ h => h)
      intro l s2 h2
      rw [wp_pure]; exact h2
    · intro e s1 h1
      rcases h1 with h1 | ⟨ho, hd, h1⟩
      · rw [h1]; exact h0
      · exact hrm ho p (by simp) hd _ _ h0 h1

theorem mem_foldl_setAdd {ps acc : List Path} {x : Path} :
    x ∈ ps.foldl (fun acc p => setAdd p acc) acc ↔ x ∈ acc ∨ x ∈ ps := by
  induction ps generalizing acc with
  | nil => simp
  | cons p ps ih =>
    rw [List.foldl_cons, ih, mem_setAdd, List.mem_cons]
    tauto

theorem nodup_foldl_setAdd {ps acc : List Path} (h : acc.Nodup) :
    (ps.foldl (fun acc p => setAdd p acc) acc).Nodup := by
  induction ps generalizing acc with
  | nil => exact h
  | cons p ps ih => exact ih (nodup_setAdd h)

theorem mem_sortDepth {α : Type} {f : α → Path} {l : List α} {x : α} :
    x ∈ DB.sortDepth f l ↔ x ∈ l := by
  unfold DB.sortDepth
  exact (sortBy_perm _).mem_iff

theorem nodup_sortDepth {α : Type} {f : α → Path} {l : List α} (h : l.Nodup) :
    (DB.sortDepth f l).Nodup := by
  unfold DB.sortDepth
  exact (sortBy_perm _).nodup_iff.2 h

end Verif
