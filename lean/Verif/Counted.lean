import Verif.ALocalInv
/-
What the daemon does to the profile database between two commands.
-/
namespace Verif
open ADB ALocal

/-- The database `b` is what the daemon has made of `a`: it has counted openings (zielen/daemon.py:144-146) and adjusted the
priorities (zielen/daemon.py:164-171) any number of times, in any order. It counts only files (zielen/daemon.py:110), so
nothing known is inside the counted paths. -/
inductive Counted (a : ALocal) : ALocal → Prop
  | none : Counted a a
  | opened {b : ALocal} (ps : List Path) (x : Rat) : Counted a b → (∀ p ∈ ps, ∀ q ∈ paths b, q.dropLast ≠ p) →
      Counted a (increment b ps x)
  | adjusted {b : ALocal} (c : Rat) : Counted a b → Counted a (adjustAll b c)

/-- A row without its priority. -/
def bare (e : Entry PData) : Path × Bool × Bool := (e.path, e.directory, e.data.loc)

theorem bare_aggStep (a : ALocal) (p : Path) : (aggStep aggPriority a p).map bare = a.map bare := by
  unfold aggStep
  rw [List.map_map]
  apply List.map_congr_left
  intro e _
  simp only [Function.comp_apply]
  split <;> rfl

theorem bare_updateAgg (a : ALocal) (ps : List Path) : (updateAgg aggPriority a ps).map bare = a.map bare := by
  unfold updateAgg
  generalize pathAncestry ps = l
  induction l generalizing a with
  | nil => rfl
  | cons p l ih => rw [List.foldl_cons, ih, bare_aggStep]

theorem bare_updateWhere (a : ALocal) (ps : List Path) (f : Entry PData → Entry PData) (hf : ∀ e, bare (f e) = bare e) :
    (updateWhere a ps f).map bare = a.map bare := by
  unfold updateWhere
  induction ps generalizing a with
  | nil => rfl
  | cons p l ih =>
    rw [List.foldl_cons, ih, List.map_map]
    apply List.map_congr_left
    intro e _
    simp only [Function.comp_apply]
    split
    · exact hf e
    · rfl

namespace Counted
variable {a b : ALocal}

/-- The daemon changes nothing but priorities. -/
theorem same (h : Counted a b) : b.map bare = a.map bare := by
  induction h with
  | none => rfl
  | opened ps x _ _ ih => rw [← ih]; unfold increment; rw [bare_updateAgg]; exact bare_updateWhere _ _ _ (fun _ => rfl)
  | adjusted c _ ih => rw [← ih]; unfold adjustAll; rw [List.map_map]; rfl

theorem paths_eq (h : Counted a b) : ADB.paths b = ADB.paths a := by
  have := congrArg (List.map Prod.fst) h.same
  rw [List.map_map, List.map_map] at this
  exact this

theorem row (h : Counted a b) {e : Entry PData} (he : e ∈ b) :
    ∃ e' ∈ a, e'.path = e.path ∧ e'.directory = e.directory ∧ e'.data.loc = e.data.loc := by
  have : bare e ∈ a.map bare := by rw [← h.same]; exact List.mem_map.2 ⟨e, he, rfl⟩
  obtain ⟨e', h1, h2⟩ := List.mem_map.1 this
  unfold bare at h2
  simp only [Prod.mk.injEq] at h2
  exact ⟨e', h1, h2.1, h2.2.1, h2.2.2⟩

end Counted

end Verif
