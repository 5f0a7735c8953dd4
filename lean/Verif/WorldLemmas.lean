import Verif.Remove
import Verif.Commands
import Verif.DBHistInv
/-
Reasoning about programs on the whole state.
-/
namespace Verif
open Prog OSM Call FSTools WM

namespace WM
variable {α : Type} {Q : α → World → Prop} {E : Err → World → Prop} {w : World}

theorem wp_sys {m : OSM α} : wp (sys m) Q E w ↔
    wp m (fun a os => Q a { w with os := os }) (fun e os => E e { w with os := os }) w.os := by
  unfold wp sys
  cases hm : m w.os with
  | mk r os => cases r <;> rfl

theorem wp_gets {f : World → α} : wp (gets f) Q E w ↔ Q (f w) w := Iff.rfl

theorem wp_modify {f : World → World} {Q : Unit → World → Prop} : wp (modify f) Q E w ↔ Q () (f w) := Iff.rfl

theorem wp_get? {e : Err} {o : Option α} :
    wp (get? e o) Q E w ↔ (∀ a, o = some a → Q a w) ∧ (o = none → E e w) := by
  cases o with
  | none => simp [get?, wp_throw]
  | some a => simp [get?, wp_pure]

theorem wp_save {f : World → World} {Q : Unit → World → Prop}
    (hk : E .killed w) (hok : Q () (f { w with os := OS.next w.os w.os.fs })) : wp (save f) Q E w := by
  unfold save
  rw [wp_bind, wp_sys]
  apply wp_op
  · exact hk
  · rintro fs' ⟨rfl⟩
    rw [wp_modify]
    exact hok
  · intro e he; cases he

end WM

/-! ### Sets -/

theorem mem_setOf {l : List Path} {p : Path} : p ∈ setOf l ↔ p ∈ l := by
  unfold setOf
  rw [mem_foldl_setAdd]; simp

theorem nodup_setOf (l : List Path) : (setOf l).Nodup := nodup_foldl_setAdd List.nodup_nil

/-! ### Removing files and their rows -/

/-- What `_rm_files` does to everything but the file system. -/
def World.rmRows (w : World) (ps : List Path) : World :=
  { w with db := w.db.rmPaths ps, rdb := w.rdb.rmPaths ps }

theorem wp_rmLoop {order : List Path → List Path} (ho : ∀ l, (order l).Perm l) (parent : Path) {ps : List Path}
    (hp : ∀ p ∈ ps, p ≠ []) {s : OS} (w : s.fs.WF) :
    wp (each (rmOne parent) (order ps))
      (fun _ s' => Shrink (fun q => ∃ p ∈ ps, parent ++ p <+: q) s.fs s'.fs ∧
        ∀ p ∈ ps, ∀ q, parent ++ p <+: q → s'.fs.get q = none)
      (fun _ s' => Shrink (fun q => ∃ p ∈ ps, parent ++ p <+: q) s.fs s'.fs) s := by
  refine wp_mono (wp_each (fun done (s' : OS) =>
      Shrink (fun q => ∃ p ∈ ps, parent ++ p <+: q) s.fs s'.fs ∧
      ∀ p ∈ done, ∀ q, parent ++ p <+: q → s'.fs.get q = none)
    (E := fun _ s' => Shrink (fun q => ∃ p ∈ ps, parent ++ p <+: q) s.fs s'.fs)
    (order ps) ?_ ⟨Shrink.refl _ _, by simp⟩) ?_ (fun _ _ h => h)
  · rintro done x rest hl s1 ⟨h1, h2⟩
    have hx : x ∈ ps := by rw [← (ho ps).mem_iff, hl]; simp
    unfold rmOne
    refine wp_mono (wp_rmAny (by simp [hp x hx]) (h1.wf w)) ?_ ?_
    · rintro _ s2 ⟨h3, h4⟩
      refine ⟨h1.trans (h3.mono (fun q hq => ⟨x, hx, hq⟩)), ?_⟩
      intro p hp q hq
      rw [List.mem_append, List.mem_singleton] at hp
      rcases hp with hp | rfl
      · exact h3.none (h2 p hp q hq)
      · exact h4 q hq
    · rintro _ s2 ⟨h3, _⟩
      exact h1.trans (h3.mono (fun q hq => ⟨x, hx, hq⟩))
  · rintro _ s1 ⟨h1, h2⟩
    exact ⟨h1, fun p hp => h2 p ((ho ps).mem_iff.2 hp)⟩

theorem wp_rmFiles {env : Env} (ho : ∀ l, (env.order l).Perm l) (parent : Path) {ps : List Path}
    (hp : ∀ p ∈ ps, p ≠ []) {w : World} (wf : w.os.fs.WF) :
    wp (rmFiles env parent ps)
      (fun _ w' => Shrink (fun q => ∃ p ∈ ps, parent ++ p <+: q) w.os.fs w'.os.fs ∧
        (∀ p ∈ ps, ∀ q, parent ++ p <+: q → w'.os.fs.get q = none) ∧
        w' = { w.rmRows ps with os := w'.os })
      (fun _ w' => Shrink (fun q => ∃ p ∈ ps, parent ++ p <+: q) w.os.fs w'.os.fs ∧
        w' = { w with os := w'.os }) w := by
  unfold rmFiles
  rw [wp_bind, wp_sys]
  refine wp_mono (wp_rmLoop ho parent hp wf) ?_ ?_
  · rintro _ s1 ⟨h1, h2⟩
    unfold rmBoth
    rw [wp_modify]
    exact ⟨h1, h2, rfl⟩
  · rintro _ s1 h1
    exact ⟨h1, rfl⟩

theorem mem_rmRows_db {w : World} {ps : List Path} {q : Path} :
    q ∈ ADB.paths (w.rmRows ps).db ↔ q ∈ ADB.paths w.db ∧ ∀ p ∈ ps, ¬ p <+: q := by
  show q ∈ ADB.paths (ALocal.refresh (ADB.rmCore w.db ps) (DB.parentsOf ps)) ↔ _
  rw [paths_refresh]
  exact ADB.mem_paths_rmCore

theorem mem_rmRows_rdb {w : World} {ps : List Path} {q : Path} :
    q ∈ ADB.paths (w.rmRows ps).rdb ↔ q ∈ ADB.paths w.rdb ∧ ∀ p ∈ ps, ¬ p <+: q :=
  ADB.mem_paths_rmCore

end Verif
