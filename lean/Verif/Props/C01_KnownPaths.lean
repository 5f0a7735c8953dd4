import Verif.DBHistInv
/-
C01: the database lists exactly the paths that were added and not removed.
`KnownL`/`KnownR` (Spec/History.lean) say which these are without mentioning
the tables.
-/
namespace Verif
open ADB
variable {h : Str → Int} {U : Path → Prop}

theorem rows_all_perm {δ : Type} {db : DB δ} (w : DB.InU h U db) :
    (DB.getRows h db []).map Row.path = paths db.abs := by
  have := congrArg (List.map Entry.path) (DB.getRows_refine (root := []) w.wf (by simp))
  simp only [List.map_map] at this
  have h2 : Entry.path ∘ (Row.toEntry (δ := δ)) = Row.path := rfl
  rw [h2] at this
  rw [this]
  have : ADB.rows db.abs [] = db.abs := List.filter_eq_self.2 (fun e _ => by simp)
  rw [this]; rfl

/-- `get_paths()` of the profile database returns each known path once. -/
theorem C01_local (u : Univ h U) {C : (Path → Prop) → LOp → Prop} {ops : List LOp} {db : LocalDB}
    (H : HistL h U C ops db) :
    ((LocalDB.getPaths h db [] none none).map Row.path).Nodup ∧
      ∀ p, p ∈ (LocalDB.getPaths h db [] none none).map Row.path ↔ KnownL ops p := by
  obtain ⟨w, hK⟩ := H.inv u
  have : LocalDB.getPaths h db [] none none = DB.getRows h db [] := by
    simp [LocalDB.getPaths]
  rw [this, rows_all_perm w]
  exact ⟨w.wf.pathNodup, hK⟩

/-- `get_path_info` of the profile database finds exactly the known paths. -/
theorem C01_local_info (u : Univ h U) {C : (Path → Prop) → LOp → Prop} {ops : List LOp}
    {db : LocalDB} (H : HistL h U C ops db) {p : Path} (hp : U p) :
    (DB.getPathInfo h db p).isSome = true ↔ KnownL ops p := by
  obtain ⟨w, hK⟩ := H.inv u
  rw [DB.getPathInfo_refine w.wf (w.idOK u hp), Option.isSome_map, ← hK p]
  exact info_isSome

/-- `get_paths()` of the remote database returns each known path once. -/
theorem C01_remote (u : Univ h U) {C : ROp → Prop} {ops : List ROp} {db : RemoteDB}
    (H : HistR h U C ops db) :
    ((RemoteDB.getPaths h db [] none none).map Row.path).Nodup ∧
      ∀ p, p ∈ (RemoteDB.getPaths h db [] none none).map Row.path ↔ KnownR ops p := by
  obtain ⟨w, hK⟩ := H.inv u
  have : RemoteDB.getPaths h db [] none none = DB.getRows h db [] := by
    simp [RemoteDB.getPaths]
  rw [this, rows_all_perm w]
  exact ⟨w.wf.pathNodup, hK⟩

/-- `get_path_info` of the remote database finds exactly the known paths. -/
theorem C01_remote_info (u : Univ h U) {C : ROp → Prop} {ops : List ROp} {db : RemoteDB}
    (H : HistR h U C ops db) {p : Path} (hp : U p) :
    (DB.getPathInfo h db p).isSome = true ↔ KnownR ops p := by
  obtain ⟨w, hK⟩ := H.inv u
  rw [DB.getPathInfo_refine w.wf (w.idOK u hp), Option.isSome_map, ← hK p]
  exact info_isSome

/-- The hypotheses are met by a history of six calls that leaves `docs/b`
known after it was removed and added again. -/
example : ∃ db, HistL exHash (fun p => p ∈ exPaths)
    (fun K op => ProgramCall K op ∧ NoFileMark K op) exOps db ∧
    KnownL exOps ["docs".toList, "b".toList] ∧ ¬ KnownL (exOps.take 4) ["docs".toList, "b".toList] := by
  obtain ⟨db, H⟩ := exHist
  refine ⟨db, H, Or.inr (by decide +kernel), ?_⟩
  intro hk
  exact hk.2 _ (List.mem_singleton.2 rfl) (List.prefix_refl _)

/-- Two additions to the remote database. -/
def exOpR : ROp :=
  .add [(["docs".toList], true), (["docs".toList, "a".toList], false)] 5 (fun _ => [])

example : ∃ db, HistR exHash (fun p => p ∈ exPaths) NoFileMarkR
    [exOpR, .rm [["docs".toList, "a".toList]]] db := by
  have h1 := HistR.call (h := exHash) (U := fun p => p ∈ exPaths) (C := NoFileMarkR)
    (op := exOpR) HistR.start (by decide +kernel) (fun _ => by
      have : ∀ p ∈ exOpR.paths, p.dropLast ≠ [] → p.dropLast ∈ exOpR.paths := by decide +kernel
      exact fun p hp h0 => Or.inr (this p hp h0)) trivial
  have h2 := HistR.call (op := .rm [["docs".toList, "a".toList]]) h1 (by decide +kernel)
    (by simp [ROp.isAdd]) trivial
  exact ⟨_, h2⟩

end Verif
