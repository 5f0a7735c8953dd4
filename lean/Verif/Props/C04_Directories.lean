import Verif.Props.C02_Subtree
/-
C04: a path with sub-paths is a directory.
-/
namespace Verif
open ADB
variable {h : Str → Int} {U : Path → Prop}

theorem directory_of_sub {δ : Type} {a : ADB δ} (t : ALocal.Tree a) (w : DirOK a) {p q : Path}
    (hp : p ≠ []) (hq : q ∈ paths a) (hpq : p <+: q) (hne : p ≠ q) :
    p ∈ paths a ∧ ∀ e ∈ a, e.path = p → e.directory = true := by
  have hpa : p ∈ paths a := t.closed.anc hq hp hpq
  refine ⟨hpa, ?_⟩
  intro e he hep
  obtain ⟨s, hs⟩ := hpq
  have hs0 : s ≠ [] := by rintro rfl; simp at hs; exact hne hs
  obtain ⟨c, s', rfl⟩ := List.exists_cons_of_ne_nil hs0
  have hk : p ++ [c] ∈ paths a := t.closed.anc hq (by simp) (by rw [← hs]; exact ⟨s', by simp⟩)
  exact w (e.path, e.directory) (List.mem_map_of_mem (f := fun e => (e.path, e.directory)) he)
    ⟨_, hk, by simp [hep]⟩

/-- Profile database: an ancestor of a known path is known and is a directory. -/
theorem C04_local (u : Univ h U) {ops : List LOp} {db : LocalDB}
    (H : HistL h U NoFileMark ops db) {p q : Path} (hp : p ≠ []) (hq : KnownL ops q)
    (hpq : p <+: q) (hne : p ≠ q) :
    ∃ data, DB.getPathInfo h db p = some (true, data) := by
  obtain ⟨w, hK⟩ := H.inv u
  obtain ⟨h1, h2⟩ := directory_of_sub (w.tree u) (H.dirOK u (fun _ _ h => h)) hp ((hK q).2 hq) hpq hne
  have hpU : U p := w.sub p h1
  obtain ⟨e, he, hep⟩ := List.mem_map.1 h1
  refine ⟨e.data, ?_⟩
  rw [DB.getPathInfo_refine w.wf (w.idOK u hpU), (info_eq_some w.wf.pathNodup).2 ⟨he, hep⟩,
    Option.map_some, h2 e he hep]

/-- Remote database. -/
theorem C04_remote (u : Univ h U) {ops : List ROp} {db : RemoteDB}
    (H : HistR h U NoFileMarkR ops db) {p q : Path} (hp : p ≠ []) (hq : KnownR ops q)
    (hpq : p <+: q) (hne : p ≠ q) :
    ∃ data, DB.getPathInfo h db p = some (true, data) := by
  obtain ⟨w, hK⟩ := H.inv u
  obtain ⟨h1, h2⟩ := directory_of_sub (w.tree u) (H.dirOK u (fun _ h => h)) hp ((hK q).2 hq) hpq hne
  have hpU : U p := w.sub p h1
  obtain ⟨e, he, hep⟩ := List.mem_map.1 h1
  refine ⟨e.data, ?_⟩
  rw [DB.getPathInfo_refine w.wf (w.idOK u hpU), (info_eq_some w.wf.pathNodup).2 ⟨he, hep⟩,
    Option.map_some, h2 e he hep]

/-- Files and directories partition the known paths. -/
theorem C04_partition (u : Univ h U) {C : (Path → Prop) → LOp → Prop} {ops : List LOp}
    {db : LocalDB} (H : HistL h U C ops db) {p : Path} :
    (KnownL ops p ↔ p ∈ (LocalDB.getPaths h db [] (some true) none).map Row.path ∨
      p ∈ (LocalDB.getPaths h db [] (some false) none).map Row.path) ∧
    ¬ (p ∈ (LocalDB.getPaths h db [] (some true) none).map Row.path ∧
      p ∈ (LocalDB.getPaths h db [] (some false) none).map Row.path) := by
  have hmem := fun d n => C02_local u H (r := []) (by simp) d none n
  obtain ⟨hnd, hall⟩ := C01_local u H
  constructor
  · rw [← hall p]
    constructor
    · intro hp
      obtain ⟨n, hn, rfl⟩ := List.mem_map.1 hp
      cases hd : n.directory with
      | true =>
        left
        exact List.mem_map_of_mem ((hmem (some true) n).2 ⟨hn, ⟨n.path, rfl⟩,
          by rintro b hb; cases hb; exact hd, by simp⟩)
      | false =>
        right
        exact List.mem_map_of_mem ((hmem (some false) n).2 ⟨hn, ⟨n.path, rfl⟩,
          by rintro b hb; cases hb; exact hd, by simp⟩)
    · rintro (hp | hp) <;>
      · obtain ⟨n, hn, rfl⟩ := List.mem_map.1 hp
        exact List.mem_map_of_mem ((hmem _ n).1 hn).1
  · rintro ⟨h1, h2⟩
    obtain ⟨n, hn, rfl⟩ := List.mem_map.1 h1
    obtain ⟨m, hm, hmn⟩ := List.mem_map.1 h2
    obtain ⟨hn1, _, hn2, _⟩ := (hmem _ n).1 hn
    obtain ⟨hm1, _, hm2, _⟩ := (hmem _ m).1 hm
    have : m = n := nodup_map_inj Row.path hnd hm1 hn1 hmn
    subst this
    have a := hn2 true rfl
    rw [hm2 false rfl] at a
    cases a

/-- `docs` was added as a file; adding `docs/a` turns it into a directory. -/
example :
    let db := LocalDB.addPaths exHash (fun _ => []) DB.empty [(["docs".toList], false)] 0 true
    let db' := LocalDB.addPaths exHash (fun _ => []) db [(["docs".toList, "a".toList], false)] 0 true
    (DB.getPathInfo exHash db ["docs".toList]).map Prod.fst = some false ∧
    (DB.getPathInfo exHash db' ["docs".toList]).map Prod.fst = some true := by
  decide +kernel

example : ∃ db, HistL exHash (fun p => p ∈ exPaths) NoFileMark exOps db := by
  obtain ⟨db, H⟩ := exHist
  refine ⟨db, ?_⟩
  revert H
  generalize exOps = ops
  intro H
  induction H with
  | start => exact HistL.start
  | call _ h1 h2 hC hs ih => exact HistL.call ih h1 h2 hC.2 hs

end Verif
