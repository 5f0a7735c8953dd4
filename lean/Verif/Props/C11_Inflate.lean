import Verif.Props.C03_AddKeeps
import Verif.Props.C02_Subtree
/-
C11: new local files start at the top priority.

The claim "works for every profile state" is false: `C11_raises_iff` says when
`add_inflated` raises, `C11_empty_profile_fails` is the case of a profile with no
file yet.
-/
namespace Verif
open ADB
variable {h : Str → Int} {U : Path → Prop}

theorem max?_ge {l : List Rat} {m : Rat} (hm : l.max? = some m) : m ∈ l ∧ ∀ x ∈ l, x ≤ m := by
  have := (List.max?_eq_some_iff (xs := l) (a := m)).1 hm
  exact this

/-- `add_inflated` raises `IntegrityError` exactly when something is to be added
and no file is recorded. -/
theorem C11_raises_iff (s : Path → Str) (db : LocalDB) (batch : List (Path × Bool)) :
    LocalDB.addInflated h s db batch = none ↔
      batch ≠ [] ∧ ∀ n ∈ db.nodes, n.directory = true := by
  unfold LocalDB.addInflated LocalDB.maxPriority
  cases hm : ((db.nodes.filter (fun n => !n.directory)).map (fun n => n.data.priority)).max? with
  | some m =>
    simp only [reduceCtorEq, false_iff, not_and]
    intro _ hall
    obtain ⟨hm1, _⟩ := max?_ge hm
    obtain ⟨n, hn, _⟩ := List.mem_map.1 hm1
    obtain ⟨hn1, hn2⟩ := List.mem_filter.1 hn
    simp [hall n hn1] at hn2
  | none =>
    rw [List.max?_eq_none_iff, List.map_eq_nil_iff, List.filter_eq_nil_iff] at hm
    have hall : ∀ n ∈ db.nodes, n.directory = true := by
      intro n hn; simpa using hm n hn
    cases batch with
    | nil => simp
    | cons a b => simpa using hall

/-- On a new profile the first path cannot be added with inflated priority. -/
theorem C11_empty_profile_fails : LocalDB.addInflated h s DB.empty [([['a']], false)] = none := by
  rw [C11_raises_iff]
  exact ⟨by simp, by simp [DB.empty]⟩

/-- Missing for the full claim: profiles without any recorded file. If some
file is recorded, the call succeeds and every new path without entries gets a
priority at least that of every recorded file (and one has it). -/
theorem C11_top_partial (u : Univ h U) {ops : List LOp} {db : LocalDB} (H : HistL h U AnyCall ops db)
    {batch : List (Path × Bool)} {s : Path → Str} (hU : ∀ p ∈ batch.map Prod.fst, U p)
    (hpar : ∀ p ∈ batch.map Prod.fst, p.dropLast ≠ [] →
      KnownL ops p.dropLast ∨ p.dropLast ∈ batch.map Prod.fst)
    (hfile : ∃ n ∈ LocalDB.getPaths h db [] none none, n.directory = false) :
    ∃ db' m, LocalDB.addInflated h s db batch = some db' ∧
      (∀ n ∈ LocalDB.getPaths h db [] (some false) none, n.data.priority ≤ m) ∧
      (∃ n ∈ LocalDB.getPaths h db [] (some false) none, n.data.priority = m) ∧
      ∀ p ∈ batch.map Prod.fst, ¬ KnownL ops p →
        (∀ q, KnownL ops q ∨ q ∈ batch.map Prod.fst → q.dropLast ≠ p) →
        ∃ d, (p, d) ∈ batch ∧ DB.getPathInfo h db' p = some (d, ⟨m, true⟩) := by
  have hsub : ∀ d n, n ∈ LocalDB.getPaths h db [] d none → n ∈ db.nodes := by
    intro d n hn
    exact (List.mem_filter.1 (List.mem_filter.1 hn).1).1
  obtain ⟨w, hK⟩ := H.inv u
  have hall : ∀ n, n ∈ LocalDB.getPaths h db [] (some false) none ↔ n ∈ db.nodes ∧ n.directory = false := by
    intro n
    rw [C02_local u H (r := []) (by simp) (some false) none n]
    constructor
    · rintro ⟨h1, _, h2, _⟩
      exact ⟨hsub _ n h1, h2 false rfl⟩
    · rintro ⟨h1, h2⟩
      refine ⟨?_, ⟨n.path, rfl⟩, by rintro b hb; cases hb; exact h2, by simp⟩
      have := (mem_getRows u w (r := []) (by simp)).2 ⟨h1, List.nil_prefix⟩
      simpa [LocalDB.getPaths] using this
  cases hm : LocalDB.maxPriority db with
  | none =>
    exfalso
    unfold LocalDB.maxPriority at hm
    rw [List.max?_eq_none_iff, List.map_eq_nil_iff, List.filter_eq_nil_iff] at hm
    obtain ⟨n, hn, hd⟩ := hfile
    have := hm n (hsub _ n hn)
    simp [hd] at this
  | some m =>
    have hadd : LocalDB.addInflated h s db batch = some (LocalDB.addPaths h s db batch m true) := by
      unfold LocalDB.addInflated; rw [hm]
    obtain ⟨hm1, hm2⟩ := max?_ge hm
    refine ⟨_, m, hadd, ?_, ?_, ?_⟩
    · intro n hn
      obtain ⟨h1, h2⟩ := (hall n).1 hn
      exact hm2 _ (List.mem_map.2 ⟨n, List.mem_filter.2 ⟨h1, by simp [h2]⟩, rfl⟩)
    · obtain ⟨n, hn, hnm⟩ := List.mem_map.1 hm1
      obtain ⟨h1, h2⟩ := List.mem_filter.1 hn
      exact ⟨n, (hall n).2 ⟨h1, by simpa using h2⟩, hnm⟩
    · intro p hp hnk hleaf
      have H' : HistL h U AnyCall (ops ++ [.add batch m true s])
          (LocalDB.addPaths h s db batch m true) :=
        HistL.call H hU (fun _ => hpar) trivial rfl
      exact (C03_local u H H' rfl (hU p hp) hleaf).2 hnk hp

/-- The last call of the example history inflates: `docs/b` gets the priority
of `x`, the most used file. -/
example : (DB.getPathInfo exHash exDB ["docs".toList, "b".toList]).map (fun i => i.2.priority)
    = (DB.getPathInfo exHash exDB ["x".toList]).map (fun i => i.2.priority) := by
  decide +kernel

example : ∃ n ∈ LocalDB.getPaths exHash exDB [] none none, n.directory = false := by
  decide +kernel

end Verif
