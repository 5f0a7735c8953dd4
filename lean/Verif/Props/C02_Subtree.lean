import Verif.Props.C01_KnownPaths
/-
C02: a subtree query returns exactly the subtree.
-/
namespace Verif
open ADB
variable {h : Str → Int} {U : Path → Prop}

theorem mem_getRows {δ : Type} (u : Univ h U) {db : DB δ} (w : DB.InU h U db) {r : Path}
    (hr : r ≠ [] → U r) {n : Row δ} :
    n ∈ DB.getRows h db r ↔ n ∈ db.nodes ∧ r <+: n.path := by
  have href := DB.getRows_refine (root := r) w.wf (fun h0 => w.idOK u (hr h0))
  have hsub : ∀ m, m ∈ DB.getRows h db r → m ∈ db.nodes := fun m hm => (List.mem_filter.1 hm).1
  have hnd : (db.nodes.map Row.path).Nodup := by
    have := w.wf.pathNodup
    simpa [paths, DB.abs, Function.comp_def] using this
  constructor
  · intro hn
    refine ⟨hsub n hn, ?_⟩
    have : n.toEntry ∈ ADB.rows db.abs r := by rw [← href]; exact List.mem_map_of_mem hn
    have := (List.mem_filter.1 this).2
    exact List.isPrefixOf_iff_prefix.1 this
  · rintro ⟨hn, hp⟩
    have : n.toEntry ∈ ADB.rows db.abs r :=
      List.mem_filter.2 ⟨List.mem_map_of_mem hn, List.isPrefixOf_iff_prefix.2 hp⟩
    rw [← href] at this
    obtain ⟨m, hm, hme⟩ := List.mem_map.1 this
    have : m = n := nodup_map_inj Row.path hnd (hsub m hm) hn (congrArg Entry.path hme)
    rwa [← this]

/-- `get_paths(root=r, directory=d, local=l)` (an empty `r` stands for `None`):
the rows of `get_paths()` at or below `r` that pass the filters. -/
theorem C02_local (u : Univ h U) {C : (Path → Prop) → LOp → Prop} {ops : List LOp} {db : LocalDB}
    (H : HistL h U C ops db) {r : Path} (hr : r ≠ [] → U r) (d l : Option Bool) (n : Row PData) :
    n ∈ LocalDB.getPaths h db r d l ↔
      n ∈ LocalDB.getPaths h db [] none none ∧ (∃ rest, n.path = r ++ rest) ∧
        (∀ b, d = some b → n.directory = b) ∧ (∀ b, l = some b → n.data.loc = b) := by
  obtain ⟨w, _⟩ := H.inv u
  simp only [LocalDB.getPaths, List.mem_filter, decide_eq_true_eq]
  rw [mem_getRows u w hr, mem_getRows u w (r := []) (by simp)]
  constructor
  · rintro ⟨⟨h1, t, h2⟩, h3, h4⟩
    refine ⟨⟨⟨h1, List.nil_prefix⟩, Or.inl trivial, Or.inl trivial⟩, ⟨t, h2.symm⟩, ?_, ?_⟩
    · rintro b rfl; simpa [eq_comm] using h3
    · rintro b rfl; simpa [eq_comm] using h4
  · rintro ⟨⟨⟨h1, _⟩, _⟩, ⟨t, h2⟩, h3, h4⟩
    refine ⟨⟨h1, t, h2.symm⟩, ?_, ?_⟩
    · cases d with
      | none => exact Or.inl rfl
      | some b => right; rw [h3 b rfl]
    · cases l with
      | none => exact Or.inl rfl
      | some b => right; rw [h4 b rfl]

/-- The same for the remote database, whose third filter is `lastsync > t`. -/
theorem C02_remote (u : Univ h U) {C : ROp → Prop} {ops : List ROp} {db : RemoteDB}
    (H : HistR h U C ops db) {r : Path} (hr : r ≠ [] → U r) (d : Option Bool) (t : Option Int)
    (n : Row Int) :
    n ∈ RemoteDB.getPaths h db r d t ↔
      n ∈ RemoteDB.getPaths h db [] none none ∧ (∃ rest, n.path = r ++ rest) ∧
        (∀ b, d = some b → n.directory = b) ∧ (∀ x, t = some x → x < n.data) := by
  obtain ⟨w, _⟩ := H.inv u
  simp only [RemoteDB.getPaths, List.mem_filter, Bool.and_eq_true, decide_eq_true_eq]
  rw [mem_getRows u w hr, mem_getRows u w (r := []) (by simp)]
  constructor
  · rintro ⟨⟨h1, s, h2⟩, h3, h4⟩
    refine ⟨⟨⟨h1, List.nil_prefix⟩, Or.inl trivial, trivial⟩, ⟨s, h2.symm⟩, ?_, ?_⟩
    · rintro b rfl; simpa [eq_comm] using h3
    · rintro b rfl; simpa using h4
  · rintro ⟨⟨⟨h1, _⟩, _⟩, ⟨s, h2⟩, h3, h4⟩
    refine ⟨⟨h1, s, h2.symm⟩, ?_, ?_⟩
    · cases d with
      | none => exact Or.inl rfl
      | some b => right; rw [h3 b rfl]
    · cases t with
      | none => rfl
      | some b => simpa using h4 b rfl

/-- Two databases with a path `x` and a sibling `xy` below no common directory:
the query for `x` does not return `xy`. -/
example : ((LocalDB.getPaths exHash (LocalDB.addPaths exHash (fun _ => []) DB.empty
    [(["x".toList], true), (["x".toList, "f".toList], false), (["xy".toList], false)] 0 true)
    ["x".toList] none none).map Row.path) = [["x".toList], ["x".toList, "f".toList]] := by
  decide +kernel

end Verif
