import Verif.Props.C02_Subtree
/-
C05: the priority of a directory is the sum over its entries.
C06: a directory is flagged local only if everything below it is.
-/
namespace Verif
open ADB ALocal
variable {h : Str → Int} {U : Path → Prop}

theorem getPaths_all (u : Univ h U) {db : LocalDB} (w : DB.InU h U db) :
    LocalDB.getPaths h db [] none none = db.nodes := by
  have : LocalDB.getPaths h db [] none none = DB.getRows h db [] := by simp [LocalDB.getPaths]
  rw [this]
  refine List.filter_eq_self.2 (fun n hn => ?_)
  exact (List.mem_filter.1 ((mem_getRows u w (r := []) (by simp)).2 ⟨hn, List.nil_prefix⟩)).2

/-- The rows `get_paths()` reports whose parent is `p`. -/
def entriesOf (h : Str → Int) (db : LocalDB) (p : Path) : List (Row PData) :=
  (LocalDB.getPaths h db [] none none).filter (fun n => decide (n.path.dropLast = p))

theorem entries_view {γ : Type} (u : Univ h U) {db : LocalDB} (w : DB.InU h U db) (f : PData → γ)
    (p : Path) :
    (kids (view f db.abs) p).map Prod.snd = (entriesOf h db p).map (fun n => f n.data) := by
  unfold entriesOf
  rw [getPaths_all u w]
  simp only [kids, view, DB.abs, List.map_map, List.filter_map]
  rfl

theorem entries_kids {γ : Type} (u : Univ h U) {db : LocalDB} (w : DB.InU h U db) (f : PData → γ)
    (p : Path) : kids (view f db.abs) p ≠ [] ↔ entriesOf h db p ≠ [] := by
  have := congrArg List.length (entries_view u w f p)
  simp only [List.length_map] at this
  rw [← List.length_pos_iff, ← List.length_pos_iff, this]

/-- Directory priorities: every path that has entries has the sum of their priorities. -/
theorem C05_sum (u : Univ h U) {ops : List LOp} {db : LocalDB} (H : HistL h U ProgramCall ops db)
    {n : Row PData} (hn : n ∈ LocalDB.getPaths h db [] none none)
    (hk : entriesOf h db n.path ≠ []) :
    n.data.priority = ((entriesOf h db n.path).map (fun m => m.data.priority)).sum := by
  obtain ⟨w, _⟩ := H.inv u
  have ag := H.aggOK u (fun _ _ h => h)
  rw [getPaths_all u w] at hn
  have hx : (n.path, n.data.priority) ∈ vPrio db.abs :=
    List.mem_map.2 ⟨n.toEntry, List.mem_map_of_mem hn, rfl⟩
  have := ag.prio _ hx ((entries_kids u w PData.priority n.path).2 hk)
  rw [entries_view u w] at this
  exact this

/-- The local flag of a path that has entries. -/
theorem C06_iff (u : Univ h U) {ops : List LOp} {db : LocalDB} (H : HistL h U ProgramCall ops db)
    {n : Row PData} (hn : n ∈ LocalDB.getPaths h db [] none none)
    (hk : entriesOf h db n.path ≠ []) :
    n.data.loc = true ↔ ∀ m ∈ entriesOf h db n.path, m.data.loc = true := by
  obtain ⟨w, _⟩ := H.inv u
  have ag := H.aggOK u (fun _ _ h => h)
  rw [getPaths_all u w] at hn
  have hx : (n.path, n.data.loc) ∈ vLoc db.abs :=
    List.mem_map.2 ⟨n.toEntry, List.mem_map_of_mem hn, rfl⟩
  have := ag.loc _ hx ((entries_kids u w PData.loc n.path).2 hk)
  rw [entries_view u w] at this
  simp only at this
  rw [this, minLoc]
  simp only [Bool.and_eq_true, List.all_eq_true, List.mem_map, forall_exists_index, and_imp,
    forall_apply_eq_imp_iff₂]
  constructor
  · exact fun h => h.2
  · refine fun h => ⟨?_, h⟩
    simpa using hk

/-- Everything below a path flagged local is flagged local. -/
theorem C06_below (u : Univ h U) {ops : List LOp} {db : LocalDB} (H : HistL h U ProgramCall ops db)
    {n m : Row PData} (hn : n ∈ LocalDB.getPaths h db [] none none)
    (hm : m ∈ LocalDB.getPaths h db [] none none) (hnm : n.path <+: m.path)
    (hl : n.data.loc = true) : m.data.loc = true := by
  obtain ⟨w, _⟩ := H.inv u
  have t := w.tree u
  have hnd := (C01_local u H).1
  have key : ∀ (s : Path) (n m : Row PData), n ∈ LocalDB.getPaths h db [] none none →
      m ∈ LocalDB.getPaths h db [] none none → n.path ++ s = m.path → n.data.loc = true →
      m.data.loc = true := by
    intro s
    induction s with
    | nil =>
      intro n m hn hm hs hl
      have : n = m := nodup_map_inj Row.path hnd hn hm (by simpa using hs)
      rwa [← this]
    | cons c s ih =>
      intro n m hn hm hs hl
      have hall : ∀ k, k ∈ (LocalDB.getPaths h db [] none none).map Row.path ↔ k ∈ paths db.abs := by
        intro k
        rw [getPaths_all u w]
        simp [paths, DB.abs, Function.comp_def]
      have hmp : m.path ∈ paths db.abs := (hall _).1 (List.mem_map_of_mem hm)
      have hk : n.path ++ [c] ∈ paths db.abs :=
        t.closed.anc hmp (by simp) ⟨s, by rw [← hs]; simp⟩
      obtain ⟨k, hk1, hk2⟩ := List.mem_map.1 ((hall _).2 hk)
      have hke : k ∈ entriesOf h db n.path := List.mem_filter.2 ⟨hk1, by simp [hk2]⟩
      have hkl := (C06_iff u H hn (List.ne_nil_of_mem hke)).1 hl k hke
      exact ih k m hk1 hm (by rw [hk2, ← hs]; simp) hkl
  obtain ⟨s, hs⟩ := hnm
  exact key s n m hn hm hs hl

theorem HistL.mono {C C' : (Path → Prop) → LOp → Prop} (hC : ∀ K op, C K op → C' K op)
    {ops : List LOp} {db : LocalDB} (H : HistL h U C ops db) : HistL h U C' ops db := by
  induction H with
  | start => exact HistL.start
  | call _ h1 h2 h3 hs ih => exact HistL.call ih h1 h2 (hC _ _ h3) hs

/-- The example history is a program history, and its `docs` has two entries,
one of which is not local. -/
example : ∃ db, HistL exHash (fun p => p ∈ exPaths) ProgramCall exOps db := by
  obtain ⟨db, H⟩ := exHist
  exact ⟨db, H.mono (fun _ _ h => h.1)⟩

example : (entriesOf exHash exDB ["docs".toList]).map (fun n => (n.data.priority, n.data.loc))
    = [(3/2, false), (2, true)] ∧
    DB.getPathInfo exHash exDB ["docs".toList] = some (true, ⟨7/2, false⟩) := by
  decide +kernel

end Verif
