import Verif.Props.C01_KnownPaths
/-
C03: adding never disturbs what is recorded about files.
-/
namespace Verif
open ADB
variable {h : Str → Int} {U : Path → Prop}

theorem mem_addCore_of_not_parent {δ : Type} {a : ADB δ} {batch : List (Path × Bool)} {data : δ}
    {e : Entry δ} (hm : e.path ∉ DB.parentsOf ((DB.sortDepth Prod.fst batch).map Prod.fst)) :
    e ∈ addCore a batch data ↔ e ∈ a ∨ (e.path ∉ paths a ∧ e ∈ addCore a batch data) := by
  obtain ⟨news, h1, h2⟩ := addCore_eq a batch data
  rw [h1]
  have hmark : e ∈ mark (DB.parentsOf ((DB.sortDepth Prod.fst batch).map Prod.fst)) (a ++ news) ↔
      e ∈ a ++ news := by
    simp only [mark, List.mem_map]
    constructor
    · rintro ⟨x, hx, rfl⟩
      by_cases hp : x.path ∈ DB.parentsOf ((DB.sortDepth Prod.fst batch).map Prod.fst)
      · simp [hp] at hm
      · simp only [hp, if_false]; exact hx
    · intro he
      exact ⟨e, he, by simp [hm]⟩
  rw [hmark, List.mem_append]
  constructor
  · rintro (he | he)
    · exact Or.inl he
    · exact Or.inr ⟨(h2.mem e he).2.1, Or.inr he⟩
  · rintro (he | he)
    · exact Or.inl he
    · exact he.2

/-- What `add_paths` of the profile database does to a path `p` that has no
sub-path afterwards (a file or an empty directory): recorded data stays, a new
path gets the given data. -/
theorem C03_local (u : Univ h U) {C : (Path → Prop) → LOp → Prop} {ops : List LOp}
    {db db' : LocalDB} (H : HistL h U C ops db) {batch : List (Path × Bool)} {x : Rat} {l : Bool}
    {s : Path → Str} (H' : HistL h U C (ops ++ [.add batch x l s]) db')
    (hdb : db' = LocalDB.addPaths h s db batch x l)
    {p : Path} (hp : U p) (hleaf : ∀ q, KnownL ops q ∨ q ∈ batch.map Prod.fst → q.dropLast ≠ p) :
    (KnownL ops p → DB.getPathInfo h db' p = DB.getPathInfo h db p) ∧
    (¬ KnownL ops p → p ∈ batch.map Prod.fst →
      ∃ d, (p, d) ∈ batch ∧ DB.getPathInfo h db' p = some (d, ⟨x, l⟩)) := by
  obtain ⟨w, hK⟩ := H.inv u
  obtain ⟨w', hK'⟩ := H'.inv u
  have hb : ∀ p ∈ batch.map Prod.fst, U p := by
    intro q hq
    have : q ∈ paths db'.abs := (hK' q).2 (by rw [KnownL_snoc]; exact Or.inr hq)
    exact w'.sub q this
  have t' := w'.tree u
  have habs : db'.abs = ALocal.addPaths db.abs batch x l := by
    subst hdb
    refine (LocalDB.addPaths_refine u w hb ?_ s x l).2
    intro q hq
    refine ⟨u.ne (hb q hq), fun h0 => ?_⟩
    have := t'.closed q ((hK' q).2 (by rw [KnownL_snoc]; exact Or.inr hq)) h0
    rw [hK', KnownL_snoc] at this
    rcases this with h | h
    · exact Or.inl ((hK _).2 h)
    · exact Or.inr h
  have hnot : p ∉ pathAncestry (DB.parentsOf ((DB.sortDepth Prod.fst batch).map Prod.fst)) := by
    apply not_mem_ancestry_parents t'.closed
    · intro q hq
      rw [hK', KnownL_snoc]
      exact Or.inr (by simpa [DB.sortDepth] using hq)
    · intro k hk
      rw [hK', KnownL_snoc] at hk
      exact hleaf k hk
  have hnotp : p ∉ DB.parentsOf ((DB.sortDepth Prod.fst batch).map Prod.fst) :=
    fun hm => hnot (mem_ancestry_self hm)
  have hmem : ∀ e : Entry PData, e.path = p →
      (e ∈ db'.abs ↔ e ∈ addCore db.abs batch ⟨x, l⟩) := by
    intro e he
    rw [habs]
    unfold ALocal.addPaths
    exact mem_refresh_of_not (by rw [he]; exact hnot)
  rw [DB.getPathInfo_refine w.wf (w.idOK u hp), DB.getPathInfo_refine w'.wf (w'.idOK u hp)]
  constructor
  · intro hk
    obtain ⟨e, he, hep⟩ := List.mem_map.1 ((hK p).2 hk)
    have h1 : info db.abs p = some e := (info_eq_some w.wf.pathNodup).2 ⟨he, hep⟩
    have h2 : info db'.abs p = some e := (info_eq_some w'.wf.pathNodup).2 ⟨(hmem e hep).2
      ((mem_addCore_of_not_parent (by rw [hep]; exact hnotp)).2 (Or.inl he)), hep⟩
    rw [h1, h2]
  · intro hnk hpb
    obtain ⟨e, he, hep⟩ := List.mem_map.1 ((hK' p).2 (by rw [KnownL_snoc]; exact Or.inr hpb))
    have he2 := (hmem e hep).1 he
    obtain ⟨news, h1, h2⟩ := addCore_eq db.abs batch (⟨x, l⟩ : PData)
    have hnews : e ∈ news := by
      rw [h1] at he2
      simp only [mark, List.mem_map] at he2
      obtain ⟨y, hy, rfl⟩ := he2
      have hyp : y.path = p := by
        by_cases hyp : y.path ∈ DB.parentsOf ((DB.sortDepth Prod.fst batch).map Prod.fst)
        · simpa [hyp] using hep
        · simpa [hyp] using hep
      have hynot : y.path ∉ DB.parentsOf ((DB.sortDepth Prod.fst batch).map Prod.fst) := by
        rw [hyp]; exact hnotp
      simp only [hynot, if_false]
      rcases List.mem_append.1 hy with hy | hy
      · exact absurd ((hK p).1 (hyp ▸ List.mem_map_of_mem hy)) hnk
      · exact hy
    obtain ⟨m1, _, m3⟩ := h2.mem e hnews
    refine ⟨e.directory, by rw [← hep]; exact m1, ?_⟩
    rw [(info_eq_some w'.wf.pathNodup).2 ⟨he, hep⟩, Option.map_some, m3]

/-- `add_paths` of the remote database keeps the time of every known path and
records the given time for the new ones. -/
theorem C03_remote (u : Univ h U) {C : ROp → Prop} {ops : List ROp} {db : RemoteDB}
    (H : HistR h U C ops db) {batch : List (Path × Bool)} {now : Int} {s : Path → Str}
    (H' : HistR h U C (ops ++ [.add batch now s]) (RemoteDB.addPaths h s db batch now))
    {p : Path} (hp : U p) :
    (KnownR ops p → (DB.getPathInfo h (RemoteDB.addPaths h s db batch now) p).map Prod.snd
      = (DB.getPathInfo h db p).map Prod.snd) ∧
    (¬ KnownR ops p → p ∈ batch.map Prod.fst →
      (DB.getPathInfo h (RemoteDB.addPaths h s db batch now) p).map Prod.snd = some now) := by
  obtain ⟨w, hK⟩ := H.inv u
  obtain ⟨w', hK'⟩ := H'.inv u
  have t' := w'.tree u
  have hb : ∀ p ∈ batch.map Prod.fst, U p := by
    intro q hq
    exact w'.sub q ((hK' q).2 (by rw [KnownR_snoc]; exact Or.inr hq))
  have habs : (RemoteDB.addPaths h s db batch now).abs = addCore db.abs batch now := by
    refine (w.addCore u s now hb ?_).2
    intro q hq
    refine ⟨u.ne (hb q hq), fun h0 => ?_⟩
    have := t'.closed q ((hK' q).2 (by rw [KnownR_snoc]; exact Or.inr hq)) h0
    rw [hK', KnownR_snoc] at this
    rcases this with h | h
    · exact Or.inl ((hK _).2 h)
    · exact Or.inr h
  obtain ⟨news, h1, h2⟩ := addCore_eq db.abs batch now
  have hview : view id (addCore db.abs batch now) = view id db.abs ++ view id news := by
    rw [h1, view_mark]; simp [view]
  have hdata : ∀ {a : ADB Int} (_ : (paths a).Nodup) (v : Int),
      (((info a p).map (fun e => (e.directory, e.data))).map Prod.snd = some v ↔
        (p, v) ∈ view id a) := by
    intro a hn v
    rw [Option.map_map]
    constructor
    · intro hv
      rw [Option.map_eq_some_iff] at hv
      obtain ⟨e, he, rfl⟩ := hv
      obtain ⟨he1, rfl⟩ := (info_eq_some hn).1 he
      exact List.mem_map.2 ⟨e, he1, rfl⟩
    · intro hv
      obtain ⟨e, he, heq⟩ := List.mem_map.1 hv
      have hep : e.path = p := congrArg Prod.fst heq
      have hev : e.data = v := congrArg Prod.snd heq
      rw [(info_eq_some hn).2 ⟨he, hep⟩]
      simp [hev]
  rw [DB.getPathInfo_refine w.wf (w.idOK u hp), DB.getPathInfo_refine w'.wf (w'.idOK u hp)]
  constructor
  · intro hk
    obtain ⟨e, he, hep⟩ := List.mem_map.1 ((hK p).2 hk)
    have hv : (p, e.data) ∈ view id db.abs := List.mem_map.2 ⟨e, he, by rw [hep]; rfl⟩
    rw [(hdata w.wf.pathNodup e.data).2 hv, (hdata w'.wf.pathNodup e.data).2 (by
      rw [habs, hview]; exact List.mem_append_left _ hv)]
  · intro hnk hpb
    rw [hdata w'.wf.pathNodup, habs, hview]
    rcases h2.all p hpb with hm | hm
    · exact absurd ((hK p).1 hm) hnk
    · obtain ⟨e, he, hep⟩ := List.mem_map.1 hm
      exact List.mem_append_right _ (List.mem_map.2 ⟨e, he, by
        rw [hep]; simp [(h2.mem e he).2.2]⟩)

/-- Concrete case: `x` was added with priority 2 and incremented; adding it
again together with a new file leaves 4 and records 7 for the new one. -/
example :
    let db := LocalDB.increment exHash (LocalDB.addPaths exHash (fun _ => []) DB.empty
      [(["x".toList], false)] 2 true) [["x".toList], ["x".toList]] 1
    let db' := LocalDB.addPaths exHash (fun _ => []) db
      [(["x".toList], false), (["docs".toList], false)] 7 true
    DB.getPathInfo exHash db' ["x".toList] = some (false, ⟨4, true⟩) ∧
    DB.getPathInfo exHash db' ["docs".toList] = some (false, ⟨7, true⟩) := by
  decide +kernel

end Verif
