import Verif.Props.C10_Collisions
import Verif.DBHistory
/-
C10: batches of any size, and any number of them.
-/
namespace Verif
open ADB

section
variable {δ : Type}

/-- The salts that a path may get: none, a new one, or the one that it had when it was in the database before. -/
def MayHaveSalt (salt : Path → Str) (coll : List (Path × Str)) (p : Path) (s : Str) : Prop :=
  s = [] ∨ s = salt p ∨ (p, s) ∈ coll

theorem mem_collRound {h : Str → Int} {salt : Path → Str} {ns : List (Row δ)} {paths : List Path}
    {coll : List (Path × Str)} {e : Path × Str} (he : e ∈ DB.collRound h salt ns paths coll) :
    e ∈ coll ∨ e.2 = salt e.1 := by
  unfold DB.collRound at he
  have key : ∀ (l : List (Path × Int)) (acc : List (Path × Str)), (∀ x ∈ acc, x ∈ coll ∨ x.2 = salt x.1) →
      ∀ x ∈ l.foldl (fun acc pi => DB.insertColl ns salt pi.1 pi.2 acc) acc, x ∈ coll ∨ x.2 = salt x.1 := by
    intro l
    induction l with
    | nil => exact fun acc ha => ha
    | cons y l ih =>
      intro acc ha
      rw [List.foldl_cons]
      apply ih
      intro x hx
      unfold DB.insertColl at hx
      split at hx
      · split at hx
        · exact ha x hx
        · rcases List.mem_append.1 hx with hx | hx
          · exact ha x hx
          · rw [List.mem_singleton] at hx
            subst hx
            exact Or.inr rfl
      · exact ha x hx
  exact key _ coll (fun x hx => Or.inl hx) e he

theorem mem_collLoop {h : Str → Int} {salt : Path → Str} {ns : List (Row δ)} {paths : List Path} {e : Path × Str} :
    ∀ (fuel : Nat) {coll : List (Path × Str)}, e ∈ DB.collLoop h salt ns paths fuel coll → e ∈ coll ∨ e.2 = salt e.1
  | 0, _, he => Or.inl he
  | fuel + 1, coll, he => by
    unfold DB.collLoop at he
    dsimp only at he
    split at he
    · exact mem_collRound he
    · rcases mem_collLoop fuel he with he | he
      · exact mem_collRound he
      · exact Or.inr he

theorem getPathId_form (h : Str → Int) (coll : List (Path × Str)) (p : Path) :
    (DB.getPathId h coll p = h (toStr p) ∧ ∀ e ∈ coll, e.1 ≠ p) ∨
    ∃ s, (p, s) ∈ coll ∧ DB.getPathId h coll p = h (toStr p ++ s) := by
  unfold DB.getPathId
  cases hf : coll.find? (fun e => decide (e.1 = p)) with
  | none => exact Or.inl ⟨rfl, fun e he => by simpa using List.find?_eq_none.1 hf e he⟩
  | some e =>
    have h1 := List.mem_of_find?_eq_some hf
    have h2 : e.1 = p := by simpa using List.find?_some hf
    exact Or.inr ⟨e.2, by rw [← h2]; exact h1, rfl⟩

theorem addCore_coll (h : Str → Int) (salt : Path → Str) (db : DB δ) (batch : List (Path × Bool)) (data : δ) :
    (DB.addCore h salt db batch data).coll = DB.collLoop h salt db.nodes ((DB.sortDepth Prod.fst batch).map Prod.fst)
      (((DB.sortDepth Prod.fst batch).map Prod.fst).length + 1) db.coll := by
  have hcoll0 : ∀ (d : DB δ) (l : List Path), (DB.markDirectory h d l).coll = d.coll := by
    intro d l
    unfold DB.markDirectory
    generalize l.map (DB.getPathId h d.coll) = ids
    induction ids generalizing d with
    | nil => rfl
    | cons x xs ih => simp only [List.foldl_cons]; rw [ih]
  unfold DB.addCore
  rw [hcoll0]

/-- Missing for the full claim: new paths of one batch whose ids clash (`C10_batch_fails`), salts that clash again, and
look-ups of paths that were never added (`C10_absent_fails`). What holds, for batches of any size: if no two new paths
of the batch may get the same id and no salted one that of a stored path, then every new path is stored with its own
data, whatever stored paths have the same hash, and every stored path keeps its own; and the database is intact and has
no other entries than one that knows the paths themselves. -/
theorem C10_batch_partial {h : Str → Int} {salt : Path → Str} {db : DB δ} (w : db.WF h)
    {batch : List (Path × Bool)} {data : δ} (hpar : DB.ParentsKnown (paths db.abs) (batch.map Prod.fst))
    (hsep : ∀ p ∈ batch.map Prod.fst, ∀ q ∈ batch.map Prod.fst, p ∉ paths db.abs → q ∉ paths db.abs → p ≠ q →
      ∀ s t, MayHaveSalt salt db.coll p s → MayHaveSalt salt db.coll q t → h (toStr p ++ s) ≠ h (toStr q ++ t))
    (hsalt : ∀ p ∈ batch.map Prod.fst, p ∉ paths db.abs → ∀ s, s = salt p ∨ (p, s) ∈ db.coll →
      ∀ n ∈ db.nodes, n.id ≠ h (toStr p ++ s)) :
    (∀ p ∈ batch.map Prod.fst, p ∉ paths db.abs →
      (DB.getPathInfo h (DB.addCore h salt db batch data) p).map Prod.snd = some data) ∧
    (∀ q ∈ paths db.abs, (DB.getPathInfo h (DB.addCore h salt db batch data) q).map Prod.snd
      = (DB.getPathInfo h db q).map Prod.snd) ∧
    (DB.addCore h salt db batch data).WF h ∧ (DB.addCore h salt db batch data).abs = addCore db.abs batch data ∧
    ∀ e ∈ (DB.addCore h salt db batch data).coll, e ∈ db.coll ∨ e.2 = salt e.1 := by
  have hpaths : paths db.abs = db.nodes.map Row.path := by
    simp [paths, DB.abs, Function.comp_def]
  have hnd : (db.nodes.map Row.id).Nodup := by
    have := w.idNodup
    simpa [DB.keys, Function.comp_def] using this
  have hids : ∀ n ∈ db.nodes, n.id = DB.getPathId h db.coll n.path := by
    intro n hn
    exact w.idEq _ (DB.mem_keys hn)
  have hmemB : ∀ p, p ∈ (DB.sortDepth Prod.fst batch).map Prod.fst ↔ p ∈ batch.map Prod.fst := by
    intro p
    simp [DB.sortDepth]
  have hc := addCore_coll h salt db batch data
  have hfix := (DB.collLoop_fix h salt db.nodes ((DB.sortDepth Prod.fst batch).map Prod.fst)
    (((DB.sortDepth Prod.fst batch).map Prod.fst).length + 1) db.coll
    (Nat.lt_succ_of_le (DB.unsalted_le _ _))).1
  obtain ⟨extra, hx1, hx2, hx3⟩ := DB.collLoop_keeps (salt := salt)
    (paths := (DB.sortDepth Prod.fst batch).map Prod.fst) hnd
    (((DB.sortDepth Prod.fst batch).map Prod.fst).length + 1) db.coll hids
  have hmem : ∀ e ∈ (DB.addCore h salt db batch data).coll, e ∈ db.coll ∨ e.2 = salt e.1 := by
    intro e he
    rw [hc] at he
    exact mem_collLoop _ he
  rw [← hc] at hfix hx3
  generalize hco : (DB.addCore h salt db batch data).coll = coll' at *
  -- the ids of the new paths
  have hform : ∀ p, ∃ s, MayHaveSalt salt db.coll p s ∧ DB.getPathId h coll' p = h (toStr p ++ s) := by
    intro p
    rcases getPathId_form h coll' p with ⟨e, _⟩ | ⟨s, hs, e⟩
    · exact ⟨[], Or.inl rfl, by rw [e, List.append_nil]⟩
    · refine ⟨s, ?_, e⟩
      rcases hmem _ hs with h1 | h1
      · exact Or.inr (Or.inr h1)
      · exact Or.inr (Or.inl h1)
  have hapart : ∀ p ∈ batch.map Prod.fst, p ∉ paths db.abs → ∀ n ∈ db.nodes, n.id ≠ DB.getPathId h coll' p := by
    intro p hp hn n hnm hid
    rcases getPathId_form h coll' p with ⟨e, hno⟩ | ⟨s, hs, e⟩
    · have hpath : n.path ≠ p := fun h' => hn (by rw [hpaths, ← h']; exact List.mem_map_of_mem hnm)
      obtain ⟨ex, h1, _, h3⟩ := DB.collRound_extra h salt db.nodes ((DB.sortDepth Prod.fst batch).map Prod.fst) coll'
      rw [hfix] at h1
      have hex : ex = [] := by simpa using h1
      subst hex
      rcases h3 p ((hmemB p).2 hp) ⟨n, hnm, hid, hpath⟩ with ⟨c, hcm, hce⟩ | ⟨c, hcm, _⟩
      · exact hno c hcm hce
      · cases hcm
    · rw [e] at hid
      rcases hmem _ hs with h1 | h1
      · exact hsalt p hp hn s (Or.inr h1) n hnm hid
      · exact hsalt p hp hn s (Or.inl h1) n hnm hid
  have hstored : ∀ a ∈ paths db.abs, ∃ n ∈ db.nodes, n.path = a ∧ n.id = DB.getPathId h coll' a := by
    intro a ha
    rw [hpaths] at ha
    obtain ⟨n, hn, rfl⟩ := List.mem_map.1 ha
    exact ⟨n, hn, rfl, hx3 n hn⟩
  have hinj : ∀ a ∈ paths db.abs ++ batch.map Prod.fst, ∀ b ∈ paths db.abs ++ batch.map Prod.fst,
      DB.getPathId h coll' a = DB.getPathId h coll' b → a = b := by
    intro a ha b hb hab
    by_cases ha' : a ∈ paths db.abs <;> by_cases hb' : b ∈ paths db.abs
    · obtain ⟨n, hn, hn1, hn2⟩ := hstored a ha'
      obtain ⟨m, hm, hm1, hm2⟩ := hstored b hb'
      have : n = m := nodup_map_inj Row.id hnd hn hm (by rw [hn2, hm2, hab])
      rw [← hn1, ← hm1, this]
    · obtain ⟨n, hn, _, hn2⟩ := hstored a ha'
      exact absurd (hn2.trans hab) (hapart b ((List.mem_append.1 hb).resolve_left hb') hb' n hn)
    · obtain ⟨n, hn, _, hn2⟩ := hstored b hb'
      exact absurd (hn2.trans hab.symm) (hapart a ((List.mem_append.1 ha).resolve_left ha') ha' n hn)
    · refine Classical.byContradiction fun hne => ?_
      obtain ⟨s, hs, e1⟩ := hform a
      obtain ⟨t, ht, e2⟩ := hform b
      exact hsep a ((List.mem_append.1 ha).resolve_left ha') b ((List.mem_append.1 hb).resolve_left hb') ha' hb' hne
        s t hs ht (by rw [← e1, ← e2, hab])
  obtain ⟨w', habs, hmem'⟩ := DB.addCore_refine (salt := salt) (batch := batch) (data := data) w hpar
    (by rw [hco]; exact hinj)
  have look : ∀ q, q ∈ paths db.abs ∨ q ∈ batch.map Prod.fst →
      (DB.getPathInfo h (DB.addCore h salt db batch data) q).map Prod.snd
      = (info (addCore db.abs batch data) q).map Entry.data := by
    intro q hq
    rw [DB.getPathInfo_refine w' (w'.idOK ((hmem' q).2 hq)), habs, Option.map_map]
    rfl
  refine ⟨?_, ?_, w', habs, hmem⟩
  · intro p hp hn
    rw [look p (Or.inr hp)]
    exact (addCore_data w.pathNodup _ data p).2 hn hp
  · intro q hq
    rw [look q (Or.inl hq), (addCore_data w.pathNodup _ data q).1 hq,
      DB.getPathInfo_refine w (w.idOK hq), Option.map_map]
    rfl

end

/-- A batch of a directory and a file in it, added when a stored path has the same hash as the file. -/
example :
    let h : Str → Int := fun s => if s = ['x'] ∨ s = "d/f".toList then 0 else if s = ['d'] then 1 else
      if s = "ds".toList then 2 else 3
    let db := RemoteDB.addPaths h (fun _ => ['s']) DB.empty [([['x']], false)] 1
    (DB.getPathInfo h (DB.addCore h (fun _ => ['s']) db [([['d'], ['f']], false), ([['d']], true)] 7) [['d'], ['f']]).map
      Prod.snd = some 7 := by
  intro h db
  have w : db.WF h := ((DB.inU_empty (δ := Int) h (fun p => p = [['x']])).addCore
    ⟨by rintro p rfl; decide, by
      rintro p q rfl h0 h1
      obtain ⟨r, hr⟩ := h1
      cases q with
      | nil => exact absurd rfl h0
      | cons c q => simp at hr; rw [hr.1, hr.2.1], by rintro p q rfl rfl _; rfl⟩ _ _ (by simp)
    (by
      intro p hp
      simp at hp
      subst hp
      exact ⟨by decide, fun h => absurd rfl h⟩)).1.wf
  have hp : paths db.abs = [[['x']]] := by decide +kernel
  have hc : db.coll = [] := by decide +kernel
  have hn : ∀ n ∈ db.nodes, n.id = 0 := by decide +kernel
  have hs : ∀ p s, MayHaveSalt (fun _ => ['s']) db.coll p s → s = [] ∨ s = ['s'] := by
    rintro p s (h1 | h1 | h1)
    · exact Or.inl h1
    · exact Or.inr h1
    · rw [hc] at h1; cases h1
  refine (C10_batch_partial w ?_ ?_ ?_).1 [['d'], ['f']] (by simp) (by rw [hp]; simp)
  · intro p hpm
    simp at hpm
    rcases hpm with rfl | rfl
    · exact ⟨by decide, fun _ => Or.inr (by simp)⟩
    · exact ⟨by decide, fun h => absurd rfl h⟩
  · intro p hpm q hqm _ _ hne s t h1 h2
    simp at hpm hqm
    rcases hs p s h1 with rfl | rfl <;> rcases hs q t h2 with rfl | rfl <;> rcases hpm with rfl | rfl <;>
      rcases hqm with rfl | rfl <;> first | exact absurd rfl hne | decide +kernel
  · intro p hpm _ s h1 n hnm
    simp at hpm
    rw [hn n hnm]
    have : s = ['s'] := by
      rcases h1 with h1 | h1
      · exact h1
      · rw [hc] at h1; cases h1
    subst this
    rcases hpm with rfl | rfl <;> decide +kernel

end Verif
