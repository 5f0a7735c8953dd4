import Verif.Props.C03_AddKeeps
/-
C10: colliding ids. The full claim ("both paths are afterwards retrievable with
their own data; and a path that was never added is reported as absent") is
false; the three theorems `C10_*_fails` give the ways it fails, and
`C10_single_partial` what holds.
-/
namespace Verif
open ADB

/-- Two paths of one batch whose ids clash: one of them is lost. -/
theorem C10_batch_fails : ∃ (h : Str → Int) (salt : Path → Str),
    DB.getPathInfo h (RemoteDB.addPaths h salt DB.empty [([['a']], false), ([['b']], true)] 1) [['b']]
      = some (false, 1) ∧
    ((RemoteDB.getPaths h (RemoteDB.addPaths h salt DB.empty
      [([['a']], false), ([['b']], true)] 1) [] none none).map Row.path) = [[['a']]] :=
  ⟨fun s => if s = ['a'] ∨ s = ['b'] then 0 else 1, fun _ => ['s'], by decide +kernel⟩

/-- A path that was never added is reported with the data of another. -/
theorem C10_absent_fails : ∃ (h : Str → Int) (salt : Path → Str),
    DB.getPathInfo h (RemoteDB.addPaths h salt DB.empty [([['a']], false)] 1) [['b']]
      = some (false, 1) :=
  ⟨fun s => if s = ['a'] ∨ s = ['b'] then 0 else 1, fun _ => ['s'], by decide +kernel⟩

/-- Removing a path that was never added removes another. -/
theorem C10_remove_fails : ∃ (h : Str → Int) (salt : Path → Str),
    (RemoteDB.rmPaths h (RemoteDB.addPaths h salt DB.empty [([['a']], false)] 1) [[['b']]]).nodes
      = [] :=
  ⟨fun s => if s = ['a'] ∨ s = ['b'] then 0 else 1, fun _ => ['s'], by decide +kernel⟩

section
variable {δ : Type}

theorem info_data {a : ADB δ} (hn : (paths a).Nodup) {p : Path} {v : δ} :
    (info a p).map Entry.data = some v ↔ (p, v) ∈ view id a := by
  constructor
  · intro hv
    rw [Option.map_eq_some_iff] at hv
    obtain ⟨e, he, rfl⟩ := hv
    obtain ⟨he1, rfl⟩ := (info_eq_some hn).1 he
    exact List.mem_map.2 ⟨e, he1, rfl⟩
  · intro hv
    obtain ⟨e, he, heq⟩ := List.mem_map.1 hv
    have hep : e.path = p := congrArg Prod.fst heq
    have hev : e.data = v := congrArg Prod.snd heq
    rw [(info_eq_some hn).2 ⟨he, hep⟩]
    simp [hev]

theorem addCore_data {a : ADB δ} (hn : (paths a).Nodup) (batch : List (Path × Bool)) (data : δ)
    (p : Path) :
    (p ∈ paths a → (info (addCore a batch data) p).map Entry.data = (info a p).map Entry.data) ∧
    (p ∉ paths a → p ∈ batch.map Prod.fst →
      (info (addCore a batch data) p).map Entry.data = some data) := by
  have hn' := nodup_addCore (batch := batch) (data := data) hn
  obtain ⟨news, h1, h2⟩ := addCore_eq a batch data
  have hview : view id (addCore a batch data) = view id a ++ view id news := by
    rw [h1, view_mark]; simp [view]
  constructor
  · intro hk
    obtain ⟨e, he, hep⟩ := List.mem_map.1 hk
    have hv : (p, e.data) ∈ view id a := List.mem_map.2 ⟨e, he, by rw [hep]; rfl⟩
    rw [(info_data hn).2 hv, (info_data hn').2 (by rw [hview]; exact List.mem_append_left _ hv)]
  · intro hnk hpb
    rw [info_data hn', hview]
    rcases h2.all p hpb with hm | hm
    · exact absurd hm hnk
    · obtain ⟨e, he, hep⟩ := List.mem_map.1 hm
      exact List.mem_append_right _ (List.mem_map.2 ⟨e, he, by
        rw [hep]; simp [(h2.mem e he).2.2]⟩)

theorem getPathId_of_not {h : Str → Int} {coll : List (Path × Str)} {p : Path}
    (hp : ∀ e ∈ coll, e.1 ≠ p) : DB.getPathId h coll p = h (toStr p) := by
  unfold DB.getPathId
  rw [List.find?_eq_none.2 (by simpa using hp)]

theorem getPathId_salted {h : Str → Int} {coll : List (Path × Str)} {p : Path} {s : Str}
    (hp : ∀ e ∈ coll, e.1 ≠ p) : DB.getPathId h (coll ++ [(p, s)]) p = h (toStr p ++ s) := by
  unfold DB.getPathId
  rw [List.find?_append, List.find?_eq_none.2 (by simpa using hp)]
  simp

/-- Missing for the full claim: batches with more than one new path, salts that
clash again, and look-ups of paths that were never added. What holds: one new
path whose id may clash with that of any stored path, with a salt that separates
it from the stored ones, is stored with its own data, and every stored path
keeps its own. -/
theorem C10_single_partial {h : Str → Int} {salt : Path → Str} {db : DB δ} (w : db.WF h)
    {p : Path} {d : Bool} {data : δ} (hp0 : p ≠ [])
    (hpar : p.dropLast ≠ [] → p.dropLast ∈ paths db.abs) (hnew : p ∉ paths db.abs)
    (hco : ∀ e ∈ db.coll, e.1 ≠ p) (hsalt : ∀ n ∈ db.nodes, n.id ≠ h (toStr p ++ salt p)) :
    (DB.getPathInfo h (DB.addCore h salt db [(p, d)] data) p).map Prod.snd = some data ∧
    ∀ q ∈ paths db.abs, (DB.getPathInfo h (DB.addCore h salt db [(p, d)] data) q).map Prod.snd
      = (DB.getPathInfo h db q).map Prod.snd := by
  have hpaths : paths db.abs = db.nodes.map Row.path := by
    simp [paths, DB.abs, Function.comp_def]
  have hnd : (db.nodes.map Row.id).Nodup := by
    have := w.idNodup
    simpa [DB.keys, Function.comp_def] using this
  have hids : ∀ n ∈ db.nodes, n.id = DB.getPathId h db.coll n.path := by
    intro n hn
    exact w.idEq _ (DB.mem_keys hn)
  have hcoll0 : ∀ (d : DB δ) (l : List Path), (DB.markDirectory h d l).coll = d.coll := by
    intro d l
    unfold DB.markDirectory
    generalize l.map (DB.getPathId h d.coll) = ids
    induction ids generalizing d with
    | nil => rfl
    | cons x xs ih => simp only [List.foldl_cons]; rw [ih]
  have hcoll : (DB.addCore h salt db [(p, d)] data).coll
      = DB.collLoop h salt db.nodes [p] 2 db.coll := by
    unfold DB.addCore
    rw [hcoll0]
    rfl
  have hround : ∀ coll, DB.collRound h salt db.nodes [p] coll
      = DB.insertColl db.nodes salt p (DB.getPathId h coll p) coll := fun _ => rfl
  -- the final collision table separates `p` from the stored paths
  have hfin : ∃ coll', (DB.addCore h salt db [(p, d)] data).coll = coll' ∧
      (∀ q ∈ paths db.abs, DB.getPathId h coll' q = DB.getPathId h db.coll q) ∧
      ∀ n ∈ db.nodes, n.id ≠ DB.getPathId h coll' p := by
    by_cases hc : db.nodes.any (fun n => decide (n.id = DB.getPathId h db.coll p ∧ n.path ≠ p)) = true
    · refine ⟨db.coll ++ [(p, salt p)], ?_, ?_, ?_⟩
      · have hin : ¬ db.coll.any (fun e => decide (e.1 = p)) = true := by
          rw [List.any_eq_true]
          rintro ⟨e, he, he2⟩
          exact hco e he (by simpa using he2)
        have h1 : DB.collRound h salt db.nodes [p] db.coll = db.coll ++ [(p, salt p)] := by
          rw [hround]; unfold DB.insertColl; rw [if_pos hc, if_neg hin]
        have h2 : DB.collRound h salt db.nodes [p] (db.coll ++ [(p, salt p)])
            = db.coll ++ [(p, salt p)] := by
          rw [hround]; unfold DB.insertColl
          rw [if_neg]
          simp only [List.any_eq_true, decide_eq_true_eq, not_exists, not_and]
          intro n hn hid
          rw [getPathId_salted hco] at hid
          exact absurd hid (hsalt n hn)
        rw [hcoll]
        simp only [DB.collLoop, h1, h2]
        simp
      · intro q hq
        rw [DB.getPathId_append]
        intro e he heq
        simp only [List.mem_singleton] at he
        subst he
        have heq : p = q := heq
        exact hnew (by rw [heq]; exact hq)
      · intro n hn
        rw [getPathId_salted hco]
        exact hsalt n hn
    · refine ⟨db.coll, ?_, fun _ _ => rfl, ?_⟩
      · have h1 : DB.collRound h salt db.nodes [p] db.coll = db.coll := by
          rw [hround]; unfold DB.insertColl; rw [if_neg hc]
        rw [hcoll]
        simp [DB.collLoop, h1]
      · intro n hn hid
        apply hc
        rw [List.any_eq_true]
        refine ⟨n, hn, ?_⟩
        simp only [decide_eq_true_eq]
        refine ⟨hid, fun hnp => hnew ?_⟩
        rw [hpaths, ← hnp]
        exact List.mem_map_of_mem hn
  obtain ⟨coll', hc1, hc2, hc3⟩ := hfin
  have hinj : ∀ a ∈ paths db.abs ++ [p], ∀ b ∈ paths db.abs ++ [p],
      DB.getPathId h coll' a = DB.getPathId h coll' b → a = b := by
    have hstored : ∀ a ∈ paths db.abs, ∃ n ∈ db.nodes, n.path = a ∧ n.id = DB.getPathId h coll' a := by
      intro a ha
      have ha' := ha
      rw [hpaths] at ha
      obtain ⟨n, hn, rfl⟩ := List.mem_map.1 ha
      exact ⟨n, hn, rfl, by rw [hc2 _ ha']; exact hids n hn⟩
    intro a ha b hb hab
    rcases List.mem_append.1 ha with ha' | ha' <;> rcases List.mem_append.1 hb with hb' | hb' <;>
      clear ha hb <;> rename' ha' => ha, hb' => hb
    · obtain ⟨n, hn, hn1, hn2⟩ := hstored a ha
      obtain ⟨m, hm, hm1, hm2⟩ := hstored b hb
      have : n = m := nodup_map_inj Row.id hnd hn hm (by rw [hn2, hm2, hab])
      rw [← hn1, ← hm1, this]
    · simp only [List.mem_singleton] at hb
      subst hb
      obtain ⟨n, hn, _, hn2⟩ := hstored a ha
      exact absurd (hn2.trans hab) (hc3 n hn)
    · simp only [List.mem_singleton] at ha
      subst ha
      obtain ⟨n, hn, _, hn2⟩ := hstored b hb
      exact absurd (hn2.trans hab.symm) (hc3 n hn)
    · simp only [List.mem_singleton] at ha hb
      rw [ha, hb]
  obtain ⟨w', habs, hmem⟩ := DB.addCore_refine (salt := salt) (batch := [(p, d)]) (data := data) w
    (by
      intro q hq
      simp only [List.map_cons, List.map_nil, List.mem_singleton] at hq
      subst hq
      exact ⟨hp0, fun h0 => Or.inl (hpar h0)⟩)
    (by rw [hc1]; exact hinj)
  have look : ∀ q, q ∈ paths db.abs ∨ q = p →
      (DB.getPathInfo h (DB.addCore h salt db [(p, d)] data) q).map Prod.snd
      = (info (addCore db.abs [(p, d)] data) q).map Entry.data := by
    intro q hq
    rw [DB.getPathInfo_refine w' (w'.idOK ((hmem q).2 (by simpa using hq))), habs, Option.map_map]
    rfl
  refine ⟨?_, ?_⟩
  · rw [look p (Or.inr rfl)]
    exact (addCore_data w.pathNodup _ data p).2 hnew (by simp)
  · intro q hq
    rw [look q (Or.inl hq), (addCore_data w.pathNodup _ data q).1 hq,
      DB.getPathInfo_refine w (w.idOK hq), Option.map_map]
    rfl

end

/-- `b` collides with the stored `a` and is salted; both are found. -/
example :
    let h : Str → Int := fun s => if s = ['a'] ∨ s = ['b'] then 0 else 1
    let db := RemoteDB.addPaths h (fun _ => ['s']) DB.empty [([['a']], false)] 1
    let db' := RemoteDB.addPaths h (fun _ => ['s']) db [([['b']], true)] 2
    DB.getPathInfo h db' [['a']] = some (false, 1) ∧
    DB.getPathInfo h db' [['b']] = some (true, 2) := by
  decide +kernel

end Verif
