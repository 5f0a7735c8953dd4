import Verif.Spec.History
import Verif.ALocalInv
/-
What holds after every history of database calls.
-/
namespace Verif
open ADB ALocal

/-! ### Known paths -/

theorem paths_refresh (a : ALocal) (ps : List Path) : paths (refresh a ps) = paths a := by
  unfold refresh; rw [paths_updateAgg, paths_updateAgg]

theorem pathDir_refresh (a : ALocal) (ps : List Path) :
    (refresh a ps).map (fun e => (e.path, e.directory)) = a.map (fun e => (e.path, e.directory)) := by
  unfold refresh; rw [pathDir_updateAgg, pathDir_updateAgg]

theorem paths_updatePaths (a : ALocal) (ps : List Path) (d : Option Bool) (x : Option Rat)
    (l : Option Bool) : paths (updatePaths a ps d x l) = paths a := by
  unfold updatePaths
  rw [paths_refresh, paths_updateOpt _ _ _ (fun b (e : Entry PData) => { e with data := { e.data with loc := b } })
    (fun _ _ => rfl),
    paths_updateOpt _ _ _ (fun x (e : Entry PData) => { e with data := { e.data with priority := x } })
    (fun _ _ => rfl),
    paths_updateOpt _ _ _ (fun d e => { e with directory := d }) (fun _ _ => rfl)]

theorem mem_paths_addPaths {a : ALocal} {b : List (Path × Bool)} {x : Rat} {l : Bool} {p : Path} :
    p ∈ paths (ALocal.addPaths a b x l) ↔ p ∈ paths a ∨ p ∈ b.map Prod.fst := by
  unfold ALocal.addPaths
  rw [paths_refresh, mem_paths_addCore]

theorem mem_paths_step {a a' : ALocal} {op : LOp} (h : ALocal.step a op = some a') (p : Path) :
    p ∈ paths a' ↔ knownStepL (fun p => p ∈ paths a) op p := by
  cases op with
  | add b x l s =>
    simp only [ALocal.step, Option.some.injEq] at h
    subst h
    exact mem_paths_addPaths
  | addInflated b s =>
    simp only [ALocal.step, ALocal.addInflated] at h
    cases hm : ALocal.maxPriority a with
    | some m =>
      rw [hm] at h
      simp only [Option.some.injEq] at h
      subst h
      exact mem_paths_addPaths
    | none =>
      rw [hm] at h
      by_cases hb : b.isEmpty = true
      · simp only [hb, if_true, Option.some.injEq] at h
        subst h
        exact mem_paths_addPaths
      · simp [hb] at h
  | update ps d x l =>
    simp only [ALocal.step, Option.some.injEq] at h
    subst h
    rw [paths_updatePaths]
    rfl
  | rm ps =>
    simp only [ALocal.step, Option.some.injEq] at h
    subst h
    unfold ALocal.rmPaths
    rw [paths_refresh, mem_paths_rmCore]
    rfl
  | increment ps x =>
    simp only [ALocal.step, Option.some.injEq] at h
    subst h
    unfold ALocal.increment
    rw [paths_updateAgg, paths_updateWhere _ _ (fun e : Entry PData =>
      { e with data := { e.data with priority := e.data.priority + x } }) (fun _ => rfl)]
    rfl
  | adjust c =>
    simp only [ALocal.step, Option.some.injEq] at h
    subst h
    simp [ALocal.adjustAll, paths, Function.comp_def, knownStepL]

theorem knownStepL_congr {K K' : Path → Prop} (h : ∀ p, K p ↔ K' p) (op : LOp) (p : Path) :
    knownStepL K op p ↔ knownStepL K' op p := by
  cases op <;> simp [knownStepL, h]

theorem KnownL_snoc (ops : List LOp) (op : LOp) (p : Path) :
    KnownL (ops ++ [op]) p ↔ knownStepL (KnownL ops) op p := by
  simp [KnownL, List.foldl_append]

variable {h : Str → Int} {U : Path → Prop} {C : (Path → Prop) → LOp → Prop}

theorem HistL.legal (_u : Univ h U) {ops : List LOp} {db : LocalDB} {op : LOp}
    (hK : ∀ p, p ∈ paths db.abs ↔ KnownL ops p) (h1 : ∀ p ∈ op.paths, U p)
    (h2 : op.isAdd = true → ∀ p ∈ op.paths, p.dropLast ≠ [] →
        KnownL ops p.dropLast ∨ p.dropLast ∈ op.paths) :
    op.Legal U (paths db.abs) :=
  ⟨h1, fun ha p hp => ⟨_u.ne (h1 p hp), fun h0 => by
    rcases h2 ha p hp h0 with h | h
    · exact Or.inl ((hK _).2 h)
    · exact Or.inr h⟩⟩

theorem HistL.inv (u : Univ h U) {ops : List LOp} {db : LocalDB} (H : HistL h U C ops db) :
    DB.InU h U db ∧ ∀ p, p ∈ paths db.abs ↔ KnownL ops p := by
  induction H with
  | start =>
    refine ⟨DB.inU_empty h U, ?_⟩
    intro p
    simp [paths, DB.abs, DB.empty, KnownL]
  | @call ops db db' op H h1 h2 hC hs ih =>
    obtain ⟨w, hK⟩ := ih
    obtain ⟨r1, r2⟩ := LocalDB.step_refine u w (HistL.legal u hK h1 h2)
    refine ⟨r2 db' hs, ?_⟩
    rw [hs, Option.map_some] at r1
    intro p
    rw [mem_paths_step r1.symm p, KnownL_snoc, knownStepL_congr hK]

theorem DB.InU.tree {δ : Type} (_u : Univ h U) {db : DB δ} (w : DB.InU h U db) : Tree db.abs := by
  refine ⟨w.wf.pathNodup, fun p hp => _u.ne (w.sub p hp), ?_⟩
  intro p hp h0
  rw [DB.paths_abs] at hp ⊢
  obtain ⟨k, hk, rfl⟩ := List.mem_map.1 hp
  exact w.wf.parent k hk h0

/-! ### Aggregates -/

theorem aggOK_step {a a' : ALocal} {op : LOp} (t : Tree a) (w : AggOK a)
    (hne : ∀ p ∈ op.paths, p ≠ []) (hC : ProgramCall (fun p => p ∈ paths a) op)
    (hs : ALocal.step a op = some a') : AggOK a' := by
  cases op with
  | add b x l s =>
    simp only [ALocal.step, Option.some.injEq] at hs
    subst hs
    exact aggOK_addPaths t w hne x l
  | addInflated b s =>
    simp only [ALocal.step, ALocal.addInflated] at hs
    cases hm : ALocal.maxPriority a with
    | some m =>
      rw [hm] at hs
      simp only [Option.some.injEq] at hs
      subst hs
      exact aggOK_addPaths t w hne m true
    | none =>
      rw [hm] at hs
      by_cases hb : b.isEmpty = true
      · simp only [hb, if_true, Option.some.injEq] at hs
        subst hs
        exact aggOK_addPaths t w hne 0 true
      · simp [hb] at hs
  | update ps d x l =>
    simp only [ALocal.step, Option.some.injEq] at hs
    subst hs
    exact aggOK_updatePaths t w hC d x l
  | rm ps =>
    simp only [ALocal.step, Option.some.injEq] at hs
    subst hs
    exact aggOK_rmPaths t w ps
  | increment ps x =>
    simp only [ALocal.step, Option.some.injEq] at hs
    subst hs
    exact aggOK_increment t w hC x
  | adjust c =>
    simp only [ALocal.step, Option.some.injEq] at hs
    subst hs
    exact aggOK_adjust w c

theorem ProgramCall_congr {K K' : Path → Prop} (hK : ∀ p, K p ↔ K' p) {op : LOp}
    (hC : ProgramCall K op) : ProgramCall K' op := by
  cases op <;> simp only [ProgramCall] at hC ⊢ <;> try exact trivial
  all_goals
    intro p hp ⟨k, hk, hkp⟩
    exact hC p hp ⟨k, (hK k).2 hk, hkp⟩

theorem HistL.aggOK (u : Univ h U) (hCp : ∀ K op, C K op → ProgramCall K op) {ops : List LOp}
    {db : LocalDB} (H : HistL h U C ops db) : AggOK db.abs := by
  induction H with
  | start =>
    refine ⟨?_, ?_⟩ <;> (intro x hx; simp [view, DB.abs, DB.empty] at hx)
  | @call ops db db' op H h1 h2 hC hs ih =>
    obtain ⟨w, hK⟩ := H.inv u
    obtain ⟨r1, r2⟩ := LocalDB.step_refine u w (HistL.legal u hK h1 h2)
    rw [hs, Option.map_some] at r1
    exact aggOK_step (w.tree u) ih (fun p hp => u.ne (h1 p hp))
      (ProgramCall_congr (fun p => (hK p).symm) (hCp _ _ hC)) r1.symm

/-! ### Directories -/

/-- The path and directory columns. -/
def pathDir {δ : Type} (a : ADB δ) : List (Path × Bool) := a.map (fun e => (e.path, e.directory))

/-- Paths with entries are directories. -/
def DirOK {δ : Type} (a : ADB δ) : Prop :=
  ∀ x ∈ pathDir a, (∃ k ∈ paths a, k.dropLast = x.1) → x.2 = true

theorem pathDir_fst {δ : Type} (a : ADB δ) : (pathDir a).map Prod.fst = paths a := by
  simp [pathDir, paths, Function.comp_def]

theorem DirOK.congr {δ δ' : Type} {a : ADB δ} {b : ADB δ'} (hab : pathDir b = pathDir a)
    (ha : DirOK a) : DirOK b := by
  have : paths b = paths a := by rw [← pathDir_fst, ← pathDir_fst, hab]
  unfold DirOK at *
  rw [hab, this]; exact ha

theorem mem_pathDir_mark {δ : Type} {ps : List Path} {a : ADB δ} {x : Path × Bool} :
    x ∈ pathDir (mark ps a) ↔ ∃ y ∈ pathDir a, x = (y.1, decide (y.1 ∈ ps) || y.2) := by
  simp only [pathDir, mark, List.map_map, List.mem_map, Function.comp]
  constructor
  · rintro ⟨e, he, rfl⟩
    refine ⟨_, ⟨e, he, rfl⟩, ?_⟩
    by_cases hp : e.path ∈ ps <;> simp [hp]
  · rintro ⟨_, ⟨e, he, rfl⟩, rfl⟩
    refine ⟨e, he, ?_⟩
    by_cases hp : e.path ∈ ps <;> simp [hp]

theorem dirOK_addCore {δ : Type} {a : ADB δ} (t : Tree a) (w : DirOK a) {batch : List (Path × Bool)}
    (data : δ) (hne : ∀ p ∈ batch.map Prod.fst, p ≠ []) : DirOK (addCore a batch data) := by
  intro x hx hk
  obtain ⟨news, h1, h2⟩ := addCore_eq a batch data
  obtain ⟨k, hk, hkx⟩ := hk
  have hx0 : x.1 ≠ [] := by
    have : x.1 ∈ paths (addCore a batch data) := by
      rw [← pathDir_fst]; exact List.mem_map_of_mem hx
    rcases mem_paths_addCore.1 this with h | h
    · exact t.ne _ h
    · exact hne _ h
  rw [h1] at hx
  obtain ⟨y, hy, rfl⟩ := mem_pathDir_mark.1 hx
  simp only at hkx hx0 ⊢
  rw [Bool.or_eq_true, decide_eq_true_eq]
  by_cases hkb : k ∈ batch.map Prod.fst
  · left
    rw [DB.mem_parentsOf]
    exact ⟨hx0, k, by simpa [DB.sortDepth] using hkb, hkx⟩
  · right
    have hka : k ∈ paths a := by
      rcases mem_paths_addCore.1 hk with h | h
      · exact h
      · exact absurd h hkb
    have hpa := t.closed k hka (by rw [hkx]; exact hx0)
    rw [hkx] at hpa
    have hya : y ∈ pathDir a := by
      have hy' : y ∈ pathDir a ++ pathDir news := by simpa [pathDir] using hy
      rcases List.mem_append.1 hy' with h | h
      · exact h
      · exfalso
        obtain ⟨e, he, rfl⟩ := List.mem_map.1 h
        exact (h2.mem e he).2.1 hpa
    exact w y hya ⟨k, hka, hkx⟩

theorem dirOK_rmCore {δ : Type} {a : ADB δ} (w : DirOK a) (ps : List Path) :
    DirOK (rmCore a ps) := by
  intro x hx ⟨k, hk, hkx⟩
  have hx' : x ∈ pathDir a := by
    simp only [pathDir, rmCore, List.mem_map, List.mem_filter] at hx ⊢
    obtain ⟨e, he, rfl⟩ := hx
    exact ⟨e, he.1, rfl⟩
  exact w x hx' ⟨k, (mem_paths_rmCore.1 hk).1, hkx⟩

theorem pathDir_updateWhere_keep {δ : Type} (a : ADB δ) (ps : List Path) (g : Entry δ → Entry δ)
    (hg : ∀ e, (g e).path = e.path) (hd : ∀ e, (g e).directory = e.directory) :
    pathDir (updateWhere a ps g) = pathDir a := by
  unfold updateWhere
  induction ps generalizing a with
  | nil => rfl
  | cons p l ih =>
    rw [List.foldl_cons, ih]
    simp only [pathDir, List.map_map]
    apply List.map_congr_left
    intro e _
    simp only [Function.comp]
    split
    · rw [hg, hd]
    · rfl

theorem pathDir_updateOpt_keep {δ α : Type} (a : ADB δ) (ps : List Path) (o : Option α)
    (g : α → Entry δ → Entry δ)
    (hg : ∀ v e, (g v e).path = e.path) (hd : ∀ v e, (g v e).directory = e.directory) :
    pathDir (updateOpt a ps o g) = pathDir a := by
  cases o with
  | none => rfl
  | some v => exact pathDir_updateWhere_keep a ps (g v) (hg v) (hd v)

theorem dirOK_setDir {δ : Type} {a : ADB δ} (w : DirOK a) (ps : List Path) {d : Option Bool}
    (hd : d ≠ some false) : DirOK (updateOpt a ps d (fun d e => { e with directory := d })) := by
  cases d with
  | none => exact w
  | some b =>
    have hb : b = true := by cases b <;> simp_all
    subst hb
    have key : ∀ (l : List Path) (a : ADB δ), DirOK a →
        DirOK (l.foldl (fun a p => a.map (fun e => if e.path = p then
          { e with directory := true } else e)) a) := by
      intro l
      induction l with
      | nil => intro a ha; exact ha
      | cons p l ih =>
        intro a ha
        rw [List.foldl_cons]
        apply ih
        intro x hx ⟨k, hk, hkx⟩
        have hpaths : paths (a.map (fun e => if e.path = p then
          { e with directory := true } else e)) = paths a := by
          simp only [paths, List.map_map]
          apply List.map_congr_left
          intro e _
          simp only [Function.comp]
          split <;> rfl
        rw [hpaths] at hk
        obtain ⟨e', he', rfl⟩ := List.mem_map.1 hx
        obtain ⟨e, he, rfl⟩ := List.mem_map.1 he'
        by_cases hep : e.path = p
        · simp [hep]
        · simp only [hep, if_false] at hkx ⊢
          exact ha (e.path, e.directory) (List.mem_map_of_mem (f := fun e => (e.path, e.directory)) he)
            ⟨k, hk, hkx⟩
    exact key ps a w

theorem dirOK_step {a a' : ALocal} {op : LOp} (t : Tree a) (w : DirOK a)
    (hne : ∀ p ∈ op.paths, p ≠ []) {K : Path → Prop} (hC : NoFileMark K op)
    (hs : ALocal.step a op = some a') : DirOK a' := by
  have hadd : ∀ (b : List (Path × Bool)) (x : Rat) (l : Bool), (∀ p ∈ b.map Prod.fst, p ≠ []) →
      DirOK (ALocal.addPaths a b x l) := by
    intro b x l hb
    exact (dirOK_addCore t w _ hb).congr (pathDir_refresh _ _)
  cases op with
  | add b x l s =>
    simp only [ALocal.step, Option.some.injEq] at hs
    subst hs
    exact hadd b x l hne
  | addInflated b s =>
    simp only [ALocal.step, ALocal.addInflated] at hs
    cases hm : ALocal.maxPriority a with
    | some m =>
      rw [hm] at hs
      simp only [Option.some.injEq] at hs
      subst hs
      exact hadd b m true hne
    | none =>
      rw [hm] at hs
      by_cases hb : b.isEmpty = true
      · simp only [hb, if_true, Option.some.injEq] at hs
        subst hs
        exact hadd b 0 true hne
      · simp [hb] at hs
  | update ps d x l =>
    simp only [ALocal.step, Option.some.injEq] at hs
    subst hs
    unfold ALocal.updatePaths
    refine DirOK.congr (pathDir_refresh _ _) ?_
    refine DirOK.congr (pathDir_updateOpt_keep _ _ _
      (fun b (e : Entry PData) => { e with data := { e.data with loc := b } }) (fun _ _ => rfl) (fun _ _ => rfl)) ?_
    refine DirOK.congr (pathDir_updateOpt_keep _ _ _
      (fun x (e : Entry PData) => { e with data := { e.data with priority := x } }) (fun _ _ => rfl)
      (fun _ _ => rfl)) ?_
    exact dirOK_setDir w ps hC
  | rm ps =>
    simp only [ALocal.step, Option.some.injEq] at hs
    subst hs
    exact (dirOK_rmCore w ps).congr (pathDir_refresh _ _)
  | increment ps x =>
    simp only [ALocal.step, Option.some.injEq] at hs
    subst hs
    unfold ALocal.increment
    refine DirOK.congr (pathDir_updateAgg _ _ _) ?_
    exact DirOK.congr (pathDir_updateWhere_keep _ _ (fun e : Entry PData =>
      { e with data := { e.data with priority := e.data.priority + x } }) (fun _ => rfl)
      (fun _ => rfl)) w
  | adjust c =>
    simp only [ALocal.step, Option.some.injEq] at hs
    subst hs
    exact DirOK.congr (by simp [pathDir, ALocal.adjustAll, Function.comp_def]) w

theorem HistL.dirOK (u : Univ h U) (hCp : ∀ K op, C K op → NoFileMark K op) {ops : List LOp}
    {db : LocalDB} (H : HistL h U C ops db) : DirOK db.abs := by
  induction H with
  | start => intro x hx; simp [pathDir, DB.abs, DB.empty] at hx
  | @call ops db db' op H h1 h2 hC hs ih =>
    obtain ⟨w, hK⟩ := H.inv u
    obtain ⟨r1, r2⟩ := LocalDB.step_refine u w (HistL.legal u hK h1 h2)
    rw [hs, Option.map_some] at r1
    exact dirOK_step (w.tree u) ih (fun p hp => u.ne (h1 p hp)) (hCp _ _ hC) r1.symm

/-! ### The remote database -/

theorem mem_paths_stepR {a : ARemote} {op : ROp} (p : Path) :
    p ∈ paths (ARemote.step a op) ↔ knownStepR (fun p => p ∈ paths a) op p := by
  cases op with
  | add b t s => exact mem_paths_addCore
  | rm ps => exact mem_paths_rmCore
  | update ps d t =>
    simp only [ARemote.step, ARemote.updatePaths, knownStepR]
    rw [paths_updateOpt _ _ _ (fun t e => { e with data := t }) (fun _ _ => rfl),
      paths_updateOpt _ _ _ (fun d e => { e with directory := d }) (fun _ _ => rfl)]

theorem KnownR_snoc (ops : List ROp) (op : ROp) (p : Path) :
    KnownR (ops ++ [op]) p ↔ knownStepR (KnownR ops) op p := by
  simp [KnownR, List.foldl_append]

theorem knownStepR_congr {K K' : Path → Prop} (h : ∀ p, K p ↔ K' p) (op : ROp) (p : Path) :
    knownStepR K op p ↔ knownStepR K' op p := by
  cases op <;> simp [knownStepR, h]

variable {CR : ROp → Prop}

theorem HistR.legal (u : Univ h U) {ops : List ROp} {db : RemoteDB} {op : ROp}
    (hK : ∀ p, p ∈ paths db.abs ↔ KnownR ops p) (h1 : ∀ p ∈ op.paths, U p)
    (h2 : op.isAdd = true → ∀ p ∈ op.paths, p.dropLast ≠ [] →
        KnownR ops p.dropLast ∨ p.dropLast ∈ op.paths) :
    op.Legal U (paths db.abs) :=
  ⟨h1, fun ha p hp => ⟨u.ne (h1 p hp), fun h0 => by
    rcases h2 ha p hp h0 with h | h
    · exact Or.inl ((hK _).2 h)
    · exact Or.inr h⟩⟩

theorem HistR.inv (u : Univ h U) {ops : List ROp} {db : RemoteDB} (H : HistR h U CR ops db) :
    DB.InU h U db ∧ ∀ p, p ∈ paths db.abs ↔ KnownR ops p := by
  induction H with
  | start =>
    refine ⟨DB.inU_empty h U, ?_⟩
    intro p
    simp [paths, DB.abs, DB.empty, KnownR]
  | @call ops db op H h1 h2 hC ih =>
    obtain ⟨w, hK⟩ := ih
    obtain ⟨r1, r2⟩ := RemoteDB.step_refine u w (HistR.legal u hK h1 h2)
    refine ⟨r1, ?_⟩
    intro p
    rw [r2, mem_paths_stepR p, KnownR_snoc, knownStepR_congr hK]

theorem dirOK_stepR {a : ARemote} {op : ROp} (t : Tree a) (w : DirOK a)
    (hne : ∀ p ∈ op.paths, p ≠ []) (hC : NoFileMarkR op) : DirOK (ARemote.step a op) := by
  cases op with
  | add b t' s => exact dirOK_addCore t w _ hne
  | rm ps => exact dirOK_rmCore w ps
  | update ps d t' =>
    refine DirOK.congr (pathDir_updateOpt_keep _ _ _
      (fun t e => { e with data := t }) (fun _ _ => rfl) (fun _ _ => rfl)) ?_
    exact dirOK_setDir w ps hC

theorem HistR.dirOK (u : Univ h U) (hCp : ∀ op, CR op → NoFileMarkR op) {ops : List ROp}
    {db : RemoteDB} (H : HistR h U CR ops db) : DirOK db.abs := by
  induction H with
  | start => intro x hx; simp [pathDir, DB.abs, DB.empty] at hx
  | @call ops db op H h1 h2 hC ih =>
    obtain ⟨w, hK⟩ := H.inv u
    obtain ⟨r1, r2⟩ := RemoteDB.step_refine u w (HistR.legal u hK h1 h2)
    rw [r2]
    exact dirOK_stepR (w.tree u) ih (fun p hp => u.ne (h1 p hp)) (hCp _ hC)

/-! ### Looking things up -/

theorem info_eq_some {δ : Type} {a : ADB δ} (hn : (paths a).Nodup) {p : Path} {e : Entry δ} :
    info a p = some e ↔ e ∈ a ∧ e.path = p := by
  unfold info
  constructor
  · intro hf
    exact ⟨List.mem_of_find?_eq_some hf, by simpa using List.find?_some hf⟩
  · rintro ⟨he, rfl⟩
    cases hf : a.find? (fun x => decide (x.path = e.path)) with
    | none =>
      rw [List.find?_eq_none] at hf
      exact absurd (decide_eq_true rfl) (hf e he)
    | some e' =>
      have h1 := List.mem_of_find?_eq_some hf
      have h2 : e'.path = e.path := by simpa using List.find?_some hf
      rw [nodup_map_inj Entry.path hn h1 he h2]

theorem info_isSome {δ : Type} {a : ADB δ} {p : Path} : (info a p).isSome ↔ p ∈ paths a := by
  unfold info paths
  rw [List.find?_isSome]
  simp

theorem mem_updateAgg_of_not {δ : Type} {agg : List δ → δ → δ} {a : ADB δ} {ps : List Path}
    {e : Entry δ} (he : e.path ∉ pathAncestry ps) : e ∈ updateAgg agg a ps ↔ e ∈ a := by
  unfold updateAgg
  generalize pathAncestry ps = l at he
  induction l generalizing a with
  | nil => rfl
  | cons q l ih =>
    rw [List.foldl_cons, ih (fun h => he (List.mem_cons_of_mem _ h))]
    have hq : e.path ≠ q := fun h => he (by simp [h])
    simp only [aggStep, List.mem_map]
    constructor
    · rintro ⟨y, hy, rfl⟩
      by_cases hyq : y.path = q
      · simp only [hyq, if_true] at hq
        exact absurd rfl hq
      · simp only [hyq, if_false]; exact hy
    · intro hx
      exact ⟨e, hx, by simp [hq]⟩

theorem mem_refresh_of_not {a : ALocal} {ps : List Path}
    {e : Entry PData} (he : e.path ∉ pathAncestry ps) : e ∈ refresh a ps ↔ e ∈ a := by
  unfold refresh
  rw [mem_updateAgg_of_not he, mem_updateAgg_of_not he]

/-- A path without entries is not recomputed. -/
theorem not_mem_ancestry_parents {K : List Path} (hcl : DB.ParentClosed K) {ps : List Path}
    (hps : ∀ q ∈ ps, q ∈ K) {p : Path} (hleaf : ∀ k ∈ K, k.dropLast ≠ p) :
    p ∉ pathAncestry (DB.parentsOf ps) := by
  intro hp
  obtain ⟨d, hd, hpd⟩ := mem_pathAncestry.1 hp
  obtain ⟨hd0, q, hq, rfl⟩ := DB.mem_parentsOf.1 hd
  rcases hpd with rfl | ⟨hp0, hpre⟩
  · exact hleaf q (hps q hq) rfl
  · -- the next component of `q` below `p`
    have hlt : p.length < q.length := by
      have h1 := hpre.length_le
      have : q ≠ [] := by rintro rfl; simp at hd0
      have := List.length_pos_iff.2 this
      simp at h1; omega
    have hpq : p <+: q := hpre.trans (List.dropLast_prefix q)
    obtain ⟨t, ht⟩ := hpq
    have ht0 : t ≠ [] := by rintro rfl; simp at ht; rw [ht] at hlt; omega
    obtain ⟨c, t', rfl⟩ := List.exists_cons_of_ne_nil ht0
    have hk : p ++ [c] ∈ K := by
      apply hcl.anc (hps q hq) (by simp)
      rw [← ht]
      exact ⟨t', by simp⟩
    exact hleaf _ hk (by simp)

end Verif
