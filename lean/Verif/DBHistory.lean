import Verif.DBAdd
/-
Histories of database calls. Under the assumption that the paths in use have
distinct ids (`Univ`), each call on the tables corresponds to the call on the
abstract tree database.
-/
namespace Verif

/-- A set of paths closed under non-empty ancestors whose 64-bit ids differ. -/
structure Univ (h : Str → Int) (U : Path → Prop) : Prop where
  ne : ∀ {p}, U p → p ≠ []
  anc : ∀ {p q : Path}, U p → q ≠ [] → q <+: p → U q
  inj : ∀ {p q : Path}, U p → U q → h (toStr p) = h (toStr q) → p = q

namespace DB
variable {δ : Type}

/-- The database only knows paths of the universe and has no salts. -/
structure InU (h : Str → Int) (U : Path → Prop) (db : DB δ) : Prop where
  wf : db.WF h
  sub : ∀ p ∈ ADB.paths db.abs, U p
  coll : db.coll = []

theorem inU_empty (h : Str → Int) (U : Path → Prop) : InU h U (empty : DB δ) := by
  refine ⟨⟨by simp [keys, empty], by simp [keys, empty], by simp [keys, empty],
    by simp [keys, empty], ?_⟩, by simp [ADB.paths, abs, empty], rfl⟩
  intro c
  simp [keys, empty]

variable {h : Str → Int} {U : Path → Prop}

theorem InU.idOK (u : Univ h U) {db : DB δ} (w : InU h U db) {p : Path} (hp : U p) :
    db.IdOK h p := by
  intro k hk hid
  have h1 := w.wf.idEq k hk
  rw [w.coll] at h1 hid
  have hkU : U k.2 := w.sub _ (by rw [paths_abs]; exact List.mem_map_of_mem hk)
  exact u.inj hkU hp (h1.symm.trans hid)

theorem InU.same {db db' : DB δ} (w : InU h U db) (s : SameKeys db db') : InU h U db' :=
  ⟨s.wf w.wf, by intro p hp; rw [paths_abs, s.keys, ← paths_abs] at hp; exact w.sub p hp,
    by rw [s.coll, w.coll]⟩

theorem InU.addCore (u : Univ h U) {db : DB δ} (w : InU h U db) (salt : Path → Str)
    {batch : List (Path × Bool)} (data : δ) (hb : ∀ p ∈ batch.map Prod.fst, U p)
    (hpar : ParentsKnown (ADB.paths db.abs) (batch.map Prod.fst)) :
    InU h U (DB.addCore h salt db batch data) ∧
      (DB.addCore h salt db batch data).abs = ADB.addCore db.abs batch data := by
  have hcoll0 : ∀ (d : DB δ) (l : List Path), (markDirectory h d l).coll = d.coll := by
    intro d l
    unfold markDirectory
    generalize l.map (getPathId h d.coll) = ids
    induction ids generalizing d with
    | nil => rfl
    | cons x xs ih => simp only [List.foldl_cons]; rw [ih]
  have hcoll : (DB.addCore h salt db batch data).coll = [] := by
    unfold DB.addCore
    rw [hcoll0]
    show collLoop _ _ _ _ _ _ = []
    rw [collLoop_noclash]
    · exact w.coll
    · intro p hp n hn hid
      have hpU : U p := hb p (by simpa [sortDepth] using hp)
      exact w.idOK u hpU _ (mem_keys hn) hid
  have hU : ∀ a ∈ ADB.paths db.abs ++ batch.map Prod.fst, U a := by
    intro a ha
    rcases List.mem_append.1 ha with ha | ha
    · exact w.sub a ha
    · exact hb a ha
  obtain ⟨h1, h2, h3⟩ := addCore_refine (salt := salt) (data := data) w.wf hpar (by
    intro a ha b hb' hid
    rw [hcoll] at hid
    exact u.inj (hU a ha) (hU b hb') hid)
  refine ⟨⟨h1, ?_, hcoll⟩, h2⟩
  intro p hp
  rcases (h3 p).1 hp with hp | hp
  · exact w.sub p hp
  · exact hb p hp

theorem InU.updateAgg (u : Univ h U) {db : DB δ} (w : InU h U db) (agg : List δ → δ → δ)
    {ps : List Path} (hps : ∀ p ∈ ps, U p) :
    InU h U (DB.updateAgg h agg db ps) ∧
      (DB.updateAgg h agg db ps).abs = ADB.updateAgg agg db.abs ps := by
  obtain ⟨s, e⟩ := updateAgg_refine (h := h) agg db ps w.wf (by
    intro p hp
    obtain ⟨q, hq, h'⟩ := mem_pathAncestry.1 hp
    rcases h' with rfl | ⟨h0, h1⟩
    · exact w.idOK u (hps _ hq)
    · exact w.idOK u (u.anc (hps q hq) h0 h1))
  exact ⟨w.same s, e⟩

theorem InU.updateWhere (u : Univ h U) {db : DB δ} (w : InU h U db) {ps : List Path}
    (hps : ∀ p ∈ ps, U p) (f : Row δ → Row δ) (g : Entry δ → Entry δ)
    (hf : ∀ n, (f n).id = n.id) (hf2 : ∀ n, (f n).path = n.path)
    (hg : ∀ n, (f n).toEntry = g n.toEntry) :
    InU h U (DB.updateWhere h db ps f) ∧
      (DB.updateWhere h db ps f).abs = ADB.updateWhere db.abs ps g := by
  obtain ⟨s, e⟩ := updateWhere_refine (h := h) db ps f g hf hf2 hg w.wf
    (fun p hp => w.idOK u (hps p hp))
  exact ⟨w.same s, e⟩

theorem InU.updateOpt {α : Type} (u : Univ h U) {db : DB δ} (w : InU h U db) {ps : List Path}
    (hps : ∀ p ∈ ps, U p) (o : Option α) (f : α → Row δ → Row δ) (g : α → Entry δ → Entry δ)
    (hf : ∀ v n, (f v n).id = n.id) (hf2 : ∀ v n, (f v n).path = n.path)
    (hg : ∀ v n, (f v n).toEntry = g v n.toEntry) :
    InU h U (DB.updateOpt h db ps o f) ∧
      (DB.updateOpt h db ps o f).abs = ADB.updateOpt db.abs ps o g := by
  cases o with
  | none => exact ⟨w, rfl⟩
  | some v => exact w.updateWhere u hps (f v) (g v) (hf v) (hf2 v) (hg v)

theorem InU.rmCore (u : Univ h U) {db : DB δ} (w : InU h U db) {ps : List Path}
    (hps : ∀ p ∈ ps, U p) :
    InU h U (DB.rmCore h db ps) ∧ (DB.rmCore h db ps).abs = ADB.rmCore db.abs ps := by
  obtain ⟨h1, h2, h3, h4⟩ := rmCore_refine w.wf
    (fun p hp => ⟨w.idOK u (hps p hp), u.ne (hps p hp)⟩)
  refine ⟨⟨h1, ?_, ?_⟩, h2⟩
  · intro p hp
    apply w.sub
    rw [h2] at hp
    simp only [ADB.paths, ADB.rmCore, List.mem_map, List.mem_filter] at hp ⊢
    obtain ⟨e, he, he2⟩ := hp
    exact ⟨e, he.1, he2⟩
  · apply List.eq_nil_iff_forall_not_mem.2
    intro e he
    have := h4 e he
    rw [w.coll] at this
    simp at this

theorem parentsOf_U (u : Univ h U) {ps : List Path} (hps : ∀ p ∈ ps, U p) :
    ∀ p ∈ parentsOf ps, U p := by
  intro p hp
  obtain ⟨h0, q, hq, rfl⟩ := mem_parentsOf.1 hp
  exact u.anc (hps q hq) h0 (List.dropLast_prefix q)

end DB

/-! ### The profile database -/

/-- The calls that change the profile database. -/
inductive LOp where
  | add (batch : List (Path × Bool)) (priority : Rat) (loc : Bool) (salt : Path → Str)
  | addInflated (batch : List (Path × Bool)) (salt : Path → Str)
  | update (ps : List Path) (directory : Option Bool) (priority : Option Rat) (loc : Option Bool)
  | rm (ps : List Path)
  | increment (ps : List Path) (x : Rat)
  | adjust (c : Rat)

/-- One call; `none` is an exception. -/
def LocalDB.step (h : Str → Int) (db : LocalDB) : LOp → Option LocalDB
  | .add b x l s => some (LocalDB.addPaths h s db b x l)
  | .addInflated b s => LocalDB.addInflated h s db b
  | .update ps d x l => some (LocalDB.updatePaths h db ps d x l)
  | .rm ps => some (LocalDB.rmPaths h db ps)
  | .increment ps x => some (LocalDB.increment h db ps x)
  | .adjust c => some (LocalDB.adjustAll db c)

/-- A history that raised no exception. -/
def LocalDB.run (h : Str → Int) (db : LocalDB) (ops : List LOp) : Option LocalDB :=
  ops.foldlM (LocalDB.step h) db

/-- One call on the abstract database. -/
def ALocal.step (a : ALocal) : LOp → Option ALocal
  | .add b x l _ => some (ALocal.addPaths a b x l)
  | .addInflated b _ => ALocal.addInflated a b
  | .update ps d x l => some (ALocal.updatePaths a ps d x l)
  | .rm ps => some (ALocal.rmPaths a ps)
  | .increment ps x => some (ALocal.increment a ps x)
  | .adjust c => some (ALocal.adjustAll a c)

/-- The paths a call mentions. -/
def LOp.paths : LOp → List Path
  | .add b _ _ _ => b.map Prod.fst
  | .addInflated b _ => b.map Prod.fst
  | .update ps _ _ _ => ps
  | .rm ps => ps
  | .increment ps _ => ps
  | .adjust _ => []

/-- Whether the call is an `add_paths` or `add_inflated`. -/
def LOp.isAdd : LOp → Bool
  | .add .. => true
  | .addInflated .. => true
  | _ => false

/-- The call uses paths of `U` and adds no path before its parent. -/
def LOp.Legal (U : Path → Prop) (known : List Path) (op : LOp) : Prop :=
  (∀ p ∈ op.paths, U p) ∧ (op.isAdd = true → DB.ParentsKnown known op.paths)

namespace LocalDB
variable {h : Str → Int} {U : Path → Prop}
open DB

theorem refresh_refine (u : Univ h U) {db : LocalDB} (w : InU h U db) {ps : List Path}
    (hps : ∀ p ∈ ps, U p) :
    InU h U (updateLocal h (updatePriority h db ps) ps) ∧
      (updateLocal h (updatePriority h db ps) ps).abs = ALocal.refresh db.abs ps := by
  obtain ⟨w1, e1⟩ := w.updateAgg u aggPriority hps
  obtain ⟨w2, e2⟩ := w1.updateAgg u aggLocal hps
  refine ⟨w2, ?_⟩
  rw [e1] at e2
  exact e2

theorem addPaths_refine (u : Univ h U) {db : LocalDB} (w : InU h U db) {batch : List (Path × Bool)}
    (hb : ∀ p ∈ batch.map Prod.fst, U p)
    (hpar : ParentsKnown (ADB.paths db.abs) (batch.map Prod.fst)) (salt : Path → Str)
    (x : Rat) (l : Bool) :
    InU h U (addPaths h salt db batch x l) ∧
      (addPaths h salt db batch x l).abs = ALocal.addPaths db.abs batch x l := by
  obtain ⟨w1, e1⟩ := w.addCore u salt ⟨x, l⟩ hb hpar
  have := refresh_refine u w1 (ps := parentsOf ((sortDepth Prod.fst batch).map Prod.fst))
    (parentsOf_U u (fun p hp => hb p (by simpa [sortDepth] using hp)))
  refine ⟨this.1, ?_⟩
  rw [e1] at this
  exact this.2

theorem maxPriority_refine (db : LocalDB) : maxPriority db = ALocal.maxPriority db.abs := by
  simp [maxPriority, ALocal.maxPriority, DB.abs, List.filter_map, Function.comp_def]

theorem updatePaths_refine (u : Univ h U) {db : LocalDB} (w : InU h U db) {ps : List Path}
    (hU : ∀ p ∈ ps, U p) (d : Option Bool) (x : Option Rat) (l : Option Bool) :
    InU h U (updatePaths h db ps d x l) ∧
      (updatePaths h db ps d x l).abs = ALocal.updatePaths db.abs ps d x l := by
  obtain ⟨w1, e1⟩ := w.updateOpt u hU d (fun d n => { n with directory := d })
    (fun d e => { e with directory := d }) (fun _ _ => rfl) (fun _ _ => rfl) (fun _ _ => rfl)
  obtain ⟨w2, e2⟩ := w1.updateOpt u hU x
    (fun x n => { n with data := { n.data with priority := x } })
    (fun x e => { e with data := { e.data with priority := x } })
    (fun _ _ => rfl) (fun _ _ => rfl) (fun _ _ => rfl)
  obtain ⟨w3, e3⟩ := w2.updateOpt u hU l (fun b n => { n with data := { n.data with loc := b } })
    (fun b e => { e with data := { e.data with loc := b } })
    (fun _ _ => rfl) (fun _ _ => rfl) (fun _ _ => rfl)
  obtain ⟨w4, e4⟩ := refresh_refine u w3 (parentsOf_U u hU)
  rw [e3, e2, e1] at e4
  exact ⟨w4, e4⟩

theorem step_refine (u : Univ h U) {db : LocalDB} (w : InU h U db) {op : LOp}
    (hop : op.Legal U (ADB.paths db.abs)) :
    (step h db op).map DB.abs = ALocal.step db.abs op ∧
      ∀ db', step h db op = some db' → InU h U db' := by
  obtain ⟨hU, hpar⟩ := hop
  cases op with
  | add b x l s =>
    obtain ⟨w1, e1⟩ := addPaths_refine u w hU (hpar rfl) s x l
    refine ⟨?_, ?_⟩
    · simp only [step, ALocal.step, Option.map_some, e1]
    · intro db' hdb
      simp only [step, Option.some.injEq] at hdb
      rw [← hdb]; exact w1
  | addInflated b s =>
    simp only [step, ALocal.step, addInflated, ALocal.addInflated, maxPriority_refine]
    cases hm : ALocal.maxPriority db.abs with
    | some m =>
      obtain ⟨w1, e1⟩ := addPaths_refine u w hU (hpar rfl) s m true
      refine ⟨by simp only [Option.map_some, e1], ?_⟩
      intro db' hdb
      simp only [Option.some.injEq] at hdb
      rw [← hdb]; exact w1
    | none =>
      by_cases hb : b.isEmpty = true
      · obtain ⟨w1, e1⟩ := addPaths_refine u w hU (hpar rfl) s 0 true
        simp only [hb, if_true]
        refine ⟨by simp only [Option.map_some, e1], ?_⟩
        intro db' hdb
        simp only [Option.some.injEq] at hdb
        rw [← hdb]; exact w1
      · simp [hb]
  | update ps d x l =>
    obtain ⟨w1, e1⟩ := updatePaths_refine u w (show ∀ p ∈ ps, U p from hU) d x l
    refine ⟨?_, ?_⟩
    · simp only [step, ALocal.step, Option.map_some, e1]
    · intro db' hdb
      simp only [step, Option.some.injEq] at hdb
      rw [← hdb]; exact w1
  | rm ps =>
    obtain ⟨w1, e1⟩ := w.rmCore u hU
    obtain ⟨w2, e2⟩ := refresh_refine u w1 (parentsOf_U u hU)
    rw [e1] at e2
    refine ⟨?_, ?_⟩
    · simp only [step, ALocal.step, Option.map_some, Option.some.injEq, rmPaths, ALocal.rmPaths]
      exact e2
    · intro db' hdb
      simp only [step, Option.some.injEq] at hdb
      rw [← hdb]; exact w2
  | increment ps x =>
    obtain ⟨w1, e1⟩ := w.updateWhere u hU
      (fun n => { n with data := { n.data with priority := n.data.priority + x } })
      (fun n => { n with data := { n.data with priority := n.data.priority + x } })
      (fun _ => rfl) (fun _ => rfl) (fun _ => rfl)
    obtain ⟨w2, e2⟩ := w1.updateAgg u aggPriority (parentsOf_U u hU)
    rw [e1] at e2
    refine ⟨?_, ?_⟩
    · simp only [step, ALocal.step, Option.map_some, Option.some.injEq]
      exact e2
    · intro db' hdb
      simp only [step, Option.some.injEq] at hdb
      rw [← hdb]; exact w2
  | adjust c =>
    have s : SameKeys db (adjustAll db c) :=
      sameKeys_mapNodes db (fun n =>
        { n with data := { n.data with priority := n.data.priority * c } })
        (fun _ => rfl) (fun _ => rfl)
    refine ⟨?_, ?_⟩
    · simp [step, ALocal.step, adjustAll, ALocal.adjustAll, DB.abs, Function.comp_def, Row.toEntry]
    · intro db' hdb
      simp only [step, Option.some.injEq] at hdb
      rw [← hdb]; exact w.same s

end LocalDB

/-! ### The remote database -/

/-- The calls that change the remote database. -/
inductive ROp where
  | add (batch : List (Path × Bool)) (now : Int) (salt : Path → Str)
  | update (ps : List Path) (directory : Option Bool) (lastsync : Option Int)
  | rm (ps : List Path)

/-- One call. -/
def RemoteDB.step (h : Str → Int) (db : RemoteDB) : ROp → RemoteDB
  | .add b t s => RemoteDB.addPaths h s db b t
  | .update ps d t => RemoteDB.updatePaths h db ps d t
  | .rm ps => RemoteDB.rmPaths h db ps

/-- A history of calls. -/
def RemoteDB.run (h : Str → Int) (db : RemoteDB) (ops : List ROp) : RemoteDB :=
  ops.foldl (RemoteDB.step h) db

/-- One call on the abstract database. -/
def ARemote.step (a : ARemote) : ROp → ARemote
  | .add b t _ => ARemote.addPaths a b t
  | .update ps d t => ARemote.updatePaths a ps d t
  | .rm ps => ARemote.rmPaths a ps

/-- The paths a call mentions. -/
def ROp.paths : ROp → List Path
  | .add b _ _ => b.map Prod.fst
  | .update ps _ _ => ps
  | .rm ps => ps

/-- Whether the call is an `add_paths`. -/
def ROp.isAdd : ROp → Bool
  | .add .. => true
  | _ => false

/-- The call uses paths of `U` and adds no path before its parent. -/
def ROp.Legal (U : Path → Prop) (known : List Path) (op : ROp) : Prop :=
  (∀ p ∈ op.paths, U p) ∧ (op.isAdd = true → DB.ParentsKnown known op.paths)

namespace RemoteDB
variable {h : Str → Int} {U : Path → Prop}
open DB

theorem updatePaths_refine (u : Univ h U) {db : RemoteDB} (w : InU h U db) {ps : List Path}
    (hU : ∀ p ∈ ps, U p) (d : Option Bool) (t : Option Int) :
    InU h U (updatePaths h db ps d t) ∧
      (updatePaths h db ps d t).abs = ARemote.updatePaths db.abs ps d t := by
  obtain ⟨w1, e1⟩ := w.updateOpt u hU d (fun d n => { n with directory := d })
    (fun d e => { e with directory := d }) (fun _ _ => rfl) (fun _ _ => rfl) (fun _ _ => rfl)
  obtain ⟨w2, e2⟩ := w1.updateOpt u hU t (fun t n => { n with data := t })
    (fun t e => { e with data := t }) (fun _ _ => rfl) (fun _ _ => rfl) (fun _ _ => rfl)
  rw [e1] at e2
  exact ⟨w2, e2⟩

theorem step_refine (u : Univ h U) {db : RemoteDB} (w : InU h U db) {op : ROp}
    (hop : op.Legal U (ADB.paths db.abs)) :
    InU h U (step h db op) ∧ (step h db op).abs = ARemote.step db.abs op := by
  obtain ⟨hU, hpar⟩ := hop
  cases op with
  | add b t s => exact w.addCore u s t hU (hpar rfl)
  | rm ps => exact w.rmCore u hU
  | update ps d t => exact updatePaths_refine u w (show ∀ p ∈ ps, U p from hU) d t

end RemoteDB
end Verif
