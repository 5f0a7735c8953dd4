import Verif.ADB
/-
The table model of the databases behaves like the abstract tree database as
long as the ids in use are distinct.
-/
namespace Verif

variable {δ : Type}

/-- What a row says, without its id. -/
def Row.toEntry (n : Row δ) : Entry δ := ⟨n.path, n.directory, n.data⟩

@[simp] theorem Row.toEntry_path (n : Row δ) : n.toEntry.path = n.path := rfl
@[simp] theorem Row.toEntry_directory (n : Row δ) : n.toEntry.directory = n.directory := rfl
@[simp] theorem Row.toEntry_data (n : Row δ) : n.toEntry.data = n.data := rfl

/-- The abstract content of a database. -/
def DB.abs (db : DB δ) : ADB δ := db.nodes.map Row.toEntry

/-- Ids and paths of the rows. -/
def DB.keys (db : DB δ) : List (Int × Path) := db.nodes.map (fun n => (n.id, n.path))

/-- Integrity of the tables, which depends on ids and paths only. -/
structure WFk (h : Str → Int) (ks : List (Int × Path)) (clo : List Clo)
    (coll : List (Path × Str)) : Prop where
  ne : ∀ k ∈ ks, k.2 ≠ []
  idNodup : (ks.map Prod.fst).Nodup
  idEq : ∀ k ∈ ks, k.1 = DB.getPathId h coll k.2
  parent : ∀ k ∈ ks, k.2.dropLast ≠ [] → k.2.dropLast ∈ ks.map Prod.snd
  clo : ∀ c : Clo, c ∈ clo ↔ ∃ a ∈ ks, ∃ d ∈ ks,
    c.anc = a.1 ∧ c.desc = d.1 ∧ a.2 <+: d.2 ∧ c.depth = d.2.length - a.2.length

/-- Integrity of a database. -/
def DB.WF (h : Str → Int) (db : DB δ) : Prop := WFk h db.keys db.closure db.coll

/-- The id computed for `p` belongs to no other stored path. -/
def DB.IdOK (h : Str → Int) (db : DB δ) (p : Path) : Prop :=
  ∀ k ∈ db.keys, k.1 = DB.getPathId h db.coll p → k.2 = p

theorem nodup_map_inj {α β : Type _} (f : α → β) {l : List α} (h : (l.map f).Nodup) {a b : α}
    (ha : a ∈ l) (hb : b ∈ l) (hab : f a = f b) : a = b := by
  induction l with
  | nil => simp at ha
  | cons x xs ih =>
    rw [List.map_cons, List.nodup_cons] at h
    rcases List.mem_cons.1 ha with ha | ha <;> rcases List.mem_cons.1 hb with hb | hb
    · rw [ha, hb]
    · exact absurd (List.mem_map.2 ⟨b, hb, by rw [← hab, ha]⟩) h.1
    · exact absurd (List.mem_map.2 ⟨a, ha, by rw [hab, hb]⟩) h.1
    · exact ih h.2 ha hb

namespace WFk
variable {h : Str → Int} {ks : List (Int × Path)} {clo : List Clo} {coll : List (Path × Str)}

theorem key_inj (w : WFk h ks clo coll) {a b : Int × Path} (ha : a ∈ ks) (hb : b ∈ ks)
    (hab : a.1 = b.1) : a = b := nodup_map_inj Prod.fst w.idNodup ha hb hab

theorem path_inj (w : WFk h ks clo coll) {a b : Int × Path} (ha : a ∈ ks) (hb : b ∈ ks)
    (hab : a.2 = b.2) : a = b :=
  w.key_inj ha hb (by rw [w.idEq a ha, w.idEq b hb, hab])

theorem anc (w : WFk h ks clo coll) {k : Int × Path} (hk : k ∈ ks) {q : Path} (hq : q ≠ [])
    (hp : q <+: k.2) : q ∈ ks.map Prod.snd := by
  obtain ⟨t, ht⟩ := hp
  induction hn : t.length generalizing k t with
  | zero =>
    have : t = [] := List.length_eq_zero_iff.1 hn
    subst this
    rw [List.append_nil] at ht
    rw [ht]
    exact List.mem_map_of_mem hk
  | succ n ih =>
    have ht0 : t ≠ [] := by rintro rfl; simp at hn
    have h1 : k.2.dropLast = q ++ t.dropLast := by
      rw [← ht, List.dropLast_append_of_ne_nil ht0]
    have h2 : k.2.dropLast ≠ [] := by rw [h1]; simp [hq]
    obtain ⟨m, hm, hm2⟩ := List.mem_map.1 (w.parent k hk h2)
    exact ih hm t.dropLast (by rw [hm2, h1]) (by simp [hn])

end WFk

namespace DB

theorem mem_keys {db : DB δ} {n : Row δ} (hn : n ∈ db.nodes) : (n.id, n.path) ∈ db.keys :=
  List.mem_map_of_mem (f := fun n : Row δ => (n.id, n.path)) hn

theorem paths_abs (db : DB δ) : ADB.paths db.abs = db.keys.map Prod.snd := by
  simp [ADB.paths, abs, keys, Row.toEntry, Function.comp_def]

theorem WF.pathNodup {h : Str → Int} {db : DB δ} (w : db.WF h) : (ADB.paths db.abs).Nodup := by
  rw [paths_abs]
  have hinj : ∀ a ∈ db.keys, ∀ b ∈ db.keys, a.2 = b.2 → a = b := fun a ha b hb =>
    WFk.path_inj w ha hb
  have hnd : db.keys.Nodup := by
    have := w.idNodup
    clear hinj w
    generalize db.keys = l at this
    induction l with
    | nil => simp
    | cons x xs ih =>
      rw [List.map_cons, List.nodup_cons] at this
      rw [List.nodup_cons]
      exact ⟨fun hx => this.1 (List.mem_map_of_mem hx), ih this.2⟩
  clear w
  generalize db.keys = l at hinj hnd
  induction l with
  | nil => simp
  | cons x xs ih =>
    rw [List.map_cons, List.nodup_cons]
    rw [List.nodup_cons] at hnd
    refine ⟨?_, ih (fun a ha b hb => hinj a (List.mem_cons_of_mem _ ha) b
      (List.mem_cons_of_mem _ hb)) hnd.2⟩
    intro hx
    obtain ⟨y, hy, hy2⟩ := List.mem_map.1 hx
    have := hinj y (List.mem_cons_of_mem _ hy) x (by simp) hy2
    rw [this] at hy
    exact hnd.1 hy

theorem WF.idOK {h : Str → Int} {db : DB δ} (w : db.WF h) {p : Path}
    (hp : p ∈ ADB.paths db.abs) : db.IdOK h p := by
  intro k hk hkid
  rw [paths_abs] at hp
  obtain ⟨m, hm, hm2⟩ := List.mem_map.1 hp
  have : k = m := WFk.key_inj w hk hm (by rw [hkid, w.idEq m hm, hm2])
  rw [this, hm2]

theorem id_iff {h : Str → Int} {db : DB δ} (w : db.WF h) {p : Path} (hp : db.IdOK h p)
    {n : Row δ} (hn : n ∈ db.nodes) : n.id = getPathId h db.coll p ↔ n.path = p := by
  constructor
  · exact hp _ (mem_keys hn)
  · intro e
    have := w.idEq _ (mem_keys hn)
    simpa [e] using this

/-! ### Updates that keep ids and paths -/

/-- `db'` has the same ids, paths, closure and collisions as `db`. -/
structure SameKeys (db db' : DB δ) : Prop where
  keys : db'.keys = db.keys
  clo : db'.closure = db.closure
  coll : db'.coll = db.coll

theorem SameKeys.refl (db : DB δ) : SameKeys db db := ⟨rfl, rfl, rfl⟩

theorem SameKeys.trans {a b c : DB δ} (h1 : SameKeys a b) (h2 : SameKeys b c) : SameKeys a c :=
  ⟨h2.keys.trans h1.keys, h2.clo.trans h1.clo, h2.coll.trans h1.coll⟩

theorem SameKeys.wf {h : Str → Int} {db db' : DB δ} (s : SameKeys db db') (w : db.WF h) :
    db'.WF h := by
  unfold WF at *
  rw [s.keys, s.clo, s.coll]; exact w

theorem SameKeys.idOK {h : Str → Int} {db db' : DB δ} (s : SameKeys db db') {p : Path}
    (w : db.IdOK h p) : db'.IdOK h p := by
  unfold IdOK at *
  rw [s.keys, s.coll]; exact w

/-- Rewriting rows in place. -/
def mapNodes (db : DB δ) (f : Row δ → Row δ) : DB δ := { db with nodes := db.nodes.map f }

theorem sameKeys_mapNodes (db : DB δ) (f : Row δ → Row δ) (hf : ∀ n, (f n).id = n.id)
    (hf2 : ∀ n, (f n).path = n.path) : SameKeys db (mapNodes db f) := by
  refine ⟨?_, rfl, rfl⟩
  simp [keys, mapNodes, Function.comp_def, hf, hf2]

theorem markDirectory_refine {h : Str → Int} (db : DB δ) (ps : List Path) (w : db.WF h)
    (hps : ∀ p ∈ ps, db.IdOK h p) :
    SameKeys db (markDirectory h db ps) ∧ (markDirectory h db ps).abs = ADB.mark ps db.abs := by
  unfold markDirectory
  generalize hc : db.coll = coll
  induction ps generalizing db with
  | nil =>
    refine ⟨SameKeys.refl _, ?_⟩
    simp [ADB.mark]
  | cons p ps ih =>
    simp only [List.map_cons, List.foldl_cons]
    have s : SameKeys db (mapNodes db (fun n =>
        if n.directory = false ∧ n.id = getPathId h coll p
        then { n with directory := true } else n)) := by
      apply sameKeys_mapNodes <;> (intro n; split <;> rfl)
    have := ih _ (s.wf w) (fun q hq => s.idOK (hps q (List.mem_cons_of_mem _ hq)))
      (by rw [s.coll, hc])
    refine ⟨s.trans this.1, ?_⟩
    refine this.2.trans ?_
    simp only [ADB.mark, abs, mapNodes, List.map_map]
    apply List.map_congr_left
    intro n hn
    have hid := id_iff w (hps p (by simp)) hn
    rw [hc] at hid
    simp only [Function.comp, Row.toEntry, List.mem_cons]
    by_cases hp : n.path = p
    · have h1 : n.id = getPathId h coll p := hid.2 hp
      by_cases hd : n.directory = false
      · by_cases hq : n.path ∈ ps
        · simp [h1, hd, hp]
        · simp [h1, hd, hp]
      · have hd' : n.directory = true := by simpa using hd
        simp [hp, hd']
    · have h1 : ¬ n.id = getPathId h coll p := fun e => hp (hid.1 e)
      simp [h1, hp]

theorem updateWhere_refine {h : Str → Int} (db : DB δ) (ps : List Path) (f : Row δ → Row δ)
    (g : Entry δ → Entry δ) (hf : ∀ n, (f n).id = n.id) (hf2 : ∀ n, (f n).path = n.path)
    (hg : ∀ n, (f n).toEntry = g n.toEntry) (w : db.WF h) (hps : ∀ p ∈ ps, db.IdOK h p) :
    SameKeys db (updateWhere h db ps f) ∧
      (updateWhere h db ps f).abs = ADB.updateWhere db.abs ps g := by
  unfold updateWhere
  generalize hc : db.coll = coll
  induction ps generalizing db with
  | nil => exact ⟨SameKeys.refl _, rfl⟩
  | cons p ps ih =>
    simp only [List.map_cons, List.foldl_cons]
    have s : SameKeys db (mapNodes db (fun n => if n.id = getPathId h coll p then f n else n)) := by
      apply sameKeys_mapNodes <;> (intro n; split <;> simp [hf, hf2])
    have := ih _ (s.wf w) (fun q hq => s.idOK (hps q (List.mem_cons_of_mem _ hq)))
      (by rw [s.coll, hc])
    refine ⟨s.trans this.1, ?_⟩
    refine this.2.trans ?_
    simp only [ADB.updateWhere, List.foldl_cons]
    congr 1
    simp only [abs, mapNodes, List.map_map]
    apply List.map_congr_left
    intro n hn
    have hid := id_iff w (hps p (by simp)) hn
    rw [hc] at hid
    simp only [Function.comp]
    by_cases hp : n.path = p
    · rw [if_pos (hid.2 hp), if_pos (by simpa [Row.toEntry] using hp), hg]
    · rw [if_neg (fun e => hp (hid.1 e)), if_neg (by simpa [Row.toEntry] using hp)]

theorem dropLast_eq_iff {a d : Path} (ha : a ≠ []) :
    d.dropLast = a ↔ a <+: d ∧ d.length - a.length = 1 := by
  constructor
  · rintro rfl
    refine ⟨List.dropLast_prefix d, ?_⟩
    have : d ≠ [] := by rintro rfl; simp at ha
    have := List.length_pos_iff.2 this
    simp; omega
  · rintro ⟨⟨t, rfl⟩, h2⟩
    have : t.length = 1 := by simpa using h2
    obtain ⟨x, rfl⟩ := List.length_eq_one_iff.1 this
    simp

theorem childRows_abs {h : Str → Int} {db : DB δ} (w : db.WF h) {n : Row δ} (hn : n ∈ db.nodes) :
    (childRows db n.id).map Row.toEntry = ADB.children db.abs n.path := by
  simp only [childRows, ADB.children, abs, List.filter_map]
  congr 1
  apply List.filter_congr
  intro m hm
  have hne : n.path ≠ [] := w.ne _ (mem_keys hn)
  rw [Bool.eq_iff_iff]
  show db.closure.any (fun c => decide (c.anc = n.id ∧ c.desc = m.id ∧ c.depth = 1)) = true ↔
    decide (m.path.dropLast = n.path) = true
  simp only [List.any_eq_true, decide_eq_true_eq]
  rw [dropLast_eq_iff hne]
  constructor
  · rintro ⟨c, hc, h1, h2, h3⟩
    obtain ⟨a, ha, d, hd, e1, e2, e3, e4⟩ := (w.clo c).1 hc
    have ha' : a = (n.id, n.path) := WFk.key_inj w ha (mem_keys hn) (by rw [← e1, h1])
    have hd' : d = (m.id, m.path) := WFk.key_inj w hd (mem_keys hm) (by rw [← e2, h2])
    subst ha'; subst hd'
    exact ⟨e3, by rw [← e4, h3]⟩
  · rintro ⟨h1, h2⟩
    exact ⟨⟨n.id, m.id, 1⟩, (w.clo _).2 ⟨_, mem_keys hn, _, mem_keys hm, rfl, rfl, h1, h2.symm⟩,
      rfl, rfl, rfl⟩

theorem updateAgg_refine {h : Str → Int} (agg : List δ → δ → δ) (db : DB δ) (ps : List Path)
    (w : db.WF h) (hps : ∀ p ∈ pathAncestry ps, db.IdOK h p) :
    SameKeys db (updateAgg h agg db ps) ∧
      (updateAgg h agg db ps).abs = ADB.updateAgg agg db.abs ps := by
  unfold updateAgg ADB.updateAgg
  generalize pathAncestry ps = l at hps
  generalize hc : db.coll = coll
  induction l generalizing db with
  | nil => exact ⟨SameKeys.refl _, rfl⟩
  | cons p ps ih =>
    simp only [List.map_cons, List.foldl_cons]
    have s : SameKeys db (mapNodes db (fun n => if n.id = getPathId h coll p then
        { n with data := agg ((childRows db (getPathId h coll p)).map Row.data) n.data } else n)) := by
      apply sameKeys_mapNodes <;> (intro n; split <;> rfl)
    have := ih _ (s.wf w) (fun q hq => s.idOK (hps q (List.mem_cons_of_mem _ hq)))
      (by rw [s.coll, hc])
    refine ⟨s.trans this.1, ?_⟩
    refine this.2.trans ?_
    congr 1
    simp only [ADB.aggStep, abs, mapNodes, List.map_map]
    apply List.map_congr_left
    intro n hn
    have hid := id_iff w (hps p (by simp)) hn
    rw [hc] at hid
    simp only [Function.comp]
    by_cases hp : n.path = p
    · rw [if_pos (hid.2 hp), if_pos (by simpa [Row.toEntry] using hp)]
      have hch := childRows_abs w hn
      rw [hid.2 hp, hp] at hch
      have : (childRows db (getPathId h coll p)).map Row.data
          = (ADB.children (db.nodes.map Row.toEntry) p).map Entry.data := by
        rw [show db.nodes.map Row.toEntry = db.abs from rfl, ← hch]
        simp [Row.toEntry, Function.comp_def]
      rw [this]
      simp [Row.toEntry]
    · rw [if_neg (fun e => hp (hid.1 e)), if_neg (by simpa [Row.toEntry] using hp)]

/-! ### Queries -/

theorem getPathInfo_refine {h : Str → Int} {db : DB δ} {p : Path} (w : db.WF h)
    (hp : db.IdOK h p) :
    getPathInfo h db p = (ADB.info db.abs p).map (fun e => (e.directory, e.data)) := by
  simp only [getPathInfo, ADB.info, abs, List.find?_map, Option.map_map]
  have : db.nodes.find? (fun n => decide (n.id = getPathId h db.coll p))
      = db.nodes.find? ((fun e : Entry δ => decide (e.path = p)) ∘ Row.toEntry) := by
    have hcongr : ∀ l : List (Row δ), (∀ n ∈ l, n ∈ db.nodes) →
        l.find? (fun n => decide (n.id = getPathId h db.coll p))
          = l.find? ((fun e : Entry δ => decide (e.path = p)) ∘ Row.toEntry) := by
      intro l hl
      induction l with
      | nil => rfl
      | cons x xs ih =>
        have hx := id_iff w hp (hl x (by simp))
        rw [List.find?_cons, List.find?_cons, ih (fun n hn => hl n (List.mem_cons_of_mem _ hn))]
        have : decide (x.id = getPathId h db.coll p)
            = ((fun e : Entry δ => decide (e.path = p)) ∘ Row.toEntry) x := by
          simp only [Function.comp, Row.toEntry_path]
          exact decide_eq_decide.2 hx
        rw [this]
    exact hcongr _ (fun _ h => h)
  rw [this]
  cases db.nodes.find? _ <;> rfl

theorem getRows_refine {h : Str → Int} {db : DB δ} {root : Path} (w : db.WF h)
    (hp : root ≠ [] → db.IdOK h root) :
    (getRows h db root).map Row.toEntry = ADB.rows db.abs root := by
  simp only [getRows, ADB.rows, abs, List.filter_map]
  congr 1
  apply List.filter_congr
  intro m hm
  rw [Bool.eq_iff_iff]
  simp only [List.any_eq_true, decide_eq_true_eq, Function.comp, Row.toEntry,
    List.isPrefixOf_iff_prefix]
  constructor
  · rintro ⟨c, hc, h1, h2⟩
    by_cases hr : root = []
    · subst hr; simp
    · rcases h2 with h2 | h2
      · exact absurd h2 hr
      · obtain ⟨a, ha, d, hd, e1, e2, e3, e4⟩ := (w.clo c).1 hc
        have hd' : d = (m.id, m.path) := WFk.key_inj w hd (mem_keys hm) (by rw [← e2, h1])
        subst hd'
        have := hp hr a ha (by rw [← e1, h2])
        rw [← this]
        exact e3
  · intro hpre
    by_cases hr : root = []
    · exact ⟨⟨m.id, m.id, 0⟩, (w.clo _).2 ⟨_, mem_keys hm, _, mem_keys hm, rfl, rfl,
        List.prefix_refl _, by simp⟩, rfl, Or.inl hr⟩
    · obtain ⟨a, ha, ha2⟩ := List.mem_map.1 (WFk.anc w (mem_keys hm) hr hpre)
      refine ⟨⟨a.1, m.id, m.path.length - a.2.length⟩, (w.clo _).2 ⟨a, ha, _, mem_keys hm, rfl, rfl,
        by rw [ha2]; exact hpre, rfl⟩, rfl, Or.inr ?_⟩
      rw [w.idEq a ha, ha2]

/-! ### Removal -/

theorem deleteTree_refine {h : Str → Int} {db : DB δ} {p : Path} (w : db.WF h)
    (hp : db.IdOK h p) (hp0 : p ≠ []) :
    (deleteTree db (getPathId h db.coll p)).WF h ∧
      (deleteTree db (getPathId h db.coll p)).abs
        = db.abs.filter (fun e => !p.isPrefixOf e.path) ∧
      (deleteTree db (getPathId h db.coll p)).coll = db.coll := by
  have hdead : ∀ k ∈ db.keys,
      k.1 ∈ (db.closure.filter (fun c => decide (c.anc = getPathId h db.coll p))).map Clo.desc
        ↔ p <+: k.2 := by
    intro k hk
    simp only [List.mem_map, List.mem_filter, decide_eq_true_eq]
    constructor
    · rintro ⟨c, ⟨hc, h1⟩, h2⟩
      obtain ⟨a, ha, d, hd, e1, e2, e3, e4⟩ := (w.clo c).1 hc
      have hd' : d = k := WFk.key_inj w hd hk (by rw [← e2, h2])
      subst hd'
      have := hp a ha (by rw [← e1, h1])
      rw [← this]; exact e3
    · intro hpre
      obtain ⟨a, ha, ha2⟩ := List.mem_map.1 (WFk.anc w hk hp0 hpre)
      exact ⟨⟨a.1, k.1, k.2.length - a.2.length⟩, ⟨(w.clo _).2 ⟨a, ha, k, hk, rfl, rfl,
        by rw [ha2]; exact hpre, rfl⟩, by rw [w.idEq a ha, ha2]⟩, rfl⟩
  have hkeys : (deleteTree db (getPathId h db.coll p)).keys
      = db.keys.filter (fun k => !p.isPrefixOf k.2) := by
    simp only [deleteTree, keys, List.filter_map]
    congr 1
    apply List.filter_congr
    intro n hn
    have := hdead _ (mem_keys hn)
    rw [Bool.eq_iff_iff]
    simp only [decide_eq_true_eq, Function.comp, Bool.not_eq_true', ← Bool.not_eq_true,
      List.isPrefixOf_iff_prefix]
    rw [← this]
  refine ⟨?_, ?_, rfl⟩
  · unfold WF
    rw [hkeys]
    have hmem : ∀ k, k ∈ db.keys.filter (fun k => !p.isPrefixOf k.2) ↔ k ∈ db.keys ∧ ¬ p <+: k.2 := by
      intro k
      simp only [List.mem_filter, Bool.not_eq_true', ← Bool.not_eq_true,
        List.isPrefixOf_iff_prefix]
    constructor
    · intro k hk
      exact w.ne k ((hmem k).1 hk).1
    · exact List.Sublist.nodup (List.Sublist.map _ List.filter_sublist) w.idNodup
    · intro k hk
      exact w.idEq k ((hmem k).1 hk).1
    · intro k hk hd
      obtain ⟨h1, h2⟩ := (hmem k).1 hk
      obtain ⟨m, hm, hm2⟩ := List.mem_map.1 (w.parent k h1 hd)
      refine List.mem_map.2 ⟨m, (hmem m).2 ⟨hm, ?_⟩, hm2⟩
      intro hpre
      rw [hm2] at hpre
      exact h2 (hpre.trans (List.dropLast_prefix _))
    · intro c
      rw [show (deleteTree db (getPathId h db.coll p)).closure = db.closure.filter (fun c =>
        decide (c.anc ∉ (db.closure.filter (fun c => decide (c.anc = getPathId h db.coll p))).map
          Clo.desc ∧ c.desc ∉ (db.closure.filter (fun c =>
            decide (c.anc = getPathId h db.coll p))).map Clo.desc)) from rfl]
      rw [List.mem_filter, decide_eq_true_eq]
      constructor
      · rintro ⟨hc, h1, h2⟩
        obtain ⟨a, ha, d, hd, e1, e2, e3, e4⟩ := (w.clo c).1 hc
        rw [e1, hdead a ha] at h1
        rw [e2, hdead d hd] at h2
        exact ⟨a, (hmem a).2 ⟨ha, h1⟩, d, (hmem d).2 ⟨hd, h2⟩, e1, e2, e3, e4⟩
      · rintro ⟨a, ha, d, hd, e1, e2, e3, e4⟩
        obtain ⟨ha1, ha2⟩ := (hmem a).1 ha
        obtain ⟨hd1, hd2⟩ := (hmem d).1 hd
        refine ⟨(w.clo c).2 ⟨a, ha1, d, hd1, e1, e2, e3, e4⟩, ?_, ?_⟩
        · rw [e1, hdead a ha1]; exact ha2
        · rw [e2, hdead d hd1]; exact hd2
  · simp only [deleteTree, abs, List.filter_map]
    congr 1
    apply List.filter_congr
    intro n hn
    have := hdead _ (mem_keys hn)
    rw [Bool.eq_iff_iff]
    simp only [decide_eq_true_eq, Function.comp, Bool.not_eq_true', ← Bool.not_eq_true,
      List.isPrefixOf_iff_prefix, Row.toEntry]
    rw [← this]

theorem find?_filter_key {coll : List (Path × Str)} {S : List Path} {p : Path} (hp : p ∈ S) :
    (coll.filter (fun e => decide (e.1 ∈ S))).find? (fun e => decide (e.1 = p))
      = coll.find? (fun e => decide (e.1 = p)) := by
  induction coll with
  | nil => rfl
  | cons x xs ih =>
    by_cases hx : x.1 ∈ S
    · rw [List.filter_cons_of_pos (by simpa using hx), List.find?_cons, List.find?_cons, ih]
    · rw [List.filter_cons_of_neg (by simpa using hx), List.find?_cons, ih]
      have : ¬ x.1 = p := by rintro rfl; exact hx hp
      simp [this]

theorem rmCore_refine {h : Str → Int} {db : DB δ} {ps : List Path} (w : db.WF h)
    (hps : ∀ p ∈ ps, db.IdOK h p ∧ p ≠ []) :
    (rmCore h db ps).WF h ∧ (rmCore h db ps).abs = ADB.rmCore db.abs ps ∧
      (∀ p ∈ ADB.paths (rmCore h db ps).abs,
        getPathId h (rmCore h db ps).coll p = getPathId h db.coll p) ∧
      (∀ e ∈ (rmCore h db ps).coll, e ∈ db.coll) := by
  have key : ∀ (l : List Path) (db' : DB δ), db'.WF h → db'.coll = db.coll →
      (∀ p ∈ l, db'.IdOK h p ∧ p ≠ []) →
      let r := (l.map (getPathId h db.coll)).foldl deleteTree db'
      r.WF h ∧ r.abs = ADB.rmCore db'.abs l ∧ r.coll = db.coll := by
    intro l
    induction l with
    | nil =>
      intro db' w' hc _
      refine ⟨w', ?_, hc⟩
      show db'.abs = db'.abs.filter (fun _ => true)
      exact (List.filter_eq_self.2 (fun _ _ => rfl)).symm
    | cons p l ih =>
      intro db' w' hc hl
      have hp := hl p (by simp)
      obtain ⟨h1, h2, h3⟩ := deleteTree_refine w' hp.1 hp.2
      rw [hc] at h1 h2 h3
      simp only [List.map_cons, List.foldl_cons]
      have hsub : ∀ k ∈ (deleteTree db' (getPathId h db.coll p)).keys, k ∈ db'.keys := by
        intro k hk
        simp only [deleteTree, keys, List.mem_map, List.mem_filter] at hk ⊢
        obtain ⟨n, hn, hn2⟩ := hk
        exact ⟨n, hn.1, hn2⟩
      obtain ⟨i1, i2, i3⟩ := ih _ h1 h3 (fun q hq => by
        refine ⟨?_, (hl q (List.mem_cons_of_mem _ hq)).2⟩
        intro k hk hkid
        refine (hl q (List.mem_cons_of_mem _ hq)).1 k (hsub k hk) ?_
        rw [hkid, h3, hc])
      refine ⟨i1, ?_, i3⟩
      rw [i2, h2]
      simp only [ADB.rmCore, List.filter_filter, List.any_cons, Bool.not_or]
      apply List.filter_congr
      intro e _
      rw [Bool.and_comm]
  obtain ⟨h1, h2, h3⟩ := key ps db w rfl hps
  generalize hr : (ps.map (getPathId h db.coll)).foldl deleteTree db = r at h1 h2 h3
  have hrm : rmCore h db ps
      = { r with coll := r.coll.filter (fun e => decide (e.1 ∈ r.nodes.map Row.path)) } := by
    simp only [rmCore, hr]
  have hid : ∀ p ∈ ADB.paths r.abs,
      getPathId h (r.coll.filter (fun e => decide (e.1 ∈ r.nodes.map Row.path))) p
        = getPathId h r.coll p := by
    intro p hp
    have : p ∈ r.nodes.map Row.path := by
      simpa [ADB.paths, abs, Row.toEntry, Function.comp_def] using hp
    simp only [getPathId, find?_filter_key this]
  refine ⟨?_, ?_, ?_, ?_⟩
  · rw [hrm]
    refine ⟨h1.ne, h1.idNodup, ?_, h1.parent, h1.clo⟩
    intro k hk
    rw [h1.idEq k hk]
    symm
    apply hid
    rw [paths_abs]
    exact List.mem_map_of_mem hk
  · rw [hrm]; exact h2
  · intro p hp
    rw [hrm] at hp ⊢
    have := hid p hp
    rw [h3] at this ⊢
    exact this
  · intro e he
    rw [hrm] at he
    have := (List.mem_filter.1 he).1
    rwa [h3] at this

end DB
end Verif
