import Verif.SyncClear
import Verif.SteadySync
/-
A whole sync: the conflicts.
-/
namespace Verif
open Prog OSM Call FSTools WM

/-- If a path that was changed on both sides is missing from one of the scans, nothing is renamed. -/
theorem wp_handleConflicts_blind {env : Env} (ho : ∀ l, (env.order l).Perm l) {w : World} {lps rps : List Path}
    (hl : w.lmemo ≠ []) (hr : w.rmemo ≠ [])
    (hp : ∃ p ∈ lps, p ∈ rps ∧ ¬ DirRow w.db p ∧ (w.lmemo.find p = none ∨ w.rmemo.user.find p = none)) :
    wp (handleConflicts env lps rps) (fun _ _ => False) (fun _ w' => w'.os.fs = w.os.fs) w := by
  have e : handleConflicts env lps rps = scanLocal env >>= fun l => scanRemote env >>= fun r =>
    conflictTail env lps rps l r := rfl
  rw [e, wp_bind]
  refine wp_scanLocal (fun _ => ?_) (fun h => absurd h hl) (fun _ => rfl)
  rw [wp_bind]
  refine wp_scanRemote (fun _ => ?_) (fun h => absurd h hr) (fun _ => rfl)
  unfold conflictTail
  rw [wp_bind, wp_gets, wp_bind, wp_sys, wp_time, wp_bind, wp_sys, wp_query]
  refine ⟨?_, fun _ _ => rfl⟩
  intro d hd
  exfalso
  obtain ⟨_, hfound⟩ := conflictLoop_ok (L := setOf lps) (R := setOf rps) (o1 := []) (o2 := []) hd
  obtain ⟨p, h1, h2, h3, h4⟩ := hp
  obtain ⟨a, b, h5, h6⟩ := hfound p (by
    rw [(ho _).mem_iff, List.mem_filter, mem_setOf, decide_eq_true_eq, mem_setOf]; exact ⟨h1, h2⟩) h3
  rcases h4 with h4 | h4
  · rw [h4] at h5; cases h5
  · rw [h4] at h6; cases h6

/-- What holds of the paths that are renamed. -/
structure ConflictCtx (env : Env) (fs : FS) (cp : Path → Path) (DL DR : Path → Prop) : Prop where
  user : ∀ p, DL p ∨ DR p → UserPath p ∧ GoodPath p
  cuser : ∀ p, DL p ∨ DR p → UserPath (cp p) ∧ GoodPath (cp p)
  parent : ∀ p, DL p ∨ DR p → (cp p).dropLast = p.dropLast
  both : ∀ p, DL p ∨ DR p → ∃ a b, fs.get (env.loc ++ p) = some a ∧ fs.get (env.rem ++ p) = some b ∧
    a.isDir = false ∧ b.isDir = false
  free : ∀ p, DL p ∨ DR p → fs.get (env.loc ++ cp p) = none ∧ fs.get (env.rem ++ cp p) = none
  inj : ∀ p q, DL p ∨ DR p → DL q ∨ DR q → cp p = cp q → p = q
  disj : ∀ p, DL p → DR p → False

section
variable {env : Env} {fs fs' : FS} {cp : Path → Path} {DL DR : Path → Prop}

theorem ConflictEff.loc_some (ap : Apart env.loc env.rem) (h : ConflictEff env cp DL DR fs fs') {q : Path} {n : Node}
    (hn : fs'.get (env.loc ++ q) = some n) :
    (fs.get (env.loc ++ q) = some n ∧ ¬ DL q) ∨ ∃ p, DL p ∧ q = cp p ∧ fs.get (env.loc ++ p) = some n := by
  by_cases h1 : DL q
  · rw [(h.loc q h1).2] at hn; cases hn
  · by_cases h2 : ∃ p, DL p ∧ q = cp p
    · obtain ⟨p, h3, rfl⟩ := h2
      rw [(h.loc p h3).1] at hn
      exact Or.inr ⟨p, h3, rfl, hn⟩
    · refine Or.inl ⟨?_, h1⟩
      rw [← h.other]
      · exact hn
      · intro p hp
        refine ⟨fun e => h1 ?_, fun e => h2 ⟨p, hp, List.append_cancel_left e⟩⟩
        rw [List.append_cancel_left e]; exact hp
      · intro p _
        exact ⟨fun e => ap.ne _ _ e, fun e => ap.ne _ _ e⟩

theorem ConflictEff.rem_some (ap : Apart env.loc env.rem) (h : ConflictEff env cp DL DR fs fs') {q : Path} {n : Node}
    (hn : fs'.get (env.rem ++ q) = some n) :
    (fs.get (env.rem ++ q) = some n ∧ ¬ DR q) ∨ ∃ p, DR p ∧ q = cp p ∧ fs.get (env.rem ++ p) = some n := by
  by_cases h1 : DR q
  · rw [(h.rem q h1).2] at hn; cases hn
  · by_cases h2 : ∃ p, DR p ∧ q = cp p
    · obtain ⟨p, h3, rfl⟩ := h2
      rw [(h.rem p h3).1] at hn
      exact Or.inr ⟨p, h3, rfl, hn⟩
    · refine Or.inl ⟨?_, h1⟩
      rw [← h.other]
      · exact hn
      · intro p _
        exact ⟨fun e => ap.symm.ne _ _ e, fun e => ap.symm.ne _ _ e⟩
      · intro p hp
        refine ⟨fun e => h1 ?_, fun e => h2 ⟨p, hp, List.append_cancel_left e⟩⟩
        rw [List.append_cancel_left e]; exact hp

/-- Rows elsewhere still fit. -/
theorem Fits.conflict (ap : Apart env.loc env.rem) (h : ConflictEff env cp DL DR fs fs') {q : Path} {d : Bool}
    (f : Fits env fs q d) (hq : ∀ p, DL p ∨ DR p → ¬ cp p <+: q) : Fits env fs' q d := by
  refine ⟨f.user, f.good, ?_, ?_, ?_, ?_⟩
  · intro n hn
    rcases h.loc_some ap hn with ⟨h1, _⟩ | ⟨p, h1, rfl, _⟩
    · exact f.loc n h1
    · exact absurd (List.prefix_refl _) (hq p (Or.inl h1))
  · intro n hn
    rcases h.rem_some ap hn with ⟨h1, _⟩ | ⟨p, h1, rfl, _⟩
    · exact f.rem n h1
    · exact absurd (List.prefix_refl _) (hq p (Or.inr h1))
  · intro x n hx hne hn
    rcases h.loc_some ap hn with ⟨h1, _⟩ | ⟨p, h1, rfl, _⟩
    · exact f.aboveL x n hx hne h1
    · exact absurd hx (hq p (Or.inl h1))
  · intro x n hx hne hn
    rcases h.rem_some ap hn with ⟨h1, _⟩ | ⟨p, h1, rfl, _⟩
    · exact f.aboveR x n hx hne h1
    · exact absurd hx (hq p (Or.inr h1))

theorem ConflictCtx.above (c : ConflictCtx env fs cp DL DR) (wf : fs.WF) {p : Path}
    (hp : DL p ∨ DR p) {x : Path} (hx : x <+: cp p) (hne : x ≠ cp p) :
    fs.isDir (env.loc ++ x) = true ∧ fs.isDir (env.rem ++ x) = true := by
  obtain ⟨a, b, h1, h2, _, _⟩ := c.both p hp
  have hx' : x <+: p ∧ x ≠ p := by
    have h3 : x <+: (cp p).dropLast := by
      have h0 := (c.cuser p hp).1.1
      have he := List.dropLast_concat_getLast h0
      rw [← he] at hx
      rcases List.prefix_concat_iff.1 hx with h4 | h4
      · rw [he] at h4; exact absurd h4 hne
      · exact h4
    rw [c.parent p hp] at h3
    refine ⟨h3.trans (List.dropLast_prefix _), ?_⟩
    rintro rfl
    have := h3.length_le
    have h0 := (c.user x hp).1.1
    have := List.length_pos_iff.2 h0
    simp at *
    omega
  have ne : ∀ root : Path, root ++ x ≠ root ++ p := fun root e => hx'.2 (List.append_cancel_left e)
  exact ⟨wf.isDir_prefix h1 _ ((List.prefix_append_right_inj _).2 hx'.1) (ne _),
    wf.isDir_prefix h2 _ ((List.prefix_append_right_inj _).2 hx'.1) (ne _)⟩

/-- No conflict name is above another one. -/
theorem ConflictCtx.not_below (c : ConflictCtx env fs cp DL DR) (wf : fs.WF) {p q : Path}
    (hp : DL p ∨ DR p) (hq : DL q ∨ DR q) (h : cp q <+: cp p) (hne : cp q ≠ cp p) : False := by
  have := (c.above wf hp h hne).1
  obtain ⟨m, b, h1⟩ := FS.isDir_iff.1 this
  rw [(c.free q hq).1] at h1; cases h1

/-- A row for a conflict name fits, before the renaming and after it. -/
theorem ConflictCtx.fits (c : ConflictCtx env fs cp DL DR) (wf : fs.WF) {p : Path}
    (hp : DL p ∨ DR p) : Fits env fs (cp p) false := by
  refine ⟨(c.cuser p hp).1, (c.cuser p hp).2, ?_, ?_, ?_, ?_⟩
  · intro n hn; rw [(c.free p hp).1] at hn; cases hn
  · intro n hn; rw [(c.free p hp).2] at hn; cases hn
  · intro x n hx hne hn
    rw [← isDir_iff_false hn]; exact (c.above wf hp hx hne).1
  · intro x n hx hne hn
    rw [← isDir_iff_false hn]; exact (c.above wf hp hx hne).2

theorem ConflictCtx.fits' (ap : Apart env.loc env.rem) (c : ConflictCtx env fs cp DL DR)
    (wf : fs.WF) (h : ConflictEff env cp DL DR fs fs') {p : Path} (hp : DL p ∨ DR p) : Fits env fs' (cp p) false := by
  refine ⟨(c.cuser p hp).1, (c.cuser p hp).2, ?_, ?_, ?_, ?_⟩
  · intro n hn
    rcases h.loc_some ap hn with ⟨h1, _⟩ | ⟨p', h1, _, h3⟩
    · rw [(c.free p hp).1] at h1; cases h1
    · obtain ⟨a, b, k1, k2, k3, k4⟩ := c.both p' (Or.inl h1)
      rw [k1] at h3; cases h3; exact k3
  · intro n hn
    rcases h.rem_some ap hn with ⟨h1, _⟩ | ⟨p', h1, _, h3⟩
    · rw [(c.free p hp).2] at h1; cases h1
    · obtain ⟨a, b, k1, k2, k3, k4⟩ := c.both p' (Or.inr h1)
      rw [k2] at h3; cases h3; exact k4
  · intro x n hx hne hn
    rcases h.loc_some ap hn with ⟨h1, _⟩ | ⟨p', h1, rfl, _⟩
    · rw [← isDir_iff_false h1]; exact (c.above wf hp hx hne).1
    · exact (c.not_below wf hp (Or.inl h1) hx hne).elim
  · intro x n hx hne hn
    rcases h.rem_some ap hn with ⟨h1, _⟩ | ⟨p', h1, rfl, _⟩
    · rw [← isDir_iff_false h1]; exact (c.above wf hp hx hne).2
    · exact (c.not_below wf hp (Or.inr h1) hx hne).elim

/-- Where both directories have something after the renaming, they had it before. -/
theorem ConflictCtx.both_old (ap : Apart env.loc env.rem) (c : ConflictCtx env fs cp DL DR)
    (h : ConflictEff env cp DL DR fs fs') {q : Path} {a b : Node}
    (ha : fs'.get (env.loc ++ q) = some a) (hb : fs'.get (env.rem ++ q) = some b) :
    fs.get (env.loc ++ q) = some a ∧ fs.get (env.rem ++ q) = some b := by
  rcases h.loc_some ap ha with ⟨h1, _⟩ | ⟨p, h1, rfl, h3⟩
  · rcases h.rem_some ap hb with ⟨h2, _⟩ | ⟨p, h2, rfl, _⟩
    · exact ⟨h1, h2⟩
    · rw [(c.free p (Or.inr h2)).1] at h1; cases h1
  · rcases h.rem_some ap hb with ⟨h2, _⟩ | ⟨p', h2, e, _⟩
    · rw [(c.free p (Or.inl h1)).2] at h2; cases h2
    · have := c.inj p p' (Or.inl h1) (Or.inr h2) e
      subst this
      exact (c.disj p h1 h2).elim

theorem ConflictCtx.tidy (ap : Apart env.loc env.rem) (c : ConflictCtx env fs cp DL DR) (t : Tidy env fs)
    (h : ConflictEff env cp DL DR fs fs') : Tidy env fs' := by
  refine ⟨?_, ?_, ?_⟩
  · intro p hp a b ha hb
    obtain ⟨h1, h2⟩ := c.both_old ap h ha hb
    exact t.kind p hp a b h1 h2
  · intro p hp a b ha hb
    obtain ⟨h1, h2⟩ := c.both_old ap h ha hb
    exact t.rlink p hp a b h1 h2
  · intro p hp s m b ha hb
    obtain ⟨h1, h2⟩ := c.both_old ap h ha hb
    exact t.llink p hp s m b h1 h2

end

/-! ### The rows -/

theorem renamed_batch {db : ALocal} {prs : List (Path × Path)} (hd : ∀ pr ∈ prs, ¬ DirRow db pr.1) :
    prs.filter (fun pr => ((ADB.info db pr.1).map Entry.directory).getD false) = [] ∧
    prs.filter (fun pr => !((ADB.info db pr.1).map Entry.directory).getD false) = prs := by
  have key : ∀ pr ∈ prs, ((ADB.info db pr.1).map Entry.directory).getD false = false := by
    intro pr hpr
    rcases Option.eq_none_or_eq_some (ADB.info db pr.1) with h | ⟨e, h⟩
    · rw [h]; rfl
    · rw [h]
      cases hk : e.directory with
      | false => exact hk
      | true => exact absurd ⟨e, h, hk⟩ (hd pr hpr)
  refine ⟨?_, ?_⟩
  · rw [List.filter_eq_nil_iff]
    intro pr hpr
    rw [key pr hpr]; simp
  · rw [List.filter_eq_self]
    intro pr hpr
    rw [key pr hpr]; rfl

section
variable {env : Env} {fs : FS} {w : World} {prs : List (Path × Path)} {now : Int}

theorem renamedRows_db (hd : ∀ pr ∈ prs, ¬ DirRow w.db pr.1) :
    (w.renamedRows prs now).db =
      ALocal.addPaths (ADB.rmCore w.db (prs.map Prod.fst)) (batchOf (prs.map Prod.snd) []) 0 true ∧
    (w.renamedRows prs now).rdb = w.rdb.addPaths (batchOf (prs.map Prod.snd) []) now := by
  obtain ⟨h1, h2⟩ := renamed_batch hd
  unfold World.renamedRows
  dsimp only
  rw [h1, h2]
  exact ⟨rfl, rfl⟩

theorem Fit.renamed (f : Fit env fs w.db) (g : Fit env fs w.rdb) (hd : ∀ pr ∈ prs, ¬ DirRow w.db pr.1)
    (hb : ∀ pr ∈ prs, Fits env fs pr.2 false) :
    Fit env fs (w.renamedRows prs now).db ∧ Fit env fs (w.renamedRows prs now).rdb := by
  obtain ⟨h1, h2⟩ := renamedRows_db (now := now) hd
  have hb' : ∀ e ∈ batchOf (prs.map Prod.snd) [], Fits env fs e.1 e.2 := by
    intro e he
    rcases mem_batchOf.1 he with ⟨h3, h4⟩ | ⟨h3, _⟩
    · obtain ⟨pr, h5, h6⟩ := List.mem_map.1 h3
      rw [← h6, h4]; exact hb pr h5
    · cases h3
  rw [h1, h2]
  refine ⟨Fit.addLocal (f.sub (fun e he => (List.mem_filter.1 he).1)) (fun e he => Or.inr (hb' e he)),
    g.addRemote (fun e he => Or.inr (hb' e he))⟩

theorem nodup_renamed (h1 : (ADB.paths w.db).Nodup) (h2 : (ADB.paths w.rdb).Nodup) :
    (ADB.paths (w.renamedRows prs now).db).Nodup ∧ (ADB.paths (w.renamedRows prs now).rdb).Nodup :=
  ⟨nodup_addPaths (List.Nodup.sublist (List.Sublist.map _ List.filter_sublist) h1), ADB.nodup_addCore h2⟩

theorem mem_renamedRows_db (hd : ∀ pr ∈ prs, ¬ DirRow w.db pr.1) {q : Path} :
    q ∈ ADB.paths (w.renamedRows prs now).db ↔
      (q ∈ ADB.paths w.db ∧ ∀ pr ∈ prs, ¬ pr.1 <+: q) ∨ ∃ pr ∈ prs, q = pr.2 := by
  rw [(renamedRows_db hd).1, mem_paths_addPaths, ADB.mem_paths_rmCore, map_fst_batchOf]
  have h1 : (∀ x ∈ prs.map Prod.fst, ¬ x <+: q) ↔ ∀ pr ∈ prs, ¬ pr.1 <+: q := by simp
  rw [h1]
  simp only [List.mem_map, List.not_mem_nil, or_false, eq_comm]

theorem mem_renamedRows_rdb (hd : ∀ pr ∈ prs, ¬ DirRow w.db pr.1) {q : Path} :
    q ∈ ADB.paths (w.renamedRows prs now).rdb ↔ q ∈ ADB.paths w.rdb ∨ ∃ pr ∈ prs, q = pr.2 := by
  rw [(renamedRows_db hd).2]
  unfold ARemote.addPaths
  rw [ADB.mem_paths_addCore, map_fst_batchOf]
  simp only [List.mem_map, List.not_mem_nil, or_false, eq_comm]

theorem not_dirRow (f : Fit env fs w.db) {p : Path} {n : Node}
    (h : fs.get (env.loc ++ p) = some n) (hn : n.isDir = false) : ¬ DirRow w.db p := by
  rintro ⟨e, h1, h2⟩
  have h3 := List.find?_some h1
  have h4 := f e (List.mem_of_find?_eq_some h1)
  rw [decide_eq_true_eq] at h3
  have := h4.loc n (by rw [h3]; exact h)
  rw [hn, h2] at this; cases this

end

/-! ### The step -/

/-- A path that was changed locally, or its conflict name. -/
def ChangedOrCopy (env : Env) (w : World) (f : Path) : Prop :=
  ChangedLocally env w f ∨ ∃ p k, w.os.tick ≤ k ∧ ChangedLocally env w p ∧ UserPath p ∧ GoodPath p ∧
    f = conflictPath (env.stamp (w.os.clk k)) p

/-- What holds after the conflicts have been handled. -/
structure Resolved (env : Env) (w : World) (upd : UpdatedPaths) (w3 : World) : Prop where
  frame : Frame (EarlyMay env w) w.os.fs w3.os.fs
  clk : w3.os.clk = w.os.clk
  tick : w.os.tick ≤ w3.os.tick
  wf : w3.os.fs.WF
  tidy : Tidy env w3.os.fs
  db : Fit env w3.os.fs w3.db
  rdb : Fit env w3.os.fs w3.rdb
  nodup_db : (ADB.paths w3.db).Nodup
  nodup : (ADB.paths w3.rdb).Nodup
  ex : ∃ l, w3.matches_ = some l ∧ ∀ p, p ∈ l ↔ OwnExcludes env w.os.fs p
  updLoc : ∀ f ∈ upd.loc, UserPath f ∧ ChangedOrCopy env w f
  updRows : ∀ f, f ∈ upd.loc ∨ f ∈ upd.rem → (f ∈ ADB.paths w3.db ∨ Fits env w3.os.fs f false) ∧
    (f ∈ ADB.paths w3.rdb ∨ Fits env w3.os.fs f false)
  copy : ∀ f ∈ upd.loc, ChangedLocally env w f ∨ Fits env w3.os.fs f false
  keeps : ∀ p d, Fits env w.os.fs p d → ((∃ n, w.os.fs.get (env.loc ++ p) = some n) ∨
    ∃ n, w.os.fs.get (env.rem ++ p) = some n) → Fits env w3.os.fs p d

/-- How the conflicts have been handled: the files at the paths `DL` of the local directory and `DR` of the remote
directory have got the names `cp`. `L` and `R` are the paths that were changed locally and remotely. -/
structure ResolvedBy (env : Env) (w2 : World) (L R : List Path) (upd : UpdatedPaths) (w3 : World)
    (cp : Path → Path) (DL DR : Path → Prop) : Prop where
  eff : ConflictEff env cp DL DR w2.os.fs w3.os.fs
  ctx : ConflictCtx env w2.os.fs cp DL DR
  mem : ∀ p, DL p ∨ DR p → p ∈ L ∧ p ∈ R
  loc : ∀ f, f ∈ upd.loc ↔ f ≠ [] ∧ ((f ∈ L ∧ ¬ DL f) ∨ ∃ p, DL p ∧ f = cp p)
  rem : ∀ f, f ∈ upd.rem ↔ f ≠ [] ∧ ((f ∈ R ∧ ¬ DR f) ∨ ∃ p, DR p ∧ f = cp p)
  db_keep : ∀ q ∈ ADB.paths w2.db, (∀ p, DL p ∨ DR p → ¬ p <+: q) → q ∈ ADB.paths w3.db
  db_only : ∀ q ∈ ADB.paths w3.db, q ∈ ADB.paths w2.db ∨ ∃ p, (DL p ∨ DR p) ∧ q = cp p
  rdb : ∀ q, q ∈ ADB.paths w3.rdb ↔ q ∈ ADB.paths w2.rdb ∨ ∃ p, (DL p ∨ DR p) ∧ q = cp p
  lmemo : w3.lmemo = w2.lmemo ∨ (w2.lmemo = [] ∧ w3.lmemo = w2.os.fs.below env.loc)
  rmemo : w3.rmemo = w2.rmemo ∨ w3.rmemo = w2.os.fs.below env.rem
  name : cp = conflictPath (env.stamp (w2.os.clk w2.os.tick))
  dl : ∀ p, DL p ↔ Older w2.db w2.os.fs L R env.loc env.rem p
  dr : ∀ p, DR p ↔ Older w2.db w2.os.fs L R env.rem env.loc p
  found : ∀ p ∈ L, p ∈ R → ¬ DirRow w2.db p → ∃ a b, w2.os.fs.get (env.loc ++ p) = some a ∧
    w2.os.fs.get (env.rem ++ p) = some b
  ticks : w2.os.tick ≤ w3.os.tick
  tr : ∃ (prsL prsR : List (Path × Path)) (n1 n2 : Int),
    w3.db = ALocal.addPaths (ADB.rmCore (ALocal.addPaths (ADB.rmCore w2.db (prsL.map Prod.fst))
      (batchOf (prsL.map Prod.snd) []) 0 true) (prsR.map Prod.fst)) (batchOf (prsR.map Prod.snd) []) 0 true ∧
    w3.rdb = (w2.rdb.addPaths (batchOf (prsL.map Prod.snd) []) n1).addPaths (batchOf (prsR.map Prod.snd) []) n2 ∧
    (∀ p q, (p, q) ∈ prsL ↔ DL p ∧ q = cp p) ∧ ∀ p q, (p, q) ∈ prsR ↔ DR p ∧ q = cp p

/-- What a sync that ends while the conflicts are handled has done to the two directories. -/
def ResolvePart (env : Env) (w2 : World) (L R : List Path) (fs' : FS) : Prop :=
  ∃ DL DR : Path → Prop, (∀ p, DL p → Older w2.db w2.os.fs L R env.loc env.rem p) ∧
    (∀ p, DR p → Older w2.db w2.os.fs L R env.rem env.loc p) ∧
    ConflictCtx env w2.os.fs (conflictPath (env.stamp (w2.os.clk w2.os.tick))) DL DR ∧
    ConflictEff env (conflictPath (env.stamp (w2.os.clk w2.os.tick))) DL DR w2.os.fs fs'

theorem ConflictCtx.mono {env : Env} {fs : FS} {cp : Path → Path} {DL DR DL' DR' : Path → Prop}
    (h : ConflictCtx env fs cp DL DR) (hL : ∀ p, DL' p → DL p) (hR : ∀ p, DR' p → DR p) :
    ConflictCtx env fs cp DL' DR' :=
  have g : ∀ p, DL' p ∨ DR' p → DL p ∨ DR p := fun p hp => hp.imp (hL p) (hR p)
  ⟨fun p hp => h.user p (g p hp), fun p hp => h.cuser p (g p hp), fun p hp => h.parent p (g p hp),
    fun p hp => h.both p (g p hp), fun p hp => h.free p (g p hp), fun p q hp hq => h.inj p q (g p hp) (g q hq),
    fun p h1 h2 => h.disj p (hL p h1) (hR p h2)⟩

section
variable {env : Env} {w w1 w2 : World} {del : DeletedPaths} {new mod : UpdatedPaths}

theorem SyncStart.rem_dir' {fs : FS} (st : SyncStart env w fs) : w.os.fs.isDir env.rem = true := by
  rw [← List.append_nil env.rem, ← FS.isDir_congr (st.rem plain_nil), List.append_nil]
  exact st.rem_dir

/-- Nothing is below a free conflict name. -/
theorem SyncReady.not_below_free (r : SyncReady env w) {k : Nat} (hk : w.os.tick ≤ k) {p q : Path} (hu : UserPath p)
    (hg : GoodPath p) (h : (∃ n, w.os.fs.get (env.loc ++ q) = some n) ∨ ∃ n, w.os.fs.get (env.rem ++ q) = some n) :
    ¬ conflictPath (env.stamp (w.os.clk k)) p <+: q := by
  intro hpre
  obtain ⟨h1, h2⟩ := r.free k p hk hu hg
  have key : ∀ root : Path, w.os.fs.get (root ++ conflictPath (env.stamp (w.os.clk k)) p) = none →
      ∀ n, w.os.fs.get (root ++ q) = some n → False := by
    intro root h3 n h4
    by_cases he : root ++ conflictPath (env.stamp (w.os.clk k)) p = root ++ q
    · rw [← he, h3] at h4; cases h4
    · have := r.wf.isDir_prefix h4 _ ((List.prefix_append_right_inj root).2 hpre) he
      obtain ⟨m, b, h5⟩ := FS.isDir_iff.1 this
      rw [h3] at h5; cases h5
  rcases h with ⟨n, h⟩ | ⟨n, h⟩
  · exact key _ h1 n h
  · exact key _ h2 n h

/-- Nothing is below a path that is gone. -/
theorem gone_below {fs : FS} (wf : fs.WF) {root d p : Path} (h : fs.get (root ++ d) = none) (hp : d <+: p) :
    fs.get (root ++ p) = none := by
  by_cases he : root ++ d = root ++ p
  · rw [← he]; exact h
  · exact wf.none_below (by unfold FS.isDir; rw [h]; rfl) ((List.prefix_append_right_inj root).2 hp) he

theorem wp_resolve {α : Type} {k : UpdatedPaths → WM α}
    {Q : α → World → Prop} {E : Err → World → Prop} (r : SyncReady env w) (sc : Scanned env w del new mod w1)
    (hclk : w1.os.clk = w.os.clk) (htick : w.os.tick ≤ w1.os.tick) (cl : Cleared env w del w1 w2)
    (hk : ∀ upd w3 cp DL DR, Resolved env w upd w3 →
      ResolvedBy env w2 (mod.loc ++ new.loc) (mod.rem ++ new.rem) upd w3 cp DL DR → wp (k upd) Q E w3)
    (hE : ∀ e w', Frame (EarlyMay env w) w.os.fs w'.os.fs →
      ResolvePart env w2 (mod.loc ++ new.loc) (mod.rem ++ new.rem) w'.os.fs →
      ((∀ p ∈ mod.loc ++ new.loc, p ∈ mod.rem ++ new.rem → ∃ b, w.os.fs.get (env.rem ++ p) = some b) →
        w2.os.fs.isDir env.loc = true → w2.os.fs.isDir env.rem = true → e = .killed) → E e w') :
    wp (handleConflicts env (mod.loc ++ new.loc) (mod.rem ++ new.rem) >>= k) Q E w2 := by
  obtain ⟨A, B, c, hA, hB, _⟩ := cl.clearing
  have clk2 : w2.os.clk = w.os.clk := cl.clk.trans hclk
  have tick2 : w.os.tick ≤ w2.os.tick := Nat.le_trans htick cl.tick
  have less2 : Less env w.os.fs w2.os.fs := (sc.start.less r).trans c.less
  have tidy2 := r.tidy.less less2
  -- the changed paths
  have chg : ∀ p ∈ mod.loc ++ new.loc, ChangedLocally env w p :=
    fun p hp => sc.loc p (List.mem_append.1 hp)
  have chgU : ∀ p ∈ mod.loc ++ new.loc, UserPath p ∧ GoodPath p ∧ ∃ n, w.os.fs.get (env.loc ++ p) = some n := by
    intro p hp
    obtain ⟨h1, n, h2, _⟩ := chg p hp
    exact ⟨r.local_user h1 h2, (goodPath_append.1 (r.wf.goodPath h2)).2, n, h2⟩
  have nofree : ∀ p q, UserPath p → GoodPath p → q ∈ mod.loc ++ new.loc ∨ q ∈ mod.rem ++ new.rem →
      ¬ conflictPath (env.stamp (w2.os.clk w2.os.tick)) p <+: q := by
    intro p q hu hg hq
    rw [clk2]
    rcases hq with hq | hq
    · exact r.not_below_free tick2 hu hg (Or.inl (chgU q hq).2.2)
    · rcases List.mem_append.1 hq with hq | hq
      · rcases (sc.modRem q hq).2 with ⟨n, h1, _⟩ | ⟨e, h1, h2, _⟩
        · exact r.not_below_free tick2 hu hg (Or.inr ⟨n, h1⟩)
        · exact r.free_db _ p tick2 hu hg q (Or.inr (List.mem_map.2 ⟨e, h1, h2⟩))
      · exact r.not_below_free tick2 hu hg (Or.inr (sc.newRem q hq).2.1)
  have nofree_row : ∀ p q, UserPath p → GoodPath p → q ∈ ADB.paths w1.db ∨ q ∈ ADB.paths w1.rdb →
      ¬ conflictPath (env.stamp (w2.os.clk w2.os.tick)) p <+: q := by
    intro p q hu hg hq
    rw [clk2]
    rcases sc.rows q hq with h | h | h | h
    · exact r.free_db _ p tick2 hu hg q (Or.inl h)
    · exact r.free_db _ p tick2 hu hg q (Or.inr h)
    · exact r.not_below_free tick2 hu hg (Or.inl h)
    · exact r.not_below_free tick2 hu hg (Or.inr h)
  -- what is in both directories has not been removed
  have inBoth : ∀ p, (∃ n, w.os.fs.get (env.loc ++ p) = some n) → (∃ n, w.os.fs.get (env.rem ++ p) = some n) →
      (∀ d ∈ A, ¬ d <+: p) ∧ ∀ d ∈ B, ¬ d <+: p := by
    rintro p ⟨n, h1⟩ ⟨n', h2⟩
    refine ⟨fun d hd hp => ?_, fun d hd hp => ?_⟩
    · rw [gone_below r.wf (hA d hd).2.2 hp] at h2; cases h2
    · rw [gone_below r.wf (hB d hd).2.2 hp] at h1; cases h1
  -- the rows of the changed paths
  have rows2 : ∀ p, p ∈ mod.loc ++ new.loc ∨ p ∈ mod.rem ++ new.rem →
      (p ∈ ADB.paths w2.db ∧ p ∈ ADB.paths w2.rdb) ∨ Fits env w2.os.fs p false := by
    have keep : ∀ p, p ∈ ADB.paths w1.db → p ∈ ADB.paths w1.rdb → UserPath p →
        ((∃ n, w.os.fs.get (env.loc ++ p) = some n) ∨ ∃ n, w.os.fs.get (env.rem ++ p) = some n) →
        (p ∈ ADB.paths w2.db ∧ p ∈ ADB.paths w2.rdb) ∨ Fits env w2.os.fs p false := by
      intro p h1 h2 hu hex
      by_cases hd : ∀ d ∈ A ++ B, ¬ d <+: p
      · exact Or.inl ⟨(c.db p).2 ⟨h1, hd⟩, (c.rdb p).2 ⟨h2, hd⟩⟩
      · right
        obtain ⟨d, hdm, hdp⟩ : ∃ d ∈ A ++ B, d <+: p := by
          apply Classical.byContradiction
          intro hcon
          exact hd (fun d h3 h4 => hcon ⟨d, h3, h4⟩)
        have lessN : ∀ {root}, LessAt root w.os.fs w2.os.fs → w.os.fs.get (root ++ p) = none →
            w2.os.fs.get (root ++ p) = none := by
          intro root h hn
          rcases Option.eq_none_or_eq_some (w2.os.fs.get (root ++ p)) with h1 | ⟨n, h1⟩
          · exact h1
          · obtain ⟨n1, e1, _⟩ := h p hu.plain n h1
            rw [hn] at e1; cases e1
        have gone : w2.os.fs.get (env.loc ++ p) = none ∧ w2.os.fs.get (env.rem ++ p) = none := by
          rcases List.mem_append.1 hdm with h | h
          · exact ⟨c.goneL d h p hdp, lessN less2.2 (gone_below r.wf (hA d h).2.2 hdp)⟩
          · exact ⟨lessN less2.1 (gone_below r.wf (hB d h).2.2 hdp), c.goneR d h p hdp⟩
        obtain ⟨d', f0⟩ : ∃ d, Fits env w.os.fs p d := by
          rcases hex with ⟨n, h⟩ | ⟨n, h⟩
          · exact ⟨_, r.tidy.fits r.wf hu ⟨n, Or.inl h, rfl⟩⟩
          · exact ⟨_, r.tidy.fits r.wf hu ⟨n, Or.inr h, rfl⟩⟩
        have f2 := f0.less less2
        exact ⟨f2.user, f2.good, fun n hn => by (rw [gone.1] at hn; cases hn),
          fun n hn => by (rw [gone.2] at hn; cases hn), f2.aboveL, f2.aboveR⟩
    rintro p (hp | hp)
    · rcases List.mem_append.1 hp with h | h
      · obtain ⟨n, h1, h2, _⟩ := sc.modLoc p h
        exact Or.inr ((r.tidy.fits r.wf (chgU p hp).1 ⟨n, Or.inl h1, h2⟩).less less2)
      · exact keep p (sc.newLoc p h).1 (sc.newLoc p h).2 (chgU p hp).1 (Or.inl (chgU p hp).2.2)
    · rcases List.mem_append.1 hp with h | h
      · obtain ⟨hu, ⟨n, h1, h2⟩ | ⟨e, h1, h2, h3⟩⟩ := sc.modRem p h
        · exact Or.inr ((r.tidy.fits r.wf hu ⟨n, Or.inr h1, h2⟩).less less2)
        · have := (r.rdb e h1).less less2
          rw [h2, h3] at this
          exact Or.inr this
      · obtain ⟨hu, h1, h2, h3⟩ := sc.newRem p h
        exact keep p h2 h3 hu (Or.inr h1)
  -- the file at a path that was changed on both sides
  have hlm : w2.lmemo = w1.os.fs.below env.loc := c.lmemo.trans sc.lmemo
  have hrm : w2.rmemo = w1.os.fs.below env.rem := c.rmemo.trans sc.rmemo
  have findL : ∀ p, p ≠ [] → w2.lmemo.find p = w.os.fs.get (env.loc ++ p) := by
    intro p hp
    rw [hlm, find_below sc.start.wf hp, sc.start.loc r]
  have findR : ∀ p, UserPath p → w2.rmemo.find p = w.os.fs.get (env.rem ++ p) := by
    intro p hp
    rw [hrm, find_below sc.start.wf hp.1, sc.start.rem hp.plain]
  by_cases hblind : ∃ p ∈ mod.loc ++ new.loc, p ∈ mod.rem ++ new.rem ∧ ¬ DirRow w2.db p ∧
      (w2.lmemo.find p = none ∨ w2.rmemo.user.find p = none)
  · rw [wp_bind]
    have h1 : w2.lmemo ≠ [] := by
      intro he
      obtain ⟨p, hp, _⟩ := hblind
      obtain ⟨hu, _, n, hn⟩ := chgU p hp
      have := findL p hu.1
      rw [he, hn] at this; cases this
    have h2 : w2.rmemo ≠ [] := by
      intro he
      have := find_below sc.start.wf (root := env.rem) (p := [Env.utilName]) (by simp)
      rw [← hrm, he] at this
      obtain ⟨m, b, h3⟩ := FS.isDir_iff.1 sc.start.util_dir
      rw [show env.rem ++ [Env.utilName] = env.util from rfl, h3] at this
      cases this
    refine wp_mono (wp_handleConflicts_blind r.order h1 h2 hblind) (fun _ _ h => h.elim) ?_
    intro e w' hw'
    apply hE
    · rw [hw']; exact cl.frame
    · rw [hw']
      refine ⟨fun _ => False, fun _ => False, fun _ h => h.elim, fun _ h => h.elim, ?_, ?_⟩
      · exact ⟨by simp, by simp, by simp, by simp, by simp, by simp, by simp⟩
      · exact ⟨c.wf, by simp, by simp, fun _ _ _ => rfl⟩
    · intro hall _ _
      exfalso
      obtain ⟨p, h1, h2, h3, h4⟩ := hblind
      obtain ⟨hu, _, n, hn⟩ := chgU p h1
      obtain ⟨b, hb⟩ := hall p h1 h2
      rw [findL p hu.1, find_user hu, findR p hu, hn, hb] at h4
      rcases h4 with h4 | h4 <;> cases h4
  · have seen : ∀ p ∈ mod.loc ++ new.loc, p ∈ mod.rem ++ new.rem → ¬ DirRow w2.db p →
        (∃ a, w.os.fs.get (env.loc ++ p) = some a) ∧ ∃ b, w.os.fs.get (env.rem ++ p) = some b := by
      intro p h1 h2 h3
      obtain ⟨hu, hg, hn⟩ := chgU p h1
      refine ⟨hn, ?_⟩
      rcases Option.eq_none_or_eq_some (w.os.fs.get (env.rem ++ p)) with h4 | h4
      · refine absurd ⟨p, h1, h2, h3, Or.inr ?_⟩ hblind
        rw [find_user hu, findR p hu]; exact h4
      · exact h4
    -- both files are still there and are not directories
    have still : ∀ p ∈ mod.loc ++ new.loc, p ∈ mod.rem ++ new.rem → ¬ DirRow w2.db p →
        ∃ a b, w.os.fs.get (env.loc ++ p) = some a ∧ w.os.fs.get (env.rem ++ p) = some b ∧
          w2.os.fs.get (env.loc ++ p) = some a ∧ w2.os.fs.get (env.rem ++ p) = some b ∧
          a.isDir = false ∧ b.isDir = false := by
      intro p h1 h2 h3
      obtain ⟨⟨a, ha⟩, b, hb⟩ := seen p h1 h2 h3
      obtain ⟨hu, hg, _⟩ := chgU p h1
      obtain ⟨hnA, hnB⟩ := inBoth p ⟨a, ha⟩ ⟨b, hb⟩
      obtain ⟨a', k1, k2, k3⟩ := c.keptL p hu.plain hnA a (by rw [sc.start.loc r]; exact ha)
      obtain ⟨b', m1, m2, m3⟩ := c.keptR p hu.plain hnB b (by rw [sc.start.rem hu.plain]; exact hb)
      have hdir : a.isDir = false := by
        rcases rows2 p (Or.inl h1) with ⟨h4, _⟩ | h4
        · obtain ⟨e, he⟩ := Option.isSome_iff_exists.1 ((info_isSome w2.db p).2 h4)
          have h5 := List.find?_some he
          rw [decide_eq_true_eq] at h5
          have h6 := (c.fit_db e (List.mem_of_find?_eq_some he)).loc a' (by rw [h5]; exact k1)
          rw [← k2, h6]
          cases hk : e.directory with
          | false => rfl
          | true => exact absurd ⟨e, he, hk⟩ h3
        · rw [← k2]; exact h4.loc a' k1
      have hdir' : b.isDir = false := by rw [← r.tidy.kind p hu.plain a b ha hb]; exact hdir
      rw [k3 hdir] at k1
      rw [m3 hdir'] at m1
      exact ⟨a, b, ha, hb, k1, m1, hdir, hdir'⟩
    have lessN : ∀ {root p}, PlainPath p → LessAt root w.os.fs w2.os.fs → w.os.fs.get (root ++ p) = none →
        w2.os.fs.get (root ++ p) = none := by
      intro root p hu h hn
      rcases Option.eq_none_or_eq_some (w2.os.fs.get (root ++ p)) with h1 | ⟨n, h1⟩
      · exact h1
      · obtain ⟨n1, e1, _⟩ := h p hu n h1
        rw [hn] at e1; cases e1
    have stamp2 : GoodStamp (env.stamp (w2.os.clk w2.os.tick)) := by rw [clk2]; exact r.stamp _ tick2
    have free2 : ∀ p, UserPath p → GoodPath p →
        w2.os.fs.get (env.loc ++ conflictPath (env.stamp (w2.os.clk w2.os.tick)) p) = none ∧
        w2.os.fs.get (env.rem ++ conflictPath (env.stamp (w2.os.clk w2.os.tick)) p) = none := by
      intro p hu hg
      have hcu := (userPath_conflictPath stamp2 hg hu).plain
      have := r.free _ p tick2 hu hg
      rw [← clk2] at this
      exact ⟨lessN hcu less2.1 this.1, lessN hcu less2.2 this.2⟩
    obtain ⟨lm, lb, hlg⟩ := FS.isDir_iff.1 r.loc_dir
    have ready : ConflictReady env w2 (mod.loc ++ new.loc) (mod.rem ++ new.rem) := by
      refine ⟨r.order, r.apart, stamp2, c.wf, r.wf.goodPath hlg, r.goodRem, ?_, ?_, ?_, ?_, ?_, ?_, ?_⟩
      · intro p h1 _; exact ⟨(chgU p h1).2.1, (chgU p h1).1⟩
      · intro _ p h1 h2 h3
        obtain ⟨a, b, k1, k2, k3, k4, _⟩ := still p h1 h2 h3
        rw [findL p (chgU p h1).1.1, k1, k3]
      · intro _ p h1 h2 h3
        obtain ⟨a, b, k1, k2, k3, k4, _⟩ := still p h1 h2 h3
        rw [findR p (chgU p h1).1, k2, k4]
      · intro p h1 h2 h3 n hn
        obtain ⟨a, b, k1, k2, k3, k4, k5, _⟩ := still p h1 h2 h3
        rw [k3] at hn; cases hn; exact k5
      · intro p h1 h2 h3 n hn
        obtain ⟨a, b, k1, k2, k3, k4, _, k5⟩ := still p h1 h2 h3
        rw [k4] at hn; cases hn; exact k5
      · intro p h1 _ _; exact (free2 p (chgU p h1).1 (chgU p h1).2.1).1
      · intro p h1 _ _; exact (free2 p (chgU p h1).1 (chgU p h1).2.1).2
    have mayEff : ∀ {DL DR : Path → Prop} {fs : FS},
        (∀ p, DL p → Older w2.db w2.os.fs (mod.loc ++ new.loc) (mod.rem ++ new.rem) env.loc env.rem p) →
        (∀ p, DR p → Older w2.db w2.os.fs (mod.loc ++ new.loc) (mod.rem ++ new.rem) env.rem env.loc p) →
        ConflictEff env (conflictPath (env.stamp (w2.os.clk w2.os.tick))) DL DR w2.os.fs fs →
        Frame (EarlyMay env w) w.os.fs fs := by
      intro DL DR fs hL hR he
      refine cl.frame.trans (he.frame.mono ?_)
      rintro q (⟨p, hp, hq⟩ | ⟨p, hp, hq⟩)
      · obtain ⟨h1, _⟩ := hL p hp
        obtain ⟨hu, hg, _⟩ := chgU p h1
        rcases hq with rfl | rfl
        · exact Or.inr (Or.inr (Or.inr ⟨p, hu.1, rfl, Or.inr (Or.inr (Or.inr (Or.inr
            ⟨p, chg p h1, List.prefix_refl _⟩)))⟩))
        · refine Or.inr (Or.inr (Or.inr ⟨_, conflictPath_ne_nil stamp2 hg hu.1, rfl, Or.inl ?_⟩))
          rw [clk2]; exact (r.free _ p tick2 hu hg).1
      · obtain ⟨h1, _⟩ := hR p hp
        obtain ⟨hu, hg, _⟩ := chgU p h1
        rcases hq with rfl | rfl
        · exact Or.inr (Or.inr (Or.inl ⟨p, hu, rfl, Or.inr (Or.inl ⟨p, chg p h1, List.prefix_refl _⟩)⟩))
        · refine Or.inr (Or.inr (Or.inl ⟨_, userPath_conflictPath stamp2 hg hu, rfl, Or.inr (Or.inr ⟨?_, p, chg p h1,
            Or.inr ⟨w2.os.tick, tick2, by rw [clk2]⟩⟩)⟩))
          rw [clk2]; exact (r.free _ p tick2 hu hg).2
    have older : ∀ p, (Older w2.db w2.os.fs (mod.loc ++ new.loc) (mod.rem ++ new.rem) env.loc env.rem p ∨
        Older w2.db w2.os.fs (mod.loc ++ new.loc) (mod.rem ++ new.rem) env.rem env.loc p) →
        p ∈ mod.loc ++ new.loc ∧ p ∈ mod.rem ++ new.rem ∧ ¬ DirRow w2.db p := by
      rintro p (⟨h1, h2, h3, _⟩ | ⟨h1, h2, h3, _⟩) <;> exact ⟨h1, h2, h3⟩
    have ctx : ConflictCtx env w2.os.fs (conflictPath (env.stamp (w2.os.clk w2.os.tick)))
        (Older w2.db w2.os.fs (mod.loc ++ new.loc) (mod.rem ++ new.rem) env.loc env.rem)
        (Older w2.db w2.os.fs (mod.loc ++ new.loc) (mod.rem ++ new.rem) env.rem env.loc) := by
      refine ⟨?_, ?_, ?_, ?_, ?_, ?_, ?_⟩
      · intro p hp; exact ⟨(chgU p (older p hp).1).1, (chgU p (older p hp).1).2.1⟩
      · intro p hp
        obtain ⟨hu, hg, _⟩ := chgU p (older p hp).1
        exact ⟨userPath_conflictPath stamp2 hg hu, goodPath_conflictPath stamp2 hg hu.1⟩
      · intro p hp
        obtain ⟨hu, hg, _⟩ := chgU p (older p hp).1
        exact dropLast_conflictPath stamp2 hg hu.1
      · intro p hp
        obtain ⟨h1, h2, h3⟩ := older p hp
        obtain ⟨a, b, _, _, k3, k4, k5, k6⟩ := still p h1 h2 h3
        exact ⟨a, b, k3, k4, k5, k6⟩
      · intro p hp
        obtain ⟨hu, hg, _⟩ := chgU p (older p hp).1
        exact free2 p hu hg
      · intro p q hp hq h
        obtain ⟨hu, hg, _⟩ := chgU p (older p hp).1
        obtain ⟨hu', hg', _⟩ := chgU q (older q hq).1
        exact conflictPath_inj stamp2 hg hu.1 hg' hu'.1 h
      · rintro p ⟨_, _, _, a, b, h1, h2, h3⟩ ⟨_, _, _, a', b', h1', h2', h3'⟩
        rw [h1] at h2'; rw [h2] at h1'; cases h1'; cases h2'
        omega
    rw [wp_bind]
    refine wp_mono (wp_and (SteadyW.handleConflicts env _ _ w2) (wp_handleConflicts ready)) ?_ ?_
    swap
    · rintro e w' ⟨_, ⟨DL, DR, h1, h2, h3⟩, hkill⟩
      refine hE e w' (mayEff h1 h2 h3) ⟨DL, DR, h1, h2, ctx.mono h1 h2, h3⟩ (fun _ hl hr => hkill hl hr ?_)
      intro p k1 k2 k3
      obtain ⟨a, b, _, _, k4, k5, _⟩ := still p k1 k2 k3
      exact ⟨a, b, k4, k5⟩
    rintro upd w3 ⟨hst, H⟩
    have fr3 := mayEff (fun _ h => h) (fun _ h => h) H.files
    obtain ⟨prsL, prsR, n1, n2, m1, m2, hw3, hm1, hm2, mL, mR⟩ := H.rows
    have he := H.files
    have hnn := H.nonempty
    have hfnd := H.found
    have hloc := H.loc
    have hrem := H.rem
    generalize hOL : Older w2.db w2.os.fs (mod.loc ++ new.loc) (mod.rem ++ new.rem) env.loc env.rem = OL at *
    generalize hOR : Older w2.db w2.os.fs (mod.loc ++ new.loc) (mod.rem ++ new.rem) env.rem env.loc = OR at *
    generalize hcp : (conflictPath (env.stamp (w2.os.clk w2.os.tick))) = cp at *
    -- the databases
    have row1 : ∀ q, q ∈ ADB.paths w2.db ∨ q ∈ ADB.paths w2.rdb → q ∈ ADB.paths w1.db ∨ q ∈ ADB.paths w1.rdb := by
      rintro q (h | h)
      · exact Or.inl ((c.db q).1 h).1
      · exact Or.inr ((c.rdb q).1 h).1
    have base_db : Fit env w3.os.fs w2.db := by
      intro e hx
      refine (c.fit_db e hx).conflict r.apart he ?_
      intro p hp
      exact nofree_row p _ (ctx.user p hp).1 (ctx.user p hp).2 (row1 _ (Or.inl (List.mem_map.2 ⟨e, hx, rfl⟩)))
    have base_rdb : Fit env w3.os.fs w2.rdb := by
      intro e hx
      refine (c.fit_rdb e hx).conflict r.apart he ?_
      intro p hp
      exact nofree_row p _ (ctx.user p hp).1 (ctx.user p hp).2 (row1 _ (Or.inr (List.mem_map.2 ⟨e, hx, rfl⟩)))
    have hdL : ∀ pr ∈ prsL, ¬ DirRow w2.db pr.1 := by
      rintro ⟨p, q⟩ hpr
      exact (older p (Or.inl ((mL p q).1 hpr).1)).2.2
    have bL : ∀ pr ∈ prsL, Fits env w2.os.fs pr.2 false ∧ Fits env w3.os.fs pr.2 false := by
      rintro ⟨p, q⟩ hpr
      obtain ⟨h1, rfl⟩ := (mL p q).1 hpr
      exact ⟨ctx.fits c.wf (Or.inl h1), ctx.fits' r.apart c.wf he (Or.inl h1)⟩
    have bR : ∀ pr ∈ prsR, Fits env w3.os.fs pr.2 false := by
      rintro ⟨p, q⟩ hpr
      obtain ⟨h1, rfl⟩ := (mR p q).1 hpr
      exact ctx.fits' r.apart c.wf he (Or.inr h1)
    have FA := Fit.renamed (w := { w2 with lmemo := m1, rmemo := m2 }) (now := n1) c.fit_db c.fit_rdb hdL
      (fun pr hpr => (bL pr hpr).1)
    have hdR : ∀ pr ∈ prsR, ¬ DirRow (({ w2 with lmemo := m1, rmemo := m2 } : World).renamedRows prsL n1).db pr.1 := by
      rintro ⟨p, q⟩ hpr
      obtain ⟨a, b, h1, _, h3, _⟩ := ctx.both p (Or.inr ((mR p q).1 hpr).1)
      exact not_dirRow FA.1 h1 h3
    have FB := Fit.renamed (w := { w2 with lmemo := m1, rmemo := m2 }) (now := n1) base_db base_rdb hdL
      (fun pr hpr => (bL pr hpr).2)
    have FC := Fit.renamed (now := n2) FB.1 FB.2 hdR bR
    have NB := nodup_renamed (w := { w2 with lmemo := m1, rmemo := m2 }) (prs := prsL) (now := n1) c.nodup_db c.nodup
    have NC := nodup_renamed (prs := prsR) (now := n2) NB.1 NB.2
    have memC : ∀ q, q ∈ ADB.paths w3.db ↔ ((q ∈ ADB.paths w2.db ∧ ∀ pr ∈ prsL, ¬ pr.1 <+: q) ∨ ∃ pr ∈ prsL, q = pr.2) ∧
        (∀ pr ∈ prsR, ¬ pr.1 <+: q) ∨ ∃ pr ∈ prsR, q = pr.2 := by
      intro q
      rw [hw3]
      show q ∈ ADB.paths (World.renamedRows _ prsR n2).db ↔ _
      rw [mem_renamedRows_db hdR, mem_renamedRows_db (w := { w2 with lmemo := m1, rmemo := m2 }) hdL]
    have memI : ∀ q, q ∈ ADB.paths w3.rdb ↔ (q ∈ ADB.paths w2.rdb ∨ ∃ pr ∈ prsL, q = pr.2) ∨ ∃ pr ∈ prsR, q = pr.2 := by
      intro q
      rw [hw3]
      show q ∈ ADB.paths (World.renamedRows _ prsR n2).rdb ↔ _
      rw [mem_renamedRows_rdb hdR, mem_renamedRows_rdb (w := { w2 with lmemo := m1, rmemo := m2 }) hdL]
    have memR : ∀ q, q ∈ ADB.paths w2.rdb → q ∈ ADB.paths w3.rdb :=
      fun q hq => (memI q).2 (Or.inl (Or.inl hq))
    have hdb3 : w3.db = ((({ w2 with lmemo := m1, rmemo := m2 } : World).renamedRows prsL n1).renamedRows prsR n2).db := by
      rw [hw3]
    have hrdb3 : w3.rdb = ((({ w2 with lmemo := m1, rmemo := m2 } : World).renamedRows prsL n1).renamedRows prsR n2).rdb := by
      rw [hw3]
    have fitK : ∀ p, OL p ∨ OR p → Fits env w3.os.fs p false := by
      intro p hp
      obtain ⟨a, b, h1, h2, h3, h4⟩ := ctx.both p hp
      refine (tidy2.fits c.wf (ctx.user p hp).1 ⟨a, Or.inl h1, h3⟩).conflict r.apart he ?_
      intro p' hp'
      exact nofree p' p (ctx.user p' hp').1 (ctx.user p' hp').2 (Or.inl (older p hp).1)
    have rows3 : ∀ q, q ∈ mod.loc ++ new.loc ∨ q ∈ mod.rem ++ new.rem →
        (q ∈ ADB.paths w3.db ∨ Fits env w3.os.fs q false) ∧ (q ∈ ADB.paths w3.rdb ∨ Fits env w3.os.fs q false) := by
      intro q hq
      rcases rows2 q hq with ⟨h1, h2⟩ | h1
      · refine ⟨?_, Or.inl (memR q h2)⟩
        by_cases h3 : q ∈ ADB.paths w3.db
        · exact Or.inl h3
        · right
          obtain ⟨p, hp, hpq⟩ : ∃ p, (OL p ∨ OR p) ∧ p <+: q := by
            apply Classical.byContradiction
            intro hcon
            apply h3
            rw [memC]
            refine Or.inl ⟨Or.inl ⟨h1, ?_⟩, ?_⟩
            · rintro ⟨p, x⟩ hpr hpq
              exact hcon ⟨p, Or.inl ((mL p x).1 hpr).1, hpq⟩
            · rintro ⟨p, x⟩ hpr hpq
              exact hcon ⟨p, Or.inr ((mR p x).1 hpr).1, hpq⟩
          by_cases hpq' : p = q
          · subst hpq'; exact fitK p hp
          · obtain ⟨d, f⟩ := c.fit_db.path h1
            obtain ⟨a, b, k1, _, k3, _⟩ := ctx.both p hp
            have := f.aboveL p a hpq hpq' k1
            rw [k3] at this; cases this
      · have : Fits env w3.os.fs q false := h1.conflict r.apart he
          (fun p hp => nofree p q (ctx.user p hp).1 (ctx.user p hp).2 hq)
        exact ⟨Or.inr this, Or.inr this⟩
    refine hk upd w3 cp OL OR ?_ ?_
    swap
    · refine ⟨he, ctx, fun p hp => ⟨(older p hp).1, (older p hp).2.1⟩, ?_, ?_, ?_, ?_, ?_, ?_, ?_,
        hcp.symm, fun p => by rw [← hOL], fun p => by rw [← hOR], hfnd, hst.2, prsL, prsR, n1, n2, ?_, ?_, mL, mR⟩
      · intro f
        constructor
        · intro hf
          exact ⟨hnn f (Or.inl hf), (hloc f (hnn f (Or.inl hf))).1 hf⟩
        · rintro ⟨h1, h2⟩; exact (hloc f h1).2 h2
      · intro f
        constructor
        · intro hf
          exact ⟨hnn f (Or.inr hf), (hrem f (hnn f (Or.inr hf))).1 hf⟩
        · rintro ⟨h1, h2⟩; exact (hrem f h1).2 h2
      · intro q hq hno
        refine (memC q).2 (Or.inl ⟨Or.inl ⟨hq, ?_⟩, ?_⟩)
        · rintro ⟨p, x⟩ hpr; exact hno p (Or.inl ((mL p _).1 hpr).1)
        · rintro ⟨p, x⟩ hpr; exact hno p (Or.inr ((mR p _).1 hpr).1)
      · intro q hq
        rcases (memC q).1 hq with ⟨⟨h1, _⟩ | ⟨⟨p, x⟩, h1, rfl⟩, _⟩ | ⟨⟨p, x⟩, h1, rfl⟩
        · exact Or.inl h1
        · exact Or.inr ⟨p, Or.inl ((mL p _).1 h1).1, ((mL p _).1 h1).2⟩
        · exact Or.inr ⟨p, Or.inr ((mR p _).1 h1).1, ((mR p _).1 h1).2⟩
      · intro q
        rw [memI]
        constructor
        · rintro ((h1 | ⟨⟨p, x⟩, h1, rfl⟩) | ⟨⟨p, x⟩, h1, rfl⟩)
          · exact Or.inl h1
          · exact Or.inr ⟨p, Or.inl ((mL p _).1 h1).1, ((mL p _).1 h1).2⟩
          · exact Or.inr ⟨p, Or.inr ((mR p _).1 h1).1, ((mR p _).1 h1).2⟩
        · rintro (h1 | ⟨p, h1 | h1, rfl⟩)
          · exact Or.inl (Or.inl h1)
          · exact Or.inl (Or.inr ⟨(p, cp p), (mL p _).2 ⟨h1, rfl⟩, rfl⟩)
          · exact Or.inr ⟨(p, cp p), (mR p _).2 ⟨h1, rfl⟩, rfl⟩
      · have : w3.lmemo = m1 := by rw [hw3]; rfl
        rw [this]; exact hm1
      · have : w3.rmemo = m2 := by rw [hw3]; rfl
        rw [this]; exact hm2
      · rw [hdb3, (renamedRows_db hdR).1, (renamedRows_db (w := { w2 with lmemo := m1, rmemo := m2 }) hdL).1]
      · rw [hrdb3, (renamedRows_db hdR).2, (renamedRows_db (w := { w2 with lmemo := m1, rmemo := m2 }) hdL).2]
    refine ⟨fr3, hst.1.trans clk2, Nat.le_trans tick2 hst.2, he.wf, ctx.tidy r.apart tidy2 he, by rw [hdb3]; exact FC.1, by rw [hrdb3]; exact FC.2,
      by rw [hdb3]; exact NC.1, by rw [hrdb3]; exact NC.2, ?_, ?_, ?_, ?_, ?_⟩
    · obtain ⟨l, h1, h2⟩ := sc.ex
      refine ⟨l, ?_, h2⟩
      rw [hw3]
      exact c.matches_.trans h1
    · intro f hf
      rcases (hloc f (hnn f (Or.inl hf))).1 hf with ⟨h1, _⟩ | ⟨p, h1, rfl⟩
      · exact ⟨(chgU f h1).1, Or.inl (chg f h1)⟩
      · refine ⟨(ctx.cuser p (Or.inl h1)).1, Or.inr ⟨p, w2.os.tick, tick2, chg p (older p (Or.inl h1)).1,
          (ctx.user p (Or.inl h1)).1, (ctx.user p (Or.inl h1)).2, ?_⟩⟩
        rw [← clk2, hcp]
    · rintro f (hf | hf)
      · rcases (hloc f (hnn f (Or.inl hf))).1 hf with ⟨h1, _⟩ | ⟨p, h1, rfl⟩
        · exact rows3 f (Or.inl h1)
        · have := ctx.fits' r.apart c.wf he (Or.inl h1)
          exact ⟨Or.inr this, Or.inr this⟩
      · rcases (hrem f (hnn f (Or.inr hf))).1 hf with ⟨h1, _⟩ | ⟨p, h1, rfl⟩
        · exact rows3 f (Or.inr h1)
        · have := ctx.fits' r.apart c.wf he (Or.inr h1)
          exact ⟨Or.inr this, Or.inr this⟩
    · intro f hf
      rcases (hloc f (hnn f (Or.inl hf))).1 hf with ⟨h1, _⟩ | ⟨p, h1, rfl⟩
      · exact Or.inl (chg f h1)
      · exact Or.inr (ctx.fits' r.apart c.wf he (Or.inl h1))
    · intro p d hf hex
      refine (hf.less less2).conflict r.apart he ?_
      intro x hx
      have := r.not_below_free tick2 (ctx.user x hx).1 (ctx.user x hx).2 hex
      rw [← clk2, hcp] at this
      exact this

end

end Verif
