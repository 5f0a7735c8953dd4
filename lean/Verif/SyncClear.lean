import Verif.SyncSteps
import Verif.TrashFresh
/-
A whole sync: the deletions.
-/
namespace Verif
open Prog OSM Call FSTools WM

theorem plain_not_trash {env : Env} {p q : Path} (hp : PlainPath p) (h : env.trash <+: q) : env.rem ++ p ≠ q := by
  rintro rfl
  obtain ⟨t, e⟩ := h
  unfold Env.trash Env.util at e
  rw [List.append_assoc, List.append_assoc, List.append_cancel_left_eq] at e
  rw [← e] at hp
  exact hp rfl

theorem loc_not_trash {env : Env} (h : Apart env.loc env.rem) {p q : Path} (ht : env.trash <+: q) :
    env.loc ++ p ≠ q := by
  rintro rfl
  obtain ⟨t, e⟩ := ht
  unfold Env.trash Env.util at e
  rw [List.append_assoc, List.append_assoc] at e
  exact h.ne p _ e.symm

/-- What is in the trash already is not changed before the end of a sync. -/
theorem trash_fixed {env : Env} {w : World} (ap : Apart env.loc env.rem) {c : Str} {n : Node}
    (h : w.os.fs.get (env.trash ++ [c]) = some n) {q : Path} (hq : env.trash ++ [c] <+: q) : ¬ EarlyMay env w q := by
  have ht : env.trash <+: q := (List.prefix_append _ _).trans hq
  rintro (h1 | (h1 | ⟨d, h1, h2⟩) | ⟨x, hx, h1, _⟩ | ⟨x, _, h1, _⟩)
  · rw [h1] at ht
    unfold Env.trash Env.exclDir at ht
    rw [List.append_assoc, List.prefix_append_right_inj] at ht
    simp at ht
  · rw [h1] at hq
    have := hq.length_le
    simp at this
  · have := List.prefix_of_prefix_length_le h2 hq (by simp)
    rw [List.prefix_append_right_inj] at this
    simp at this
    rw [this, h] at h1; cases h1
  · exact plain_not_trash hx.plain ht h1.symm
  · exact loc_not_trash ap ht h1.symm

theorem nodup_rmRows {w : World} (ps : List Path) (h1 : (ADB.paths w.db).Nodup) (h2 : (ADB.paths w.rdb).Nodup) :
    (ADB.paths (w.rmRows ps).db).Nodup ∧ (ADB.paths (w.rmRows ps).rdb).Nodup := by
  refine ⟨?_, ?_⟩
  · show (ADB.paths (ALocal.refresh (ADB.rmCore w.db ps) (DB.parentsOf ps))).Nodup
    rw [paths_refresh]
    exact List.Nodup.sublist (List.Sublist.map _ List.filter_sublist) h1
  · exact List.Nodup.sublist (List.Sublist.map _ List.filter_sublist) h2

/-- In `root`, only what is at or below one of the paths is gone. -/
def KeptAt (root : Path) (ds : List Path) (a b : FS) : Prop :=
  ∀ p, PlainPath p → (∀ d ∈ ds, ¬ d <+: p) → ∀ n, a.get (root ++ p) = some n →
    ∃ n', b.get (root ++ p) = some n' ∧ n'.isDir = n.isDir ∧ (n.isDir = false → n' = n)

theorem KeptAt.trans {root : Path} {ds ds' : List Path} {a b c : FS} (h1 : KeptAt root ds a b)
    (h2 : KeptAt root ds' b c) : KeptAt root (ds ++ ds') a c := by
  intro p hp hd n hn
  obtain ⟨n1, e1, e2, e3⟩ := h1 p hp (fun d hd' => hd d (List.mem_append_left _ hd')) n hn
  obtain ⟨n2, f1, f2, f3⟩ := h2 p hp (fun d hd' => hd d (List.mem_append_right _ hd')) n1 e1
  refine ⟨n2, f1, f2.trans e2, fun h => ?_⟩
  rw [f3 (e2.trans h), e3 h]

theorem KeptAt.mono {root : Path} {ds ds' : List Path} {a b : FS} (h1 : KeptAt root ds a b)
    (h : ∀ d ∈ ds, d ∈ ds') : KeptAt root ds' a b :=
  fun p hp hd => h1 p hp (fun d hd' => hd d (h d hd'))

theorem KeptAt.of_eq {root : Path} {ds : List Path} {a b : FS}
    (h : ∀ p, PlainPath p → (∀ d ∈ ds, ¬ d <+: p) → b.get (root ++ p) = a.get (root ++ p)) : KeptAt root ds a b :=
  fun p hp hd n hn => ⟨n, (h p hp hd).trans hn, rfl, fun _ => rfl⟩

/-- The paths `A` have been removed from the local directory, and `B` from the remote directory. -/
structure Clearing (env : Env) (w1 : World) (A B : List Path) (w' : World) : Prop where
  wf : w'.os.fs.WF
  less : Less env w1.os.fs w'.os.fs
  locOld : ∀ p n, w'.os.fs.get (env.loc ++ p) = some n → ∃ n, w1.os.fs.get (env.loc ++ p) = some n
  lmemo : w'.lmemo = w1.lmemo
  rmemo : w'.rmemo = w1.rmemo
  matches_ : w'.matches_ = w1.matches_
  keptL : KeptAt env.loc A w1.os.fs w'.os.fs
  keptR : KeptAt env.rem B w1.os.fs w'.os.fs
  goneL : ∀ d ∈ A, ∀ q, d <+: q → w'.os.fs.get (env.loc ++ q) = none
  goneR : ∀ d ∈ B, ∀ q, d <+: q → w'.os.fs.get (env.rem ++ q) = none
  db : ∀ q, q ∈ ADB.paths w'.db ↔ q ∈ ADB.paths w1.db ∧ ∀ d ∈ A ++ B, ¬ d <+: q
  rdb : ∀ q, q ∈ ADB.paths w'.rdb ↔ q ∈ ADB.paths w1.rdb ∧ ∀ d ∈ A ++ B, ¬ d <+: q
  fit_db : Fit env w'.os.fs w'.db
  fit_rdb : Fit env w'.os.fs w'.rdb
  nodup_db : (ADB.paths w'.db).Nodup
  nodup : (ADB.paths w'.rdb).Nodup
  tr : ∃ pss : List (List Path), w'.db = pss.foldl ALocal.rmPaths w1.db ∧ w'.rdb = pss.foldl ARemote.rmPaths w1.rdb ∧
    ∀ ps ∈ pss, ∀ p ∈ ps, p ∈ A ++ B

section
variable {env : Env} {w1 w2 w3 : World} {A B ps : List Path}

theorem Clearing.start (wf : w1.os.fs.WF) (h1 : Fit env w1.os.fs w1.db) (h2 : Fit env w1.os.fs w1.rdb)
    (h3 : (ADB.paths w1.db).Nodup) (h4 : (ADB.paths w1.rdb).Nodup) : Clearing env w1 [] [] w1 :=
  ⟨wf, Less.refl _ _, fun _ n h => ⟨n, h⟩, rfl, rfl, rfl, KeptAt.of_eq (fun _ _ _ => rfl), KeptAt.of_eq (fun _ _ _ => rfl),
    by simp, by simp, by simp, by simp, h1, h2, h3, h4, [], rfl, rfl, by simp⟩

/-- One more round. -/
theorem Clearing.step (c : Clearing env w1 A B w2) (A' B' : List Path) (hps : ∀ d, d ∈ ps ↔ d ∈ A' ∨ d ∈ B')
    (hw : w3 = { w2.rmRows ps with os := w3.os })
    (wf : w3.os.fs.WF)
    (hless : Less env w2.os.fs w3.os.fs)
    (hold : ∀ p n, w3.os.fs.get (env.loc ++ p) = some n → ∃ n, w2.os.fs.get (env.loc ++ p) = some n) (kL : KeptAt env.loc A' w2.os.fs w3.os.fs)
    (kR : KeptAt env.rem B' w2.os.fs w3.os.fs)
    (gL : ∀ d ∈ A', ∀ q, d <+: q → w3.os.fs.get (env.loc ++ q) = none)
    (gR : ∀ d ∈ B', ∀ q, d <+: q → w3.os.fs.get (env.rem ++ q) = none)
    (hA : ∀ d ∈ A, UserPath d) (hB : ∀ d ∈ B, UserPath d) :
    Clearing env w1 (A ++ A') (B ++ B') w3 := by
  have lessN : ∀ {root q}, LessAt root w2.os.fs w3.os.fs → PlainPath q → w2.os.fs.get (root ++ q) = none →
      w3.os.fs.get (root ++ q) = none := by
    intro root q h hq hn
    rcases Option.eq_none_or_eq_some (w3.os.fs.get (root ++ q)) with h1 | ⟨n, h1⟩
    · exact h1
    · obtain ⟨n1, e1, _⟩ := h q hq n h1
      rw [hn] at e1; cases e1
  have hd : ∀ q, (∀ d ∈ A ++ A' ++ (B ++ B'), ¬ d <+: q) ↔ (∀ d ∈ A ++ B, ¬ d <+: q) ∧ ∀ d ∈ ps, ¬ d <+: q := by
    intro q
    simp only [List.mem_append, hps]
    constructor
    · intro h
      refine ⟨fun d hd => h d ?_, fun d hd => h d ?_⟩
      · rcases hd with hd | hd
        · exact Or.inl (Or.inl hd)
        · exact Or.inr (Or.inl hd)
      · rcases hd with hd | hd
        · exact Or.inl (Or.inr hd)
        · exact Or.inr (Or.inr hd)
    · rintro ⟨h1, h2⟩ d ((hd | hd) | (hd | hd))
      · exact h1 d (Or.inl hd)
      · exact h2 d (Or.inl hd)
      · exact h1 d (Or.inr hd)
      · exact h2 d (Or.inr hd)
  have fit := Fit.rmRows (w := w2) ps (c.fit_db.less hless) (c.fit_rdb.less hless)
  have nod := nodup_rmRows (w := w2) ps c.nodup_db c.nodup
  have hdb : w3.db = (w2.rmRows ps).db := by rw [hw]
  have hrdb : w3.rdb = (w2.rmRows ps).rdb := by rw [hw]
  refine ⟨wf, c.less.trans hless, fun p n h => (hold p n h).elim (c.locOld p), ?_, ?_, ?_, c.keptL.trans kL, c.keptR.trans kR, ?_, ?_, ?_, ?_, ?_, ?_, ?_, ?_, ?_⟩
  · rw [hw]; exact c.lmemo
  · rw [hw]; exact c.rmemo
  · rw [hw]; exact c.matches_
  · intro d hd q hq
    rcases List.mem_append.1 hd with h | h
    · exact lessN hless.1 ((PlainPath.extend (hA d h) hq).plain) (c.goneL d h q hq)
    · exact gL d h q hq
  · intro d hd q hq
    rcases List.mem_append.1 hd with h | h
    · exact lessN hless.2 ((PlainPath.extend (hB d h) hq).plain) (c.goneR d h q hq)
    · exact gR d h q hq
  · intro q
    rw [hdb, mem_rmRows_db, c.db, hd, and_assoc]
  · intro q
    rw [hrdb, mem_rmRows_rdb, c.rdb, hd, and_assoc]
  · rw [hdb]; exact fit.1
  · rw [hrdb]; exact fit.2
  · rw [hdb]; exact nod.1
  · rw [hrdb]; exact nod.2
  · obtain ⟨pss, h1, h2, h3⟩ := c.tr
    refine ⟨pss ++ [ps], ?_, ?_, ?_⟩
    · rw [List.foldl_append, ← h1, hdb]; rfl
    · rw [List.foldl_append, ← h2, hrdb]; rfl
    · intro qs hqs p hp
      rcases List.mem_append.1 hqs with h | h
      · rcases List.mem_append.1 (h3 qs h p hp) with h | h
        · exact List.mem_append_left _ (List.mem_append_left _ h)
        · exact List.mem_append_right _ (List.mem_append_left _ h)
      · rw [List.mem_singleton] at h
        rw [h] at hp
        rcases (hps p).1 hp with h | h
        · exact List.mem_append_left _ (List.mem_append_right _ h)
        · exact List.mem_append_right _ (List.mem_append_right _ h)

theorem Clearing.stepLocal (ap : Apart env.loc env.rem) (c : Clearing env w1 A B w2)
    (hsh : Shrink (fun q => ∃ p ∈ ps, env.loc ++ p <+: q) w2.os.fs w3.os.fs)
    (hg : ∀ p ∈ ps, ∀ q, env.loc ++ p <+: q → w3.os.fs.get q = none)
    (hw : w3 = { w2.rmRows ps with os := w3.os })
    (hA : ∀ d ∈ A, UserPath d) (hB : ∀ d ∈ B, UserPath d) : Clearing env w1 (A ++ ps) B w3 := by
  have := c.step (w3 := w3) ps [] (by simp) hw (hsh.wf c.wf) (hsh.less env) (fun _ n h => ⟨n, hsh.some h⟩) ?_ ?_ ?_ (by simp) hA hB
  · simpa using this
  · refine KeptAt.of_eq (fun p _ hd => hsh.keeps _ ?_)
    rintro ⟨d, h1, h2⟩
    exact hd d h1 ((List.prefix_append_right_inj _).1 h2)
  · refine KeptAt.of_eq (fun p _ _ => hsh.keeps _ ?_)
    rintro ⟨d, h1, t, h2⟩
    rw [List.append_assoc] at h2
    exact ap.ne _ _ h2
  · intro d hd q hq
    exact hg d hd _ ((List.prefix_append_right_inj _).2 hq)

theorem Clearing.stepRemote (ap : Apart env.loc env.rem) (c : Clearing env w1 A B w2)
    (hsh : Shrink (fun q => ∃ p ∈ ps, env.rem ++ p <+: q) w2.os.fs w3.os.fs)
    (hg : ∀ p ∈ ps, ∀ q, env.rem ++ p <+: q → w3.os.fs.get q = none)
    (hw : w3 = { w2.rmRows ps with os := w3.os })
    (hA : ∀ d ∈ A, UserPath d) (hB : ∀ d ∈ B, UserPath d) :
    Clearing env w1 A (B ++ ps) w3 := by
  have := c.step (w3 := w3) [] ps (by simp) hw (hsh.wf c.wf) (hsh.less env) (fun _ n h => ⟨n, hsh.some h⟩) ?_ ?_ (by simp) ?_ hA hB
  · simpa using this
  · refine KeptAt.of_eq (fun p _ _ => hsh.keeps _ ?_)
    rintro ⟨d, h1, t, h2⟩
    rw [List.append_assoc] at h2
    exact ap.symm.ne _ _ h2
  · refine KeptAt.of_eq (fun p _ hd => hsh.keeps _ ?_)
    rintro ⟨d, h1, h2⟩
    exact hd d h1 ((List.prefix_append_right_inj _).1 h2)
  · intro d hd q hq
    exact hg d hd _ ((List.prefix_append_right_inj _).2 hq)

theorem isDir_of_data {a b : Node} (h : a.data = b.data) : a.isDir = b.isDir := by
  cases a <;> cases b <;> simp_all [Node.data, Node.touch, Node.isDir]

theorem Clearing.stepTrash (ap : Apart env.loc env.rem) (c : Clearing env w1 A B w2) {f0 : FS} {tn : Path → Str}
    {done : List Path} (hgr : Grow (· = env.trash) w2.os.fs f0) (hi : TrashInv env ps tn f0 done w3.os.fs)
    (hdone : ∀ p ∈ ps, p ∈ done)
    (hw : w3 = { w2.rmRows ps with os := w3.os })
    (hA : ∀ d ∈ A, UserPath d) (hB : ∀ d ∈ B, UserPath d) :
    Clearing env w1 A (B ++ ps) w3 := by
  have f0N : ∀ q, q ≠ env.trash → f0.get q = w2.os.fs.get q := by
    intro q hq
    rcases Option.eq_none_or_eq_some (w2.os.fs.get q) with h1 | ⟨n, h1⟩
    · rcases hgr.new q h1 with h2 | ⟨h2, _⟩
      · rw [h1, h2]
      · exact absurd h2 hq
    · rw [h1, hgr.keeps q n h1]
  have f0L : ∀ p, f0.get (env.loc ++ p) = w2.os.fs.get (env.loc ++ p) :=
    fun p => f0N _ (loc_not_trash ap (List.prefix_refl _))
  have f0R : ∀ p, PlainPath p → f0.get (env.rem ++ p) = w2.os.fs.get (env.rem ++ p) :=
    fun p hp => f0N _ (plain_not_trash hp (List.prefix_refl _))
  have notL : ∀ p, ¬ InBatch env ps (env.loc ++ p) := by
    rintro p ⟨d, _, t, h⟩
    rw [List.append_assoc] at h
    exact ap.symm.ne _ _ h
  have kept : ∀ x n, f0.get x = some n → ¬ InBatch env ps x → ∃ n', w3.os.fs.get x = some n' ∧
      n'.isDir = n.isDir ∧ (n.isDir = false → n' = n) := by
    intro x n h1 h2
    obtain ⟨n', e1, e2, e3⟩ := hi.kept x n h1 h2
    exact ⟨n', e1, isDir_of_data e2, e3⟩
  have gone : ∀ x, InBatch env ps x → w3.os.fs.get x = none := by
    rintro x ⟨p, h1, h2⟩
    exact hi.gone p (hdone p h1) x h2
  have back : ∀ x, ¬ env.trash <+: x → ∀ n', w3.os.fs.get x = some n' → ∃ n, f0.get x = some n ∧
      n.isDir = n'.isDir ∧ (n'.isDir = false → n = n') := by
    intro x hx n' hn'
    have hb : ¬ InBatch env ps x := by
      intro h
      rw [gone x h] at hn'; cases hn'
    rcases hi.new x n' hn' with ⟨n, h1⟩ | ⟨p, _, h1⟩
    · obtain ⟨k, e1, e2, e3⟩ := kept x n h1 hb
      rw [hn'] at e1; cases e1
      exact ⟨n, h1, e2.symm, fun h => (e3 (e2.symm.trans h)).symm⟩
    · exact absurd ((List.prefix_append _ _).trans h1) hx
  have := c.step (w3 := w3) [] ps (by simp) hw hi.wf ?_ ?_ ?_ ?_ (by simp) ?_ hA hB
  · simpa using this
  · refine ⟨?_, ?_⟩
    · intro p _ n' hn'
      obtain ⟨n, e1, e2⟩ := back _ (fun h => loc_not_trash ap h rfl) n' hn'
      exact ⟨n, by rw [← f0L]; exact e1, e2⟩
    · intro p hp n' hn'
      obtain ⟨n, e1, e2⟩ := back _ (fun h => plain_not_trash hp h rfl) n' hn'
      exact ⟨n, by rw [← f0R p hp]; exact e1, e2⟩
  · intro p n' hn'
    obtain ⟨n, e1, _⟩ := back _ (fun h => loc_not_trash ap h rfl) n' hn'
    exact ⟨n, by rw [← f0L]; exact e1⟩
  · intro p _ _ n hn
    exact kept _ n (by rw [f0L]; exact hn) (notL p)
  · intro p hp hd n hn
    refine kept _ n (by rw [f0R p hp]; exact hn) ?_
    rintro ⟨d, h1, h2⟩
    exact hd d h1 ((List.prefix_append_right_inj _).1 h2)
  · intro d hd q hq
    exact gone _ ⟨d, hd, (List.prefix_append_right_inj _).2 hq⟩

end

/-- What holds after the deletions. -/
structure Cleared (env : Env) (w : World) (del : DeletedPaths) (w1 w2 : World) : Prop where
  frame : Frame (EarlyMay env w) w.os.fs w2.os.fs
  clk : w2.os.clk = w1.os.clk
  tick : w1.os.tick ≤ w2.os.tick
  clearing : ∃ A B, Clearing env w1 A B w2 ∧ (∀ d ∈ A, UserPath d ∧ GoneRemotely env w d) ∧
    (∀ d ∈ B, UserPath d ∧ GoneLocally env w d) ∧ (∀ d ∈ del.loc, ¬ OwnExcludes env w.os.fs d → d ∈ A) ∧
    (∀ d, d ∈ del.rem ∨ d ∈ del.trash → d ∈ B) ∧ ∀ d ∈ A, ¬ OwnExcludes env w.os.fs d
  trashed : ∀ d ∈ del.trash, ∀ n, w.os.fs.get (env.rem ++ d) = some n → n.isLink = false →
    (∀ p, p ∈ del.rem ∨ p ∈ del.trash → p <+: d ∨ d <+: p → p = d) →
    (∀ p ∈ del.trash, ∀ t, TrashTarget env w.os.fs p t → TrashTarget env w.os.fs d t → p = d) →
    ∃ t k, w.os.fs.get (env.trash ++ [t]) = none ∧ w1.os.tick ≤ k ∧ k ≤ w2.os.tick ∧
      InTrash env w.os.fs d n (w1.os.clk k) t w2.os.fs
  noTrash : del.trash = [] → ∀ c, w.os.fs.get (env.trash ++ [c]) = none → w2.os.fs.get (env.trash ++ [c]) = none

/-- What a sync that ends during the deletions has done to the two directories. -/
structure ClearPart (env : Env) (w : World) (fs' : FS) : Prop where
  loc : ∀ p, PlainPath p → (∀ d, GoneRemotely env w d → ¬ OwnExcludes env w.os.fs d → ¬ d <+: p) →
    ∀ n, w.os.fs.get (env.loc ++ p) = some n →
      ∃ n', fs'.get (env.loc ++ p) = some n' ∧ n'.isDir = n.isDir ∧ (n.isDir = false → n' = n)
  rem : ∀ p, PlainPath p → (∀ d, GoneLocally env w d → ¬ d <+: p) → ∀ n, w.os.fs.get (env.rem ++ p) = some n →
      ∃ n', fs'.get (env.rem ++ p) = some n' ∧ n'.isDir = n.isDir ∧ (n.isDir = false → n' = n)

theorem ClearPart.of {env : Env} {w : World} {A B : List Path} {fs1 fs' : FS} (r : SyncReady env w)
    (st : SyncStart env w fs1) (hA : ∀ d ∈ A, GoneRemotely env w d ∧ ¬ OwnExcludes env w.os.fs d)
    (hB : ∀ d ∈ B, GoneLocally env w d) (kL : KeptAt env.loc A fs1 fs') (kR : KeptAt env.rem B fs1 fs') :
    ClearPart env w fs' :=
  ⟨fun p hp hd n hn => kL p hp (fun d h => hd d (hA d h).1 (hA d h).2) n (by rw [st.loc r]; exact hn),
    fun p hp hd n hn => kR p hp (fun d h => hd d (hB d h)) n (by rw [st.rem hp]; exact hn)⟩

/-- What the trash does not hold is kept while paths are moved there. -/
theorem TrashInv.keptAt {env : Env} {ps : List Path} {tn : Path → Str} {f0 f1 fs' : FS} {done : List Path}
    (ap : Apart env.loc env.rem) (hgr : Grow (· = env.trash) f0 f1) (h : TrashInv env ps tn f1 done fs') :
    KeptAt env.loc [] f0 fs' ∧ KeptAt env.rem ps f0 fs' := by
  refine ⟨?_, ?_⟩
  · intro p _ _ n hn
    obtain ⟨n', e1, e2, e3⟩ := h.kept _ n (hgr.keeps _ n hn) (by
      rintro ⟨d, _, t, e⟩
      rw [List.append_assoc] at e
      exact ap.symm.ne _ _ e)
    exact ⟨n', e1, isDir_of_data e2, e3⟩
  · intro p _ hd n hn
    obtain ⟨n', e1, e2, e3⟩ := h.kept _ n (hgr.keeps _ n hn) (by
      rintro ⟨d, h1, h2⟩
      exact hd d h1 ((List.prefix_append_right_inj _).1 h2))
    exact ⟨n', e1, isDir_of_data e2, e3⟩

theorem Grow.keptAt {root : Path} {ds : List Path} {P : Path → Prop} {a b : FS} (h : Grow P a b) : KeptAt root ds a b :=
  fun _ _ _ n hn => ⟨n, h.keeps _ n hn, rfl, fun _ => rfl⟩

theorem Shrink.keptAt {root other : Path} {ps : List Path} (ap : Apart root other) {a b : FS}
    (h : Shrink (fun q => ∃ p ∈ ps, root ++ p <+: q) a b) : KeptAt root ps a b ∧ KeptAt other [] a b := by
  refine ⟨KeptAt.of_eq (fun p _ hd => h.keeps _ ?_), KeptAt.of_eq (fun p _ _ => h.keeps _ ?_)⟩
  · rintro ⟨d, h1, h2⟩
    exact hd d h1 ((List.prefix_append_right_inj _).1 h2)
  · rintro ⟨d, _, t, h2⟩
    rw [List.append_assoc] at h2
    exact ap.ne _ _ h2

theorem wp_all {σ α ι : Type} {m : Prog σ α} {Q : ι → α → σ → Prop} {s : σ}
    (h : ∀ i, wp m (Q i) (fun _ _ => True) s) : wp m (fun a s' => ∀ i, Q i a s') (fun _ _ => True) s := by
  unfold wp at *
  split
  · rename_i a s' hm
    intro i
    have := h i
    rw [hm] at this
    exact this
  · trivial

theorem wp_clear {env : Env} {w w1 : World} {del : DeletedPaths} {new mod : UpdatedPaths} {α : Type} {k : WM α}
    {Q : α → World → Prop} {E : Err → World → Prop} (r : SyncReady env w) (sc : Scanned env w del new mod w1)
    (hk : ∀ w2, Cleared env w del w1 w2 → wp k Q E w2)
    (hE : ∀ e w', Frame (EarlyMay env w) w.os.fs w'.os.fs → ClearPart env w w'.os.fs → E e w') :
    wp (rmLocalFiles env del.loc >>= fun _ => rmRemoteFiles env del.rem >>= fun _ =>
      trashFiles env del.trash >>= fun _ => k) Q E w1 := by
  obtain ⟨ex, hex, hexm⟩ := sc.ex
  have less0 := sc.start.less r
  have fr1 : Frame (EarlyMay env w) w.os.fs w1.os.fs := sc.start.only.frame.mono (fun q hq => Or.inl hq)
  have mayL : ∀ q, (∃ p ∈ del.loc.filter (fun p => decide (p ∉ ex)), env.loc ++ p <+: q) → EarlyMay env w q := by
    rintro q ⟨d, h1, t, rfl⟩
    rw [List.mem_filter, decide_eq_true_eq] at h1
    obtain ⟨h2, _, h3⟩ := sc.delLoc d h1.1
    refine Or.inr (Or.inr (Or.inr ⟨d ++ t, by simp [h2.1], by simp, Or.inr (Or.inr (Or.inl ⟨d, h3, ?_, by simp⟩))⟩))
    exact fun h => h1.2 ((hexm d).2 h)
  have mayR : ∀ q, (∃ p, (p ∈ del.rem ∨ p ∈ del.trash) ∧ env.rem ++ p <+: q) → EarlyMay env w q := by
    rintro q ⟨d, h1, t, rfl⟩
    obtain ⟨h2, _, h3⟩ := sc.delRem d h1
    exact Or.inr (Or.inr (Or.inl ⟨d ++ t, PlainPath.extend h2 (by simp), by simp, Or.inl ⟨d, h3, by simp⟩⟩))
  have uL : ∀ d ∈ del.loc.filter (fun p => decide (p ∉ ex)), UserPath d ∧ GoneRemotely env w d := by
    intro d hd
    obtain ⟨h2, _, h3⟩ := sc.delLoc d (List.mem_filter.1 hd).1
    exact ⟨h2, h3⟩
  have uR : ∀ d ∈ del.rem, UserPath d ∧ GoneLocally env w d := by
    intro d hd
    obtain ⟨h2, _, h3⟩ := sc.delRem d (Or.inl hd)
    exact ⟨h2, h3⟩
  have uT : ∀ d ∈ del.trash, UserPath d ∧ GoneLocally env w d := by
    intro d hd
    obtain ⟨h2, _, h3⟩ := sc.delRem d (Or.inr hd)
    exact ⟨h2, h3⟩
  have c0 := Clearing.start (env := env) sc.start.wf (sc.db.less less0) (sc.rdb.less less0) sc.nodup_db sc.nodup
  have part : ∀ {A B fs'}, KeptAt env.loc A w1.os.fs fs' → KeptAt env.rem B w1.os.fs fs' →
      (∀ d ∈ A, d ∈ del.loc.filter (fun p => decide (p ∉ ex))) → (∀ d ∈ B, d ∈ del.rem ∨ d ∈ del.trash) →
      ClearPart env w fs' := by
    intro A B fs' h1 h2 h3 h4
    refine ClearPart.of r sc.start (fun d hd => ⟨(uL d (h3 d hd)).2, fun h => ?_⟩) (fun d hd => ?_) h1 h2
    · have := (List.mem_filter.1 (h3 d hd)).2
      rw [decide_eq_true_eq] at this
      exact this ((hexm d).2 h)
    · rcases h4 d hd with h | h
      · exact (uR d h).2
      · exact (uT d h).2
  have uX : ∀ d ∈ [] ++ del.loc.filter (fun p => decide (p ∉ ex)), d ∈ del.loc.filter (fun p => decide (p ∉ ex)) :=
    fun d hd => hd
  rw [wp_bind]
  have s1 := SteadyW.rmLocalFiles env del.loc w1
  refine wp_mono (wp_and s1 (Q' := fun _ w2 =>
    Shrink (fun q => ∃ p ∈ del.loc.filter (fun p => decide (p ∉ ex)), env.loc ++ p <+: q) w1.os.fs w2.os.fs ∧
    (∀ p ∈ del.loc.filter (fun p => decide (p ∉ ex)), ∀ q, env.loc ++ p <+: q → w2.os.fs.get q = none) ∧
    w2 = { w1.rmRows (del.loc.filter (fun p => decide (p ∉ ex))) with os := w2.os })
    (E' := fun _ w' => Frame (EarlyMay env w) w.os.fs w'.os.fs ∧ ClearPart env w w'.os.fs) ?_) ?_
    (fun e w' h => hE e w' h.2.1 h.2.2)
  · unfold rmLocalFiles
    rw [wp_bind]
    refine wp_exclMatches ?_ (fun h => by rw [hex] at h; cases h)
      (fun _ => ⟨fr1, part c0.keptL c0.keptR (by simp) (by simp)⟩)
    intro l hl
    rw [hex] at hl; cases hl
    exact wp_mono (wp_rmFiles r.order env.loc (fun p hp => (uL p hp).1.1) sc.start.wf) (fun _ _ h => h)
      (fun _ w' h => ⟨fr1.trans (h.1.frame.mono mayL),
        part (c0.keptL.trans (h.1.keptAt r.apart).1) (c0.keptR.trans (h.1.keptAt r.apart).2) uX (by simp)⟩)
  rintro _ w2 ⟨⟨k1, t1⟩, h1, h2, h3⟩
  have c1 := c0.stepLocal r.apart h1 h2 h3 (by simp) (by simp)
  have fr2 := fr1.trans (h1.frame.mono mayL)
  rw [wp_bind]
  refine wp_mono (wp_and (SteadyW.rmRemoteFiles env del.rem w2)
    (wp_rmFiles r.order env.rem (fun p hp => (uR p hp).1.1) c1.wf)) ?_ ?_
  · rintro _ w3 ⟨⟨k2, t2⟩, h4, h5, h6⟩
    have uA : ∀ d ∈ [] ++ del.loc.filter (fun p => decide (p ∉ ex)), UserPath d := fun d hd => (uL d hd).1
    have c2 := c1.stepRemote r.apart h4 h5 h6 uA (by simp)
    have fr3 := fr2.trans (h4.frame.mono (fun q ⟨p, hp, hq⟩ => mayR q ⟨p, Or.inl hp, hq⟩))
    rw [wp_bind]
    have mayT : ∀ {f0 : FS} {tn : Path → Str}, Grow (· = env.trash) w3.os.fs f0 → (∀ p, TrashTarget env f0 p (tn p)) →
        ∀ q, (InBatch env del.trash q ∨ ∃ p, env.trash ++ [tn p] <+: q) → EarlyMay env w q := by
      rintro f0 tn hg ht q (⟨p, hp, hq⟩ | ⟨p, hq⟩)
      · exact mayR q ⟨p, Or.inr hp, hq⟩
      · refine Or.inr (Or.inl (Or.inr ⟨tn p, ?_, hq⟩))
        obtain ⟨_, _, hn, _⟩ := ht p
        rcases Option.eq_none_or_eq_some (w.os.fs.get (env.trash ++ [tn p])) with h | ⟨n, h⟩
        · exact h
        · obtain ⟨n', e1, _⟩ := getData (fr3.data _ (trash_fixed r.apart h (List.prefix_refl _))) h
          rw [hg.keeps _ _ e1] at hn; cases hn
    have mayG : ∀ q, q = env.trash → EarlyMay env w q := by
      rintro q rfl
      exact Or.inr (Or.inl (Or.inl rfl))
    have sameT : ∀ t, w3.os.fs.get (env.trash ++ [t]) = w.os.fs.get (env.trash ++ [t]) := by
      intro t
      refine (h4.keeps _ ?_).trans ((h1.keeps _ ?_).trans (sc.start.only _ ?_))
      · rintro ⟨p, hp, hq⟩
        have := (uR p hp).1.apart (q := "Trash".toList :: [t]) env
        refine this.1 ?_
        unfold Env.trash at hq
        rw [List.append_assoc] at hq
        exact hq
      · rintro ⟨p, _, hq⟩
        unfold Env.trash Env.util at hq
        obtain ⟨u, hu⟩ := hq
        simp only [List.append_assoc] at hu
        exact r.apart.ne _ _ hu
      · unfold Env.trash Env.exclDir
        intro he
        rw [List.append_assoc, List.append_assoc, List.append_cancel_left_eq] at he
        simp at he
    have target : ∀ {p t}, TrashTarget env w3.os.fs p t → TrashTarget env w.os.fs p t := by
      rintro p t ⟨k, e1, e2, e3⟩
      exact ⟨k, e1, by rw [← sameT]; exact e2, fun j hj => by rw [← sameT]; exact e3 j hj⟩
    have uP : ∀ p ∈ del.trash, UserPath p ∧ GoodPath p :=
      fun p hp => ⟨(uT p hp).1, (sc.delRem p (Or.inr hp)).2.1⟩
    have fresh : ∀ x : Path × Node, wp (trashFiles env del.trash) (fun _ w' => x.1 ∈ del.trash →
        w.os.fs.get (env.rem ++ x.1) = some x.2 → x.2.isLink = false →
        (∀ p, p ∈ del.rem ∨ p ∈ del.trash → p <+: x.1 ∨ x.1 <+: p → p = x.1) →
        (∀ p ∈ del.trash, ∀ t, TrashTarget env w.os.fs p t → TrashTarget env w.os.fs x.1 t → p = x.1) →
        ∃ t k, w.os.fs.get (env.trash ++ [t]) = none ∧ w3.os.tick ≤ k ∧ k ≤ w'.os.tick ∧
          InTrash env w.os.fs x.1 x.2 (w3.os.clk k) t w'.os.fs) (fun _ _ => True) w3 := by
      rintro ⟨d, n⟩
      by_cases hd : d ∈ del.trash
      swap
      · exact wp_mono (SteadyW.trashFiles env del.trash w3) (fun _ _ _ h => absurd h hd) (fun _ _ _ => trivial)
      by_cases hf : w.os.fs.get (env.rem ++ d) = some n
      swap
      · exact wp_mono (SteadyW.trashFiles env del.trash w3) (fun _ _ _ _ h => absurd h hf) (fun _ _ _ => trivial)
      by_cases hlk : n.isLink = false
      swap
      · exact wp_mono (SteadyW.trashFiles env del.trash w3) (fun _ _ _ _ _ h => absurd h hlk) (fun _ _ _ => trivial)
      by_cases htop : ∀ p, p ∈ del.rem ∨ p ∈ del.trash → p <+: d ∨ d <+: p → p = d
      swap
      · exact wp_mono (SteadyW.trashFiles env del.trash w3) (fun _ _ _ _ _ _ h => absurd h htop) (fun _ _ _ => trivial)
      by_cases hdist : ∀ p ∈ del.trash, ∀ t, TrashTarget env w.os.fs p t → TrashTarget env w.os.fs d t → p = d
      swap
      · exact wp_mono (SteadyW.trashFiles env del.trash w3) (fun _ _ _ _ _ _ _ h => absurd h hdist) (fun _ _ _ => trivial)
      have hall : ∀ u k, w.os.fs.get (env.rem ++ d ++ u) = some k →
          ∃ k', w3.os.fs.get (env.rem ++ d ++ u) = some k' ∧ Alike k k' := by
        intro u k hk
        have hpl : PlainPath (d ++ u) := (PlainPath.extend (uT d hd).1 (List.prefix_append _ _)).plain
        rw [List.append_assoc] at hk ⊢
        have hk1 : w1.os.fs.get (env.rem ++ (d ++ u)) = some k := by
          rw [sc.start.rem hpl]; exact hk
        obtain ⟨n', e1, e2⟩ := c2.keptR (d ++ u) hpl (by
          intro p hp hpd
          rw [List.nil_append] at hp
          have := htop p (Or.inl hp) (List.prefix_or_prefix_of_prefix hpd (List.prefix_append _ _))
          subst this
          exact sc.remNot p hp hd) _ hk1
        exact ⟨n', e1, e2⟩
      obtain ⟨n', e1, e2⟩ := hall [] n (by rw [List.append_nil]; exact hf)
      rw [List.append_nil] at e1
      have hlk' : n'.isLink = false := by
        cases hnd : n.isDir with
        | false => rw [e2.2 hnd]; exact hlk
        | true => exact not_link_of_dir (e2.1.trans hnd)
      refine wp_mono (wp_trashFiles_now r.order r.goodRem uP c2.wf hd e1 hlk' (fun p hp => htop p (Or.inr hp))
        (fun p hp t e3 e4 => hdist p hp t (target e3) (target e4))) ?_ (fun _ _ _ => trivial)
      rintro _ w' ⟨t, k, e3, e4, e5, ⟨n2, e6, e7⟩, e8⟩ _ _ _ _ _
      refine ⟨t, k, by rw [← sameT]; exact e3, e4, e5, ⟨n2, e6, e7.1.trans e2.1, e7.2.1, fun hnd => ?_⟩, ?_⟩
      · have h1 := e2.2 hnd
        subst h1
        exact e7.2.2 hnd
      · intro u k hu0 hk
        obtain ⟨k1, f1, f2⟩ := hall u k hk
        obtain ⟨k2, f3, f4⟩ := e8 u k1 hu0 f1
        exact ⟨k2, f3, f2.trans f4⟩
    have nothing : wp (trashFiles env del.trash) (fun _ w' => del.trash = [] →
        ∀ c, w.os.fs.get (env.trash ++ [c]) = none → w'.os.fs.get (env.trash ++ [c]) = none) (fun _ _ => True) w3 := by
      by_cases h0 : del.trash = []
      · rw [h0]
        refine wp_mono (wp_trashFiles_nil r.order w3) ?_ (fun _ _ _ => trivial)
        intro _ w' h _ c hc
        exact h c (by rw [sameT]; exact hc)
      · exact wp_mono (SteadyW.trashFiles env del.trash w3) (fun _ _ _ h => absurd h h0) (fun _ _ _ => trivial)
    refine wp_mono (wp_and (wp_and nothing (wp_all fresh)) (wp_and (SteadyW.trashFiles env del.trash w3)
      (wp_trashFiles r.order r.goodRem (fun p hp => ⟨(uT p hp).1, (sc.delRem p (Or.inr hp)).2.1⟩) c2.wf))) ?_ ?_
    · rintro _ w4 ⟨⟨hnone, hfresh⟩, ⟨k3, t3⟩, h7, f0, tn, h8, h9, h10, done, h11, h12⟩
      apply hk
      refine ⟨fr3.trans ((h8.frame.mono mayG).trans (h11.frame.mono (mayT h8 h10))), k3.trans (k2.trans k1), by omega,
        ⟨_, _, c2.stepTrash r.apart h8 h11 h12 h7 uA (fun p hp => (uR p (by simpa using hp)).1),
        uL, ?_, ?_, ?_, ?_⟩, ?_, hnone⟩
      · intro d hd
        rcases List.mem_append.1 hd with h | h
        · exact uR d (by simpa using h)
        · exact uT d h
      · intro d hd hx
        simp only [List.nil_append, List.mem_filter, decide_eq_true_eq]
        exact ⟨hd, fun h => hx ((hexm d).1 h)⟩
      · intro d hd
        simpa using hd
      · intro d hd hx
        simp only [List.nil_append, List.mem_filter, decide_eq_true_eq] at hd
        exact hd.2 ((hexm d).2 hx)
      · intro d hd n hf hlk htop hdist
        obtain ⟨t, k, e1, e2, e3, e4⟩ := hfresh (d, n) hd hf hlk htop hdist
        rw [k2, k1] at e4
        exact ⟨t, k, e1, by omega, e3, e4⟩
    · rintro e w4 ⟨_, _, h7, h8⟩
      have uB : ∀ d ∈ [] ++ del.rem, d ∈ del.rem ∨ d ∈ del.trash := fun d hd => Or.inl hd
      rcases h8 with h8 | ⟨f0, tn, h8, h9, h10⟩
      · apply hE
        · rw [h8]; exact fr3
        · rw [h8]; exact part c2.keptL c2.keptR uX uB
      · have g := fr3.trans (h8.frame.mono mayG)
        rcases h10 with h10 | ⟨h10, done, h11⟩
        · apply hE
          · rw [← h10]; exact g
          · rw [← h10]
            refine part (c2.keptL.trans (Grow.keptAt (ds := []) h8)) (c2.keptR.trans (Grow.keptAt (ds := []) h8)) ?_ ?_
            · simpa using uX
            · simpa using uB
        · apply hE
          · exact g.trans (h11.frame.mono (mayT h8 h10))
          · obtain ⟨k1, k2⟩ := h11.keptAt r.apart h8
            refine part (c2.keptL.trans k1) (c2.keptR.trans k2) ?_ ?_
            · simpa using uX
            · intro d hd
              simpa using hd
  · rintro e w3 ⟨_, h4, _⟩
    apply hE _ _ (fr2.trans (h4.frame.mono (fun q ⟨p, hp, hq⟩ => mayR q ⟨p, Or.inl hp, hq⟩)))
    refine part (c1.keptL.trans (h4.keptAt r.apart.symm).2) (c1.keptR.trans (h4.keptAt r.apart.symm).1) ?_ ?_
    · simpa using uX
    · intro d hd
      simp only [List.nil_append] at hd
      exact Or.inl hd

end Verif
