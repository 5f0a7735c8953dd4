import Verif.Props.C101_Ranking
/-
C102: a sync keeps the priorities of the files.
-/
namespace Verif
open Prog OSM Call FSTools WM ADB ALocal

/-! ### One change of the database -/

/-- A column of the database that is computed for a directory from what it is for the entries. -/
def Column {γ : Type} (f : PData → γ) : Prop :=
  ∃ g, ∀ a ps, view f (refresh a ps) = (pathAncestry ps).foldl (vStep g) (view f a)

theorem prioColumn : Column PData.priority := ⟨List.sum, vPrio_refresh⟩

theorem locColumn : Column PData.loc := ⟨minLoc, vLoc_refresh⟩

section
variable {γ : Type} {f : PData → γ} (hcol : Column f) {a : ALocal} {p : Path} {x : γ}
include hcol

theorem col_refresh (h : (p, x) ∈ view f a) {ps : List Path}
    (hn : ∀ q ∈ ps, ¬ p <+: q) : (p, x) ∈ view f (refresh a ps) := by
  obtain ⟨g, hg⟩ := hcol
  rw [hg]
  have key : ∀ (l : List Path) (v : List (Path × γ)), p ∉ l → (p, x) ∈ v → (p, x) ∈ l.foldl (vStep g) v := by
    intro l
    induction l with
    | nil => exact fun _ _ h => h
    | cons q l ih =>
      intro v hl hv
      rw [List.foldl_cons]
      refine ih _ (fun h => hl (List.mem_cons_of_mem _ h)) ?_
      refine List.mem_map.2 ⟨(p, x), hv, ?_⟩
      rw [if_neg]
      rintro rfl
      exact hl List.mem_cons_self
  refine key _ _ ?_ h
  intro hm
  obtain ⟨q, hq, h1⟩ := mem_pathAncestry.1 hm
  rcases h1 with rfl | h1
  · exact hn _ hq (List.prefix_refl _)
  · exact hn _ hq h1.2

omit hcol in
theorem not_parent {p : Path} {l : List Path} (h : ∀ q ∈ l, ¬ p <+: q.dropLast) : ∀ q ∈ DB.parentsOf l, ¬ p <+: q := by
  intro q hq
  obtain ⟨_, r, hr, rfl⟩ := DB.mem_parentsOf.1 hq
  exact h r hr

theorem col_add (h : (p, x) ∈ view f a) {b : List (Path × Bool)}
    (hn : ∀ q ∈ b.map Prod.fst, ¬ p <+: q.dropLast) (y : Rat) (l : Bool) : (p, x) ∈ view f (addPaths a b y l) := by
  unfold addPaths
  refine col_refresh hcol ?_ (not_parent ?_)
  · obtain ⟨news, h1, _⟩ := addCore_eq a b ⟨y, l⟩
    rw [h1]
    rw [view_mark]
    unfold view
    rw [List.map_append]
    exact List.mem_append_left _ h
  · intro q hq
    obtain ⟨z, hz, rfl⟩ := List.mem_map.1 hq
    exact hn _ (List.mem_map_of_mem (mem_sortDepth.1 hz))

omit hcol in
theorem col_rmCore (h : (p, x) ∈ view f a) {ps : List Path}
    (hk : ∀ q ∈ ps, ¬ q <+: p) : (p, x) ∈ view f (rmCore a ps) := by
  rw [view_rmCore]
  refine List.mem_filter.2 ⟨h, ?_⟩
  simp only [Bool.not_eq_true', List.any_eq_false, List.isPrefixOf_iff_prefix]
  exact hk

theorem col_rm (h : (p, x) ∈ view f a) {ps : List Path}
    (hk : ∀ q ∈ ps, ¬ q <+: p) (hn : ∀ q ∈ ps, ¬ p <+: q.dropLast) : (p, x) ∈ view f (rmPaths a ps) :=
  col_refresh hcol (col_rmCore h hk) (not_parent hn)

theorem col_rms {pss : List (List Path)} {a : ALocal} (h : (p, x) ∈ view f a)
    (hk : ∀ ps ∈ pss, ∀ q ∈ ps, ¬ q <+: p ∧ ¬ p <+: q.dropLast) : (p, x) ∈ view f (pss.foldl rmPaths a) := by
  induction pss generalizing a with
  | nil => exact h
  | cons ps pss ih =>
    rw [List.foldl_cons]
    exact ih (col_rm hcol h (fun q hq => (hk ps List.mem_cons_self q hq).1) (fun q hq => (hk ps List.mem_cons_self q hq).2))
      (fun ps hps => hk ps (List.mem_cons_of_mem _ hps))

end

theorem leaf_parent {p q : Path} (hp : p ≠ []) (h : p <+: q → q = p) : ¬ p <+: q.dropLast := by
  intro h1
  have h2 := h (h1.trans (List.dropLast_prefix q))
  rw [h2] at h1
  have := h1.length_le
  have := List.length_pos_iff.2 hp
  simp at *
  omega

section
variable {env : Env} {w w1 w2 w3 w4 w5 w6 w' : World} {del : DeletedPaths} {new mod upd : UpdatedPaths}
  {cp : Path → Path} {DL DR : Path → Prop} {l sel rex : List Path}

/-- Nothing that a sync works with is below a file of the local directory. -/
theorem file_leaf {p : Path} {n : Node} (hl : w.os.fs.get (env.loc ++ p) = some n) (hd : n.isDir = false) {q : Path}
    {d : Bool} (hf : Fits env w.os.fs q d) (hq : p <+: q) : q = p := by
  apply Classical.byContradiction
  intro hne
  have h1 := hf.aboveL p n hq (fun h => hne h.symm) hl
  rw [hd] at h1
  cases h1

section
variable {p : Path} {n : Node}

theorem Scanned.leaf (sc : Scanned env w del new mod w1) (hl : w.os.fs.get (env.loc ++ p) = some n)
    (hd : n.isDir = false) : ∀ q ∈ ADB.paths w1.db, p <+: q → q = p := fun q hq h => by
  obtain ⟨d, hd'⟩ := sc.db.path hq
  exact file_leaf hl hd hd' h

/-- A value that is recorded after the scan is there when the selection is made. -/
theorem Steps.keeps14 (S : Steps env w del new mod w1 w2 upd w3 cp DL DR l w4) {γ : Type} {f : PData → γ} (hcol : Column f) {x : γ} (r : SyncReady env w) (h0 : p ≠ [])
    (hl : w.os.fs.get (env.loc ++ p) = some n) (hd : n.isDir = false) (hg : ∀ q, GoneRemotely env w q → ¬ q <+: p)
    (hc : ¬ (ChangedLocally env w p ∧ ChangedRemotely env w p)) (k1 : (p, x) ∈ view f w1.db) :
    (p, x) ∈ view f w4.db := by
  have leaf := S.sc.leaf hl hd
  have leafR : ∀ q ∈ mod.rem ++ new.rem, p <+: q → q = p := fun q hq h => by
    rcases List.mem_append.1 hq with h1 | h1
    · rcases (S.sc.modRemIff q).1 h1 with ⟨_, _, _, _, _, h2⟩ | ⟨b, hb, rfl, _⟩
      · exact leaf q (S.sc.mono q h2) h
      · exact file_leaf hl hd (r.rdb b hb) h
    · exact leaf q (S.sc.newRem q h1).2.2.1 h
  have leafL : ∀ q ∈ mod.loc ++ new.loc, p <+: q → q = p := fun q hq h => by
    rcases List.mem_append.1 hq with h1 | h1
    · obtain ⟨_, _, _, h2⟩ := S.sc.modLoc q h1
      exact leaf q (S.sc.mono q h2) h
    · exact leaf q (S.sc.newLoc q h1).1 h
  -- the deletions
  obtain ⟨A, B, k, hA, hB, _⟩ := S.cl.clearing
  have k2 : (p, x) ∈ view f w2.db := by
    obtain ⟨pss, e1, _, hps⟩ := k.tr
    rw [e1]
    refine col_rms hcol k1 (fun ps hp q hq => ?_)
    have hq' : q ∈ ADB.paths w.db ∧ ¬ q <+: p := by
      rcases List.mem_append.1 (hps ps hp q hq) with h | h
      · exact ⟨(hA q h).2.1, hg q (hA q h).2⟩
      · obtain ⟨_, h1, h2⟩ := hB q h
        refine ⟨h1, fun h3 => ?_⟩
        by_cases h4 : q = p
        · rw [h4, hl] at h2; cases h2
        · obtain ⟨_, _, h5⟩ := FS.isDir_iff.1 (r.wf.isDir_prefix hl (env.loc ++ q)
            ((List.prefix_append_right_inj _).2 h3) (fun h => h4 (List.append_cancel_left h)))
          rw [h2] at h5; cases h5
    exact ⟨hq'.2, leaf_parent h0 (leaf q (S.sc.mono q hq'.1))⟩
  -- the conflicts
  have hp2 : p ∈ ADB.paths w2.db := by
    obtain ⟨b, hb, hb'⟩ := List.mem_map.1 k2
    exact List.mem_map.2 ⟨b, hb, congrArg Prod.fst hb'⟩
  have noc : ∀ x, DL x ∨ DR x → ¬ x <+: p := fun x hx h => by
    have h1 := S.conflict_leaf hx hp2 h
    subst h1
    obtain ⟨h2, h3⟩ := S.rb.mem _ hx
    exact hc ⟨S.sc.mem_loc.1 h2, S.sc.mem_rem.1 h3⟩
  have cpl : ∀ x, DL x ∨ DR x → ¬ p <+: (cp x).dropLast := fun x hx => by
    rw [S.rb.ctx.parent x hx]
    exact leaf_parent h0 (leafL x (S.rb.mem x hx).1)
  have k3 : (p, x) ∈ view f w3.db := by
    obtain ⟨prsL, prsR, n1, n2, e1, _, hL, hR⟩ := S.rb.tr
    have rmL : ∀ q ∈ prsL.map Prod.fst, ¬ q <+: p := by
      intro q hq
      obtain ⟨⟨a, b⟩, h1, rfl⟩ := List.mem_map.1 hq
      exact noc a (Or.inl ((hL a b).1 h1).1)
    have rmR : ∀ q ∈ prsR.map Prod.fst, ¬ q <+: p := by
      intro q hq
      obtain ⟨⟨a, b⟩, h1, rfl⟩ := List.mem_map.1 hq
      exact noc a (Or.inr ((hR a b).1 h1).1)
    have adL : ∀ q ∈ (batchOf (prsL.map Prod.snd) []).map Prod.fst, ¬ p <+: q.dropLast := by
      intro q hq
      rw [map_fst_batchOf] at hq
      obtain ⟨⟨a, b⟩, h1, rfl⟩ := List.mem_map.1 (by simpa using hq : q ∈ prsL.map Prod.snd)
      obtain ⟨h2, rfl⟩ := (hL a b).1 h1
      exact cpl a (Or.inl h2)
    have adR : ∀ q ∈ (batchOf (prsR.map Prod.snd) []).map Prod.fst, ¬ p <+: q.dropLast := by
      intro q hq
      rw [map_fst_batchOf] at hq
      obtain ⟨⟨a, b⟩, h1, rfl⟩ := List.mem_map.1 (by simpa using hq : q ∈ prsR.map Prod.snd)
      obtain ⟨h2, rfl⟩ := (hR a b).1 h1
      exact cpl a (Or.inr h2)
    rw [e1]
    exact col_add hcol (col_rmCore (col_add hcol (col_rmCore k2 rmL) adL _ _) rmR) adR _ _
  -- the upload
  obtain ⟨db0, y, now, now', e0, e1, _⟩ := S.ub.tr
  have uL : ∀ q ∈ upd.loc, ¬ p <+: q.dropLast := by
    intro q hq
    rcases ((S.rb.loc q).1 hq).2 with ⟨h, _⟩ | ⟨y, hy, rfl⟩
    · exact leaf_parent h0 (leafL q h)
    · exact cpl y (Or.inl hy)
  have uR : ∀ q ∈ upd.rem, ¬ p <+: q.dropLast := by
    intro q hq
    rcases ((S.rb.rem q).1 hq).2 with ⟨h, _⟩ | ⟨y, hy, rfl⟩
    · exact leaf_parent h0 (leafR q h)
    · exact cpl y (Or.inr hy)
  have b0 : ∀ q ∈ (batchOf upd.loc []).map Prod.fst, ¬ p <+: q.dropLast := by
    intro q hq
    rw [map_fst_batchOf] at hq
    exact uL q (by simpa using hq)
  have b1 : ∀ q ∈ (batchOf (setOf (upd.loc ++ upd.rem)) []).map Prod.fst, ¬ p <+: q.dropLast := by
    intro q hq
    rw [map_fst_batchOf] at hq
    have : q ∈ upd.loc ∨ q ∈ upd.rem := by
      rw [mem_setOf, List.mem_append] at hq
      exact hq.resolve_right (by simp)
    exact this.elim (uL q) (uR q)
  rw [e1]
  refine col_add hcol ?_ b1 _ _
  rcases e0 with rfl | rfl
  · exact k3
  · exact col_add hcol k3 b0 _ _

theorem Steps.keeps4 (S : Steps env w del new mod w1 w2 upd w3 cp DL DR l w4) {γ : Type} {f : PData → γ} (hcol : Column f) (r : SyncReady env w)
    {e : Entry PData} (he : e ∈ w.db) (hd : e.directory = false)
    {n m : Node} (hl : w.os.fs.get (env.loc ++ e.path) = some n) (hr : w.os.fs.get (env.rem ++ e.path) = some m)
    (hc : ¬ (ChangedLocally env w e.path ∧ ChangedRemotely env w e.path)) :
    (e.path, f e.data) ∈ view f w4.db := by
  have hf := r.db e he
  have h0 := hf.user.1
  have hnd : n.isDir = false := by rw [hf.loc n hl, hd]
  have leaf := S.sc.leaf hl hnd
  have k0 : (e.path, f e.data) ∈ view f w.db := List.mem_map_of_mem (f := fun e => (e.path, f e.data)) he
  refine S.keeps14 hcol r h0 hl hnd ?_ hc ?_
  · rintro q ⟨_, h2⟩ h3
    by_cases h4 : q = e.path
    · rw [h4, hr] at h2; cases h2
    · obtain ⟨_, _, h5⟩ := FS.isDir_iff.1 (r.wf.isDir_prefix hr (env.rem ++ q)
        ((List.prefix_append_right_inj _).2 h3) (fun h => h4 (List.append_cancel_left h)))
      rw [h2] at h5; cases h5
  · obtain ⟨db0, b0, b1, x, now, e0, e1, _, hb0, hb1⟩ := S.sc.tr
    have n0 : ∀ q ∈ b0.map Prod.fst, ¬ e.path <+: q.dropLast := fun q hq =>
      leaf_parent h0 (leaf q (S.sc.newLoc q ((hb0 q).1 hq)).1)
    have n1 : ∀ q ∈ b1.map Prod.fst, ¬ e.path <+: q.dropLast := fun q hq => leaf_parent h0 (leaf q (by
      rcases (hb1 q).1 hq with h | h
      · exact (S.sc.newLoc q h).1
      · exact (S.sc.newRem q h).2.2.1))
    rw [e1]
    refine col_add hcol ?_ n1 _ _
    rcases e0 with rfl | rfl
    · exact k0
    · exact col_add hcol k0 n0 _ _

end

theorem Steps.closed4 (S : Steps env w del new mod w1 w2 upd w3 cp DL DR l w4) (r : SyncReady env w) (c : Calm env w)
    (T : Selects env w w4 sel rex w5) : DB.ParentClosed (ADB.paths w4.db) := by
  intro p hp h0
  obtain ⟨n, hn⟩ := T.found p hp ((S.same4 c p).1 hp)
  have hu : UserPath p := by
    obtain ⟨d, hd⟩ := S.up.db.path hp
    exact hd.user
  obtain ⟨a, b, hd⟩ := FS.isDir_iff.1 (S.up.wf.isDir_prefix hn (env.rem ++ p.dropLast)
    ((List.prefix_append_right_inj _).2 (List.dropLast_prefix p)) (fun e => by
      have := congrArg List.length (List.append_cancel_left e)
      have := List.length_pos_iff.2 hu.1
      simp at *
      omega))
  exact S.cover4 r c (PlainPath.user (hu.plain.prefix (List.dropLast_prefix p)) h0) hd

/-- A priority that is there when the selection is made is there after the sync. -/
theorem Steps.keeps47 (S : Steps env w del new mod w1 w2 upd w3 cp DL DR l w4) (r : SyncReady env w) (c : Calm env w)
    (T : Selects env w w4 sel rex w5) (D : LocalDone env sel rex w5 w6 w') (hs : SumsOfEntries w.db) {p : Path} {n : Node}
    {x : Rat} (h0 : p ≠ []) (hl : w.os.fs.get (env.loc ++ p) = some n) (hd : n.isDir = false)
    (hx : ¬ OwnExcludes env w.os.fs p) (k4 : (p, x) ∈ vPrio w4.db) :
    ∃ e ∈ w'.db, e.path = p ∧ e.data.priority = x := by
  rw [sumsOfEntries_iff] at hs
  have p4 := S.prio4 r c hs
  have db5 : w5.db = w4.db := by obtain ⟨x, y, e⟩ := T.same; rw [e]
  have rdb5 : w5.rdb = w4.rdb := by obtain ⟨x, y, e⟩ := T.same; rw [e]
  have c4 : DB.ParentClosed (ADB.paths w4.db) := S.closed4 r c T
  obtain ⟨nw, e6, N⟩ := D.db
  obtain ⟨ps, e7, _, hps⟩ := D.ended.tr
  have k6 : (p, x) ∈ vPrio w6.db := by
    rw [e6, db5, vPrio_markLocal p4 c4 (fun p hp => by
      have := N.row p hp
      rw [rdb5] at this
      exact (S.same4 c p).2 this)]
    exact k4
  have k7 : (p, x) ∈ vPrio w'.db := by
    rw [e7]
    refine col_rm prioColumn k6 (fun q hq h2 => ?_) (fun q hq => leaf_parent h0 (fun h2 => ?_))
    · exact hx (ownExcludes_below (T.rexOwn q (hps q hq).1) h2 ⟨n, hl⟩)
    · obtain ⟨_, k, hk⟩ := ownExcludes_exists (T.rexOwn q (hps q hq).1)
      apply Classical.byContradiction
      intro hne
      obtain ⟨_, _, h5⟩ := FS.isDir_iff.1 (r.wf.isDir_prefix hk (env.loc ++ p)
        ((List.prefix_append_right_inj _).2 h2) (fun h => hne (List.append_cancel_left h).symm))
      rw [hl] at h5
      cases h5
      cases hd
  obtain ⟨b, hb, hb'⟩ := List.mem_map.1 k7
  exact ⟨b, hb, congrArg Prod.fst hb', congrArg Prod.snd hb'⟩

/-- C102: a sync that succeeds keeps the priority of a file that both directories have, unless the file has changed on
both sides. What is missing in comparison with C102: files in conflict (see `C102_conflict_fails`), excluded files. -/
theorem C102_keeps_partial (r : SyncReady env w) (c : Calm env w) (h : (sync env w).1 = .ok ())
    (hs : SumsOfEntries w.db) {e : Entry PData} (he : e ∈ w.db) (hd : e.directory = false)
    {n m : Node} (hl : w.os.fs.get (env.loc ++ e.path) = some n) (hr : w.os.fs.get (env.rem ++ e.path) = some m)
    (hc : ¬ (ChangedLocally env w e.path ∧ ChangedRemotely env w e.path))
    (hx : ¬ OwnExcludes env w.os.fs e.path) :
    ∃ e' ∈ (sync env w).2.db, e'.path = e.path ∧ e'.data.priority = e.data.priority := by
  have h1 : sync env w = (.ok (), (sync env w).2) := by rw [← h]
  obtain ⟨del, new, mod, w1, w2, upd, w3, cp, DL, DR, l, w4, sel, rex, w5, w6, S, T, D⟩ := (wp_ok (wp_sync r) h1).2
  generalize (sync env w).2 = w' at *
  have hf := r.db e he
  exact S.keeps47 r c T D hs hf.user.1 hl (by rw [hf.loc n hl, hd]) hx (S.keeps4 prioColumn r he hd hl hr hc)

end

/-! ### An example -/

/-- `p`, which was a link, keeps the priority 5 and becomes a copy. -/
example : ∃ e' ∈ (sync exEnvS exRank).2.db, e'.path = ["p".toList] ∧ e'.data.priority = 5 :=
  C102_keeps_partial (e := exRow ["p".toList] false 5 false) exRank_ready exRank_calm exRank_sync.1 exRank_sums
    (by simp [exRank, exWorld]) rfl (n := .link "/r/p".toList 3) (m := .file 9 4 1) (by decide +kernel) (by decide +kernel)
    (fun h => by
      have h1 : chR exEnvS exRank = [] := by decide +kernel
      have := mem_chR (by decide) h.2
      rw [h1] at this; cases this) (exRank_excluded _)

/-! ### What does not hold -/

/-- `p` and `q` have been used before, and have changed on both sides. `p` is newer in the remote directory, `q` is newer
in the local directory. -/
def exPrioConf : World := exWorld exEnvS
  [(["l".toList, "p".toList], .file 8 1000 1), (["r".toList, "p".toList], .file 9 2000 1),
    (["l".toList, "q".toList], .file 8 2000 1), (["r".toList, "q".toList], .file 9 1000 1)]
  [exRow ["p".toList] false 5 true, exRow ["q".toList] false 4 true]
  [exRRow ["p".toList] false, exRRow ["q".toList] false] 1000

/-- C102 fails for a file that has changed on both sides: it is in both directories before and after the sync, but its
priority is back at zero, whichever side is newer. -/
theorem C102_conflict_fails : SyncReady exEnvS exPrioConf ∧ (sync exEnvS exPrioConf).1 = .ok () ∧
    exPrioConf.db.map (fun e => (e.path, e.data.priority)) = [(["p".toList], 5), (["q".toList], 4)] ∧
    (∀ p ∈ [["p".toList], ["q".toList]], (∃ e ∈ (sync exEnvS exPrioConf).2.db, e.path = p ∧ e.data.priority = 0) ∧
      ((sync exEnvS exPrioConf).2.os.fs.get (exEnvS.rem ++ p)).isSome ∧
      ((sync exEnvS exPrioConf).2.os.fs.get (exEnvS.loc ++ p)).isSome) :=
  ⟨syncReady_of_readyB (by decide +kernel) (fun _ => List.Perm.refl _) (by unfold Apart; decide +kernel)
    (fun _ => by show GoodStamp "19700101-000000".toList; decide +kernel) rfl, by decide +kernel, by decide +kernel,
    by decide +kernel⟩

end Verif
