import Verif.SyncTrace
import Verif.SyncQuiet
import Verif.SyncSpace
/-
A sync to which nothing has been done since the last one.
-/
namespace Verif
open Prog OSM Call FSTools WM

/-! ### What the selection depends on -/

/-- The rows without the column that the selection does not read. -/
def stripRow (x : Entry PData) : Entry PData := { x with data := { x.data with loc := false } }

def SelEnv.strip (e : SelEnv) : SelEnv := { e with loc := e.loc.map stripRow }

theorem rows_strip (a : ALocal) (p : Path) : ADB.rows (a.map stripRow) p = (ADB.rows a p).map stripRow := by
  unfold ADB.rows
  rw [List.filter_map]; rfl

theorem mapM_map_opt {α β γ : Type} (g : α → β) (f : β → Option γ) (l : List α) :
    (l.map g).mapM f = l.mapM (fun a => f (g a)) := by
  rw [List.mapM_map]; rfl

theorem fileCands_strip (e : SelEnv) (x : List Path) : fileCands e.strip x = fileCands e x := by
  unfold fileCands SelEnv.strip
  dsimp only
  rw [List.filter_map, mapM_map_opt]
  rfl

theorem dirCands_strip (e : SelEnv) : dirCands e.strip = dirCands e := by
  unfold dirCands SelEnv.strip
  dsimp only
  rw [List.filter_map, mapM_map_opt]
  rfl

theorem dirStep_strip (e : SelEnv) : dirStep e.strip = dirStep e := by
  funext cs st c
  have h1 : ∀ P : Entry PData → Bool, (∀ x, P (stripRow x) = P x) →
      (((ADB.rows e.loc c.path).map stripRow).filter P).map Entry.path =
        ((ADB.rows e.loc c.path).filter P).map Entry.path := by
    intro P hP
    rw [List.filter_map, List.map_map]
    have : (P ∘ stripRow) = P := funext hP
    rw [this]; rfl
  have h2 : ((ADB.rows e.loc c.path).map stripRow).map Entry.path = (ADB.rows e.loc c.path).map Entry.path := by
    rw [List.map_map]; rfl
  unfold dirStep SelEnv.strip
  dsimp only
  rw [rows_strip, h1 (fun x => !x.directory) (fun _ => rfl), h1 (fun x => x.directory) (fun _ => rfl), h2]

theorem prioritizeDirs_strip (e : SelEnv) (n : Int) : prioritizeDirs e.strip n = prioritizeDirs e n := by
  have h : nFiles e.strip = nFiles e := by
    unfold nFiles SelEnv.strip
    dsimp only
    rw [List.filter_map, List.length_map]; rfl
  unfold prioritizeDirs
  rw [dirCands_strip, dirStep_strip, h]
  rfl

theorem prioritizeFiles_strip (e : SelEnv) (n : Int) (x : List Path) :
    prioritizeFiles e.strip n x = prioritizeFiles e n x := by
  unfold prioritizeFiles
  rw [fileCands_strip]; rfl

theorem map_strip_eq {a b : ALocal} (h1 : pathDir a = pathDir b) (h2 : ALocal.vPrio a = ALocal.vPrio b) :
    a.map stripRow = b.map stripRow := by
  induction a generalizing b with
  | nil =>
    cases b with
    | nil => rfl
    | cons y b => cases h1
  | cons x a ih =>
    cases b with
    | nil => cases h1
    | cons y b =>
      simp only [pathDir, ALocal.vPrio, ADB.view, List.map_cons, List.cons.injEq, Prod.mk.injEq] at h1 h2
      rw [List.map_cons, List.map_cons, ih h1.2 h2.2]
      have : stripRow x = stripRow y := by
        obtain ⟨xp, xd, xpr, xl⟩ := x
        obtain ⟨yp, yd, ypr, yl⟩ := y
        obtain ⟨⟨e1, e2⟩, -⟩ := h1
        obtain ⟨⟨-, e3⟩, -⟩ := h2
        dsimp only at e1 e2 e3
        subst e1 e2 e3
        rfl
      rw [this]

/-! ### Nothing has changed -/

/-- Nothing has been changed or deleted in either directory since the last sync. -/
structure Idle (env : Env) (w : World) : Prop where
  chL : ∀ p, ¬ ChangedLocally env w p
  chR : ∀ p, ¬ ChangedRemotely env w p
  goneL : ∀ p, ¬ GoneLocally env w p
  goneR : ∀ p, ¬ GoneRemotely env w p

theorem Quiet.idle {env : Env} {w : World} (q : Quiet env w) (fuel : Nat) : Idle env (w.restart fuel) :=
  ⟨q.unchangedL fuel, q.unchangedR fuel, q.goneL fuel, q.goneR fuel⟩

theorem updatePathsR_nil (a : ARemote) (t : Int) : a.updatePaths [] none (some t) = a := rfl

section
variable {env : Env} {w w1 w2 w3 w4 : World} {del : DeletedPaths} {new mod upd : UpdatedPaths}
  {cp : Path → Path} {DL DR : Path → Prop} {l : List Path}

theorem Steps.idle_lists (S : Steps env w del new mod w1 w2 upd w3 cp DL DR l w4) (i : Idle env w) :
    (∀ f, f ∉ new.loc) ∧ (∀ f, f ∉ new.rem) ∧ (∀ p, ¬ DL p) ∧ (∀ p, ¬ DR p) ∧ upd.loc = [] ∧ upd.rem = [] := by
  have hL : ∀ f, f ∉ mod.loc ++ new.loc := fun f h => i.chL f (S.sc.mem_loc.1 h)
  have hR : ∀ f, f ∉ mod.rem ++ new.rem := fun f h => i.chR f (S.sc.mem_rem.1 h)
  have dl : ∀ p, ¬ DL p := fun p h => hL p (S.rb.mem p (Or.inl h)).1
  have dr : ∀ p, ¬ DR p := fun p h => hL p (S.rb.mem p (Or.inr h)).1
  refine ⟨fun f h => hL f (List.mem_append_right _ h), fun f h => hR f (List.mem_append_right _ h), dl, dr, ?_, ?_⟩
  · refine List.eq_nil_iff_forall_not_mem.2 (fun f h => ?_)
    rcases ((S.rb.loc f).1 h).2 with h1 | ⟨p, h1, _⟩
    · exact hL f h1.1
    · exact dl p h1
  · refine List.eq_nil_iff_forall_not_mem.2 (fun f h => ?_)
    rcases ((S.rb.rem f).1 h).2 with h1 | ⟨p, h1, _⟩
    · exact hR f h1.1
    · exact dr p h1

/-- The databases are what they were when the selection is made. -/
theorem Steps.idle_db (S : Steps env w del new mod w1 w2 upd w3 cp DL DR l w4) (i : Idle env w) :
    w4.db = w.db ∧ w4.rdb = w.rdb := by
  obtain ⟨nl, nr, dl, dr, ul, ur⟩ := S.idle_lists i
  have h1 : w1.db = w.db ∧ w1.rdb = w.rdb := by
    obtain ⟨db0, b0, b1, x, now, e0, e1, e2, hb0, hb1⟩ := S.sc.tr
    have b0n : b0 = [] := List.map_eq_nil_iff.1 (List.eq_nil_iff_forall_not_mem.2 (fun p h => nl p ((hb0 p).1 h)))
    have b1n : b1 = [] := List.map_eq_nil_iff.1 (List.eq_nil_iff_forall_not_mem.2 (fun p h =>
      ((hb1 p).1 h).elim (nl p) (nr p)))
    subst b0n b1n
    rw [addPaths_nil] at e0 e1
    rw [raddPaths_nil] at e2
    rw [or_self] at e0
    exact ⟨e1.trans e0, e2⟩
  have h2 : w2.db = w1.db ∧ w2.rdb = w1.rdb := by
    obtain ⟨A, B, k, hA, hB, _⟩ := S.cl.clearing
    obtain ⟨pss, e1, e2, hp⟩ := k.tr
    have hp' : ∀ ps ∈ pss, ps = [] := by
      intro ps hps
      refine List.eq_nil_iff_forall_not_mem.2 (fun p h => ?_)
      rcases List.mem_append.1 (hp ps hps p h) with h1 | h1
      · exact i.goneR p (hA p h1).2
      · exact i.goneL p (hB p h1).2
    clear hp
    rw [e1, e2]
    clear e1 e2
    generalize w1.db = a
    generalize w1.rdb = b
    induction pss with
    | nil => exact ⟨rfl, rfl⟩
    | cons ps pss ih =>
      rw [List.foldl_cons, List.foldl_cons, hp' ps List.mem_cons_self, rmPaths_nil]
      have : ARemote.rmPaths b [] = b := rmCore_nil b
      rw [this]
      exact ih (fun q hq => hp' q (List.mem_cons_of_mem _ hq))
  have h3 : w3.db = w2.db ∧ w3.rdb = w2.rdb := by
    obtain ⟨prsL, prsR, n1, n2, e1, e2, hL, hR⟩ := S.rb.tr
    have l0 : prsL = [] := List.eq_nil_iff_forall_not_mem.2 (fun ⟨p, q⟩ h => dl p ((hL p q).1 h).1)
    have r0 : prsR = [] := List.eq_nil_iff_forall_not_mem.2 (fun ⟨p, q⟩ h => dr p ((hR p q).1 h).1)
    subst l0 r0
    rw [e1, e2]
    have : batchOf (([] : List (Path × Path)).map Prod.snd) [] = [] := rfl
    rw [this, List.map_nil, rmCore_nil, addPaths_nil, rmCore_nil, addPaths_nil, raddPaths_nil, raddPaths_nil]
    exact ⟨rfl, rfl⟩
  obtain ⟨db0, x, now, now', e0, e1, e2⟩ := S.ub.tr
  rw [ul, ur] at e1 e2
  rw [ul] at e0
  have hb : batchOf ([] : List Path) [] = [] := rfl
  have hb' : batchOf (setOf (([] : List Path) ++ [])) [] = [] := rfl
  rw [hb, addPaths_nil, or_self] at e0
  rw [hb', addPaths_nil] at e1
  rw [hb', raddPaths_nil, updatePathsR_nil] at e2
  exact ⟨by rw [e1, e0, h3.1, h2.1, h1.1], by rw [e2, h3.2, h2.2, h1.2]⟩

/-- The remote directory is what it was. -/
theorem Steps.idle_rem (S : Steps env w del new mod w1 w2 upd w3 cp DL DR l w4) (r : SyncReady env w) (i : Idle env w)
    {p : Path} (hu : UserPath p) :
    (w4.os.fs.get (env.rem ++ p)).map Node.data = (w.os.fs.get (env.rem ++ p)).map Node.data ∧
    ∀ n, w.os.fs.get (env.rem ++ p) = some n → n.isDir = false → w4.os.fs.get (env.rem ++ p) = some n := by
  have hno : ¬ EarlyMay env w (env.rem ++ p) := by
    rintro (h | h | ⟨x, _, h, h1⟩ | ⟨x, _, h, _⟩)
    · refine (hu.not_prefix env (q := ["exclude".toList] ++ [env.id])) ?_
      rw [h]
      unfold Env.exclDir
      rw [List.append_assoc]
      exact List.prefix_refl _
    · exact plain_not_trash hu.plain h.below rfl
    · rw [List.append_cancel_left h] at *
      rcases h1 with ⟨d, h2, _⟩ | ⟨f, h2, _⟩ | ⟨_, f, h2, _⟩
      · exact i.goneL d h2
      · exact i.chL f h2
      · exact i.chL f h2
    · exact r.apart.symm.ne _ _ h
  exact ⟨S.up.frame.data _ hno, fun n h hd => S.up.frame.same _ n hno h hd⟩

/-- The local directory is what it was when the selection is made, except that directories may have been touched. -/
theorem Steps.idle_loc (S : Steps env w del new mod w1 w2 upd w3 cp DL DR l w4) (r : SyncReady env w) (i : Idle env w)
    {p : Path} (hp : PlainPath p) (n : Node) (hn : w.os.fs.get (env.loc ++ p) = some n) :
    ∃ n', w4.os.fs.get (env.loc ++ p) = some n' ∧ n'.isDir = n.isDir ∧ (n.isDir = false → n' = n) := by
  obtain ⟨_, _, dl, dr, _, _⟩ := S.idle_lists i
  obtain ⟨A, B, k, hA, hB, _⟩ := S.cl.clearing
  rw [S.ub.moved.loc_eq, S.rb.eff.other _ (fun x hx => absurd hx (dl x)) (fun x hx => absurd hx (dr x))]
  exact k.keptL p hp (fun d hd => absurd (hA d hd).2 (i.goneR d)) n (by rw [S.sc.start.loc r p]; exact hn)

theorem Steps.idle_locOld (S : Steps env w del new mod w1 w2 upd w3 cp DL DR l w4) (r : SyncReady env w) (i : Idle env w)
    {p : Path} (n : Node) (hn : w4.os.fs.get (env.loc ++ p) = some n) : ∃ n, w.os.fs.get (env.loc ++ p) = some n := by
  obtain ⟨_, _, dl, dr, _, _⟩ := S.idle_lists i
  obtain ⟨A, B, k, hA, hB, _⟩ := S.cl.clearing
  rw [S.ub.moved.loc_eq, S.rb.eff.other _ (fun x hx => absurd hx (dl x)) (fun x hx => absurd hx (dr x))] at hn
  obtain ⟨n', h⟩ := k.locOld p n hn
  exact ⟨n', by rw [← S.sc.start.loc r p]; exact h⟩

end

/-! ### The same selection -/

theorem selStat_eq {fs fs' : FS} (wf : fs.WF) (wf' : fs'.WF) {root : Path}
    (h : ∀ p, UserPath p → (fs'.get (root ++ p)).map Node.data = (fs.get (root ++ p)).map Node.data) (p : Path) :
    (Scan.find (Scan.user (fs'.below root)) p).map (fun n => (n.isDir, n.blocks)) =
      (Scan.find (Scan.user (fs.below root)) p).map (fun n => (n.isDir, n.blocks)) := by
  by_cases hu : UserPath p
  · rw [find_user hu, find_user hu, find_below wf hu.1, find_below wf' hu.1]
    have key : ∀ o : Option Node, o.map (fun n => (n.isDir, n.blocks)) =
        (o.map Node.data).map (fun n => (n.isDir, n.blocks)) := by
      intro o
      cases o with
      | none => rfl
      | some n => cases n <;> rfl
    rw [key, h p hu, ← key]
  · have key : ∀ {gs : FS}, gs.WF → Scan.find (Scan.user (gs.below root)) p = none := by
      intro gs wg
      rcases Option.eq_none_or_eq_some (Scan.find (Scan.user (gs.below root)) p) with h1 | ⟨n, h1⟩
      · exact h1
      · exfalso
        unfold Scan.find at h1
        obtain ⟨⟨q, m⟩, h2, _⟩ := Option.map_eq_some_iff.1 h1
        have h3 := List.find?_some h2
        have h4 := ((mem_user_below wg).1 (List.mem_of_find?_eq_some h2)).2
        simp only [decide_eq_true_eq] at h3
        rw [h3] at h4
        exact hu h4
    rw [key wf, key wf']

section
variable {env : Env} {w w1 w2 w3 w4 w5 w6 w' : World} {del : DeletedPaths} {new mod upd : UpdatedPaths}
  {cp : Path → Path} {DL DR : Path → Prop} {l sel rex : List Path}

theorem Steps.closed4 (S : Steps env w del new mod w1 w2 upd w3 cp DL DR l w4) (r : SyncReady env w) (c : Calm env w)
    (T : Selects env w w4 sel rex w5) : DB.ParentClosed (ADB.paths w4.db) := by
  intro p hp h0
  obtain ⟨n, hn⟩ := T.found p hp ((S.same4 c p).1 hp)
  have hu : UserPath p := by
    obtain ⟨d, hd⟩ := S.up.db.path hp
    exact hd.user
  obtain ⟨a, b, hd⟩ := FS.isDir_iff.1 (S.up.wf.isDir_prefix hn (env.rem ++ p.dropLast)
    ((List.prefix_append_right_inj _).2 (List.dropLast_prefix p)) (fun e => by
      have := congrArg List.length (List.append_cancel_left e)
      have := List.length_pos_iff.2 hu.1
      simp at *
      omega))
  exact S.cover4 r c (PlainPath.user (hu.plain.prefix (List.dropLast_prefix p)) h0) hd

/-- Without excluded paths a sync leaves the databases as they are when the selection is made, apart from the marks. -/
theorem Steps.db_after (S : Steps env w del new mod w1 w2 upd w3 cp DL DR l w4) (r : SyncReady env w) (c : Calm env w)
    (T : Selects env w w4 sel rex w5) (D : LocalDone env sel rex w5 w6 w') (hp : PrioSums w.db)
    (hx : ∀ p, p ∉ rex) :
    pathDir w'.db = pathDir w4.db ∧ ALocal.vPrio w'.db = ALocal.vPrio w4.db ∧ w'.rdb = w4.rdb := by
  have db5 : w5.db = w4.db := by obtain ⟨x, y, e⟩ := T.same; rw [e]
  have rdb5 : w5.rdb = w4.rdb := by obtain ⟨x, y, e⟩ := T.same; rw [e]
  obtain ⟨nw, e6, N⟩ := D.db
  obtain ⟨ps, e7, e8, hps⟩ := D.ended.tr
  have ps0 : ps = [] := List.eq_nil_iff_forall_not_mem.2 (fun p h => hx p (hps p h).1)
  subst ps0
  rw [rmPaths_nil, e6, db5] at e7
  have e8' : ARemote.rmPaths w6.rdb [] = w6.rdb := rmCore_nil _
  rw [e8', D.rdb, rdb5] at e8
  refine ⟨by rw [e7, pathDir_markLocal], ?_, e8⟩
  rw [e7]
  refine vPrio_markLocal (S.prio4 r c hp) (S.closed4 r c T) (fun p h => ?_)
  have := N.row p h
  rw [rdb5] at this
  exact (S.same4 c p).2 this

theorem chosen_of_none (S : Steps env w del new mod w1 w2 upd w3 cp DL DR l w4) (T : Selects env w w4 sel rex w5)
    (hx : ∀ p, ¬ OwnExcludes env w.os.fs p) : ∃ dirs files : Selected,
    prioritizeDirs (selEnv env w4.db w4.rdb (Scan.user (w4.os.fs.below env.rem))) (env.storageLimit - (0 : Nat)) = some dirs ∧
    prioritizeFiles (selEnv env w4.db w4.rdb (Scan.user (w4.os.fs.below env.rem))) dirs.1 dirs.2 = some files ∧
    sel = dirs.2 ++ files.2 := by
  obtain ⟨ex, s, size, dirs, files, hm, _, hsz, hd, hf, hsel⟩ := T.chosen
  obtain ⟨ex', hm', hex'⟩ := S.up.ex
  rw [hm] at hm'; cases hm'
  have e0 : ex = [] := List.eq_nil_iff_forall_not_mem.2 (fun p h => hx p ((hex' p).1 h))
  have r0 : rex = [] := List.eq_nil_iff_forall_not_mem.2 (fun p h => hx p (T.rexOwn p h))
  subst e0 r0
  have : excludedSize s [] = some 0 := rfl
  rw [this] at hsz
  cases hsz
  exact ⟨dirs, files, hd, hf, by rw [hsel, List.append_nil]⟩

end

/-- What is the same in two states of the directories. -/
structure SameAt (root : Path) (fs fs' : FS) (p : Path) : Prop where
  kept : ∀ n, fs.get (root ++ p) = some n → ∃ n', fs'.get (root ++ p) = some n' ∧ n'.isDir = n.isDir ∧
    (n.isDir = false → n' = n)
  old : ∀ n, fs'.get (root ++ p) = some n → ∃ n, fs.get (root ++ p) = some n

/-- A sync in a state that a sync has left. -/
theorem again_of_done {env : Env} {w w' v v' : World} (r : SyncReady env w) (c : Calm env w) (h1 : SyncDone env w w')
    (hc : NoOlder env w) (hp : PrioSums w.db) (hx : ∀ p, ¬ OwnExcludes env w.os.fs p) (a : AtRest env w')
    (efs : v.os.fs = w'.os.fs) (edb : v.db = w'.db) (erdb : v.rdb = w'.rdb) (rv : SyncReady env v) (cv : Calm env v)
    (i : Idle env v) (hx' : ∀ p, ¬ OwnExcludes env v.os.fs p) (h2 : SyncDone env v v') :
    (∀ p, p ≠ [] → SameAt env.loc w'.os.fs v'.os.fs p) ∧ (∀ p, UserPath p → SameAt env.rem w'.os.fs v'.os.fs p) ∧
      pathDir v'.db = pathDir w'.db ∧ ALocal.vPrio v'.db = ALocal.vPrio w'.db ∧ v'.rdb = w'.rdb := by
  obtain ⟨del, new, mod, w1, w2, upd, w3, cp, DL, DR, l, w4, sel, rex, w5, w6, S, T, D⟩ := h1
  obtain ⟨del', new', mod', v1, v2, upd', v3, cp', DL', DR', l', v4, sel', rex', v5, v6, S', T', D'⟩ := h2
  have fs5 : w5.os.fs = w4.os.fs := by obtain ⟨x, y, h⟩ := T.same; rw [h]
  have fsv5 : v5.os.fs = v4.os.fs := by obtain ⟨x, y, h⟩ := T'.same; rw [h]
  have dbv5 : v5.db = v4.db := by obtain ⟨x, y, h⟩ := T'.same; rw [h]
  have rdbv5 : v5.rdb = v4.rdb := by obtain ⟨x, y, h⟩ := T'.same; rw [h]
  have rx : ∀ p, p ∉ rex := fun p h => hx p (T.rexOwn p h)
  have rx' : ∀ p, p ∉ rex' := fun p h => hx' p (T'.rexOwn p h)
  obtain ⟨da, pa, ra⟩ := S.db_after r c T D hp rx
  obtain ⟨idb, irdb⟩ := S'.idle_db i
  have hpw' : PrioSums w'.db := by
    have := S.prio4 r c hp
    unfold PrioSums at this ⊢
    rw [pa]; exact this
  obtain ⟨db', pb', rb'⟩ := S'.db_after rv cv T' D' (by rw [edb]; exact hpw') rx'
  -- the remote directory
  have r4 : ∀ p, UserPath p → w'.os.fs.get (env.rem ++ p) = w4.os.fs.get (env.rem ++ p) :=
    fun p hu => D.rem_eq r T hu (fun q hq => absurd hq (hx q))
  have r4' : ∀ p, UserPath p → v'.os.fs.get (env.rem ++ p) = v4.os.fs.get (env.rem ++ p) :=
    fun p hu => D'.rem_eq rv T' hu (fun q hq => absurd hq (hx' q))
  have rdata : ∀ p, UserPath p →
      (v4.os.fs.get (env.rem ++ p)).map Node.data = (w4.os.fs.get (env.rem ++ p)).map Node.data := by
    intro p hu
    rw [(S'.idle_rem rv i hu).1, efs, r4 p hu]
  -- the selection
  have hsel : sel' = sel := by
    obtain ⟨dirs, files, hd, hf, e⟩ := chosen_of_none S T hx
    obtain ⟨dirs', files', hd', hf', e'⟩ := chosen_of_none S' T' hx'
    have hst : (selEnv env v4.db v4.rdb (Scan.user (v4.os.fs.below env.rem))).strip =
        (selEnv env w4.db w4.rdb (Scan.user (w4.os.fs.below env.rem))).strip := by
      unfold selEnv SelEnv.strip
      dsimp only
      have e1 : v4.db.map stripRow = w4.db.map stripRow := by
        rw [idb, edb]; exact map_strip_eq da pa
      have e2 : v4.rdb = w4.rdb := by rw [irdb, erdb, ra]
      have e3 := funext (selStat_eq (root := env.rem) S.up.wf S'.up.wf rdata)
      rw [e1, e2, e3]
    rw [← prioritizeDirs_strip, hst, prioritizeDirs_strip, hd] at hd'
    cases hd'
    rw [← prioritizeFiles_strip, hst, prioritizeFiles_strip, hf] at hf'
    cases hf'
    rw [e, e']
  subst hsel
  -- the other way round
  have both : ∀ {p n}, UserPath p → v4.os.fs.get (env.rem ++ p) = some n → ∃ m, w'.os.fs.get (env.rem ++ p) = some m ∧
      m.isDir = n.isDir := by
    intro p n hu hn
    have h := rdata p hu
    rw [hn, ← r4 p hu, Option.map_some] at h
    obtain ⟨m, h3, h4⟩ := Option.map_eq_some_iff.1 h.symm
    exact ⟨m, h3, Node.data_isDir h4⟩
  have selU : ∀ f ∈ setOf sel', UserPath f := by
    intro f hf
    rcases T'.known f (mem_setOf.1 hf) with h | h
    · obtain ⟨d, hd⟩ := S'.up.db.path h
      exact hd.user
    · exact absurd h (rx' f)
  have lsU : ∀ q, Listed v4.os.fs env.rem (some (setOf sel')) q → UserPath q := by
    rintro q ⟨_, _, f, hf, hfq⟩
    exact PlainPath.extend (selU f hf) hfq
  have userL : ∀ {p n}, p ≠ [] → w'.os.fs.get (env.loc ++ p) = some n → UserPath p := by
    intro p n h0 hn
    exact rv.local_user h0 (by rw [efs]; exact hn)
  refine ⟨fun p h0 => ⟨fun n hn => ?_, fun n hn => ?_⟩, fun p hu => ⟨fun n hn => ?_, fun n hn => ?_⟩, ?_, ?_, ?_⟩
  · have hu := userL h0 hn
    obtain ⟨n4, g4, k4, s4⟩ := S'.idle_loc rv i hu.plain n (by rw [efs]; exact hn)
    rcases D'.kept.loc p n4 (by rw [fsv5]; exact g4) with h | ⟨hst, hl⟩ | ⟨hls, hd⟩
    · exact ⟨n4, by rw [D'.loc_eq rv]; exact h, k4, s4⟩
    · cases hnd : n.isDir with
      | true =>
        have hdb : p ∈ ADB.paths w'.db := by
          have := hst.2.2.1
          rw [dbv5, idb, edb] at this
          exact this
        have hrd := (a.same p).1 hdb
        obtain ⟨e, he, hep⟩ := List.mem_map.1 hrd
        obtain ⟨nr, hnr⟩ := (a.remote p hu).1 hrd
        obtain ⟨nl, hnl, hk⟩ := a.both hu hnr
        rw [hn] at hnl; cases hnl
        have hed : e.directory = true := by rw [← a.kind_rdb e he nr (by rw [hep]; exact hnr), ← hk, hnd]
        have := D'.done.dirs e (by rw [rdbv5, irdb, erdb]; exact he) hed (by
          intro m hm
          rw [hep, fsv5, g4] at hm; cases hm
          rw [k4, hnd])
        rw [hep] at this
        obtain ⟨x, y, h⟩ := FS.isDir_iff.1 this
        exact ⟨_, by rw [D'.loc_eq rv]; exact h, rfl, fun h => by cases h⟩
      | false =>
        exfalso
        have hnn := s4 hnd
        subst hnn
        cases n4 with
        | dir _ _ => cases hnd
        | link _ _ => cases hl
        | file k m b =>
          obtain ⟨_, _, _, _, f, hf, hfp⟩ := S.file_listed r c T D hc h0 hn (hx p)
          exact hst.2.2.2.1 ⟨f, hf, hfp⟩
    · rw [fsv5] at hls
      have hnd : n.isDir = false := by rw [← k4]; exact hd
      obtain ⟨⟨m, hm⟩, _, hf⟩ := id hls
      obtain ⟨m', hm', hk⟩ := both hu hm
      obtain ⟨nl, hnl, hk2⟩ := a.both hu hm'
      rw [hn] at hnl; cases hnl
      have hmd : m'.isDir = false := by rw [← hk2, hnd]
      have hm4 := (S'.idle_rem rv i hu).2 m' (by rw [efs]; exact hm') hmd
      have c1 := D.done.copied p m' (by rw [fs5]; exact ⟨⟨m', by rw [← r4 p hu]; exact hm'⟩, h0, hf⟩)
        (by rw [fs5, ← r4 p hu]; exact hm') hmd
      rw [← D.loc_eq r, hn] at c1; cases c1
      have c2 := D'.done.copied p n (by rw [fsv5]; exact hls) (by rw [fsv5]; exact hm4) hmd
      exact ⟨n, by rw [D'.loc_eq rv]; exact c2, rfl, fun _ => rfl⟩
  · rw [D'.loc_eq rv] at hn
    have fromRem : ∀ {m}, UserPath p → w'.os.fs.get (env.rem ++ p) = some m → ∃ n, w'.os.fs.get (env.loc ++ p) = some n := by
      intro m hu hm
      obtain ⟨x, hx, _⟩ := a.both hu hm
      exact ⟨x, hx⟩
    rcases D'.done.made p n hn with ⟨m, hm⟩ | h | ⟨q, hq, hpq⟩
    · rw [fsv5] at hm
      rw [← efs]
      exact S'.idle_locOld rv i m hm
    · rw [rdbv5, irdb, erdb] at h
      obtain ⟨m, hm⟩ := (a.remote p (a.user p h)).1 h
      exact fromRem (a.user p h) hm
    · rw [fsv5] at hq
      have hqu := lsU q hq
      obtain ⟨⟨m, hm⟩, _⟩ := id hq
      obtain ⟨m', hm', _⟩ := both hqu hm
      have hu : UserPath p := PlainPath.user (hqu.plain.prefix hpq) h0
      by_cases hne : p = q
      · subst hne; exact fromRem hu hm'
      · obtain ⟨x, y, h2⟩ := FS.isDir_iff.1 (a.wf.isDir_prefix hm' (env.rem ++ p)
          ((List.prefix_append_right_inj _).2 hpq) (fun e => hne (List.append_cancel_left e)))
        exact fromRem hu h2
  · rw [r4' p hu]
    obtain ⟨h3, h4⟩ := S'.idle_rem rv i hu
    rw [efs] at h3 h4
    rw [hn] at h3
    obtain ⟨n', h5, h6⟩ := Option.map_eq_some_iff.1 h3
    refine ⟨n', h5, Node.data_isDir h6, fun hd => ?_⟩
    have := h4 n hn hd
    rw [h5] at this; cases this; rfl
  · rw [r4' p hu] at hn
    obtain ⟨m, hm, _⟩ := both hu hn
    exact ⟨m, hm⟩
  · rw [db', idb, edb]
  · rw [pb', idb, edb]
  · rw [rb', irdb, erdb]

end Verif
