import Verif.SyncResult
import Verif.Props.C12_SpaceLimit
/-
How much space the local directory takes after a sync.
-/
namespace Verif
open Prog OSM Call FSTools WM

/-- The disk usage of what is at a path, in bytes. -/
def usedAt (fs : FS) (p : Path) : Nat := ((fs.get p).map (fun n => n.blocks * 512)).getD 0

/-- The disk usage of what is at some paths below a directory. -/
def usedIn (fs : FS) (root : Path) (l : List Path) : Nat := (l.map (fun p => usedAt fs (root ++ p))).sum

theorem sum_le_of_subset {α : Type} [DecidableEq α] (f : α → Nat) {A : List α} : ∀ {B : List α}, A.Nodup → A ⊆ B →
    (A.map f).sum ≤ (B.map f).sum := by
  induction A with
  | nil => intro B _ _; exact Nat.zero_le _
  | cons a A ih =>
    intro B hn hs
    have ha : a ∈ B := hs List.mem_cons_self
    have h1 := ih (B := B.erase a) (List.nodup_cons.1 hn).2 (by
      intro x hx
      have hne : x ≠ a := by rintro rfl; exact (List.nodup_cons.1 hn).1 hx
      exact (List.mem_erase_of_ne hne).2 (hs (List.mem_cons_of_mem _ hx)))
    have h2 := ((List.perm_cons_erase ha).map f).sum_nat
    rw [h2, List.map_cons, List.map_cons, List.sum_cons, List.sum_cons]
    omega

/-- Files that are selected or in a selected directory take no more space than what has been selected. -/
theorem sum_le_selected {e : SelEnv} {F : List Path} : ∀ {D A : List Path}, A.Nodup →
    (∀ p ∈ A, p ∈ F ∨ (p ∈ ADB.paths e.rem ∧ ∃ d ∈ D, d <+: p)) →
    (A.map (fileUsage e)).sum ≤ (D.map (treeUsage e)).sum + (F.map (fileUsage e)).sum := by
  intro D
  induction D with
  | nil =>
    intro A hn h
    rw [List.map_nil, List.sum_nil, Nat.zero_add]
    refine sum_le_of_subset _ hn (fun p hp => ?_)
    rcases h p hp with h1 | ⟨_, d, hd, _⟩
    · exact h1
    · cases hd
  | cons d D ih =>
    intro A hn h
    rw [sum_filter_add A (fun p => decide (p ∉ F ∧ d <+: p)) (fileUsage e), List.map_cons, List.sum_cons]
    have h1 := ih (A := A.filter (fun p => !decide (p ∉ F ∧ d <+: p))) (hn.sublist List.filter_sublist) (by
      intro p hp
      obtain ⟨hp1, hp2⟩ := List.mem_filter.1 hp
      rcases h p hp1 with h2 | ⟨h2, d', hd', h3⟩
      · exact Or.inl h2
      · by_cases hpF : p ∈ F
        · exact Or.inl hpF
        · rcases List.mem_cons.1 hd' with rfl | hd'
          · simp [hpF, h3] at hp2
          · exact Or.inr ⟨h2, d', hd', h3⟩)
    have h2 : ((A.filter (fun p => decide (p ∉ F ∧ d <+: p))).map (fileUsage e)).sum ≤ treeUsage e d := by
      have := sum_le_of_subset (fileUsage e) (A := A.filter (fun p => decide (p ∉ F ∧ d <+: p)))
        (B := ADB.paths (e.rem.filter (fun x => d.isPrefixOf x.path))) (hn.sublist List.filter_sublist) (by
          intro p hp
          obtain ⟨hp1, hp2⟩ := List.mem_filter.1 hp
          rw [decide_eq_true_eq] at hp2
          rcases h p hp1 with h2 | ⟨h2, _⟩
          · exact absurd h2 hp2.1
          · obtain ⟨x, hx, rfl⟩ := List.mem_map.1 h2
            exact List.mem_map.2 ⟨x, List.mem_filter.2 ⟨hx, List.isPrefixOf_iff_prefix.2 hp2.2⟩, rfl⟩)
      unfold treeUsage
      unfold ADB.paths at this
      rw [List.map_map] at this
      exact this
    omega

theorem length_le_of_subset {α : Type} [DecidableEq α] {A B : List α} (hn : A.Nodup) (h : A ⊆ B) : A.length ≤ B.length := by
  have := sum_le_of_subset (fun _ => 1) hn h
  simpa using this

theorem excludedSize_le {s : Scan} {ex X : List Path} {size : Nat} (h : excludedSize s ex = some size) (hn : X.Nodup)
    (hX : X ⊆ ex) : (X.map (fun p => ((s.find p).map (fun n => n.blocks * 512)).getD 0)).sum ≤ size := by
  unfold excludedSize at h
  rw [Option.map_eq_some_iff] at h
  obtain ⟨l, h1, rfl⟩ := h
  have h2 := map_mapM (g := fun p : Path => ((s.find p).map (fun n => n.blocks * 512)).getD 0) (k := id) (by
    intro a b hb
    rw [hb]; rfl) h1
  rw [List.map_id] at h2
  rw [h2]
  exact sum_le_of_subset _ hn hX

section
variable {env : Env} {w w1 w2 w3 w4 w5 w6 w' : World} {del : DeletedPaths} {new mod upd : UpdatedPaths}
  {cp : Path → Path} {DL DR : Path → Prop} {l sel rex : List Path}

/-- No file was changed on both sides with the local version being the older one. -/
def NoOlder (env : Env) (w : World) : Prop :=
  ∀ p a b, ChangedLocally env w p → ChangedRemotely env w p → w.os.fs.get (env.loc ++ p) = some a →
    w.os.fs.get (env.rem ++ p) = some b → a.isDir = false → ¬ a.mtime < b.mtime

theorem Steps.no_dl (S : Steps env w del new mod w1 w2 upd w3 cp DL DR l w4) (r : SyncReady env w)
    (hc : NoOlder env w) (p : Path) : ¬ DL p := by
  intro hp
  obtain ⟨h1, h2⟩ := S.rb.mem p (Or.inl hp)
  obtain ⟨a, b, h3, h4, h5, h6⟩ := S.rb.ctx.both p (Or.inl hp)
  obtain ⟨A, B, k, _⟩ := S.cl.clearing
  have less : Less env w.os.fs w2.os.fs := (S.sc.start.less r).trans k.less
  have hu := (S.rb.ctx.user p (Or.inl hp)).1
  obtain ⟨a', e1, e2, e3⟩ := less.1 p hu.plain a h3
  obtain ⟨b', e4, e5, e6⟩ := less.2 p hu.plain b h4
  obtain ⟨_, _, _, a2, b2, g1, g2, g3⟩ := (S.rb.dl p).1 hp
  rw [h3] at g1; cases g1
  rw [h4] at g2; cases g2
  have ea := e3 h5
  have eb := e6 h6
  subst ea eb
  exact hc p a' b' (S.sc.mem_loc.1 h1) (S.sc.mem_rem.1 h2) e1 e4 h5 g3

/-- A local regular file that is not excluded is known when the selection is made. -/
theorem Steps.file_known (S : Steps env w del new mod w1 w2 upd w3 cp DL DR l w4) (r : SyncReady env w)
    (c : Calm env w) {p : Path} {k : Nat} {m : Int} {b : Nat} (hp0 : p ≠ [])
    (hn : w4.os.fs.get (env.loc ++ p) = some (.file k m b)) (he : ¬ OwnExcludes env w.os.fs p) :
    p ∈ ADB.paths w4.db := by
  rw [S.ub.moved.loc_eq] at hn
  rcases S.rb.eff.loc_some r.apart hn with ⟨h2, _⟩ | ⟨z, hz, rfl, _⟩
  swap
  · exact (S.ub.db _).2 (Or.inr (Or.inl ((S.rb.loc _).2 ⟨hp0, Or.inr ⟨z, hz, rfl⟩⟩)))
  obtain ⟨A, B, kl, _⟩ := S.cl.clearing
  obtain ⟨n1, h1⟩ := kl.locOld p _ h2
  have h0 : w.os.fs.get (env.loc ++ p) = some n1 := by rw [← S.sc.start.loc r]; exact h1
  have hu := r.local_user hp0 h0
  have less : Less env w.os.fs w2.os.fs := (S.sc.start.less r).trans kl.less
  obtain ⟨n2, g1, g2, g3⟩ := less.1 p hu.plain _ h2
  have g4 := g3 rfl
  subst g4
  rw [S.same4 c, S.ub.rdb, S.rb.rdb]
  refine Or.inl (Or.inl ((S.same2 c p).1 (S.db_known r hu ?_ (Or.inl ⟨_, h2⟩))))
  rw [S.sc.dbIff]
  by_cases hdb : p ∈ ADB.paths w.db
  · exact Or.inl hdb
  · exact Or.inr (Or.inl ((S.sc.newLocIff p).2 ⟨hp0, _, g1, hdb, (fun ⟨_, _, h, _⟩ => by cases h), he⟩))

/-- What the client excludes is neither known nor in the remote directory. -/
def NoneExcluded (env : Env) (w : World) : Prop :=
  ∀ p, OwnExcludes env w.os.fs p → p ∉ ADB.paths w.db ∧ w.os.fs.get (env.rem ++ p) = none

/-- Nothing excluded is in the remote directory when the selection is made, or was there when it was scanned. -/
theorem Steps.rem_excl (S : Steps env w del new mod w1 w2 upd w3 cp DL DR l w4) (r : SyncReady env w) (c : Calm env w)
    (hc : NoOlder env w) (hx : NoneExcluded env w) {p : Path} (ho : OwnExcludes env w.os.fs p) :
    w1.os.fs.get (env.rem ++ p) = none ∧ w2.os.fs.get (env.rem ++ p) = none ∧ w4.os.fs.get (env.rem ++ p) = none := by
  obtain ⟨hp0, np, hnp⟩ := ownExcludes_exists ho
  have hu := r.local_user hp0 hnp
  obtain ⟨A, B, kl, _⟩ := S.cl.clearing
  have less : Less env w.os.fs w2.os.fs := (S.sc.start.less r).trans kl.less
  have hno := (hx p ho).2
  have no2 : ∀ n, w2.os.fs.get (env.rem ++ p) ≠ some n := by
    intro n h
    obtain ⟨n', h1, _⟩ := less.2 p hu.plain n h
    rw [hno] at h1; cases h1
  refine ⟨by rw [S.sc.start.rem hu.plain, hno], Option.eq_none_iff_forall_ne_some.2 no2,
    Option.eq_none_iff_forall_ne_some.2 fun n h4 => ?_⟩
  rcases S.rem_cases r h4 with ⟨m, h3⟩ | ⟨f, hf, ⟨m, h3⟩, h5⟩
  · rcases S.rb.eff.rem_some r.apart h3 with ⟨h2, _⟩ | ⟨z, hz, rfl, _⟩
    · exact no2 m h2
    · rw [(S.cp_free r (Or.inr hz)).1] at hnp; cases hnp
  · rcases ((S.rb.loc f).1 hf).2 with ⟨hL, _⟩ | ⟨z, hz, _⟩
    swap
    · exact S.no_dl r hc z hz
    have hch := S.sc.mem_loc.1 hL
    have hfx : ¬ OwnExcludes env w.os.fs f := by
      intro h6
      obtain ⟨_, _, _, _, h7 | h7⟩ := hch
      · exact h7.2 h6
      · exact (hx f h6).1 h7.1
    have below : f <+: p → False := by
      intro h6
      by_cases h7 : f = p
      · subst h7; exact hfx ho
      · exact (c.below f hch p np h6 h7 hnp).1 ho
    rcases h5 with h5 | h5 | h5
    · exact below h5.1
    · obtain ⟨_, nf, hnf, _⟩ := hch
      exact hfx (ownExcludes_below ho h5.1 ⟨nf, hnf⟩)
    · exact below h5.1

theorem Steps.rex_nil (S : Steps env w del new mod w1 w2 upd w3 cp DL DR l w4) (r : SyncReady env w) (c : Calm env w)
    (T : Selects env w w4 sel rex w5) (hc : NoOlder env w) (hx : NoneExcluded env w) (p : Path) : p ∉ rex := by
  intro hp
  obtain ⟨no1, no2, no4⟩ := S.rem_excl r c hc hx (T.rexOwn p hp)
  obtain ⟨A, B, kl, _⟩ := S.cl.clearing
  have key : ∀ {fs : FS}, fs.WF → fs.get (env.rem ++ p) = none → p ∉ Scan.keys (Scan.user (fs.below env.rem)) := by
    intro fs wf h0 h
    obtain ⟨⟨q, n⟩, h1, rfl⟩ := List.mem_map.1 h
    rw [((mem_user_below wf).1 h1).1] at h0; cases h0
  rcases T.rexSeen p hp with h | h
  · rw [S.ub.rmemo] at h
    rcases S.rb.rmemo with h1 | h1
    · rw [h1, kl.rmemo, S.sc.rmemo] at h
      exact key S.sc.start.wf no1 h
    · rw [h1] at h
      exact key kl.wf no2 h
  · exact key S.up.wf no4 h

/-- An excluded file that is there after the sync is what it was before. -/
theorem Steps.excluded_kept (S : Steps env w del new mod w1 w2 upd w3 cp DL DR l w4) (r : SyncReady env w)
    (c : Calm env w) (T : Selects env w w4 sel rex w5) (D : LocalDone env sel rex w5 w6 w') (hc : NoOlder env w)
    (hx : NoneExcluded env w) {p : Path} (ho : OwnExcludes env w.os.fs p) {n : Node} (hd : n.isDir = false)
    (hn : w'.os.fs.get (env.loc ++ p) = some n) : w.os.fs.get (env.loc ++ p) = some n := by
  have fs5 : w5.os.fs = w4.os.fs := by obtain ⟨x, y, h⟩ := T.same; rw [h]
  have rdb5 : w5.rdb = w4.rdb := by obtain ⟨x, y, h⟩ := T.same; rw [h]
  have db5 : w5.db = w4.db := by obtain ⟨x, y, h⟩ := T.same; rw [h]
  have hn6 : w6.os.fs.get (env.loc ++ p) = some n := by rw [← D.loc_eq r]; exact hn
  obtain ⟨hp0, np, hnp⟩ := ownExcludes_exists ho
  have hu := r.local_user hp0 hnp
  have no4 := (S.rem_excl r c hc hx ho).2.2
  have nodb : p ∉ ADB.paths w4.db := by
    intro h
    obtain ⟨m, h1⟩ := T.found p h ((S.same4 c p).1 h)
    rw [no4] at h1; cases h1
  rcases D.done.made p _ hn6 with ⟨n0, h0⟩ | h | ⟨q, hq, hpq⟩
  · rcases D.kept.loc p n0 h0 with h1 | ⟨h1, _⟩ | ⟨⟨⟨m, h1⟩, _⟩, _⟩
    · rw [hn6] at h1; cases h1
      rw [fs5, S.ub.moved.loc_eq] at h0
      rcases S.rb.eff.loc_some r.apart h0 with ⟨h2, _⟩ | ⟨z, hz, _⟩
      · obtain ⟨A, B, kl, _⟩ := S.cl.clearing
        have less : Less env w.os.fs w2.os.fs := (S.sc.start.less r).trans kl.less
        obtain ⟨n2, g1, g2, g3⟩ := less.1 p hu.plain _ h2
        rw [← g3 hd]; exact g1
      · exact absurd hz (S.no_dl r hc z)
    · exact absurd (by rw [← db5]; exact h1.2.2.1) nodb
    · rw [fs5, no4] at h1; cases h1
  · rw [rdb5] at h; exact absurd ((S.same4 c p).2 h) nodb
  · rw [fs5] at hq
    obtain ⟨⟨m, h1⟩, _⟩ := id hq
    by_cases hne : p = q
    · subst hne; rw [no4] at h1; cases h1
    · obtain ⟨a, b, h2⟩ := FS.isDir_iff.1 (S.up.wf.isDir_prefix h1 (env.rem ++ p)
        ((List.prefix_append_right_inj _).2 hpq) (fun e => hne (List.append_cancel_left e)))
      rw [no4] at h2; cases h2

/-- A local regular file that is not excluded is at or below a selected path after the sync. -/
theorem Steps.file_listed (S : Steps env w del new mod w1 w2 upd w3 cp DL DR l w4) (r : SyncReady env w)
    (c : Calm env w) (T : Selects env w w4 sel rex w5) (D : LocalDone env sel rex w5 w6 w') (hc : NoOlder env w)
    {p : Path} {k : Nat} {m : Int} {b : Nat} (hp0 : p ≠ []) (hn : w'.os.fs.get (env.loc ++ p) = some (.file k m b))
    (he : ¬ OwnExcludes env w.os.fs p) :
    p ∈ ADB.paths w4.db ∧ w4.os.fs.get (env.rem ++ p) = some (.file k m b) ∧
      Listed w4.os.fs env.rem (some (setOf sel)) p := by
  have fs5 : w5.os.fs = w4.os.fs := by obtain ⟨x, y, h⟩ := T.same; rw [h]
  have rdb5 : w5.rdb = w4.rdb := by obtain ⟨x, y, h⟩ := T.same; rw [h]
  have hn6 : w6.os.fs.get (env.loc ++ p) = some (.file k m b) := by rw [← D.loc_eq r]; exact hn
  -- what is selected is a user path
  have selU : ∀ f ∈ setOf sel, UserPath f := by
    intro f hf
    rcases T.known f (mem_setOf.1 hf) with h | h
    · obtain ⟨d, hd⟩ := S.up.db.path h
      exact hd.user
    · obtain ⟨h0, n, h1⟩ := ownExcludes_exists (T.rexOwn f h)
      exact r.local_user h0 h1
  have listedU : ∀ q, Listed w4.os.fs env.rem (some (setOf sel)) q → UserPath q := by
    rintro q ⟨_, _, f, hf, hfq⟩
    exact PlainPath.extend (selU f hf) hfq
  have hdb : p ∈ ADB.paths w4.db := by
    rcases D.done.made p _ hn6 with ⟨n0, h0⟩ | h | ⟨q, hq, hpq⟩
    · rw [fs5] at h0
      by_cases hl : Listed w4.os.fs env.rem (some (setOf sel)) p
      · obtain ⟨⟨n, h1⟩, _⟩ := id hl
        exact S.cover4 r c (listedU p hl) h1
      · rcases D.kept.loc p n0 (by rw [fs5]; exact h0) with h1 | ⟨h1, _⟩ | ⟨h1, _⟩
        · rw [hn6] at h1; cases h1
          exact S.file_known r c hp0 h0 he
        · have := h1.2.2.1
          obtain ⟨x, y, h⟩ := T.same
          rw [h] at this; exact this
        · rw [fs5] at h1; exact absurd h1 hl
    · rw [rdb5] at h; exact (S.same4 c p).2 h
    · rw [fs5] at hq
      obtain ⟨⟨n, h1⟩, _⟩ := id hq
      have hu : UserPath p := PlainPath.user ((listedU q hq).plain.prefix hpq) hp0
      by_cases hne : p = q
      · subst hne; exact S.cover4 r c hu h1
      · obtain ⟨a, b, h2⟩ := FS.isDir_iff.1 (S.up.wf.isDir_prefix h1 (env.rem ++ p)
          ((List.prefix_append_right_inj _).2 hpq) (fun e => hne (List.append_cancel_left e)))
        exact S.cover4 r c hu h2
  have hrdb := (S.same4 c p).1 hdb
  obtain ⟨n, hrem⟩ := T.found p hdb hrdb
  obtain ⟨e, he1, hep⟩ := List.mem_map.1 hrdb
  have hfit := S.up.rdb e he1
  rw [hep] at hfit
  have he5 : e ∈ w5.rdb := by rw [rdb5]; exact he1
  have hed : e.directory = false := by
    cases hd : e.directory with
    | false => rfl
    | true =>
      have := D.done.dirs e he5 hd (by
        intro n0 h0
        rw [hep, fs5] at h0
        rw [hfit.loc n0 h0, hd])
      rw [hep, isDir_iff_false hn6] at this; cases this
  have hnd : n.isDir = false := by rw [hfit.rem n hrem, hed]
  by_cases hl : Listed w4.os.fs env.rem (some (setOf sel)) p
  · have := D.done.copied p n (by rw [fs5]; exact hl) (by rw [fs5]; exact hrem) hnd
    rw [hn6] at this; cases this
    exact ⟨hdb, hrem, hl⟩
  · exfalso
    rcases D.done.files e he5 hed (by rw [hep, fs5]; exact hl) with ⟨n0, h0, h1⟩ | ⟨m', h1⟩
    · rw [hep] at h0 h1
      rw [hn6] at h1; cases h1
      have h0' := h0
      rw [fs5] at h0'
      have h3 := h0'
      rw [S.ub.moved.loc_eq] at h3
      rcases S.rb.eff.loc_some r.apart h3 with ⟨h2, _⟩ | ⟨z, hz, _⟩
      · obtain ⟨A, B, kl, _⟩ := S.cl.clearing
        obtain ⟨n1, g1⟩ := kl.locOld p _ h2
        have hst := S.stale_plain T hdb h0' rfl g1 h2 he (fun f hf hfp => hl ⟨⟨n, hrem⟩, hp0, f, hf, hfp⟩)
        exact D.done.freed p k m b hst h0 (by rw [fs5]; exact hl) hn6
      · exact S.no_dl r hc z hz
    · rw [hep, hn6] at h1; cases h1

theorem Steps.selStat (S : Steps env w del new mod w1 w2 upd w3 cp DL DR l w4) {p : Path} (hu : UserPath p) :
    fileUsage (selEnv env w4.db w4.rdb (Scan.user (w4.os.fs.below env.rem))) p = usedAt w4.os.fs (env.rem ++ p) := by
  unfold fileUsage usedAt selEnv
  dsimp only
  rw [find_user hu, find_below S.up.wf hu.1, Option.map_map]
  rfl

/-- After a sync the files that are not excluded, the links to the others and the excluded files do not take more
space than the limit. -/
theorem space_of_done (r : SyncReady env w) (c : Calm env w) (h : SyncDone env w w') (hc : NoOlder env w)
    (hx : NoneExcluded env w) {F K X : List Path} (hF : F.Nodup) (hK : K.Nodup) (hX : X.Nodup)
    (hFl : ∀ p ∈ F, ¬ OwnExcludes env w.os.fs p ∧ ∃ k m b, p ≠ [] ∧ w'.os.fs.get (env.loc ++ p) = some (.file k m b))
    (hKl : ∀ p ∈ K, UserPath p ∧ (∃ k m b, w'.os.fs.get (env.rem ++ p) = some (.file k m b)) ∧
      ∃ t m, w'.os.fs.get (env.loc ++ p) = some (.link t m))
    (hXl : ∀ p ∈ X, OwnExcludes env w.os.fs p) (hne : F ≠ []) :
    (usedIn w'.os.fs env.loc F + usedIn w.os.fs env.loc X + K.length * env.symlinkSize : Int) ≤ env.storageLimit := by
  obtain ⟨del, new, mod, w1, w2, upd, w3, cp, DL, DR, l, w4, sel, rex, w5, w6, S, T, D⟩ := h
  have fs5 : w5.os.fs = w4.os.fs := by obtain ⟨x, y, h⟩ := T.same; rw [h]
  obtain ⟨ex, s, size, ⟨r1, dirs⟩, ⟨r2, files⟩, hm, hs, hsz, hdirs, hfiles, hsel⟩ := T.chosen
  generalize he : selEnv env w4.db w4.rdb (Scan.user (w4.os.fs.below env.rem)) = e at hdirs hfiles
  have hel : e.loc = w4.db := by rw [← he]; rfl
  have her : e.rem = w4.rdb := by rw [← he]; rfl
  have hes : e.symlinkSize = env.symlinkSize := by rw [← he]; rfl
  have hnd : (ADB.paths e.loc).Nodup := by rw [hel]; exact S.up.nodup_db
  have hrex : ∀ p, p ∉ rex := fun p => S.rex_nil r c T hc hx p
  have hsel' : ∀ f ∈ setOf sel, f ∈ dirs ∨ f ∈ files := by
    intro f hf
    have := mem_setOf.1 hf
    rw [hsel] at this
    rcases List.mem_append.1 this with h | h
    · exact List.mem_append.1 h
    · exact absurd h (hrex f)
  -- the files
  have usedF : usedIn w'.os.fs env.loc F = (F.map (fileUsage e)).sum := by
    unfold usedIn
    congr 1
    apply List.map_congr_left
    intro p hp
    obtain ⟨h1, k, m, b, h2, h3⟩ := hFl p hp
    obtain ⟨g1, g2, _⟩ := S.file_listed r c T D hc h2 h3 h1
    obtain ⟨d, hd⟩ := S.up.db.path g1
    rw [← he, S.selStat hd.user]
    unfold usedAt
    rw [h3, g2]
  have leF : (F.map (fileUsage e)).sum ≤ (dirs.map (treeUsage e)).sum + (files.map (fileUsage e)).sum := by
    refine sum_le_selected hF ?_
    intro p hp
    obtain ⟨h1, k, m, b, h2, h3⟩ := hFl p hp
    obtain ⟨g1, g2, _, _, f, hf, hfp⟩ := S.file_listed r c T D hc h2 h3 h1
    rcases hsel' f hf with h | h
    · exact Or.inr ⟨by rw [her]; exact (S.same4 c p).1 g1, f, h, hfp⟩
    · left
      obtain ⟨⟨x, hx1, hx2, hx3⟩, _⟩ := (C15_files hnd hfiles).2 f h
      by_cases hfe : f = p
      · subst hfe; exact h
      · exfalso
        rw [hel] at hx1
        have hfx := S.up.db x hx1
        rw [hx2, hx3] at hfx
        obtain ⟨a, b, h4⟩ := FS.isDir_iff.1 (S.up.wf.isDir_prefix g2 (env.rem ++ f)
          ((List.prefix_append_right_inj _).2 hfp) (fun e => hfe (List.append_cancel_left e)))
        have := hfx.rem _ h4
        cases this
  -- the links
  have leK : K.length ≤ linksLeft e dirs files := by
    have : K.length ≤ ((e.loc.filter (fun x => !x.directory && !dirs.any (fun d => d.isPrefixOf x.path)
        && decide (x.path ∉ files))).map Entry.path).length := by
      refine length_le_of_subset hK ?_
      intro p hp
      obtain ⟨hu, ⟨k, m, b, hr⟩, t, m', hl⟩ := hKl p hp
      have hr4 : w4.os.fs.get (env.rem ++ p) = some (.file k m b) := by
        rcases Option.eq_none_or_eq_some (w4.os.fs.get (env.rem ++ p)) with h | ⟨n, h⟩
        · rw [D.rem_gone r T h] at hr; cases hr
        · have h6 : w6.os.fs.get (env.rem ++ p) = w4.os.fs.get (env.rem ++ p) := by
            rw [D.kept.out, fs5]
            rintro ⟨⟨t, e⟩, _⟩
            exact r.apart.ne t p e
          rcases D.ended.keeps.gone (env.rem ++ p) with h7 | h7
          · rw [h7, h6] at hr; exact hr
          · rw [h7] at hr; cases hr
      obtain ⟨x, hx1, hx2⟩ := List.mem_map.1 (S.cover4 r c hu hr4)
      have hfx := S.up.db x hx1
      rw [hx2] at hfx
      have hxd : x.directory = false := (hfx.rem _ hr4).symm
      have hnl : ∀ f ∈ sel, ¬ f <+: p := by
        intro f hf hfp
        have := D.done.copied p _ ⟨⟨_, by rw [fs5]; exact hr4⟩, hu.1, f, mem_setOf.2 hf, hfp⟩ (by rw [fs5]; exact hr4) rfl
        rw [← D.loc_eq r, hl] at this; cases this
      refine List.mem_map.2 ⟨x, List.mem_filter.2 ⟨by rw [hel]; exact hx1, ?_⟩, hx2⟩
      simp only [hxd, Bool.not_false, Bool.true_and, Bool.and_eq_true, Bool.not_eq_true', List.any_eq_false,
        decide_eq_true_eq, List.isPrefixOf_iff_prefix]
      rw [hx2]
      refine ⟨fun d hd => hnl d ?_, fun hd => hnl p ?_ (List.prefix_refl _)⟩
      · rw [hsel]; exact List.mem_append_left _ (List.mem_append_left _ hd)
      · rw [hsel]; exact List.mem_append_left _ (List.mem_append_right _ hd)
    rw [List.length_map] at this
    exact this
  -- the excluded files
  have leX : usedIn w.os.fs env.loc X ≤ size := by
    by_cases hX0 : X = []
    · subst hX0; exact Nat.zero_le _
    obtain ⟨x0, hx0⟩ := List.exists_mem_of_ne_nil _ hX0
    obtain ⟨A, B, kl, _⟩ := S.cl.clearing
    have l1 : w1.lmemo ≠ [] := by
      obtain ⟨h0, n, h1⟩ := ownExcludes_exists (hXl x0 hx0)
      have : x0 ∈ Scan.keys (w1.os.fs.below env.loc) := by
        unfold Scan.keys
        rw [mem_keys_below S.sc.start.wf]; exact ⟨h0, n, by rw [S.sc.start.loc r]; exact h1⟩
      intro h
      rw [← S.sc.lmemo, h] at this; cases this
    have l4 : w4.lmemo = w1.lmemo := by
      rw [S.ub.lmemo]
      rcases S.rb.lmemo with h | ⟨h, _⟩
      · rw [h, kl.lmemo]
      · rw [kl.lmemo] at h; exact absurd h l1
    have hs1 : s = w1.os.fs.below env.loc := by rw [hs (by rw [l4]; exact l1), l4, S.sc.lmemo]
    obtain ⟨ex', hm', hex'⟩ := S.up.ex
    rw [hm] at hm'; cases hm'
    have := excludedSize_le hsz hX (fun p hp => (hex' p).2 (hXl p hp))
    refine Nat.le_trans (Nat.le_of_eq ?_) this
    unfold usedIn
    congr 1
    apply List.map_congr_left
    intro p hp
    obtain ⟨h0, n, h1⟩ := ownExcludes_exists (hXl p hp)
    rw [hs1, find_below S.sc.start.wf h0, S.sc.start.loc r]
    rfl
  -- something is selected
  have hsome : dirs ≠ [] ∨ files ≠ [] := by
    obtain ⟨p, hp⟩ := List.exists_mem_of_ne_nil _ hne
    obtain ⟨h1, k, m, b, h2, h3⟩ := hFl p hp
    obtain ⟨_, _, _, _, f, hf, _⟩ := S.file_listed r c T D hc h2 h3 h1
    rcases hsel' f hf with h | h
    · exact Or.inl (List.ne_nil_of_mem h)
    · exact Or.inr (List.ne_nil_of_mem h)
  have hlim := (C12_limit hnd hdirs hfiles).2 hsome
  unfold usage at hlim
  rw [hes] at hlim
  have leK' := Nat.mul_le_mul_right env.symlinkSize leK
  rw [usedF]
  push_cast at hlim ⊢
  have : ((K.length * env.symlinkSize : Nat) : Int) ≤ ((linksLeft e dirs files * env.symlinkSize : Nat) : Int) := by
    exact_mod_cast leK'
  push_cast at this
  have h1 : ((F.map (fileUsage e)).sum : Int) ≤ ((dirs.map (treeUsage e)).sum : Int) + ((files.map (fileUsage e)).sum : Int) := by
    exact_mod_cast leF
  have h2 : (usedIn w.os.fs env.loc X : Int) ≤ size := by exact_mod_cast leX
  push_cast at h1
  generalize (linksLeft e dirs files : Int) * env.symlinkSize = y at *
  generalize (K.length : Int) * env.symlinkSize = z at *
  omega

/-- The same for all files that the local directory has after the sync. -/
theorem space_of_done_all (r : SyncReady env w) (c : Calm env w) (h : SyncDone env w w') (hc : NoOlder env w)
    (hx : NoneExcluded env w) {F K : List Path} (hF : F.Nodup) (hK : K.Nodup)
    (hFl : ∀ p ∈ F, p ≠ [] ∧ ∃ k m b, w'.os.fs.get (env.loc ++ p) = some (.file k m b))
    (hKl : ∀ p ∈ K, UserPath p ∧ (∃ k m b, w'.os.fs.get (env.rem ++ p) = some (.file k m b)) ∧
      ∃ t m, w'.os.fs.get (env.loc ++ p) = some (.link t m))
    (hne : ∃ p ∈ F, ¬ OwnExcludes env w.os.fs p) :
    (usedIn w'.os.fs env.loc F + K.length * env.symlinkSize : Int) ≤ env.storageLimit := by
  classical
  have hX : ∀ p ∈ F.filter (fun p => decide (OwnExcludes env w.os.fs p)), OwnExcludes env w.os.fs p :=
    fun p hp => of_decide_eq_true (List.mem_filter.1 hp).2
  have h1 := space_of_done r c h hc hx (F := F.filter (fun p => !decide (OwnExcludes env w.os.fs p)))
    (X := F.filter (fun p => decide (OwnExcludes env w.os.fs p))) (hF.sublist List.filter_sublist) hK
    (hF.sublist List.filter_sublist)
    (fun p hp => by
      obtain ⟨h1, h2⟩ := List.mem_filter.1 hp
      obtain ⟨h3, k, m, b, h4⟩ := hFl p h1
      exact ⟨by simpa using h2, k, m, b, h3, h4⟩) hKl hX
    (by
      obtain ⟨p, h1, h2⟩ := hne
      exact List.ne_nil_of_mem (List.mem_filter.2 ⟨h1, by simpa using h2⟩))
  obtain ⟨del, new, mod, w1, w2, upd, w3, cp, DL, DR, l, w4, sel, rex, w5, w6, S, T, D⟩ := h
  have h2 : usedIn w.os.fs env.loc (F.filter (fun p => decide (OwnExcludes env w.os.fs p))) =
      usedIn w'.os.fs env.loc (F.filter (fun p => decide (OwnExcludes env w.os.fs p))) := by
    unfold usedIn
    congr 1
    apply List.map_congr_left
    intro p hp
    obtain ⟨h3, k, m, b, h4⟩ := hFl p (List.mem_filter.1 hp).1
    unfold usedAt
    rw [S.excluded_kept r c T D hc hx (hX p hp) rfl h4, h4]
  have h3 : usedIn w'.os.fs env.loc F = usedIn w'.os.fs env.loc (F.filter (fun p => decide (OwnExcludes env w.os.fs p))) +
      usedIn w'.os.fs env.loc (F.filter (fun p => !decide (OwnExcludes env w.os.fs p))) := by
    unfold usedIn
    exact sum_filter_add F _ _
  rw [h2] at h1
  rw [h3]
  push_cast
  generalize (K.length : Int) * env.symlinkSize = z at *
  omega

end

end Verif
