import Verif.SyncConflict
import Verif.Props.C15_WholeTrees
/-
A sync from the resolved conflicts to its end.
-/
namespace Verif
open Prog OSM Call FSTools WM

/-! ### Copying to the remote directory -/

section
variable {env : Env} {f0 fs : FS} {L : List Path}

/-- What is in the remote directory afterwards was there before or is a copy. -/
theorem Moved.rem_some (ap : Apart env.loc env.rem) (wf : f0.WF) (h : Moved env.loc env.rem false f0 L fs)
    (hL : ∀ p ∈ L, ∃ n, f0.get (env.loc ++ p) = some n) {q : Path} {n : Node} (hn : fs.get (env.rem ++ q) = some n) :
    f0.get (env.rem ++ q) = some n ∨
      ∃ m, f0.get (env.loc ++ q) = some m ∧ m.isDir = n.isDir ∧ (m.isDir = false → n = m) := by
  have hs : ¬ env.loc <+: env.rem ++ q := by
    rintro ⟨t, e⟩
    exact ap.ne t q e
  by_cases hq : q ∈ L
  · obtain ⟨m, hm⟩ := hL q hq
    have hc := h.copied q hq m hm
    right
    refine ⟨m, hm, ?_⟩
    unfold Copied at hc
    cases m with
    | dir a b =>
      dsimp only at hc
      rw [isDir_iff_false hn] at hc
      exact ⟨hc.symm, fun h => by simp [Node.isDir] at h⟩
    | file c a b =>
      dsimp only at hc
      rw [hn] at hc; cases hc
      exact ⟨rfl, fun _ => rfl⟩
    | link c a =>
      dsimp only at hc
      rw [hn] at hc; cases hc
      exact ⟨rfl, fun _ => rfl⟩
  · have hne : ∀ p ∈ L, env.rem ++ q ≠ env.rem ++ p := by
      intro p hp e
      rw [List.append_cancel_left_eq] at e
      exact hq (e ▸ hp)
    rcases Option.eq_none_or_eq_some (f0.get (env.rem ++ q)) with h1 | ⟨m, h1⟩
    · rcases h.new _ hs hne h1 with h2 | ⟨h2, p, hp, h3⟩
      · rw [hn] at h2; cases h2
      · rw [List.prefix_append_right_inj] at h3
        have hqp : q ≠ p := fun e => hq (e ▸ hp)
        obtain ⟨m, hm⟩ := hL p hp
        have hd := wf.isDir_prefix hm (env.loc ++ q) ((List.prefix_append_right_inj _).2 h3)
          (fun e => hqp (List.append_cancel_left e))
        rw [isDir_iff_false hn] at h2
        obtain ⟨a, b, h4⟩ := FS.isDir_iff.1 hd
        exact Or.inr ⟨_, h4, by rw [h2]; rfl, fun h => by simp [Node.isDir] at h⟩
    · left
      rw [h.keeps _ hs hne m h1] at hn
      rw [h1, hn]

theorem Moved.loc_eq (h : Moved env.loc env.rem false f0 L fs) (q : Path) :
    fs.get (env.loc ++ q) = f0.get (env.loc ++ q) := by
  rcases h.src q with h1 | ⟨h1, _⟩
  · exact h1
  · cases h1

theorem Moved.fits (ap : Apart env.loc env.rem) (wf : f0.WF) (h : Moved env.loc env.rem false f0 L fs)
    (hL : ∀ p ∈ L, ∃ n, f0.get (env.loc ++ p) = some n) {p : Path} {d : Bool} (f : Fits env f0 p d) :
    Fits env fs p d := by
  refine ⟨f.user, f.good, ?_, ?_, ?_, ?_⟩
  · intro n hn; rw [h.loc_eq] at hn; exact f.loc n hn
  · intro n hn
    rcases h.rem_some ap wf hL hn with h1 | ⟨m, h1, h2, _⟩
    · exact f.rem n h1
    · rw [← h2]; exact f.loc m h1
  · intro q n hq hne hn; rw [h.loc_eq] at hn; exact f.aboveL q n hq hne hn
  · intro q n hq hne hn
    rcases h.rem_some ap wf hL hn with h1 | ⟨m, h1, h2, _⟩
    · exact f.aboveR q n hq hne h1
    · rw [← h2]; exact f.aboveL q m hq hne h1

theorem Moved.tidy (ap : Apart env.loc env.rem) (wf : f0.WF) (h : Moved env.loc env.rem false f0 L fs)
    (hL : ∀ p ∈ L, ∃ n, f0.get (env.loc ++ p) = some n) (t : Tidy env f0) : Tidy env fs := by
  refine ⟨?_, ?_, ?_⟩
  · intro p hp a b ha hb
    rw [h.loc_eq] at ha
    rcases h.rem_some ap wf hL hb with h1 | ⟨m, h1, h2, _⟩
    · exact t.kind p hp a b ha h1
    · rw [ha] at h1; cases h1; exact h2
  · intro p hp a b ha hb hl
    rw [h.loc_eq] at ha
    rcases h.rem_some ap wf hL hb with h1 | ⟨m, h1, h2, h3⟩
    · exact t.rlink p hp a b ha h1 hl
    · rw [ha] at h1; cases h1
      rw [← h3 (by rw [h2]; exact isDir_of_isLink hl)]; exact hl
  · intro p hp s m b ha hb
    rw [h.loc_eq] at ha
    rcases h.rem_some ap wf hL hb with h1 | ⟨x, h1, h2, h3⟩
    · exact t.llink p hp s m b ha h1
    · rw [ha] at h1; cases h1
      right
      rw [h3 rfl]; rfl

end

/-! ### The frame at the two directories -/

section
variable {env : Env} {w : World}

theorem SyncReady.loc_fixed (r : SyncReady env w) : ¬ EarlyMay env w env.loc := by
  rintro (h | h | ⟨q, _, h, _⟩ | ⟨p, hp, h, _⟩)
  · exact loc_ne_slot' r.apart [] (by rw [List.append_nil]; exact h)
  · exact loc_not_trash r.apart h.below (p := []) (List.append_nil _)
  · exact r.apart.ne [] q (by rw [List.append_nil]; exact h)
  · exact hp (by simpa using h)

theorem SyncReady.rem_fixed (r : SyncReady env w) : ¬ EarlyMay env w env.rem := by
  rintro (h | h | ⟨q, hq, h, _⟩ | ⟨p, hp, h, _⟩)
  · exact plain_ne_slot plain_nil (by rw [List.append_nil]; exact h)
  · exact plain_not_trash plain_nil h.below (List.append_nil _)
  · exact hq.1 (by simpa using h)
  · exact r.apart.ne p [] (by rw [List.append_nil]; exact h.symm)

theorem Frame.isDir {P : Path → Prop} {a b : FS} (h : Frame P a b) {q : Path} (hq : ¬ P q) :
    b.isDir q = a.isDir q := by
  have := h.data q hq
  rcases Option.eq_none_or_eq_some (a.get q) with h1 | ⟨n, h1⟩
  · have h2 := h.none hq h1
    exact FS.isDir_congr (by rw [h1, h2])
  · rcases Option.eq_none_or_eq_some (b.get q) with h2 | ⟨m, h2⟩
    · rw [h1, h2] at this; cases this
    · rw [h1, h2] at this
      simp only [Option.map_some, Option.some.injEq] at this
      rw [isDir_iff_false h1, isDir_iff_false h2]
      exact isDir_of_data this

end

/-- What holds after the remote directory has been updated. -/
structure Uploaded (env : Env) (w : World) (w4 : World) : Prop where
  frame : Frame (EarlyMay env w) w.os.fs w4.os.fs
  clk : w4.os.clk = w.os.clk
  tick : w.os.tick ≤ w4.os.tick
  wf : w4.os.fs.WF
  tidy : Tidy env w4.os.fs
  db : Fit env w4.os.fs w4.db
  rdb : Fit env w4.os.fs w4.rdb
  nodup_db : (ADB.paths w4.db).Nodup
  nodup : (ADB.paths w4.rdb).Nodup
  ex : ∃ l, w4.matches_ = some l ∧ ∀ p, p ∈ l ↔ OwnExcludes env w.os.fs p
  keeps : ∀ p d, Fits env w.os.fs p d → ((∃ n, w.os.fs.get (env.loc ++ p) = some n) ∨
    ∃ n, w.os.fs.get (env.rem ++ p) = some n) → Fits env w4.os.fs p d

/-- How the remote directory has been updated: `l` are the paths that have been copied. -/
structure UploadedBy (env : Env) (w3 : World) (upd : UpdatedPaths) (l : List Path) (w4 : World) : Prop where
  moved : Moved env.loc env.rem false w3.os.fs l w4.os.fs
  listed : ∀ p ∈ l, Listed w3.os.fs env.loc (some upd.loc) p
  all : ∀ p, Listed w3.os.fs env.loc (some upd.loc) p → p ∈ l ∨ w3.os.fs.isDir (env.loc ++ p) = true
  found : ∀ f ∈ upd.loc, ∃ n, w3.os.fs.get (env.loc ++ f) = some n
  db : ∀ q, q ∈ ADB.paths w4.db ↔ q ∈ ADB.paths w3.db ∨ q ∈ upd.loc ∨ q ∈ upd.rem
  rdb : ∀ q, q ∈ ADB.paths w4.rdb ↔ q ∈ ADB.paths w3.rdb ∨ q ∈ upd.loc ∨ q ∈ upd.rem
  lmemo : w4.lmemo = w3.lmemo
  rmemo : w4.rmemo = w3.rmemo
  ticks : w3.os.tick ≤ w4.os.tick
  tr : ∃ db0 x now now', (db0 = w3.db ∨ db0 = ALocal.addPaths w3.db (batchOf upd.loc []) x true) ∧
    w4.db = ALocal.addPaths db0 (batchOf (setOf (upd.loc ++ upd.rem)) []) 0 true ∧
    w4.rdb = (w3.rdb.addPaths (batchOf (setOf (upd.loc ++ upd.rem)) []) now).updatePaths upd.loc none (some now')

theorem pathDir_remUpdate (a : ARemote) (ps : List Path) (t : Int) :
    (a.updatePaths ps none (some t)).map (fun e => (e.path, e.directory)) = a.map (fun e => (e.path, e.directory)) :=
  pathDir_updateOpt_keep a ps (some t) (fun t e => { e with data := t }) (fun _ _ => rfl) (fun _ _ => rfl)

section
variable {env : Env} {w w3 : World} {upd : UpdatedPaths}

/-- What copying to the remote directory changes. -/
theorem Resolved.may (r : SyncReady env w) (hrd : w.os.fs.isDir env.rem = true) (h : Resolved env w upd w3)
    {L : List Path} {fs : FS} (hm : Moving env.loc env.rem false w3.os.fs L fs)
    (hL : ∀ p ∈ L, Listed w3.os.fs env.loc (some upd.loc) p) : Frame (EarlyMay env w) w.os.fs fs := by
  refine h.frame.trans (hm.frame.mono ?_)
  have below : ∀ p ∈ L, ∃ f ∈ upd.loc, f <+: p ∧ UserPath f ∧ (ChangedLocally env w f ∨ (f = p ∧
      ∃ p0 k, w.os.tick ≤ k ∧ ChangedLocally env w p0 ∧ UserPath p0 ∧ GoodPath p0 ∧
        f = conflictPath (env.stamp (w.os.clk k)) p0)) := by
    intro p hp
    obtain ⟨⟨n, hn⟩, _, f, hf, hfp⟩ := hL p hp
    obtain ⟨hu, hc⟩ := h.updLoc f hf
    refine ⟨f, hf, hfp, hu, ?_⟩
    rcases hc with hc | hc
    · exact Or.inl hc
    · rcases h.copy f hf with h1 | h1
      · exact Or.inl h1
      · right
        refine ⟨?_, hc⟩
        apply Classical.byContradiction
        intro hne
        have hd := h.wf.isDir_prefix hn (env.loc ++ f) ((List.prefix_append_right_inj _).2 hfp)
          (fun e => hne (List.append_cancel_left e))
        obtain ⟨a, b, h4⟩ := FS.isDir_iff.1 hd
        have := h1.loc _ h4
        simp [Node.isDir] at this
  have hrd3 : w3.os.fs.isDir env.rem = true := by rw [h.frame.isDir r.rem_fixed]; exact hrd
  have conf : ∀ f p0 k, w.os.tick ≤ k → ChangedLocally env w p0 → UserPath p0 → GoodPath p0 →
      f = conflictPath (env.stamp (w.os.clk k)) p0 → RemoteChange env w f := by
    intro f p0 k hk hc hu hg he
    refine Or.inr (Or.inr ⟨?_, p0, hc, Or.inr ⟨k, hk, he⟩⟩)
    rw [he]; exact (r.free k p0 hk hu hg).2
  rintro q (⟨p, hp, rfl⟩ | ⟨hq, p, hp, hqp⟩)
  · obtain ⟨f, _, hfp, hu, hc⟩ := below p hp
    refine Or.inr (Or.inr (Or.inl ⟨p, PlainPath.extend hu hfp, rfl, ?_⟩))
    rcases hc with hc | ⟨rfl, p0, k, h1, h2, h3, h4, h5⟩
    · exact Or.inr (Or.inl ⟨f, hc, hfp⟩)
    · exact conf _ p0 k h1 h2 h3 h4 h5
  · obtain ⟨f, _, hfp, hu, hc⟩ := below p hp
    have hnd : ∀ x, x <+: env.rem → w3.os.fs.get x ≠ none := by
      intro x hx he
      obtain ⟨a, b, h1⟩ := FS.isDir_iff.1 hrd3
      by_cases hxr : x = env.rem
      · rw [hxr, h1] at he; cases he
      · obtain ⟨a, b, h2⟩ := FS.isDir_iff.1 (h.wf.isDir_prefix h1 x hx hxr)
        rw [h2] at he; cases he
    obtain ⟨x, rfl⟩ : env.rem <+: q := by
      rcases List.prefix_or_prefix_of_prefix hqp (List.prefix_append env.rem p) with h1 | h1
      · exact absurd hq (hnd q h1)
      · exact h1
    have hx0 : x ≠ [] := by
      rintro rfl
      rw [List.append_nil] at hq
      exact hnd _ (List.prefix_refl _) hq
    rw [List.prefix_append_right_inj] at hqp
    have hux : UserPath x := PlainPath.user ((PlainPath.extend hu hfp).plain.prefix hqp) hx0
    apply Classical.byContradiction
    intro hno
    have hw : w.os.fs.get (env.rem ++ x) = none := by
      have := h.frame.data _ hno
      rw [hq] at this
      rcases Option.eq_none_or_eq_some (w.os.fs.get (env.rem ++ x)) with h1 | ⟨n, h1⟩
      · exact h1
      · rw [h1] at this; cases this
    apply hno
    refine Or.inr (Or.inr (Or.inl ⟨x, hux, rfl, ?_⟩))
    rcases hc with hc | ⟨rfl, p0, k, h1, h2, h3, h4, h5⟩
    · rcases List.prefix_or_prefix_of_prefix hfp hqp with h6 | h6
      · exact Or.inr (Or.inl ⟨f, hc, h6⟩)
      · exact Or.inr (Or.inr ⟨hw, f, hc, Or.inl h6⟩)
    · by_cases hxf : x = f
      · rw [hxf]; exact conf _ p0 k h1 h2 h3 h4 h5
      · refine Or.inr (Or.inr ⟨hw, p0, h2, Or.inl ?_⟩)
        have h7 : x <+: f.dropLast := by
          rw [← List.dropLast_concat_getLast hu.1] at hqp
          rcases List.prefix_concat_iff.1 hqp with h8 | h8
          · rw [List.dropLast_concat_getLast hu.1] at h8; exact absurd h8 hxf
          · exact h8
        rw [h5, dropLast_conflictPath (r.stamp k h1) h4 h3.1] at h7
        exact h7.trans (List.dropLast_prefix _)

/-- What a sync that ends while the remote directory is updated has done to the two directories. -/
def UploadPart (env : Env) (w3 : World) (upd : UpdatedPaths) (fs' : FS) : Prop :=
  ∃ l, Moving env.loc env.rem false w3.os.fs l fs' ∧ ∀ p ∈ l, Listed w3.os.fs env.loc (some upd.loc) p

theorem wp_upload {α : Type} {k : WM α} {Q : α → World → Prop} {E : Err → World → Prop} (r : SyncReady env w)
    (hrd : w.os.fs.isDir env.rem = true) (h : Resolved env w upd w3)
    (hk : ∀ w4 l, Uploaded env w w4 → UploadedBy env w3 upd l w4 → wp k Q E w4)
    (hE : ∀ e w', Frame (EarlyMay env w) w.os.fs w'.os.fs → UploadPart env w3 upd w'.os.fs → E e w') :
    wp ((inflateNew env upd.loc [] >>= fun _ => addRemote (setOf (upd.loc ++ upd.rem)) [] >>= fun _ =>
      addLocal (setOf (upd.loc ++ upd.rem)) [] true >>= fun _ => updateRemote env upd.loc) >>= fun _ => k) Q E w3 := by
  have batchL : ∀ e ∈ batchOf upd.loc [], e.1 ∈ ADB.paths w3.db ∨ Fits env w3.os.fs e.1 e.2 := by
    intro e he
    rcases mem_batchOf.1 he with ⟨h1, h2⟩ | ⟨h1, _⟩
    · rw [h2]; exact (h.updRows _ (Or.inl h1)).1
    · cases h1
  have updMem : ∀ p, p ∈ setOf (upd.loc ++ upd.rem) → p ∈ upd.loc ∨ p ∈ upd.rem := by
    intro p hp; rw [mem_setOf, List.mem_append] at hp; exact hp
  have batchA : ∀ db : ALocal, (∀ p, p ∈ ADB.paths w3.db → p ∈ ADB.paths db) →
      ∀ e ∈ batchOf (setOf (upd.loc ++ upd.rem)) [], e.1 ∈ ADB.paths db ∨ Fits env w3.os.fs e.1 e.2 := by
    intro db hdb e he
    rcases mem_batchOf.1 he with ⟨h1, h2⟩ | ⟨h1, _⟩
    · rw [h2]; exact (h.updRows _ (updMem _ h1)).1.imp (hdb _) id
    · cases h1
  have batchR : ∀ e ∈ batchOf (setOf (upd.loc ++ upd.rem)) [], e.1 ∈ ADB.paths w3.rdb ∨ Fits env w3.os.fs e.1 e.2 := by
    intro e he
    rcases mem_batchOf.1 he with ⟨h1, h2⟩ | ⟨h1, _⟩
    · rw [h2]; exact (h.updRows _ (updMem _ h1)).2
    · cases h1
  rw [wp_bind, wp_bind]
  apply wp_inflateNew
  swap
  · intro e; exact hE e _ h.frame ⟨[], Moving.refl _ _ _ h.wf, by simp⟩
  intro db hdb
  have hdbF : Fit env w3.os.fs db ∧ (ADB.paths db).Nodup ∧ (∀ p, p ∈ ADB.paths w3.db → p ∈ ADB.paths db) ∧
      ∀ p, p ∈ ADB.paths db → p ∈ ADB.paths w3.db ∨ p ∈ upd.loc := by
    rcases hdb with rfl | ⟨x, rfl⟩
    · exact ⟨h.db, h.nodup_db, fun _ h => h, fun _ h => Or.inl h⟩
    · refine ⟨h.db.addLocal batchL, nodup_addPaths h.nodup_db, ?_, ?_⟩
      · intro p hp
        rw [mem_paths_addPaths]
        exact Or.inl hp
      · intro p hp
        rw [mem_paths_addPaths, map_fst_batchOf] at hp
        exact hp.imp id (fun h => h.elim id (fun h => by cases h))
  rw [wp_bind]
  apply wp_addRemote
  intro now
  rw [wp_bind, wp_addLocal]
  dsimp only
  unfold updateRemote
  rw [wp_bind, wp_sys]
  dsimp only
  have frE : ∀ s : OS, (∃ l, Moving env.loc env.rem false w3.os.fs l s.fs ∧
      ∀ p ∈ l, Listed w3.os.fs env.loc (some upd.loc) p ∧ p ∉ ([] : List Path)) →
      Frame (EarlyMay env w) w.os.fs s.fs := by
    rintro s ⟨l, h1, h2⟩
    exact h.may r hrd h1 (fun p hp => (h2 p hp).1)
  apply wp_orRemote
  refine wp_mono (wp_and (Steady.transferTree _ _ _ _ _ _) (wp_transferTree_missing r.apart h.wf ?_ ?_ ?_ ?_)) ?_ ?_
  · show w3.os.fs.isDir env.loc = true
    rw [h.frame.isDir r.loc_fixed]; exact r.loc_dir
  · show w3.os.fs.isDir env.rem = true
    rw [h.frame.isDir r.rem_fixed]; exact hrd
  · intro f hf
    rcases (h.updRows f (Or.inl hf)).1 with h1 | h1
    · obtain ⟨d, h2⟩ := h.db.path h1
      exact h2.aboveL
    · exact h1.aboveL
  · rintro p ⟨⟨n, hn⟩, _, f, hf, hfp⟩ _ q hq
    have hp : PlainPath p := (PlainPath.extend (h.updLoc f hf).1 hfp).plain
    obtain ⟨n', hn'⟩ : ∃ n', w3.os.fs.get (env.loc ++ q) = some n' := by
      by_cases he : q = p
      · exact ⟨n, by rw [he]; exact hn⟩
      · obtain ⟨a, b, h4⟩ := FS.isDir_iff.1 (h.wf.isDir_prefix hn (env.loc ++ q)
          ((List.prefix_append_right_inj _).2 hq) (fun e => he (List.append_cancel_left e)))
        exact ⟨_, h4⟩
    exact h.tidy.clean_up (hp.prefix hq) hn'
  swap
  · rintro e s' ⟨_, hs⟩
    have hp : UploadPart env w3 upd s'.fs := by
      obtain ⟨l, h1, h2⟩ := hs
      exact ⟨l, h1, fun p hp => (h2 p hp).1⟩
    exact ⟨hE _ _ (frE s' hs) hp, fun _ => hE _ _ (frE s' hs) hp⟩
  rintro _ s' ⟨hst, l, h1, h2, h3, h4⟩
  have hL : ∀ p ∈ l, ∃ n, w3.os.fs.get (env.loc ++ p) = some n := fun p hp => (h2 p hp).1.1
  rw [wp_bind, wp_sys, wp_time, wp_modify]
  refine hk _ l ?_ ?_
  swap
  · refine ⟨h1, fun p hp => (h2 p hp).1, fun p hp => h3 p hp (by simp), h4, ?_, ?_, rfl, rfl, hst.2, ?_⟩
    · intro q
      show q ∈ ADB.paths (ALocal.addPaths db _ _ _) ↔ _
      rw [mem_paths_addPaths, map_fst_batchOf, mem_setOf, List.mem_append]
      constructor
      · rintro (h5 | h5 | h5)
        · exact (hdbF.2.2.2 q h5).imp id Or.inl
        · exact Or.inr h5
        · cases h5
      · rintro (h5 | h5)
        · exact Or.inl (hdbF.2.2.1 q h5)
        · exact Or.inr (Or.inl h5)
    · intro q
      have := ADB.paths_of_pathDir (pathDir_remUpdate (w3.rdb.addPaths (batchOf (setOf (upd.loc ++ upd.rem)) []) now)
        upd.loc (s'.clk s'.tick))
      refine Iff.trans (Iff.of_eq (congrArg (q ∈ ·) this)) ?_
      unfold ARemote.addPaths
      rw [ADB.mem_paths_addCore, map_fst_batchOf, mem_setOf, List.mem_append]
      simp
    · rcases hdb with rfl | ⟨x, rfl⟩
      · exact ⟨_, 0, now, s'.clk s'.tick, Or.inl rfl, rfl, rfl⟩
      · exact ⟨_, x, now, s'.clk s'.tick, Or.inr rfl, rfl, rfl⟩
  have toFit : ∀ {δ : Type} {a : ADB δ}, Fit env w3.os.fs a → Fit env s'.fs a :=
    fun hf e he => h1.fits r.apart h.wf hL (hf e he)
  have hdb4 := hdbF.1.addLocal (x := 0) (l := true) (batchA db hdbF.2.2.1)
  have hrdb4 := h.rdb.addRemote (t := now) batchR
  refine ⟨frE s' ⟨l, h1.toMoving, h2⟩, hst.1.trans h.clk, Nat.le_trans h.tick hst.2, h1.wf, h1.tidy r.apart h.wf hL h.tidy, toFit hdb4,
    Fit.of_pathDir (pathDir_remUpdate _ _ _) (toFit hrdb4), nodup_addPaths hdbF.2.1, ?_, h.ex, ?_⟩
  · have := ADB.paths_of_pathDir (pathDir_remUpdate (w3.rdb.addPaths (batchOf (setOf (upd.loc ++ upd.rem)) []) now)
      upd.loc (s'.clk s'.tick))
    exact this.symm ▸ ADB.nodup_addCore h.nodup
  · intro p d hf hex
    exact h1.fits r.apart h.wf hL (h.keeps p d hf hex)

end

/-- What a sync leaves behind, however it ends: up to some point it changes only what `EarlyMay` tells, and then it
only removes old things from the trash and what is at or below excluded paths of the remote directory. -/
def SyncEnd (env : Env) (w : World) (s : OS) : Prop :=
  ∃ fs, Frame (EarlyMay env w) w.os.fs fs ∧ Shrink (LateMay env w s.tick fs) fs s.fs

theorem LateMay.mono {env : Env} {w : World} {a b : Nat} {fs : FS} {q : Path} (hab : a ≤ b) (h : LateMay env w a fs q) :
    LateMay env w b fs q := by
  rcases h with ⟨t, k, c, n, h1, h2, ⟨h3, h4⟩, h5⟩ | h
  · exact Or.inl ⟨t, k, c, n, h1, h2, ⟨h3, Nat.le_trans h4 hab⟩, h5⟩
  · exact Or.inr h

theorem SyncEnd.of_frame {env : Env} {w : World} {s : OS} (h : Frame (EarlyMay env w) w.os.fs s.fs) :
    SyncEnd env w s := ⟨s.fs, h, Shrink.refl _ _⟩

theorem SyncEnd.later {env : Env} {w : World} {s s' : OS} (h : SyncEnd env w s) (hf : s'.fs = s.fs)
    (ht : s.tick ≤ s'.tick) : SyncEnd env w s' := by
  obtain ⟨fs, h1, h2⟩ := h
  exact ⟨fs, h1, by rw [hf]; exact h2.mono (fun _ h => h.mono ht)⟩

/-! ### Selecting and updating the local directory -/

section
variable {env : Env} {w w4 : World}

/-- What has been selected. -/
structure Selects (env : Env) (w w4 : World) (sel rex : List Path) (w5 : World) : Prop where
  same : ∃ x y, w5 = { w4 with lmemo := x, rmemo := y }
  lmemo : w5.lmemo = w4.lmemo ∨ w5.lmemo = w4.os.fs.below env.loc
  known : ∀ p ∈ sel, p ∈ ADB.paths w4.db ∨ p ∈ rex
  rexSel : ∀ p ∈ rex, p ∈ sel
  rexOwn : ∀ p ∈ rex, OwnExcludes env w.os.fs p
  rexSeen : ∀ p ∈ rex, p ∈ Scan.keys w4.rmemo.user ∨ p ∈ Scan.keys (Scan.user (w4.os.fs.below env.rem))
  rexAll : ∀ p, OwnExcludes env w.os.fs p → p ∈ Scan.keys w4.rmemo.user →
    p ∈ Scan.keys (Scan.user (w4.os.fs.below env.rem)) → p ∈ rex
  found : ∀ p ∈ ADB.paths w4.db, p ∈ ADB.paths w4.rdb → ∃ n, w4.os.fs.get (env.rem ++ p) = some n
  chosen : ∃ (ex : List Path) (s : Scan) (size : Nat) (dirs files : Selected), w4.matches_ = some ex ∧
    (w4.lmemo ≠ [] → s = w4.lmemo) ∧ excludedSize s ex = some size ∧
    prioritizeDirs (selEnv env w4.db w4.rdb (Scan.user (w4.os.fs.below env.rem))) (env.storageLimit - size) = some dirs ∧
    prioritizeFiles (selEnv env w4.db w4.rdb (Scan.user (w4.os.fs.below env.rem))) dirs.1 dirs.2 = some files ∧
    sel = dirs.2 ++ files.2 ++ rex

theorem mapM_found {α β : Type} {f : α → Option β} {l : List α} {r : List β} (h : l.mapM f = some r) {a : α}
    (ha : a ∈ l) : ∃ b, f a = some b := by
  induction l generalizing r with
  | nil => cases ha
  | cons x l ih =>
    obtain ⟨c, s, h1, h2, _⟩ := mapM_cons_some.1 h
    rcases List.mem_cons.1 ha with rfl | ha
    · exact ⟨c, h1⟩
    · exact ih h2 ha

/-- A selection is made only if everything known is in the remote directory. -/
theorem selected_found {e : SelEnv} (hn : (ADB.paths e.loc).Nodup) {limit : Int} {dirs files : Selected}
    (hd : prioritizeDirs e limit = some dirs) (hf : prioritizeFiles e dirs.1 dirs.2 = some files) {p : Path}
    (h1 : p ∈ ADB.paths e.loc) (h2 : p ∈ ADB.paths e.rem) : ∃ s, e.stat p = some s := by
  have hdirs : ∀ x ∈ e.loc, x.directory = true → x.path <+: p → ∃ s, e.stat p = some s := by
    intro x hx hxd hxp
    unfold prioritizeDirs at hd
    rw [Option.map_eq_some_iff] at hd
    obtain ⟨cs, hcs, _⟩ := hd
    unfold dirCands at hcs
    obtain ⟨b, hb⟩ := mapM_found hcs (a := x) (List.mem_filter.2 ⟨hx, hxd⟩)
    rw [Option.map_eq_some_iff] at hb
    obtain ⟨size, hs, _⟩ := hb
    unfold dirSize at hs
    rw [Option.map_eq_some_iff] at hs
    obtain ⟨sz, hsz, _⟩ := hs
    obtain ⟨y, hy, rfl⟩ := List.mem_map.1 h2
    obtain ⟨c, hc⟩ := mapM_found hsz (a := y) (List.mem_filter.2 ⟨hy, List.isPrefixOf_iff_prefix.2 hxp⟩)
    rw [Option.map_eq_some_iff] at hc
    obtain ⟨s, hs, _⟩ := hc
    exact ⟨s, hs⟩
  obtain ⟨x, hx, rfl⟩ := List.mem_map.1 h1
  by_cases hxd : x.directory = true
  · exact hdirs x hx hxd (List.prefix_refl _)
  · by_cases hex : dirs.2.any (fun d => d.isPrefixOf x.path) = true
    · obtain ⟨d, hd1, hd2⟩ := List.any_eq_true.1 hex
      obtain ⟨_, hk, _⟩ := C15_dirs hn (hd : prioritizeDirs e limit = some (dirs.1, dirs.2))
      obtain ⟨y, hy1, hy2, hy3⟩ := hk d hd1
      exact hdirs y hy1 hy3 (hy2 ▸ List.isPrefixOf_iff_prefix.1 hd2)
    · unfold prioritizeFiles at hf
      rw [Option.map_eq_some_iff] at hf
      obtain ⟨cs, hcs, _⟩ := hf
      unfold fileCands at hcs
      obtain ⟨b, hb⟩ := mapM_found hcs (a := x) (List.mem_filter.2 ⟨hx, by
        rw [Bool.not_eq_true] at hxd hex
        rw [hxd, hex]; rfl⟩)
      cases hs : e.stat x.path with
      | none => rw [hs] at hb; cases hb
      | some s => exact ⟨s, rfl⟩

/-- Selecting does not change anything but the memoized scans. -/
theorem wp_syncSelect {Q : List Path × List Path → World → Prop} {E : Err → World → Prop} (h : Uploaded env w w4)
    (hk : ∀ a w5, Selects env w w4 a.1 a.2 w5 → Q a w5)
    (hE : ∀ e w', w'.os = w4.os → E e w') : wp (syncSelect env) Q E w4 := by
  obtain ⟨ex, hex, hexm⟩ := h.ex
  unfold syncSelect
  rw [wp_bind]
  refine wp_exclMatches ?_ (fun h0 => by rw [hex] at h0; cases h0) (fun e => hE e _ rfl)
  intro l hl
  rw [hex] at hl; cases hl
  rw [wp_bind]
  have step2 : ∀ (r : Scan) (w' : World), (∃ y, w' = { w4 with rmemo := y }) →
      (∀ p, p ∈ Scan.keys w4.rmemo.user → p ∈ Scan.keys (Scan.user (w4.os.fs.below env.rem)) → p ∈ r.keys) →
      (∀ p ∈ r.keys, p ∈ Scan.keys w4.rmemo.user ∨ p ∈ Scan.keys (Scan.user (w4.os.fs.below env.rem))) →
      wp (scanLocal env >>= fun l => get? .key (excludedSize l ex) >>= fun exSize => rescanRemote env >>= fun r' =>
        gets World.db >>= fun db => gets World.rdb >>= fun rdb =>
        get? .key (prioritizeDirs (selEnv env db rdb r') (env.storageLimit - exSize)) >>= fun dirs =>
        get? .key (prioritizeFiles (selEnv env db rdb r') dirs.1 dirs.2) >>= fun files =>
        pure (dirs.2 ++ files.2 ++ ex.filter (fun p => decide (p ∈ r.keys)), ex.filter (fun p => decide (p ∈ r.keys))))
        Q E w' := by
    rintro r w' hw' hrk hrs
    have os' : w'.os = w4.os := by obtain ⟨y, rfl⟩ := hw'; rfl
    rw [wp_bind]
    have step3 : ∀ (l : Scan) (w' : World), (∃ x y, w' = { w4 with lmemo := x, rmemo := y }) →
      (w'.lmemo = w4.lmemo ∨ w'.lmemo = w4.os.fs.below env.loc) → (w4.lmemo ≠ [] → l = w4.lmemo) →
      wp (get? .key (excludedSize l ex) >>= fun exSize => rescanRemote env >>= fun r' =>
        gets World.db >>= fun db => gets World.rdb >>= fun rdb =>
        get? .key (prioritizeDirs (selEnv env db rdb r') (env.storageLimit - exSize)) >>= fun dirs =>
        get? .key (prioritizeFiles (selEnv env db rdb r') dirs.1 dirs.2) >>= fun files =>
        pure (dirs.2 ++ files.2 ++ ex.filter (fun p => decide (p ∈ r.keys)), ex.filter (fun p => decide (p ∈ r.keys))))
        Q E w' := by
      rintro l w' ⟨x, y, rfl⟩ hlm hls
      rw [wp_bind, wp_get?]
      refine ⟨?_, fun _ => hE _ _ rfl⟩
      intro exSize hsz
      rw [wp_bind]
      refine wp_rescanRemote ?_ (fun e => hE e _ rfl)
      rw [wp_bind, wp_gets, wp_bind, wp_gets, wp_bind, wp_get?]
      refine ⟨?_, fun _ => hE _ _ rfl⟩
      intro dirs hdirs
      rw [wp_bind, wp_get?]
      refine ⟨?_, fun _ => hE _ _ rfl⟩
      intro files hfiles
      rw [wp_pure]
      apply hk
      refine ⟨⟨_, _, rfl⟩, hlm, ?_, ?_, ?_, ?_, ?_, ?_,
        ⟨ex, l, exSize, dirs, files, hex, hls, hsz, hdirs, hfiles, rfl⟩⟩
      · intro p hp
        rcases List.mem_append.1 hp with hp | hp
        · left
          rcases List.mem_append.1 hp with hp | hp
          · obtain ⟨_, h1, _⟩ := Verif.C15_dirs (env := selEnv env w4.db w4.rdb _) h.nodup_db
              (hdirs : prioritizeDirs (selEnv env w4.db w4.rdb _) _ = some (dirs.1, dirs.2))
            obtain ⟨e, h2, h3, _⟩ := h1 p hp
            exact List.mem_map.2 ⟨e, h2, h3⟩
          · obtain ⟨_, h1⟩ := Verif.C15_files (env := selEnv env w4.db w4.rdb _) h.nodup_db
              (hfiles : prioritizeFiles (selEnv env w4.db w4.rdb _) _ _ = some (files.1, files.2))
            obtain ⟨⟨e, h2, h3, _⟩, _⟩ := h1 p hp
            exact List.mem_map.2 ⟨e, h2, h3⟩
        · exact Or.inr hp
      · intro p hp
        exact List.mem_append_right _ hp
      · intro p hp
        exact (hexm p).1 (List.mem_filter.1 hp).1
      · intro p hp
        exact hrs p (by simpa using (List.mem_filter.1 hp).2)
      · intro p h1 h2 h3
        exact List.mem_filter.2 ⟨(hexm p).2 h1, by rw [decide_eq_true_eq]; exact hrk p h2 h3⟩
      · intro p h1 h2
        obtain ⟨s, hs⟩ := selected_found (e := selEnv env w4.db w4.rdb _) h.nodup_db hdirs hfiles h1 h2
        have hs' : ((Scan.user (w4.os.fs.below env.rem)).find p).map (fun n => (n.isDir, n.blocks)) = some s := hs
        rw [Option.map_eq_some_iff] at hs'
        obtain ⟨n, hn, _⟩ := hs'
        obtain ⟨d, hd⟩ := h.db.path h1
        rw [find_user hd.user, find_below h.wf hd.user.1] at hn
        exact ⟨n, hn⟩
    obtain ⟨y, rfl⟩ := hw'
    exact wp_scanLocal (fun _ => step3 _ _ ⟨_, _, rfl⟩ (Or.inl rfl) (fun _ => rfl))
      (fun h0 => step3 _ _ ⟨_, _, rfl⟩ (Or.inr rfl) (fun h1 => absurd h0 h1))
      (fun e => hE e _ os')
  exact wp_scanRemote (fun _ => step2 _ _ ⟨_, rfl⟩ (fun p h1 _ => h1) (fun p h => Or.inl h))
    (fun _ => step2 _ _ ⟨_, rfl⟩ (fun p _ h2 => h2) (fun p h => Or.inr h))
    (fun e => hE e _ rfl)

theorem ownExcludes_exists {fs : FS} {p : Path} (h : OwnExcludes env fs p) :
    p ≠ [] ∧ ∃ n, fs.get (env.loc ++ p) = some n := by
  obtain ⟨_, _, _, _, _, h1, h2, _⟩ := h
  exact ⟨h1, h2⟩

/-- What the last steps of a sync do: excluded files are removed from the remote directory, old files from the trash,
and everything is saved. -/
structure Ended (env : Env) (rex : List Path) (w6 w' : World) : Prop where
  keeps : Shrink (fun q => (∃ p, ToDrop env w6 rex p ∧ env.rem ++ p <+: q) ∨ env.trash <+: q) w6.os.fs w'.os.fs
  young : ∀ c n, w6.os.fs.get (env.trash ++ [c]) = some n → (∀ t k, env.cleanup = some t → t ≠ 0 → w6.os.tick ≤ k →
    k ≤ w'.os.tick → n.isLink = true ∨ w6.os.clk k - t < n.mtime) → ∀ q, env.trash ++ [c] <+: q →
    (∀ p, ToDrop env w6 rex p → ¬ env.rem ++ p <+: q) → w'.os.fs.get q = w6.os.fs.get q
  clean : ∀ t, env.cleanup = some t → t ≠ 0 → ∃ k, (w6.os.tick ≤ k ∧ k ≤ w'.os.tick) ∧ ∀ c n, w'.os.fs.get (env.trash ++ [c]) = some n →
    n.isLink = false → w6.os.clk k - t < n.mtime
  clk : w'.os.clk = w6.os.clk
  tick : w6.os.tick ≤ w'.os.tick
  gone : ∀ p, ToDrop env w6 rex p → ∀ q, env.rem ++ p <+: q → w'.os.fs.get q = none
  db : ∀ q, q ∈ ADB.paths w'.db ↔ q ∈ ADB.paths w6.db ∧ ∀ p, ToDrop env w6 rex p → ¬ p <+: q
  rdb : ∀ q, q ∈ ADB.paths w'.rdb ↔ q ∈ ADB.paths w6.rdb ∧ ∀ p, ToDrop env w6 rex p → ¬ p <+: q
  rdbSub : ∀ e ∈ w'.rdb, e ∈ w6.rdb
  dbL : (w'.db.map (fun e => (e.path, e.directory))).Sublist (w6.db.map (fun e => (e.path, e.directory)))
  rdbL : w'.rdb.Sublist w6.rdb
  dbSaved : w'.dbSaved = w'.db
  rdbSaved : w'.rdbSaved = w'.rdb
  lastSaved : w'.lastSaved = w'.last
  tr : ∃ ps, w'.db = ALocal.rmPaths w6.db ps ∧ w'.rdb = w6.rdb.rmPaths ps ∧ ∀ p ∈ ps, ToDrop env w6 rex p

theorem wp_syncSave {Q : Unit → World → Prop} {E : Err → World → Prop} {w : World}
    (hE : ∀ w' : World, w'.os.fs = w.os.fs → w'.os.clk = w.os.clk → w.os.tick ≤ w'.os.tick → E .killed w')
    (hQ : ∀ w' : World, w'.os.fs = w.os.fs → w'.os.clk = w.os.clk → w.os.tick ≤ w'.os.tick → w'.db = w.db →
      w'.rdb = w.rdb → (w'.dbSaved = w'.db ∧ w'.rdbSaved = w'.rdb ∧ w'.lastSaved = w'.last) → Q () w') :
    wp syncSave Q E w := by
  unfold syncSave writeRemote writeProfile
  rw [wp_bind]
  apply wp_save (hE _ rfl rfl (Nat.le_refl _))
  rw [wp_bind, wp_sys, wp_time, wp_bind, wp_modify, wp_bind]
  refine wp_save ?_ (wp_save ?_ ?_)
  · apply hE
    · rfl
    · rfl
    · show w.os.tick ≤ w.os.tick + 1
      omega
  · apply hE
    · rfl
    · rfl
    · show w.os.tick ≤ w.os.tick + 1 + 1
      omega
  · apply hQ
    · rfl
    · rfl
    · show w.os.tick ≤ w.os.tick + 1 + 1 + 1
      omega
    · rfl
    · rfl
    · exact ⟨rfl, rfl, rfl⟩

/-- What `update_local` and the last steps of a sync do. -/
structure LocalDone (env : Env) (sel rex : List Path) (w5 w6 w' : World) : Prop where
  kept : UpdKept env w5 (setOf sel) w6.os.fs
  done : UpdDone env w5 (setOf sel) w6.os.fs
  db : ∃ new, w6.db = markLocal w5.db (setOf sel) new ∧ NewPaths env w5 (setOf sel) new
  rdb : w6.rdb = w5.rdb
  clk : w6.os.clk = w5.os.clk
  tick : w5.os.tick ≤ w6.os.tick
  ended : Ended env rex w6 w'

/-- What a sync that ends after the selection has done to the two directories. -/
def LocalPart (env : Env) (sel rex : List Path) (w5 : World) (fs' : FS) : Prop :=
  UpdKept env w5 (setOf sel) fs' ∨ ∃ w6 : World, UpdKept env w5 (setOf sel) w6.os.fs ∧
    UpdDone env w5 (setOf sel) w6.os.fs ∧
    Shrink (fun q => (∃ p, ToDrop env w6 rex p ∧ env.rem ++ p <+: q) ∨ env.trash <+: q) w6.os.fs fs'

theorem LocalDone.part {sel rex : List Path} {w5 w6 w' : World} (h : LocalDone env sel rex w5 w6 w') :
    LocalPart env sel rex w5 w'.os.fs := Or.inr ⟨w6, h.kept, h.done, h.ended.keeps⟩

theorem wp_syncLocal {sel rex : List Path} {w5 : World} (r : SyncReady env w)
    (hrd : w.os.fs.isDir env.rem = true) (h : Uploaded env w w4) (hs5 : Selects env w w4 sel rex w5) :
    wp (syncLocal env sel rex) (fun _ w' => SyncEnd env w w'.os ∧ ∃ w6, LocalDone env sel rex w5 w6 w')
      (fun _ w' => SyncEnd env w w'.os ∧ LocalPart env sel rex w5 w'.os.fs) w5 := by
  have hw5 := hs5.same
  have hsel := hs5.known
  have hrex := hs5.rexOwn
  have fs5 : w5.os.fs = w4.os.fs := by obtain ⟨x, y, rfl⟩ := hw5; rfl
  have db5 : w5.db = w4.db := by obtain ⟨x, y, rfl⟩ := hw5; rfl
  have rdb5 : w5.rdb = w4.rdb := by obtain ⟨x, y, rfl⟩ := hw5; rfl
  have m5 : w5.matches_ = w4.matches_ := by obtain ⟨x, y, rfl⟩ := hw5; rfl
  have selFit : ∀ p ∈ sel, ∃ d, Fits env w4.os.fs p d := by
    intro p hp
    rcases hsel p hp with h1 | h1
    · exact h.db.path h1
    · obtain ⟨h2, n, h3⟩ := ownExcludes_exists (hrex p h1)
      exact ⟨_, h.keeps p _ (r.tidy.fits r.wf (r.local_user h2 h3) ⟨n, Or.inl h3, rfl⟩) (Or.inl ⟨n, h3⟩)⟩
  have selUser : ∀ p, Listed w5.os.fs env.rem (some (setOf sel)) p → UserPath p := by
    rintro p ⟨_, _, f, hf, hfp⟩
    rw [mem_setOf] at hf
    obtain ⟨d, hd⟩ := selFit f hf
    exact PlainPath.extend hd.user hfp
  have ready : UpdReady env w5 (setOf sel) := by
    refine ⟨by rw [fs5]; exact h.wf, r.apart, r.order, ?_, ?_, ?_, ?_, by rw [rdb5]; exact h.nodup, ?_, ?_⟩
    · rw [fs5, h.frame.isDir r.loc_fixed]; exact r.loc_dir
    · rw [fs5, h.frame.isDir r.rem_fixed]; exact hrd
    · intro f hf
      rw [mem_setOf] at hf
      obtain ⟨d, hd⟩ := selFit f hf
      rw [fs5]; exact hd.aboveR
    · intro p hp
      rw [db5] at hp
      obtain ⟨d, hd⟩ := h.db.path hp
      exact hd.user.1
    · intro e he
      rw [rdb5] at he
      have hf := h.rdb e he
      exact ⟨hf.user.1, hf.good, by rw [fs5]; exact hf.rem⟩
    · intro p hp q hq
      have hu := selUser p hp
      obtain ⟨⟨n, hn⟩, _⟩ := hp
      rw [fs5] at hn ⊢
      obtain ⟨n', hn'⟩ : ∃ n', w4.os.fs.get (env.rem ++ q) = some n' := by
        by_cases he : q = p
        · exact ⟨n, by rw [he]; exact hn⟩
        · obtain ⟨a, b, h4⟩ := FS.isDir_iff.1 (h.wf.isDir_prefix hn (env.rem ++ q)
            ((List.prefix_append_right_inj _).2 hq) (fun e => he (List.append_cancel_left e)))
          exact ⟨_, h4⟩
      exact h.tidy.clean_down (hu.plain.prefix hq) hn'
  -- what `update_local` changes
  have may : ∀ fs', UpdKept env w5 (setOf sel) fs' → Frame (EarlyMay env w) w.os.fs fs' := by
    intro fs' hkept
    refine h.frame.trans ?_
    have hf := hkept.frame
    rw [fs5] at hf
    refine hf.mono ?_
    rintro q ⟨p, hp, rfl, hq⟩
    apply Classical.byContradiction
    intro hno
    have hno' : ¬ LocalMay env w p := fun hl => hno (Or.inr (Or.inr (Or.inr ⟨p, hp, rfl, hl⟩)))
    have hdata := h.frame.data _ hno
    obtain ⟨a, ha⟩ : ∃ a, w.os.fs.get (env.loc ++ p) = some a := by
      rcases Option.eq_none_or_eq_some (w.os.fs.get (env.loc ++ p)) with h1 | h1
      · exact absurd (Or.inl h1) hno'
      · exact h1
    rcases hq with hq | hq | ⟨hq, hqd⟩
    · rw [hq, ha] at hdata; cases hdata
    · obtain ⟨ex, hex, hexm⟩ := h.ex
      apply hno'
      right; left
      intro hoe
      exact hq.2.1 (Or.inl ⟨ex, by rw [m5]; exact hex, (hexm p).2 hoe⟩)
    · have hu := selUser p (by rw [fs5]; exact hq)
      obtain ⟨⟨n, hn⟩, _⟩ := hq
      rcases Option.eq_none_or_eq_some (w.os.fs.get (env.rem ++ p)) with hwr | hwr
      swap
      · exact hno' (Or.inr (Or.inr (Or.inr (Or.inl hwr))))
      have hem : EarlyMay env w (env.rem ++ p) := by
        apply Classical.byContradiction
        intro h1
        have := h.frame.none h1 hwr
        rw [hn] at this; cases this
      have hrc : RemoteChange env w p := by
        rcases hem with h1 | h1 | ⟨x, _, h1, h2⟩ | ⟨x, _, h1, _⟩
        · exact absurd h1 (plain_ne_slot hu.plain)
        · exact absurd rfl (plain_not_trash hu.plain h1.below)
        · rw [List.append_cancel_left_eq] at h1; rw [h1]; exact h2
        · exact absurd h1.symm (r.apart.ne x p)
      rcases hrc with ⟨d, ⟨_, h1⟩, h2⟩ | ⟨f, h1, h2⟩ | ⟨_, f, h1, h2⟩
      · rw [gone_below r.wf h1 h2] at ha; cases ha
      · exact hno' (Or.inr (Or.inr (Or.inr (Or.inr ⟨f, h1, h2⟩))))
      · rcases h2 with h2 | ⟨k, hk, h2⟩
        · by_cases he : p = f
          · exact hno' (Or.inr (Or.inr (Or.inr (Or.inr ⟨f, h1, he ▸ List.prefix_refl _⟩))))
          · obtain ⟨_, m, hm, _⟩ := h1
            have hd := r.wf.isDir_prefix hm (env.loc ++ p) ((List.prefix_append_right_inj _).2 h2)
              (fun e => he (List.append_cancel_left e))
            rw [h.frame.isDir hno, hd] at hqd
            cases hqd
        · obtain ⟨h3, m, hm, _⟩ := h1
          have := (r.free k f hk (r.local_user h3 hm) (goodPath_append.1 (r.wf.goodPath hm)).2).1
          rw [← h2, ha] at this; cases this
  unfold syncLocal
  rw [wp_bind]
  refine wp_mono (wp_and (SteadyW.updateLocal env _ w5) (wp_updateLocal ready)) ?_ ?_
  swap
  · rintro e w' ⟨_, hw'⟩
    exact ⟨.of_frame (may _ hw'), Or.inl hw'⟩
  rintro _ w6 ⟨⟨clk6, tick6⟩, hkept, hdone, new, hrest, hnew, hnews⟩
  have os5 : w5.os = w4.os := by obtain ⟨x, y, rfl⟩ := hw5; rfl
  rw [os5] at clk6 tick6
  have fr6 : Frame (EarlyMay env w) w.os.fs w6.os.fs := may _ hkept
  have drop : ∀ fs' m, Shrink (fun q => ∃ p, ToDrop env w6 rex p ∧ env.rem ++ p <+: q) w6.os.fs fs' →
      Shrink (LateMay env w m w6.os.fs) w6.os.fs fs' := by
    intro fs' m hs
    refine hs.mono ?_
    rintro q ⟨p, ⟨h1, _⟩, h2⟩
    exact Or.inr ⟨p, hrex p h1, h2⟩
  rw [wp_bind]
  refine wp_mono (wp_and (SteadyW.rmExcludedFiles env _ w6)
    (wp_rmExcludedFiles r.order (fun p hp => (ownExcludes_exists (hrex p hp)).1) hkept.wf)) ?_ ?_
  swap
  · rintro e w' ⟨_, hs, _⟩
    exact ⟨⟨_, fr6, drop _ _ hs⟩, Or.inr ⟨w6, hkept, hdone, hs.mono (fun q h => Or.inl h)⟩⟩
  rintro _ w7 ⟨⟨clk7, tick7⟩, hs, hgone, l, hlm, hw7⟩
  have fr7 : SyncEnd env w w7.os := ⟨_, fr6, drop _ _ hs⟩
  have wf7 : w7.os.fs.WF := hs.wf hkept.wf
  have hsT : ∀ {fs'}, Shrink (fun q => env.trash <+: q) w7.os.fs fs' →
      Shrink (fun q => (∃ p, ToDrop env w6 rex p ∧ env.rem ++ p <+: q) ∨ env.trash <+: q) w6.os.fs fs' :=
    fun h => (hs.mono (fun q h => Or.inl h)).trans (h.mono (fun q h => Or.inr h))
  have trash : ∀ (s' : OS) t, env.cleanup = some t → t ≠ 0 → w7.os.tick ≤ s'.tick →
      Shrink (OldTrash env w7.os.fs (w7.os.clk w7.os.tick - t)) w7.os.fs s'.fs →
      SyncEnd env w s' ∧ LocalPart env sel rex w5 s'.fs := by
    intro s' t h1 h2 h3' ht
    refine ⟨⟨_, fr6, (drop _ _ hs).trans (ht.mono ?_)⟩, Or.inr ⟨w6, hkept, hdone, hsT (ht.mono ?_)⟩⟩
    · rintro q ⟨c, n, h3, h4, h5, h6⟩
      refine Or.inl ⟨t, w7.os.tick, c, n, h1, h2, ⟨Nat.le_trans h.tick (Nat.le_trans tick6 tick7), h3'⟩, ?_, h4, ?_, h6⟩
      · rcases hs.gone (env.trash ++ [c]) with h7 | h7
        · rw [← h7]; exact h3
        · rw [h7] at h3; cases h3
      · rw [clk7, clk6, h.clk] at h5; exact h5
    · rintro q ⟨c, n, _, _, _, h1⟩
      exact (List.prefix_append _ _).trans h1
  have hdbE : w7.db = (w6.rmRows l).db := by rw [hw7]
  have hrdbE : w7.rdb = (w6.rmRows l).rdb := by rw [hw7]
  clear hw7
  have hrdbS : ∀ e ∈ w7.rdb, e ∈ w6.rdb := by
    rw [hrdbE]; exact fun e he => (List.mem_filter.1 he).1
  have hrdbL : w7.rdb.Sublist w6.rdb := by rw [hrdbE]; exact List.filter_sublist
  have hdbL : (w7.db.map (fun e => (e.path, e.directory))).Sublist (w6.db.map (fun e => (e.path, e.directory))) := by
    rw [hdbE]
    unfold World.rmRows ALocal.rmPaths
    dsimp only
    rw [pathDir_refresh]
    exact List.filter_sublist.map _
  have hdb7 : ∀ q, q ∈ ADB.paths w7.db ↔ q ∈ ADB.paths w6.db ∧ ∀ p, ToDrop env w6 rex p → ¬ p <+: q := by
    intro q
    rw [hdbE, mem_rmRows_db]
    simp only [hlm]
  have hrdb7 : ∀ q, q ∈ ADB.paths w7.rdb ↔ q ∈ ADB.paths w6.rdb ∧ ∀ p, ToDrop env w6 rex p → ¬ p <+: q := by
    intro q
    rw [hrdbE, mem_rmRows_rdb]
    simp only [hlm]
  have rest : ∀ w8 : World, SyncEnd env w w8.os → w8.db = w7.db → w8.rdb = w7.rdb →
      Shrink (fun q => env.trash <+: q) w7.os.fs w8.os.fs → w8.os.clk = w6.os.clk →
      w6.os.tick ≤ w8.os.tick →
      (∀ c n, w6.os.fs.get (env.trash ++ [c]) = some n → (∀ t k, env.cleanup = some t → t ≠ 0 → w6.os.tick ≤ k →
        k ≤ w8.os.tick → n.isLink = true ∨ w6.os.clk k - t < n.mtime) → ∀ q, env.trash ++ [c] <+: q →
        (∀ p, ToDrop env w6 rex p → ¬ env.rem ++ p <+: q) → w8.os.fs.get q = w6.os.fs.get q) →
      (∀ t, env.cleanup = some t → t ≠ 0 → ∃ k, (w6.os.tick ≤ k ∧ k ≤ w8.os.tick) ∧ ∀ c n,
        w8.os.fs.get (env.trash ++ [c]) = some n → n.isLink = false → w6.os.clk k - t < n.mtime) →
      wp syncSave (fun _ w' => SyncEnd env w w'.os ∧ ∃ w6, LocalDone env sel rex w5 w6 w')
        (fun _ w' => SyncEnd env w w'.os ∧ LocalPart env sel rex w5 w'.os.fs) w8 := by
    intro w8 h8 hd8 hr8 hs8 hc8 hk8 hy8 ht8
    have hp8 : SyncEnd env w w8.os ∧ LocalPart env sel rex w5 w8.os.fs :=
      ⟨h8, Or.inr ⟨w6, hkept, hdone, hsT hs8⟩⟩
    have later : ∀ s' : OS, s'.fs = w8.os.fs → w8.os.tick ≤ s'.tick →
        SyncEnd env w s' ∧ LocalPart env sel rex w5 s'.fs := fun s' h1 h2 => ⟨h8.later h1 h2, by rw [h1]; exact hp8.2⟩
    refine wp_syncSave (fun w' h1 _ h2 => later _ h1 h2) ?_
    intro w' hf hc hk hdb hrdb hsv
    refine ⟨(later _ hf hk).1, w6, hkept, hdone, ⟨new, hnew, hnews⟩, hrest.rdb, by rw [os5]; exact clk6,
      by rw [os5]; exact tick6, ?_⟩
    have keeps := (hs.mono (P' := fun q => (∃ p, ToDrop env w6 rex p ∧ env.rem ++ p <+: q) ∨ env.trash <+: q)
      (fun q h => Or.inl h)).trans (hs8.mono (fun q h => Or.inr h))
    have gone : ∀ p, ToDrop env w6 rex p → ∀ q, env.rem ++ p <+: q → w8.os.fs.get q = none := by
      intro p hp q hq
      rcases hs8.gone q with h9 | h9
      · exact h9.trans (hgone p hp q hq)
      · exact h9
    have hdb8 := hdb7
    have hrdb8 := hrdb7
    rw [← hd8] at hdb8 hdbL
    rw [← hr8] at hrdb8 hrdbS hrdbL
    rw [← hdb] at hdb8 hdbL
    rw [← hrdb] at hrdb8 hrdbS hrdbL
    rw [← hf] at keeps gone
    refine ⟨keeps, ?_, ?_, hc.trans hc8, Nat.le_trans hk8 hk, gone, hdb8, hrdb8, hrdbS, hdbL, hrdbL, hsv.1, hsv.2.1,
      hsv.2.2, l, hdb.trans (hd8.trans hdbE), hrdb.trans (hr8.trans hrdbE), fun p hp => (hlm p).1 hp⟩
    · rw [hf]
      exact fun c n h1 h2 => hy8 c n h1 (fun t k h3 h4 h5 h6 => h2 t k h3 h4 h5 (Nat.le_trans h6 hk))
    · intro t h1 h2
      obtain ⟨k, ⟨h3, h4⟩, h5⟩ := ht8 t h1 h2
      exact ⟨k, ⟨h3, Nat.le_trans h4 hk⟩, by rw [hf]; exact h5⟩
  rw [wp_bind]
  unfold syncCleanup
  cases hcl : env.cleanup with
  | none =>
    dsimp only; rw [wp_pure]
    exact rest _ fr7 rfl rfl (Shrink.refl _ _) clk7 tick7 (fun _ _ _ _ q _ h => hs.keeps q (fun ⟨p, h1, h2⟩ => h p h1 h2)) (fun t ht => by rw [hcl] at ht; cases ht)
  | some t =>
    dsimp only
    split
    · rename_i ht
      rw [wp_pure]
      exact rest _ fr7 rfl rfl (Shrink.refl _ _) clk7 tick7 (fun _ _ _ _ q _ h => hs.keeps q (fun ⟨p, h1, h2⟩ => h p h1 h2)) (fun t' h1 h2 => by rw [hcl] at h1; cases h1; exact absurd ht h2)
    · rename_i ht
      rw [wp_sys]
      refine wp_mono (wp_and (Steady.cleanupTrash env t _) (wp_cleanupTrash env r.order t wf7)) ?_ ?_
      · rintro _ s' ⟨⟨hst, hsk⟩, h1, h2⟩
        refine rest _ (trash _ _ hcl ht hsk h1).1 rfl rfl (h1.mono ?_) (hst.trans clk7) (Nat.le_trans tick7 hsk) ?_ ?_
        · rintro q ⟨c, n, _, _, _, h1⟩
          exact (List.prefix_append _ _).trans h1
        · intro c n h3 h4 q h5 h6
          refine (h1.keeps q ?_).trans (hs.keeps q (fun ⟨p, h1, h2⟩ => h6 p h1 h2))
          rintro ⟨c', n', h7, h8, h9, h10⟩
          have hcc : c' = c := by
            rcases List.prefix_or_prefix_of_prefix h5 h10 with h | h
            · have := (List.prefix_append_right_inj _).1 h
              simpa using (this.eq_of_length rfl).symm
            · have := (List.prefix_append_right_inj _).1 h
              simpa using this.eq_of_length rfl
          subst hcc
          rcases hs.gone (env.trash ++ [c']) with h11 | h11
          · rw [h7, h3] at h11; cases h11
            rw [clk7] at h9
            rcases h4 t w7.os.tick hcl ht tick7 hsk with h12 | h12
            · rw [h8] at h12; cases h12
            · omega
          · rw [h7] at h11; cases h11
        · intro t' h3 _
          rw [hcl] at h3; cases h3
          refine ⟨w7.os.tick, ⟨tick7, hsk⟩, ?_⟩
          intro c n h4 h5
          apply Classical.byContradiction
          intro h6
          have h7 : w7.os.fs.get (env.trash ++ [c]) = some n := by
            rcases h1.gone (env.trash ++ [c]) with h8 | h8
            · rw [← h8]; exact h4
            · rw [h8] at h4; cases h4
          have := h2 _ ⟨c, n, h7, h5, by rw [clk7]; omega, List.prefix_refl _⟩
          rw [this] at h4; cases h4
      · rintro e s' ⟨⟨_, hsk⟩, h1, _⟩; exact trash _ _ hcl ht hsk h1

end

/-- The steps of a sync up to the handling of the conflicts. -/
structure Steps3 (env : Env) (w : World) (del : DeletedPaths) (new mod : UpdatedPaths) (w1 w2 : World)
    (upd : UpdatedPaths) (w3 : World) (cp : Path → Path) (DL DR : Path → Prop) : Prop where
  sc : Scanned env w del new mod w1
  clk : w1.os.clk = w.os.clk
  tick : w.os.tick ≤ w1.os.tick
  cl : Cleared env w del w1 w2
  rs : Resolved env w upd w3
  rb : ResolvedBy env w2 (mod.loc ++ new.loc) (mod.rem ++ new.rem) upd w3 cp DL DR

/-- The steps of a sync up to the update of the remote directory. -/
structure Steps (env : Env) (w : World) (del : DeletedPaths) (new mod : UpdatedPaths) (w1 w2 : World)
    (upd : UpdatedPaths) (w3 : World) (cp : Path → Path) (DL DR : Path → Prop) (l : List Path) (w4 : World) : Prop
    extends Steps3 env w del new mod w1 w2 upd w3 cp DL DR where
  up : Uploaded env w w4
  ub : UploadedBy env w3 upd l w4

/-- What a sync has done if it has succeeded. -/
def SyncDone (env : Env) (w w' : World) : Prop :=
  ∃ del new mod w1 w2 upd w3 cp DL DR l w4 sel rex w5 w6, Steps env w del new mod w1 w2 upd w3 cp DL DR l w4 ∧
    Selects env w w4 sel rex w5 ∧ LocalDone env sel rex w5 w6 w'

/-- The state of the two directories in which a sync ends: it is that of a certain step. -/
inductive SyncAt (env : Env) (w : World) (fs' : FS) : Prop
  | scan (h : OnlyAt (env.exclDir ++ [env.id]) w.os.fs fs')
  | clear (h : ClearPart env w fs')
  | resolve {del : DeletedPaths} {new mod : UpdatedPaths} {w1 w2 : World} (sc : Scanned env w del new mod w1)
      (clk : w1.os.clk = w.os.clk) (tick : w.os.tick ≤ w1.os.tick) (cl : Cleared env w del w1 w2)
      (h : ResolvePart env w2 (mod.loc ++ new.loc) (mod.rem ++ new.rem) fs')
  | upload {del : DeletedPaths} {new mod : UpdatedPaths} {w1 w2 : World} {upd : UpdatedPaths} {w3 : World}
      {cp : Path → Path} {DL DR : Path → Prop} (h3 : Steps3 env w del new mod w1 w2 upd w3 cp DL DR)
      (h : UploadPart env w3 upd fs')
  | select {del : DeletedPaths} {new mod : UpdatedPaths} {w1 w2 : World} {upd : UpdatedPaths} {w3 : World}
      {cp : Path → Path} {DL DR : Path → Prop} {l : List Path} {w4 : World}
      (h4 : Steps env w del new mod w1 w2 upd w3 cp DL DR l w4) (h : fs' = w4.os.fs)
  | update {del : DeletedPaths} {new mod : UpdatedPaths} {w1 w2 : World} {upd : UpdatedPaths} {w3 : World}
      {cp : Path → Path} {DL DR : Path → Prop} {l : List Path} {w4 : World} {sel rex : List Path} {w5 : World}
      (h4 : Steps env w del new mod w1 w2 upd w3 cp DL DR l w4) (h5 : Selects env w w4 sel rex w5)
      (h : LocalPart env sel rex w5 fs')

theorem SyncDone.at_ {env : Env} {w w' : World} (h : SyncDone env w w') : SyncAt env w w'.os.fs := by
  obtain ⟨_, _, _, _, _, _, _, _, _, _, _, _, _, _, _, _, h4, h5, h6⟩ := h
  exact .update h4 h5 h6.part

/-- What a sync changes, however it ends. -/
theorem wp_sync {env : Env} {w : World} (r : SyncReady env w) :
    wp (sync env) (fun _ w' => SyncEnd env w w'.os ∧ SyncDone env w w')
      (fun _ w' => SyncEnd env w w'.os ∧ SyncAt env w w'.os.fs) w := by
  have early : ∀ {s : OS}, Frame (EarlyMay env w) w.os.fs s.fs → SyncEnd env w s :=
    fun h => .of_frame h
  unfold sync
  rw [wp_bind]
  refine wp_mono (wp_and (wp_syncScan r) (SteadyW.syncScan env w)) ?_
    (fun _ _ h => ⟨early (h.1.frame.mono (fun q hq => Or.inl hq)), .scan h.1⟩)
  rintro ⟨del, new, mod⟩ w1 ⟨sc, hclk, htick⟩
  dsimp only at sc ⊢
  have hrd := sc.start.rem_dir'
  have tail : ∀ w2 upd w3 cp DL DR l w4, Steps env w del new mod w1 w2 upd w3 cp DL DR l w4 →
      wp (syncSelect env >>= fun x => syncLocal env x.1 x.2)
        (fun _ w' => SyncEnd env w w'.os ∧ SyncDone env w w')
        (fun _ w' => SyncEnd env w w'.os ∧ SyncAt env w w'.os.fs) w4 := by
    intro w2 upd w3 cp DL DR l w4 h4
    rw [wp_bind]
    refine wp_syncSelect h4.up ?_ ?_
    · intro a w5 hs
      refine wp_mono (wp_syncLocal r hrd h4.up hs) ?_ (fun _ _ h => ⟨h.1, .update h4 hs h.2⟩)
      rintro _ w' ⟨h5, w6, h6⟩
      exact ⟨h5, del, new, mod, w1, w2, upd, w3, cp, DL, DR, l, w4, a.1, a.2, w5, w6, h4, hs, h6⟩
    · intro e w' hw'
      refine ⟨?_, .select h4 (by rw [hw'])⟩
      rw [hw']; exact early h4.up.frame
  rw [wp_bind]
  unfold syncRemote
  refine wp_clear r sc ?_ (fun _ _ h h' => ⟨early h, .clear h'⟩)
  intro w2 cl
  refine wp_resolve r sc hclk htick cl ?_ (fun _ _ h h' _ => ⟨early h, .resolve sc hclk htick cl h'⟩)
  intro upd w3 cp DL DR rs rb
  have h3 : Steps3 env w del new mod w1 w2 upd w3 cp DL DR := ⟨sc, hclk, htick, cl, rs, rb⟩
  refine wp_bind.1 (wp_upload r hrd rs ?_ (fun _ _ h h' => ⟨early h, .upload h3 h'⟩))
  intro w4 l up ub
  exact tail w2 upd w3 cp DL DR l w4 ⟨h3, up, ub⟩

end Verif
