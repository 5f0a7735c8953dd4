import Verif.Props.C102_Priorities
import Verif.Props.C99_Trash
import Verif.Props.C78_PrioritySums
/-
C103: a link of the local directory is never taken for the only copy of a file: deleting it sends the file to the trash.
-/
namespace Verif
open Prog OSM Call FSTools WM ADB ALocal

/-- Where the local directory has a link that leads out of it (as those that the client makes do) and the remote
directory has a file, the profile knows that the local directory has no copy. -/
def LinksMarked (env : Env) (w : World) : Prop :=
  ∀ p n k m b, UserPath p → w.os.fs.get (env.loc ++ p) = some n → UnsafeLink env.loc p n →
    w.os.fs.get (env.rem ++ p) = some (.file k m b) → ∃ e ∈ w.db, e.path = p ∧ e.data.loc = false

section
variable {env : Env} {w w1 w2 w3 w4 w5 w6 w' : World} {del : DeletedPaths} {new mod upd : UpdatedPaths}
  {cp : Path → Path} {DL DR : Path → Prop} {l sel rex : List Path}

/-- The links that are there when the selection is made are marked. -/
theorem Steps.marked4 (S : Steps env w del new mod w1 w2 upd w3 cp DL DR l w4) (r : SyncReady env w)
    (hm : LinksMarked env w) {p : Path} {n : Node} {k : Nat} {m : Int} {b : Nat} (hu : UserPath p)
    (hn : w4.os.fs.get (env.loc ++ p) = some n) (hl : UnsafeLink env.loc p n)
    (hr : w4.os.fs.get (env.rem ++ p) = some (.file k m b)) : (p, false) ∈ vLoc w4.db := by
  have hlk : n.isDir = false := by obtain ⟨t, a, rfl, _⟩ := hl; rfl
  have hs : ¬ env.loc <+: env.rem ++ p := by rintro ⟨t, e⟩; exact r.apart.ne _ _ e
  rw [S.ub.moved.loc_eq] at hn
  -- the upload has not made the remote file
  have hr3 : w3.os.fs.get (env.rem ++ p) = some (.file k m b) := by
    by_cases hp : p ∈ l
    · have h1 := S.ub.moved.copied p hp n hn
      obtain ⟨t, a, rfl, _⟩ := hl
      have : w4.os.fs.get (env.rem ++ p) = some (.link t a) := h1
      rw [hr] at this; cases this
    · have hne : ∀ q ∈ l, env.rem ++ p ≠ env.rem ++ q := by
        intro q hq e
        rw [List.append_cancel_left_eq] at e
        exact hp (e ▸ hq)
      rcases Option.eq_none_or_eq_some (w3.os.fs.get (env.rem ++ p)) with h1 | ⟨x, h1⟩
      · rcases S.ub.moved.new _ hs hne h1 with h2 | ⟨h2, _⟩
        · rw [hr] at h2; cases h2
        · obtain ⟨_, _, h3⟩ := FS.isDir_iff.1 h2
          rw [hr] at h3; cases h3
      · have := S.ub.moved.keeps _ hs hne x h1
        rw [hr] at this; cases this
        exact h1
  -- the link has been there
  have h2 : w2.os.fs.get (env.loc ++ p) = some n := by
    rcases S.rb.eff.loc_some r.apart hn with ⟨h1, _⟩ | ⟨x, h1, rfl, h3⟩
    · exact h1
    · exfalso
      obtain ⟨_, n', h4, h5, _⟩ := S.sc.mem_loc.1 (S.rb.mem x (Or.inl h1)).1
      obtain ⟨_, n2, h6, _, h7⟩ := S.cl.loc_old r S.sc (S.rb.ctx.user x (Or.inl h1)).1.1 h3
      rw [h4] at h6; cases h6
      rw [h7 hlk] at h5
      apply h5
      obtain ⟨t, a, rfl, h8⟩ := hl
      refine ⟨t, a, rfl, fun h9 => h8 ?_⟩
      unfold SafeTarget at *
      rw [S.rb.ctx.parent x (Or.inl h1)]
      exact h9
  have hr2 : w2.os.fs.get (env.rem ++ p) = some (.file k m b) := by
    rcases S.rb.eff.rem_some r.apart hr3 with ⟨h1, _⟩ | ⟨x, h1, rfl, _⟩
    · exact h1
    · rw [(S.rb.ctx.free x (Or.inr h1)).1] at h2; cases h2
  obtain ⟨_, n0, h3, _, h4⟩ := S.cl.loc_old r S.sc hu.1 h2
  rw [h4 hlk] at h3
  obtain ⟨m0, h5, h6, h7⟩ := S.cl.rem_old r S.sc hu hr2
  rw [h7 rfl] at h5
  obtain ⟨e, he, rfl, h8⟩ := hm p n k m b hu h3 hl h5
  rw [← h8]
  exact S.keeps4 locColumn r he (by rw [← (r.db e he).rem _ h5]; rfl) h3 h5 (fun h => by
    obtain ⟨⟨_, n', h9, h10, _⟩, _⟩ := h
    rw [h3] at h9; cases h9
    exact h10 hl)

/-- C103: after a sync that succeeds the links are marked, if they were before. -/
theorem C103_marked_partial (r : SyncReady env w) (c : Calm env w) (h : (sync env w).1 = .ok ()) (hm : LinksMarked env w) :
    LinksMarked env (sync env w).2 := by
  have h1 : sync env w = (.ok (), (sync env w).2) := by rw [← h]
  obtain ⟨del, new, mod, w1, w2, upd, w3, cp, DL, DR, l, w4, sel, rex, w5, w6, S, T, D⟩ := (wp_ok (wp_sync r) h1).2
  generalize (sync env w).2 = w' at *
  intro p n k m b hu hn hl hr
  have os5 : w5.os = w4.os := by obtain ⟨x, y, e⟩ := T.same; rw [e]
  have db5 : w5.db = w4.db := by obtain ⟨x, y, e⟩ := T.same; rw [e]
  have rdb5 : w5.rdb = w4.rdb := by obtain ⟨x, y, e⟩ := T.same; rw [e]
  have hn6 : w6.os.fs.get (env.loc ++ p) = some n := by
    rcases D.ended.keeps.gone (env.loc ++ p) with h2 | h2
    · rw [← h2]; exact hn
    · rw [hn] at h2; cases h2
  have hr6 : w6.os.fs.get (env.rem ++ p) = some (.file k m b) := by
    rcases D.ended.keeps.gone (env.rem ++ p) with h2 | h2
    · rw [← h2]; exact hr
    · rw [hr] at h2; cases h2
  have hr4 : w4.os.fs.get (env.rem ++ p) = some (.file k m b) := by
    rw [← os5, ← D.kept.out _ (fun h2 => by
      obtain ⟨t, e⟩ := h2.1
      exact r.apart.ne _ _ e)]
    exact hr6
  have hp4 : p ∈ ADB.paths w4.db := S.cover4 r c hu hr4
  have leafF : ∀ q d, Fits env w4.os.fs q d → p <+: q → q = p := fun q d hf hq => by
    apply Classical.byContradiction
    intro hne
    have h2 := hf.aboveR p _ hq (fun h => hne h.symm) hr4
    cases h2
  have leaf : ∀ q ∈ ADB.paths w4.db, p <+: q → q = p := fun q hq => by
    obtain ⟨d, hd⟩ := S.up.db.path hq
    exact leafF q d hd
  have leafR : ∀ q ∈ ADB.paths w4.rdb, p <+: q → q = p := fun q hq => by
    obtain ⟨d, hd⟩ := S.up.rdb.path hq
    exact leafF q d hd
  obtain ⟨nw, e6, N⟩ := D.db
  obtain ⟨e4, he4⟩ := Option.isSome_iff_exists.1 ((info_isSome _ _).2 hp4)
  have mem4 := (info_eq_some S.up.nodup_db).1 he4
  -- the new mark
  have key : (if p ∈ nw then false else if ∃ f ∈ setOf sel, f <+: p then true else e4.data.loc) = false := by
    by_cases hnw : p ∈ nw
    · simp [hnw]
    · have hsel : ¬ ∃ f ∈ setOf sel, f <+: p := by
        rintro ⟨f, hf, hfp⟩
        have h2 := D.done.copied p (.file k m b) ⟨⟨_, by rw [os5]; exact hr4⟩, hu.1, f, hf, hfp⟩
          (by rw [os5]; exact hr4) rfl
        rw [hn6] at h2
        cases h2
        obtain ⟨t, a, h3, _⟩ := hl
        cases h3
      rw [if_neg hnw, if_neg hsel]
      have hp5 : p ∈ ADB.paths w5.rdb := by rw [rdb5]; exact (S.same4 c p).1 hp4
      rcases Option.eq_none_or_eq_some (w5.os.fs.get (env.loc ++ p)) with h2 | ⟨n5, h2⟩
      · exact absurd (N.absent p hp5 h2) hnw
      · rcases D.kept.loc p n5 h2 with h3 | ⟨h3, h4⟩ | ⟨⟨_, _, h3⟩, _⟩
        · rw [hn6] at h3; cases h3
          rw [os5] at h2
          obtain ⟨e, he, h5⟩ := List.mem_map.1 (S.marked4 r hm hu h2 hl hr4)
          have h6 : ADB.info w4.db p = some e := (info_eq_some S.up.nodup_db).2 ⟨he, congrArg Prod.fst h5⟩
          rw [he4] at h6; cases h6
          exact congrArg Prod.snd h5
        · exfalso
          cases n5 with
          | link t a => cases h4
          | file x y z => exact hnw (N.stale p hp5 h3 x y z h2)
          | dir x y =>
            rw [os5] at h2
            obtain ⟨d, hd⟩ := S.up.db.path hp4
            have h5 := hd.loc _ h2
            have h6 := hd.rem _ hr4
            rw [← h5] at h6
            cases h6
        · exact absurd h3 hsel
  have i6 := info_markLocal (ps := setOf sel) leaf (fun q hq => leafR q (by rw [← rdb5]; exact N.row q hq)) he4
  rw [key] at i6
  have k6 : (p, false) ∈ vLoc w6.db := by
    rw [e6, db5]
    have nd : (ADB.paths (markLocal w4.db (setOf sel) nw)).Nodup := by rw [paths_markLocal]; exact S.up.nodup_db
    have h2 := (info_eq_some nd).1 i6
    refine List.mem_map.2 ⟨_, h2.1, ?_⟩
    rw [h2.2]
    rfl
  obtain ⟨ps, e7, _, hps⟩ := D.ended.tr
  have k7 : (p, false) ∈ vLoc w'.db := by
    rw [e7]
    refine col_rm locColumn k6 (fun q hq h2 => ?_) (fun q hq => leaf_parent hu.1 (leafR q ?_))
    · have := D.ended.gone q (hps q hq) (env.rem ++ p) ((List.prefix_append_right_inj _).2 h2)
      rw [hr] at this; cases this
    · rw [← rdb5, ← D.rdb]
      exact (hps q hq).2.1
  obtain ⟨e, he, h2⟩ := List.mem_map.1 k7
  exact ⟨e, he, congrArg Prod.fst h2, congrArg Prod.snd h2⟩

/-- C103: if after a sync the user deletes a link that stands for a remote file, then the next sync, with `UseTrash`,
moves that file to the trash with its content. What is missing in comparison with C103: a second deleted path that gets
the same name in the trash (see C99), and remote links. -/
theorem C103_trash_partial (r : SyncReady env w) (c : Calm env w) (h : (sync env w).1 = .ok ()) (hm : LinksMarked env w)
    {p : Path} {n : Node} {k : Nat} {m : Int} {b : Nat} (hu : UserPath p)
    (hn : (sync env w).2.os.fs.get (env.loc ++ p) = some n) (hl : UnsafeLink env.loc p n)
    (hr : (sync env w).2.os.fs.get (env.rem ++ p) = some (.file k m b))
    {v : World} (hv : v.db = (sync env w).2.db) (rv : SyncReady env v) (ht : env.useTrash = true)
    (hd : Deleted env v p) {k' : Nat} {m' : Int} {b' : Nat} (hf : v.os.fs.get (env.rem ++ p) = some (.file k' m' b'))
    (dist : ∀ q, Deleted env v q → ∀ t, TrashTarget env v.os.fs q t → TrashTarget env v.os.fs p t → q = p)
    (short : ∀ t, env.cleanup = some t → ∀ i j, During v (sync env v).2 i → During v (sync env v).2 j →
      t ≠ 0 → v.os.clk j < v.os.clk i + t) (h' : (sync env v).1 = .ok ()) :
    ∃ t i, v.os.fs.get (env.trash ++ [t]) = none ∧ During v (sync env v).2 i ∧
      InTrash env v.os.fs p (.file k' m' b') (v.os.clk i) t (sync env v).2.os.fs := by
  obtain ⟨e, he, rfl, h2⟩ := C103_marked_partial r c h hm p n k m b hu hn hl hr
  exact C99_moved_partial rv ht (by rw [hv]; exact he) h2 hd hf rfl dist short h'

end

/-! ### How it starts, and what happens between two syncs -/

/-- No path is recorded as kept locally. -/
def NoneLocal (db : ALocal) : Prop := ∀ x ∈ ALocal.vLoc db, x.2 = false

theorem vFold_noneLocal (ps : List Path) : ∀ (v : List (Path × Bool)), (∀ x ∈ v, x.2 = false) →
    ∀ x ∈ ps.foldl (vStep minLoc) v, x.2 = false := by
  induction ps with
  | nil => intro v h; exact h
  | cons p ps ih =>
    intro v h
    rw [List.foldl_cons]
    apply ih
    intro x hx
    unfold vStep at hx
    obtain ⟨y, hy, rfl⟩ := List.mem_map.1 hx
    by_cases hp : y.1 = p
    · rw [if_pos hp]
      show minLoc _ = false
      cases hk : kids v p with
      | nil => rfl
      | cons k ks =>
        have := h k (mem_kids.1 (by rw [hk]; exact List.mem_cons_self : k ∈ kids v p)).1
        simp [minLoc, this]
    · rw [if_neg hp]; exact h y hy

theorem NoneLocal.add {db : ALocal} (h : NoneLocal db) (b : List (Path × Bool)) (x : Rat) :
    NoneLocal (ALocal.addPaths db b x false) := by
  unfold NoneLocal ALocal.addPaths
  rw [ALocal.vLoc_refresh]
  apply vFold_noneLocal
  obtain ⟨news, h1, h2⟩ := ADB.addCore_eq db b ({ priority := x, loc := false } : PData)
  unfold ALocal.vLoc
  rw [h1, ADB.view_mark]
  intro x hx
  obtain ⟨e, he, rfl⟩ := List.mem_map.1 hx
  rcases List.mem_append.1 he with he | he
  · exact h _ (List.mem_map.2 ⟨e, he, rfl⟩)
  · exact congrArg PData.loc (h2.mem e he).2.2

/-- Whatever an initialisation does, it records no path as kept locally. -/
theorem noneLocal_init {env : Env} {w : World} (h : w.db = []) (b : Bool) : NoneLocal (init env b w).2.db := by
  have hw : NoneLocal w.db := by rw [h]; intro x hx; cases hx
  have := KeepsDB.init (P := NoneLocal) env b (fun f d => KeepsDB.modify (fun _ h => h.add _ _)) w hw
  unfold wp at this
  split at this
  all_goals
    rename_i e
    rw [e]
    exact this

/-- C103: the links are marked after each initialisation of a history of commands (see C69), be it the first one or that of
a client that joins. -/
theorem C103_init_partial {ι : Type} {E : ι → Env} (hE : ∀ c, EnvReady (E c)) (hrem : ∀ c d, (E c).rem = (E d).rem) {c : ι}
    {b : Bool} {w : World} {h : List (ι × World)} (hh : History E ((c, (init (E c) b w).2) :: h)) (hw : w.db = []) :
    LinksMarked (E c) (init (E c) b w).2 := by
  have a := C69_agree_partial hE hrem hh _ List.mem_cons_self
  have hz := noneLocal_init (env := E c) hw b
  intro p n k m x hu _ _ hr
  obtain ⟨e, he, rfl⟩ := List.mem_map.1 ((a.same p).2 ((a.remote p hu).2 ⟨_, hr⟩))
  exact ⟨e, he, rfl, hz _ (List.mem_map.2 ⟨e, he, rfl⟩)⟩

/-- C103: they stay marked until the next sync, whatever the daemon has counted and whatever has happened to the files, if
every link that leads out of the local directory to a remote file is one that the last command has left there. -/
theorem C103_between_partial {env : Env} {w v : World} (hm : LinksMarked env w) (hs : w.dbSaved = w.db) (he : Edits env w v)
    (hl : ∀ p n k m b, UserPath p → v.os.fs.get (env.loc ++ p) = some n → UnsafeLink env.loc p n →
      v.os.fs.get (env.rem ++ p) = some (.file k m b) →
      ∃ k m b, w.os.fs.get (env.loc ++ p) = some n ∧ w.os.fs.get (env.rem ++ p) = some (.file k m b)) :
    LinksMarked env v := by
  intro p n k m b hu hn hun hr
  obtain ⟨k', m', b', h1, h2⟩ := hl p n k m b hu hn hun hr
  obtain ⟨e, h3, h4, h5⟩ := hm p n k' m' b' hu h1 hun h2
  have hc := he.db.same
  rw [hs] at hc
  have h6 : bare e ∈ v.db.map bare := by rw [hc]; exact List.mem_map_of_mem h3
  obtain ⟨e', h7, h8⟩ := List.mem_map.1 h6
  exact ⟨e', h7, (congrArg (·.1) h8).trans h4, (congrArg (·.2.2) h8).trans h5⟩

/-! ### Examples -/

theorem exRank_marked : LinksMarked exEnvS exRank := by
  intro p n k m b _ hn hl _
  have h1 : ∀ x ∈ localEntries exEnvS exRank.os.fs, x.2.isLink = true → x.1 = ["p".toList] := by decide +kernel
  have h2 := h1 _ (mem_localEntries (env := exEnvS) (by decide) hn) (by obtain ⟨t, a, rfl, _⟩ := hl; rfl)
  exact ⟨exRow ["p".toList] false 5 false, by simp [exRank, exWorld], h2.symm, rfl⟩

theorem exRank_link : (sync exEnvS exRank).2.os.fs.get (exEnvS.loc ++ ["d".toList, "z".toList]) =
    some (.link "/r/d/z".toList 59) := by decide +kernel

theorem unsafe_abs {root p : Path} {s : Str} (m : Int) (h : Posix.isabs s = true) : UnsafeLink root p (.link s m) :=
  ⟨s, m, rfl, fun h1 => by have h2 := h1.1; rw [h] at h2; cases h2⟩

theorem exH2_marked : LinksMarked (exPair true) exH2 :=
  C103_init_partial (b := true) exPair_ready (by intro c d; cases c <;> cases d <;> rfl) exHistory2 rfl

/-- The second client of C69: its links are marked after it has joined, and when it starts its next sync. -/
example : LinksMarked (exPair true) exN2 := by
  refine C103_between_partial exH2_marked (C69_agree_partial exPair_ready (by intro c d; cases c <;> cases d <;> rfl)
    exHistory2 (true, exH2) List.mem_cons_self).dbSaved
    (edits_of_editsB (by decide +kernel) (exPair_ready true).apart (exPair_stamp true) exN2_counted (by decide +kernel) rfl) ?_
  intro p n k m b _ hn hl _
  have h1 : ∀ x ∈ localEntries (exPair true) exN2.os.fs, x.2.isLink = true → x = (px ["d", "a"], .link "/r/d/a".toList 84) := by
    decide +kernel
  have h2 := h1 _ (mem_localEntries (by decide) hn) (by obtain ⟨t, a, rfl, _⟩ := hl; rfl)
  obtain ⟨rfl, rfl⟩ := Prod.mk.inj h2
  exact ⟨7, 3, 1, by decide +kernel, by decide +kernel⟩

/-- `d/z`, which was a copy, is a link after the sync, and the profile knows it. -/
example : ∃ e ∈ (sync exEnvS exRank).2.db, e.path = ["d".toList, "z".toList] ∧ e.data.loc = false :=
  C103_marked_partial exRank_ready exRank_calm exRank_sync.1 exRank_marked _ _ 6 3 4 (by decide +kernel) exRank_link
    (unsafe_abs _ (by decide)) exRank_sync.2.2.2.2.2.2.1

/-- What the sync of `exRank` leaves, after the user has deleted the link `d/z`. -/
def exUnlinked : World := exWorld exEnvS
  [(["l".toList, "d".toList], .dir 1 1), (["r".toList, "d".toList], .dir 1 1),
    (["l".toList, "d".toList, "q".toList], .file 7 3 2), (["r".toList, "d".toList, "q".toList], .file 7 3 2),
    (["r".toList, "d".toList, "z".toList], .file 6 3 4),
    (["l".toList, "p".toList], .file 9 4 1), (["r".toList, "p".toList], .file 9 4 1)]
  [exRow ["d".toList] true 1 false, exRow ["d".toList, "q".toList] false 1 true,
    exRow ["d".toList, "z".toList] false 0 false, exRow ["p".toList] false 5 true]
  [exRRow ["d".toList] true, exRRow ["d".toList, "q".toList] false, exRRow ["d".toList, "z".toList] false,
    exRRow ["p".toList] false] 1000

theorem exUnlinked_ready : SyncReady exEnvS exUnlinked :=
  syncReady_of_readyB (by decide +kernel) (fun _ => List.Perm.refl _) (by unfold Apart; decide +kernel)
    (fun _ => by show GoodStamp "19700101-000000".toList; decide +kernel) rfl

theorem exUnlinked_gone {p : Path} (h : GoneLocally exEnvS exUnlinked p) : p = ["d".toList, "z".toList] := by
  have h1 : ∀ p ∈ ADB.paths exUnlinked.db, exUnlinked.os.fs.get (exEnvS.loc ++ p) = none → p = ["d".toList, "z".toList] := by
    decide +kernel
  exact h1 p h.1 h.2

/-- The file of `d/z` comes to the trash. -/
example : ∃ t i, exUnlinked.os.fs.get (exEnvS.trash ++ [t]) = none ∧ During exUnlinked (sync exEnvS exUnlinked).2 i ∧
    InTrash exEnvS exUnlinked.os.fs ["d".toList, "z".toList] (.file 6 3 4) (exUnlinked.os.clk i) t
      (sync exEnvS exUnlinked).2.os.fs :=
  C103_trash_partial exRank_ready exRank_calm exRank_sync.1 exRank_marked (by decide +kernel) exRank_link
    (unsafe_abs _ (by decide)) exRank_sync.2.2.2.2.2.2.1 (by rw [exRank_sync.2.1]; rfl) exUnlinked_ready rfl
    ⟨by decide +kernel, fun q hq _ => exUnlinked_gone hq⟩ (by decide +kernel)
    (fun q hq _ _ _ => exUnlinked_gone hq.1) (fun t ht => by cases ht) (by decide +kernel)

/-! ### What does not hold -/

/-- The user has a link of their own at `k`, and another client has added a file `k`, which is too big to be kept here. -/
def exOwnLink : World := exWorld exEnvS
  [(["l".toList, "k".toList], .link "/h/own".toList 3), (["r".toList, "k".toList], .file 9 3 9)] [] [] 1000

/-- What the sync of `exOwnLink` leaves, after the user has deleted their link. -/
def exOwnGone : World := exWorld exEnvS
  [(["r".toList, "k".toList], .file 9 3 9)] [exRow ["k".toList] false 0 true] [exRRow ["k".toList] false] 1000

/-- C103 fails for a link that the client does not know when the remote file appears: the sync takes it for a copy of
that file (zielen/commands/sync.py:89 records what is new in either directory as local). When the user deletes the link, the next sync
deletes the remote file for good, although `UseTrash` is set and there was never a copy here. -/
theorem C103_own_link_fails : exEnvS.useTrash = true ∧ (sync exEnvS exOwnLink).1 = .ok () ∧
    (sync exEnvS exOwnLink).2.os.fs.get (exEnvS.loc ++ ["k".toList]) = some (.link "/h/own".toList 3) ∧
    (sync exEnvS exOwnLink).2.os.fs.get (exEnvS.rem ++ ["k".toList]) = some (.file 9 3 9) ∧
    (sync exEnvS exOwnLink).2.db = exOwnGone.db ∧ ADB.paths (sync exEnvS exOwnLink).2.rdb = ADB.paths exOwnGone.rdb ∧
    (sync exEnvS exOwnGone).1 = .ok () ∧
    ((sync exEnvS exOwnGone).2.os.fs.all fun x => match x.2 with | .file c _ _ => decide (c ≠ 9) | _ => true) = true := by
  decide +kernel

end Verif
