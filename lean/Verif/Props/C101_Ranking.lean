import Verif.Props.C14_HigherPriority
import Verif.Props.C77_Storage
import Verif.Props.C78_PrioritySums
/-
C101: which files the local directory has after a sync.
-/
namespace Verif
open Prog OSM Call FSTools WM

/-- What a file counts for, as configured with `AccountForSize`: its priority, or its priority per byte of the remote
file. -/
def worth (env : Env) (w : World) (e : Entry PData) : Rat :=
  if env.accountForSize then
    (if usedAt w.os.fs (env.rem ++ e.path) = 0 then 0 else e.data.priority / (usedAt w.os.fs (env.rem ++ e.path) : Rat))
  else e.data.priority

section
variable {env : Env} {w w1 w2 w3 w4 w5 w6 w' : World} {del : DeletedPaths} {new mod upd : UpdatedPaths}
  {cp : Path → Path} {DL DR : Path → Prop} {l sel rex : List Path}

/-- What the selection was made from: the rows and the remote files are those at the end of the sync. -/
structure Ranked (env : Env) (w4 w' : World) : Prop where
  prio : ALocal.vPrio w'.db = ALocal.vPrio w4.db
  dirs : pathDir w'.db = pathDir w4.db
  rem : ∀ p, UserPath p → w'.os.fs.get (env.rem ++ p) = w4.os.fs.get (env.rem ++ p)

theorem mem_of_views {a b : ALocal} (hv : ALocal.vPrio a = ALocal.vPrio b) (hd : pathDir a = pathDir b) {e : Entry PData}
    (he : e ∈ a) : ∃ e' ∈ b, e'.path = e.path ∧ e'.directory = e.directory ∧ e'.data.priority = e.data.priority := by
  induction a generalizing b with
  | nil => cases he
  | cons x a ih =>
    cases b with
    | nil => cases hd
    | cons y b =>
      simp only [ALocal.vPrio, ADB.view, pathDir, List.map_cons, List.cons.injEq, Prod.mk.injEq] at hv hd
      rcases List.mem_cons.1 he with rfl | he
      · exact ⟨y, List.mem_cons_self, hd.1.1.symm, hd.1.2.symm, hv.1.2.symm⟩
      · obtain ⟨e', h1, h2⟩ := ih hv.2 hd.2 he
        exact ⟨e', List.mem_cons_of_mem _ h1, h2⟩

theorem Steps.ranked (S : Steps env w del new mod w1 w2 upd w3 cp DL DR l w4) (r : SyncReady env w) (c : Calm env w)
    (T : Selects env w w4 sel rex w5) (D : LocalDone env sel rex w5 w6 w') (hc : NoOlder env w)
    (hx : NoneExcluded env w) (hs : SumsOfEntries w.db) : Ranked env w4 w' := by
  rw [sumsOfEntries_iff] at hs
  have p4 := S.prio4 r c hs
  have fs5 : w5.os.fs = w4.os.fs := by obtain ⟨x, y, h⟩ := T.same; rw [h]
  have db5 : w5.db = w4.db := by obtain ⟨x, y, e⟩ := T.same; rw [e]
  have rdb5 : w5.rdb = w4.rdb := by obtain ⟨x, y, e⟩ := T.same; rw [e]
  have nodrop : ∀ p, ¬ ToDrop env w6 rex p := fun p h => S.rex_nil r c T hc hx p h.1
  have c4 : DB.ParentClosed (ADB.paths w4.db) := by
    intro p hp h0
    obtain ⟨n, hn⟩ := T.found p hp ((S.same4 c p).1 hp)
    have hu : UserPath p := by
      obtain ⟨d, hd⟩ := S.up.db.path hp
      exact hd.user
    obtain ⟨a, b, hd⟩ := FS.isDir_iff.1 (S.up.wf.isDir_prefix hn (env.rem ++ p.dropLast)
      ((List.prefix_append_right_inj _).2 (List.dropLast_prefix p)) (fun e => by
        have := congrArg List.length (List.append_cancel_left e)
        have := List.length_pos_iff.2 hu.1
        simp at *
        omega))
    exact S.cover4 r c (PlainPath.user (hu.plain.prefix (List.dropLast_prefix p)) h0) hd
  obtain ⟨nw, e6, N⟩ := D.db
  obtain ⟨ps, e7, _, hps⟩ := D.ended.tr
  have ps0 : ps = [] := List.eq_nil_iff_forall_not_mem.2 (fun p hp => nodrop p (hps p hp))
  have e8 : w'.db = w6.db := by
    rw [e7, ps0]
    unfold ALocal.rmPaths ADB.rmCore
    simp [DB.parentsOf, ALocal.refresh, ADB.updateAgg]
    rfl
  refine ⟨?_, ?_, ?_⟩
  · rw [e8, e6, db5]
    exact vPrio_markLocal p4 c4 (fun p hp => by
      have := N.row p hp
      rw [rdb5] at this
      exact (S.same4 c p).2 this)
  · rw [e8, e6, db5, pathDir_markLocal]
  · intro p hu
    have h6 : w6.os.fs.get (env.rem ++ p) = w4.os.fs.get (env.rem ++ p) := by
      rw [D.kept.out, fs5]
      rintro ⟨⟨t, e⟩, _⟩
      exact r.apart.ne t p e
    rw [D.ended.keeps.keeps, h6]
    rintro (⟨q, h, _⟩ | h)
    · exact nodrop q h
    · exact absurd rfl (plain_not_trash hu.plain h)

/-- What is known when the selection is made is in the remote directory, and a file is not above another one. -/
theorem Steps.known4 (S : Steps env w del new mod w1 w2 upd w3 cp DL DR l w4) (c : Calm env w)
    (T : Selects env w w4 sel rex w5) {e : Entry PData} (he : e ∈ w4.db) :
    UserPath e.path ∧ ∃ n, w4.os.fs.get (env.rem ++ e.path) = some n ∧ n.isDir = e.directory := by
  have hp : e.path ∈ ADB.paths w4.db := List.mem_map_of_mem he
  have hf := S.up.db e he
  obtain ⟨n, hn⟩ := T.found e.path hp ((S.same4 c e.path).1 hp)
  exact ⟨hf.user, n, hn, hf.rem n hn⟩

/-- What is selected is there as a copy after the sync. -/
theorem Steps.copied4 (T : Selects env w w4 sel rex w5) (D : LocalDone env sel rex w5 w6 w') (r : SyncReady env w)
    {p f : Path} {n : Node} (hu : UserPath p) (hn : w4.os.fs.get (env.rem ++ p) = some n) (hd : n.isDir = false)
    (hf : f ∈ sel) (hfp : f <+: p) : w'.os.fs.get (env.loc ++ p) = some n := by
  have fs5 : w5.os.fs = w4.os.fs := by obtain ⟨x, y, h⟩ := T.same; rw [h]
  rw [D.loc_eq r]
  exact D.done.copied p n ⟨⟨n, by rw [fs5]; exact hn⟩, hu.1, f, mem_setOf.2 hf, hfp⟩ (by rw [fs5]; exact hn) hd

/-- C101: after a sync that has succeeded, of two known files the one that counts for more is in the local directory as a
copy if the other one is, provided that it is not larger and that the other one is not there because of a directory that
is in the local directory as a whole. What is missing in comparison with C101: conflicts with an older local version,
excluded files that are known or in the remote directory, and files that take less space than a link. -/
theorem C101_wins_partial (r : SyncReady env w) (c : Calm env w) (h : (sync env w).1 = .ok ())
    (hc : ∀ p a b, ChangedLocally env w p → ChangedRemotely env w p → w.os.fs.get (env.loc ++ p) = some a →
      w.os.fs.get (env.rem ++ p) = some b → a.isDir = false → ¬ a.mtime < b.mtime)
    (hx : ∀ p, OwnExcludes env w.os.fs p → p ∉ ADB.paths w.db ∧ w.os.fs.get (env.rem ++ p) = none)
    (hs : SumsOfEntries w.db)
    (big : ∀ e ∈ (sync env w).2.db, e.directory = false →
      env.symlinkSize ≤ usedAt (sync env w).2.os.fs (env.rem ++ e.path))
    {a b : Entry PData} (ha : a ∈ (sync env w).2.db) (had : a.directory = false) (hb : b ∈ (sync env w).2.db)
    (hbd : b.directory = false) (hbl : ∃ k m s, (sync env w).2.os.fs.get (env.loc ++ b.path) = some (.file k m s))
    (hd : ∀ d, d ≠ [] → d <+: b.path → d ≠ b.path → ∃ e ∈ (sync env w).2.db, e.directory = false ∧ d <+: e.path ∧
      (sync env w).2.os.fs.get (env.loc ++ e.path) ≠ (sync env w).2.os.fs.get (env.rem ++ e.path))
    (hw : worth env (sync env w).2 b < worth env (sync env w).2 a)
    (hle : usedAt (sync env w).2.os.fs (env.rem ++ a.path) ≤ usedAt (sync env w).2.os.fs (env.rem ++ b.path)) :
    ∃ n, n.isDir = false ∧ (sync env w).2.os.fs.get (env.rem ++ a.path) = some n ∧
      (sync env w).2.os.fs.get (env.loc ++ a.path) = some n := by
  have h1 : sync env w = (.ok (), (sync env w).2) := by rw [← h]
  obtain ⟨del, new, mod, w1, w2, upd, w3, cp, DL, DR, l, w4, sel, rex, w5, w6, S, T, D⟩ := (wp_ok (wp_sync r) h1).2
  generalize (sync env w).2 = w' at *
  have R := S.ranked r c T D hc hx hs
  obtain ⟨ex, s, size, ⟨r1, dirs⟩, ⟨r2, files⟩, hm, hsc, hsz, hdirs, hfiles, hsel⟩ := T.chosen
  have stat : ∀ p, UserPath p → fileUsage (selEnv env w4.db w4.rdb (Scan.user (w4.os.fs.below env.rem))) p =
      usedAt w'.os.fs (env.rem ++ p) := by
    intro p hu
    rw [S.selStat hu]
    unfold usedAt
    rw [R.rem p hu]
  generalize he : selEnv env w4.db w4.rdb (Scan.user (w4.os.fs.below env.rem)) = e at hdirs hfiles stat
  have hel : e.loc = w4.db := by rw [← he]; rfl
  have hes : e.symlinkSize = env.symlinkSize := by rw [← he]; rfl
  have hea : e.accountForSize = env.accountForSize := by rw [← he]; rfl
  have hnd : (ADB.paths e.loc).Nodup := by rw [hel]; exact S.up.nodup_db
  have hrex : ∀ p, p ∉ rex := fun p => S.rex_nil r c T hc hx p
  -- the rows when the selection is made
  obtain ⟨a4, ha4, pa, da, va⟩ := mem_of_views R.prio R.dirs ha
  obtain ⟨b4, hb4, pb, db, vb⟩ := mem_of_views R.prio R.dirs hb
  obtain ⟨ua, na, hna, dna⟩ := S.known4 c T ha4
  obtain ⟨ub, nb, hnb, dnb⟩ := S.known4 c T hb4
  rw [da, had] at dna
  rw [db, hbd] at dnb
  have eff : ∀ {x y : Entry PData}, UserPath y.path → y.path = x.path → y.data.priority = x.data.priority →
      effPriority e y = worth env w' x := by
    intro x y hu h1 h2
    unfold effPriority worth
    rw [stat _ hu, hea, h1, h2]
    cases env.accountForSize <;> rfl
  have fin : ∀ f ∈ sel, f <+: a4.path → ∃ n, n.isDir = false ∧ w'.os.fs.get (env.rem ++ a.path) = some n ∧
      w'.os.fs.get (env.loc ++ a.path) = some n := by
    intro f hf hfa
    refine ⟨na, dna, ?_, ?_⟩
    · rw [← pa, R.rem _ ua, hna]
    · rw [← pa]
      exact Steps.copied4 T D r ua hna dna hf hfa
  -- `b` has been selected as a file
  have hbx : ¬ OwnExcludes env w.os.fs b4.path := by
    intro ho
    have := (S.rem_excl r c hc hx ho).2.2
    rw [hnb] at this; cases this
  obtain ⟨k, m, s', hbl⟩ := hbl
  rw [← pb] at hbl
  obtain ⟨_, g2, _, _, f, hf, hfb⟩ := S.file_listed r c T D hc ub.1 hbl hbx
  rw [mem_setOf] at hf
  have hbF : b4.path ∈ files := by
    have hf' := hf
    rw [hsel] at hf'
    rcases List.mem_append.1 hf' with h2 | h2
    swap
    · exact absurd h2 (hrex f)
    rcases List.mem_append.1 h2 with h2 | h2
    · exfalso
      obtain ⟨x, hx1, hx2, hx3⟩ := (C15_dirs hnd hdirs).2.1 f h2
      rw [hel] at hx1
      obtain ⟨ux, nx, hnx, dnx⟩ := S.known4 c T hx1
      have hne : f ≠ b4.path := by
        intro e1
        rw [hx2, e1, hnb] at hnx
        cases hnx
        rw [dnb, hx3] at dnx; cases dnx
      obtain ⟨y, hy, hyd, hfy, hyn⟩ := hd f (by rw [← hx2]; exact ux.1) (by rw [← pb]; exact hfb) (by rw [← pb]; exact hne)
      obtain ⟨y4, hy4, py, dy, _⟩ := mem_of_views R.prio R.dirs hy
      obtain ⟨uy, ny, hny, dny⟩ := S.known4 c T hy4
      rw [dy, hyd] at dny
      rw [← py] at hfy hyn
      rw [Steps.copied4 T D r uy hny dny hf hfy, R.rem _ uy, hny] at hyn
      exact hyn rfl
    · by_cases hfe : f = b4.path
      · rw [← hfe]; exact h2
      · exfalso
        obtain ⟨⟨x, hx1, hx2, hx3⟩, _⟩ := (C15_files hnd hfiles).2 f h2
        rw [hel] at hx1
        obtain ⟨ux, nx, hnx, dnx⟩ := S.known4 c T hx1
        obtain ⟨a', b', h4⟩ := FS.isDir_iff.1 (S.up.wf.isDir_prefix hnb (env.rem ++ f)
          ((List.prefix_append_right_inj _).2 hfb) (fun e => hfe (List.append_cancel_left e)))
        rw [hx2, h4] at hnx
        cases hnx
        rw [hx3] at dnx
        cases dnx
  by_cases hda : ∃ f ∈ dirs, f <+: a4.path
  · obtain ⟨f, h2, h3⟩ := hda
    exact fin f (by rw [hsel]; exact List.mem_append_left _ (List.mem_append_left _ h2)) h3
  · have ca : Competes e dirs a4 := ⟨by rw [hel]; exact ha4, by rw [da]; exact had, fun x hx hp => hda ⟨x, hx, hp⟩⟩
    have cb : Competes e dirs b4 := ⟨by rw [hel]; exact hb4, by rw [db]; exact hbd, ((C15_files hnd hfiles).2 _ hbF).2⟩
    have hg : ∀ p ∈ ADB.paths e.loc, GoodPath p := by
      intro p hp
      rw [hel] at hp
      obtain ⟨d, hd⟩ := S.up.db.path hp
      exact hd.good
    have := C14_priority hnd hg hfiles (fun x hx => by
      obtain ⟨h2, h3, _⟩ := hx
      rw [hel] at h2
      obtain ⟨x', h4, h5, h6, _⟩ := mem_of_views R.prio.symm R.dirs.symm h2
      rw [hes, stat _ (S.known4 c T h2).1, ← h5]
      exact big x' h4 (h6.trans h3)) ca cb (Or.inl (by rw [eff ua pa va, eff ub pb vb]; exact hw))
      (by rw [stat _ ua, stat _ ub, pa, pb]; exact hle) hbF
    exact fin a4.path (by rw [hsel]; exact List.mem_append_left _ (List.mem_append_right _ this)) (List.prefix_refl _)

/-- The selection takes no more than what is at the paths of `A` and the links for `K`. -/
theorem usage_le {e : SelEnv} (hr : (ADB.paths e.rem).Nodup) (hl : (ADB.paths e.loc).Nodup) {D F A K : List Path}
    (hD : D.Nodup) (anti : ∀ d ∈ D, ∀ d' ∈ D, d <+: d' → d = d') (hF : F.Nodup) (sep : ∀ f ∈ F, ∀ d ∈ D, ¬ d <+: f)
    (hA : ∀ p ∈ ADB.paths e.rem, ∀ d ∈ D, d <+: p → p ∈ A) (hFA : ∀ f ∈ F, f ∈ A)
    (hK : ∀ x ∈ e.loc, x.directory = false → (∀ d ∈ D, ¬ d <+: x.path) → x.path ∉ F → x.path ∈ K) :
    usage e D F ≤ (A.map (fileUsage e)).sum + K.length * e.symlinkSize := by
  have h1 : (D.map (treeUsage e)).sum =
      ((D.flatMap (fun d => (e.rem.filter (fun x => d.isPrefixOf x.path)).map Entry.path)).map (fileUsage e)).sum := by
    clear hD anti sep hA hK
    induction D with
    | nil => rfl
    | cons d D ih =>
      rw [List.map_cons, List.sum_cons, ih, List.flatMap_cons, List.map_append, List.sum_append, List.map_map]
      rfl
  have h2 : ((D.flatMap (fun d => (e.rem.filter (fun x => d.isPrefixOf x.path)).map Entry.path)) ++ F).Nodup := by
    rw [List.nodup_append]
    refine ⟨?_, hF, ?_⟩
    · rw [List.nodup_flatMap]
      refine ⟨fun d _ => hr.sublist (List.filter_sublist.map _), ?_⟩
      refine (List.Nodup.pairwise_of_forall_ne hD ?_)
      intro d hd d' hd' hne x hx hx'
      obtain ⟨y, hy, rfl⟩ := List.mem_map.1 hx
      obtain ⟨z, hz, hzy⟩ := List.mem_map.1 hx'
      have p1 := List.isPrefixOf_iff_prefix.1 (List.mem_filter.1 hy).2
      have p2 := List.isPrefixOf_iff_prefix.1 (List.mem_filter.1 hz).2
      rw [hzy] at p2
      rcases List.prefix_or_prefix_of_prefix p1 p2 with h | h
      · exact hne (anti d hd d' hd' h)
      · exact hne (anti d' hd' d hd h).symm
    · intro x hx f hf hxf
      subst hxf
      obtain ⟨d, hd, hx⟩ := List.mem_flatMap.1 hx
      obtain ⟨y, hy, rfl⟩ := List.mem_map.1 hx
      exact sep _ hf d hd (List.isPrefixOf_iff_prefix.1 (List.mem_filter.1 hy).2)
  have h3 := sum_le_of_subset (fileUsage e) h2 (B := A) (by
    intro x hx
    rcases List.mem_append.1 hx with hx | hx
    · obtain ⟨d, hd, hx⟩ := List.mem_flatMap.1 hx
      obtain ⟨y, hy, rfl⟩ := List.mem_map.1 hx
      exact hA _ (List.mem_map_of_mem (List.mem_filter.1 hy).1) d hd (List.isPrefixOf_iff_prefix.1 (List.mem_filter.1 hy).2)
    · exact hFA x hx)
  have h4 : linksLeft e D F ≤ K.length := by
    have : ((e.loc.filter (fun x => !x.directory && !D.any (fun d => d.isPrefixOf x.path)
        && decide (x.path ∉ F))).map Entry.path).length ≤ K.length := by
      refine length_le_of_subset (hl.sublist (List.filter_sublist.map _)) ?_
      intro p hp
      obtain ⟨x, hx, rfl⟩ := List.mem_map.1 hp
      obtain ⟨h5, h6⟩ := List.mem_filter.1 hx
      simp only [Bool.and_eq_true, Bool.not_eq_true', List.any_eq_false, decide_eq_true_eq,
        List.isPrefixOf_iff_prefix] at h6
      exact hK x h5 h6.1.1 h6.1.2 h6.2
    rw [List.length_map] at this
    exact this
  have h5 := Nat.mul_le_mul_right e.symlinkSize h4
  unfold usage
  rw [h1]
  rw [List.map_append, List.sum_append] at h3
  omega

/-- C101: after a sync that has succeeded, a known file that is not in the local directory as a copy does not fit there:
with the known directories of the local directory, the copies that it has and the links it would take more than the
limit. This is for profiles without excluded files. -/
theorem C101_room_partial (r : SyncReady env w) (c : Calm env w) (h : (sync env w).1 = .ok ())
    (hc : ∀ p a b, ChangedLocally env w p → ChangedRemotely env w p → w.os.fs.get (env.loc ++ p) = some a →
      w.os.fs.get (env.rem ++ p) = some b → a.isDir = false → ¬ a.mtime < b.mtime)
    (hx : ∀ p, ¬ OwnExcludes env w.os.fs p) (hs : SumsOfEntries w.db)
    (big : ∀ e ∈ (sync env w).2.db, e.directory = false →
      env.symlinkSize ≤ usedAt (sync env w).2.os.fs (env.rem ++ e.path))
    {a : Entry PData} (ha : a ∈ (sync env w).2.db) (had : a.directory = false)
    (hal : (sync env w).2.os.fs.get (env.loc ++ a.path) ≠ (sync env w).2.os.fs.get (env.rem ++ a.path))
    {A K : List Path} (hA : ∀ e ∈ (sync env w).2.db, (if e.directory then
      (sync env w).2.os.fs.isDir (env.loc ++ e.path) = true else
      (sync env w).2.os.fs.get (env.loc ++ e.path) = (sync env w).2.os.fs.get (env.rem ++ e.path)) → e.path ∈ A)
    (hK : ∀ e ∈ (sync env w).2.db, e.directory = false → ∀ n, (sync env w).2.os.fs.get (env.loc ++ e.path) = some n →
      n.isLink = true → e.path ∈ K) :
    env.storageLimit + env.symlinkSize ≤ (usedIn (sync env w).2.os.fs env.rem A + K.length * env.symlinkSize +
      usedAt (sync env w).2.os.fs (env.rem ++ a.path) : Int) := by
  have hx' : NoneExcluded env w := fun p hp => absurd hp (hx p)
  have h1 : sync env w = (.ok (), (sync env w).2) := by rw [← h]
  obtain ⟨del, new, mod, w1, w2, upd, w3, cp, DL, DR, l, w4, sel, rex, w5, w6, S, T, D⟩ := (wp_ok (wp_sync r) h1).2
  generalize (sync env w).2 = w' at *
  have R := S.ranked r c T D hc hx' hs
  have fs5 : w5.os.fs = w4.os.fs := by obtain ⟨x, y, h⟩ := T.same; rw [h]
  have rdb5 : w5.rdb = w4.rdb := by obtain ⟨x, y, h⟩ := T.same; rw [h]
  obtain ⟨ex, s, size, ⟨r1, dirs⟩, ⟨r2, files⟩, hm, hsc, hsz, hdirs, hfiles, hsel⟩ := T.chosen
  have size0 : size = 0 := by
    obtain ⟨ex', hm', hex'⟩ := S.up.ex
    rw [hm] at hm'; cases hm'
    have : ex = [] := List.eq_nil_iff_forall_not_mem.2 (fun p hp => hx p ((hex' p).1 hp))
    subst this
    cases hsz
    rfl
  subst size0
  have stat : ∀ p, UserPath p → fileUsage (selEnv env w4.db w4.rdb (Scan.user (w4.os.fs.below env.rem))) p =
      usedAt w'.os.fs (env.rem ++ p) := by
    intro p hu
    rw [S.selStat hu]
    unfold usedAt
    rw [R.rem p hu]
  generalize he : selEnv env w4.db w4.rdb (Scan.user (w4.os.fs.below env.rem)) = e at hdirs hfiles stat
  have hel : e.loc = w4.db := by rw [← he]; rfl
  have her : e.rem = w4.rdb := by rw [← he]; rfl
  have hes : e.symlinkSize = env.symlinkSize := by rw [← he]; rfl
  have hnd : (ADB.paths e.loc).Nodup := by rw [hel]; exact S.up.nodup_db
  have hrex : ∀ p, p ∉ rex := fun p => S.rex_nil r c T hc hx' p
  -- what is not selected is a link
  have unsel : ∀ x ∈ w4.db, x.directory = false → (∀ d ∈ dirs, ¬ d <+: x.path) → x.path ∉ files →
      ∃ n, w'.os.fs.get (env.loc ++ x.path) = some n ∧ n.isLink = true := by
    intro x hx1 hxd hnd hnf
    obtain ⟨ux, nx, hnx, dnx⟩ := S.known4 c T hx1
    have hnl : ¬ Listed w4.os.fs env.rem (some (setOf sel)) x.path := by
      rintro ⟨_, _, f, hf, hfx⟩
      have hf' := mem_setOf.1 hf
      rw [hsel] at hf'
      rcases List.mem_append.1 hf' with h2 | h2
      swap
      · exact hrex f h2
      rcases List.mem_append.1 h2 with h2 | h2
      · exact hnd f h2 hfx
      · by_cases hfe : f = x.path
        · exact hnf (hfe ▸ h2)
        · obtain ⟨⟨y, hy1, hy2, hy3⟩, _⟩ := (C15_files (by rw [hel]; exact S.up.nodup_db) hfiles).2 f h2
          rw [hel] at hy1
          obtain ⟨uy, ny, hny, dny⟩ := S.known4 c T hy1
          obtain ⟨a', b', h4⟩ := FS.isDir_iff.1 (S.up.wf.isDir_prefix hnx (env.rem ++ f)
            ((List.prefix_append_right_inj _).2 hfx) (fun e => hfe (List.append_cancel_left e)))
          rw [hy2, h4] at hny
          cases hny
          rw [hy3] at dny
          cases dny
    obtain ⟨y, hy1, hy2⟩ := List.mem_map.1 ((S.same4 c x.path).1 (List.mem_map_of_mem hx1))
    have hfit := S.up.rdb y hy1
    rw [hy2] at hfit
    have hyd : y.directory = false := by rw [← hfit.rem nx hnx, dnx, hxd]
    rw [D.loc_eq r]
    rcases D.done.files y (by rw [rdb5]; exact hy1) hyd (by rw [hy2, fs5]; exact hnl) with ⟨n, h2, h3⟩ | ⟨m, h2⟩
    · rw [hy2] at h2 h3
      refine ⟨n, h3, ?_⟩
      cases n with
      | link => rfl
      | dir k m =>
        rw [fs5] at h2
        have := hfit.loc _ h2
        rw [hyd] at this; cases this
      | file k m b =>
        have := S.file_listed r c T D hc ux.1 (by rw [D.loc_eq r]; exact h3) (hx _)
        exact absurd this.2.2 hnl
    · rw [hy2] at h2
      exact ⟨_, h2, rfl⟩
  have copied : ∀ {y : Entry PData}, y ∈ w4.db → (∃ f ∈ sel, f <+: y.path) →
      y.path ∈ A.filter (fun p => decide (UserPath p)) := by
    rintro y hy ⟨f, hf, hfy⟩
    obtain ⟨uy, ny, hny, dny⟩ := S.known4 c T hy
    obtain ⟨y', hy', py, dy, _⟩ := mem_of_views R.prio.symm R.dirs.symm hy
    refine List.mem_filter.2 ⟨?_, decide_eq_true uy⟩
    rw [← py]
    refine hA y' hy' ?_
    rw [py, dy]
    split
    · rename_i hyd
      obtain ⟨z, hz1, hz2⟩ := List.mem_map.1 ((S.same4 c y.path).1 (List.mem_map_of_mem hy))
      have hfit := S.up.rdb z hz1
      rw [hz2] at hfit
      have hzd : z.directory = true := by rw [← hfit.rem ny hny, dny, hyd]
      have := D.done.dirs z (by rw [rdb5]; exact hz1) hzd (by
        intro n hn
        rw [hz2, fs5] at hn
        rw [hfit.loc n hn, hzd])
      rw [hz2] at this
      obtain ⟨k, m, h2⟩ := FS.isDir_iff.1 this
      exact FS.isDir_iff.2 ⟨k, m, by rw [D.loc_eq r]; exact h2⟩
    · rename_i hyd
      rw [Steps.copied4 T D r uy hny (by rw [dny]; simpa using hyd) hf hfy, R.rem _ uy, hny]
  obtain ⟨hDn, hDk, hDa⟩ := C15_dirs hnd hdirs
  obtain ⟨hFn, hFk⟩ := C15_files hnd hfiles
  have le := usage_le (e := e) (A := A.filter (fun p => decide (UserPath p))) (K := K) (by rw [her]; exact S.up.nodup) hnd hDn hDa hFn
    (fun f hf d hd => (hFk f hf).2 d hd)
    (fun p hp d hd hdp => by
      rw [her] at hp
      obtain ⟨y, hy, rfl⟩ := List.mem_map.1 ((S.same4 c p).2 hp)
      exact copied hy ⟨d, by rw [hsel]; exact List.mem_append_left _ (List.mem_append_left _ hd), hdp⟩)
    (fun f hf => by
      obtain ⟨⟨y, hy, hyf, _⟩, _⟩ := hFk f hf
      rw [hel] at hy
      rw [← hyf]
      exact copied hy ⟨f, by rw [hsel]; exact List.mem_append_left _ (List.mem_append_right _ hf), by rw [hyf]; exact List.prefix_refl _⟩)
    (fun x hx1 hxd h2 h3 => by
      rw [hel] at hx1
      obtain ⟨n, h4, h5⟩ := unsel x hx1 hxd h2 h3
      obtain ⟨x', hx', px, dx, _⟩ := mem_of_views R.prio.symm R.dirs.symm hx1
      rw [← px] at h4 ⊢
      exact hK x' hx' (dx.trans hxd) n h4 h5)
  obtain ⟨a4, ha4, pa, da, _⟩ := mem_of_views R.prio R.dirs ha
  obtain ⟨ua, na, hna, dna⟩ := S.known4 c T ha4
  rw [da, had] at dna
  have nsel : ∀ f ∈ sel, ¬ f <+: a4.path := by
    intro f hf hfa
    rw [← pa, Steps.copied4 T D r ua hna dna hf hfa, R.rem _ ua, hna] at hal
    exact hal rfl
  have room := C52_maximal hnd hfiles (fun x hx => by
      obtain ⟨h2, h3, _⟩ := hx
      rw [hel] at h2
      obtain ⟨x', h4, h5, h6, _⟩ := mem_of_views R.prio.symm R.dirs.symm h2
      rw [hes, stat _ (S.known4 c T h2).1, ← h5]
      exact big x' h4 (h6.trans h3)) (a := a4) ⟨by rw [hel]; exact ha4, by rw [da]; exact had, fun d hd =>
        nsel d (by rw [hsel]; exact List.mem_append_left _ (List.mem_append_left _ hd))⟩
      (fun hf => nsel _ (by rw [hsel]; exact List.mem_append_left _ (List.mem_append_right _ hf)) (List.prefix_refl _))
  rw [(C12_limit hnd hdirs hfiles).1, stat _ ua, pa, hes] at room
  have leA : ((A.filter (fun p => decide (UserPath p))).map (fileUsage e)).sum ≤ usedIn w'.os.fs env.rem A := by
    unfold usedIn
    clear hA le copied
    induction A with
    | nil => exact Nat.le_refl _
    | cons p A ih =>
      rw [List.filter_cons]
      split
      · rename_i hu
        rw [List.map_cons, List.sum_cons, List.map_cons, List.sum_cons, stat p (of_decide_eq_true hu)]
        omega
      · rw [List.map_cons, List.sum_cons]
        omega
  rw [hes] at le
  have le' : (usage e dirs files : Int) ≤ usedIn w'.os.fs env.rem A + K.length * env.symlinkSize := by
    exact_mod_cast le.trans (Nat.add_le_add_right leA _)
  generalize (K.length : Int) * env.symlinkSize = z at *
  omega

end

/-! ### Examples -/

/-- `p` is only a link, but has been opened often; `d/z` is a copy, is large, and has never been opened. -/
def exRank : World := exWorld exEnvS
  [(["l".toList, "d".toList], .dir 1 1), (["r".toList, "d".toList], .dir 1 1),
    (["l".toList, "d".toList, "q".toList], .file 7 3 2), (["r".toList, "d".toList, "q".toList], .file 7 3 2),
    (["l".toList, "d".toList, "z".toList], .file 6 3 4), (["r".toList, "d".toList, "z".toList], .file 6 3 4),
    (["l".toList, "p".toList], .link "/r/p".toList 3), (["r".toList, "p".toList], .file 9 4 1)]
  [exRow ["d".toList] true 1 true, exRow ["d".toList, "q".toList] false 1 true, exRow ["d".toList, "z".toList] false 0 true,
    exRow ["p".toList] false 5 false]
  [exRRow ["d".toList] true, exRRow ["d".toList, "q".toList] false, exRRow ["d".toList, "z".toList] false,
    exRRow ["p".toList] false] 1000

theorem exRank_ready : SyncReady exEnvS exRank :=
  syncReady_of_readyB (by decide +kernel) (fun _ => List.Perm.refl _) (by unfold Apart; decide +kernel)
    (fun _ => by show GoodStamp "19700101-000000".toList; decide +kernel) rfl

theorem exRank_calm : Calm exEnvS exRank :=
  calm_of_calmB (clear := fun p => p.all (fun c => decide (c ≠ "e".toList))) (by simp [exEnvS, exEnvE])
    (fun _ h => exEnvS_not_excluded (by decide +kernel) h) (by decide +kernel)

theorem exRank_excluded (p : Path) : ¬ OwnExcludes exEnvS exRank.os.fs p := by
  intro ho
  obtain ⟨h0, n, h1⟩ := ownExcludes_exists ho
  have h2 := mem_localEntries (env := exEnvS) (by decide) h1
  have h3 : ∀ x ∈ localEntries exEnvS exRank.os.fs, x.1.all (fun c => decide (c ≠ "e".toList)) = true := by decide +kernel
  exact exEnvS_not_excluded (by decide +kernel) (h3 _ h2) ho

theorem exRank_older : ∀ p a b, ChangedLocally exEnvS exRank p → ChangedRemotely exEnvS exRank p →
    exRank.os.fs.get (exEnvS.loc ++ p) = some a → exRank.os.fs.get (exEnvS.rem ++ p) = some b → a.isDir = false →
    ¬ a.mtime < b.mtime := by
  intro p a b _ h
  have h1 : chR exEnvS exRank = [] := by decide +kernel
  have := mem_chR (by decide) h
  rw [h1] at this; cases this

theorem exRank_sums : SumsOfEntries exRank.db := by
  intro d hd
  simp only [exRank, exWorld, exRow, List.mem_cons, List.not_mem_nil, or_false] at hd
  rcases hd with rfl | rfl | rfl | rfl
  · intro _; decide +kernel
  all_goals
    rintro ⟨e, he, h⟩
    revert e
    decide +kernel

theorem exRank_sync : (sync exEnvS exRank).1 = .ok () ∧
    (sync exEnvS exRank).2.db = [exRow ["d".toList] true 1 false, exRow ["d".toList, "q".toList] false 1 true,
      exRow ["d".toList, "z".toList] false 0 false, exRow ["p".toList] false 5 true] ∧
    (sync exEnvS exRank).2.os.fs.get ["l".toList, "d".toList, "q".toList] = some (.file 7 3 2) ∧
    (sync exEnvS exRank).2.os.fs.get ["l".toList, "d".toList, "z".toList] ≠
      (sync exEnvS exRank).2.os.fs.get ["r".toList, "d".toList, "z".toList] ∧
    (sync exEnvS exRank).2.os.fs.get ["r".toList, "d".toList] = some (.dir 1 1) ∧
    (sync exEnvS exRank).2.os.fs.get ["r".toList, "d".toList, "q".toList] = some (.file 7 3 2) ∧
    (sync exEnvS exRank).2.os.fs.get ["r".toList, "d".toList, "z".toList] = some (.file 6 3 4) ∧
    (sync exEnvS exRank).2.os.fs.get ["r".toList, "p".toList] = some (.file 9 4 1) := by decide +kernel

theorem exRank_big : ∀ e ∈ (sync exEnvS exRank).2.db, e.directory = false →
    exEnvS.symlinkSize ≤ usedAt (sync exEnvS exRank).2.os.fs (exEnvS.rem ++ e.path) := by
  obtain ⟨_, h2, _, _, _, h6, h7, h8⟩ := exRank_sync
  rw [h2]
  generalize (sync exEnvS exRank).2.os.fs = fs at *
  intro e he hd
  simp only [List.mem_cons, List.not_mem_nil, or_false] at he
  unfold usedAt
  rcases he with rfl | rfl | rfl | rfl
  · cases hd
  · rw [show exEnvS.rem ++ (exRow ["d".toList, "q".toList] false 1 true).path = ["r".toList, "d".toList, "q".toList] from rfl, h6]
    decide
  · rw [show exEnvS.rem ++ (exRow ["d".toList, "z".toList] false 0 false).path = ["r".toList, "d".toList, "z".toList] from rfl, h7]
    decide
  · rw [show exEnvS.rem ++ (exRow ["p".toList] false 5 true).path = ["r".toList, "p".toList] from rfl, h8]
    decide

/-- `d/q` is a copy, and `d/z` is not, so `p` is one. -/
example : ∃ n, n.isDir = false ∧ (sync exEnvS exRank).2.os.fs.get (exEnvS.rem ++ ["p".toList]) = some n ∧
    (sync exEnvS exRank).2.os.fs.get (exEnvS.loc ++ ["p".toList]) = some n := by
  obtain ⟨h1, h2, h3, h4, _, h6, h7, h8⟩ := exRank_sync
  refine C101_wins_partial (a := exRow ["p".toList] false 5 true) (b := exRow ["d".toList, "q".toList] false 1 true)
    exRank_ready exRank_calm h1 exRank_older (fun p hp => absurd hp (exRank_excluded p)) exRank_sums exRank_big
    (by rw [h2]; simp) rfl (by rw [h2]; simp) rfl ⟨_, _, _, h3⟩ ?_ ?_ ?_
  · intro d h0 hp hne
    refine ⟨exRow ["d".toList, "z".toList] false 0 false, by rw [h2]; simp, rfl, ?_, h4⟩
    obtain ⟨t, ht⟩ := hp
    rcases d with _ | ⟨x, _ | ⟨y, _ | ⟨z, d⟩⟩⟩
    · exact absurd rfl h0
    · simp only [exRow, List.cons_append, List.cons.injEq] at ht
      rw [ht.1]
      exact ⟨["z".toList], rfl⟩
    · simp only [exRow, List.cons_append, List.cons.injEq, List.nil_append] at ht
      exact absurd (by rw [ht.1, ht.2.1]; rfl) hne
    · simp [exRow] at ht
  · show (1 : Rat) < 5
    decide +kernel
  · generalize (sync exEnvS exRank).2.os.fs = fs at *
    unfold usedAt
    rw [show exEnvS.rem ++ (exRow ["p".toList] false 5 true).path = ["r".toList, "p".toList] from rfl, h8,
      show exEnvS.rem ++ (exRow ["d".toList, "q".toList] false 1 true).path = ["r".toList, "d".toList, "q".toList] from rfl, h6]
    decide

/-- There is no room for `d/z`. -/
example : exEnvS.storageLimit + exEnvS.symlinkSize ≤ (usedIn (sync exEnvS exRank).2.os.fs exEnvS.rem
    [["d".toList], ["d".toList, "q".toList], ["p".toList]] + [["d".toList, "z".toList]].length * exEnvS.symlinkSize +
    usedAt (sync exEnvS exRank).2.os.fs (exEnvS.rem ++ ["d".toList, "z".toList]) : Int) := by
  obtain ⟨h1, h2, h3, h4, _, h6, h7, h8⟩ := exRank_sync
  refine C101_room_partial (a := exRow ["d".toList, "z".toList] false 0 false)
    exRank_ready exRank_calm h1 exRank_older exRank_excluded exRank_sums exRank_big (by rw [h2]; simp) rfl h4 ?_ ?_
  · rw [h2]
    intro e he hc
    simp only [List.mem_cons, List.not_mem_nil, or_false] at he
    rcases he with rfl | rfl | rfl | rfl
    · simp [exRow]
    · simp [exRow]
    · exact absurd hc h4
    · simp [exRow]
  · have h9 : (sync exEnvS exRank).2.os.fs.get ["l".toList, "p".toList] = some (.file 9 4 1) := by decide +kernel
    rw [h2]
    generalize (sync exEnvS exRank).2.os.fs = fs at *
    intro e he hd n hn hl
    simp only [List.mem_cons, List.not_mem_nil, or_false] at he
    rcases he with rfl | rfl | rfl | rfl
    · cases hd
    · have : n = .file 7 3 2 := Option.some.inj (hn.symm.trans h3)
      subst this; cases hl
    · simp [exRow]
    · have : n = .file 9 4 1 := Option.some.inj (hn.symm.trans h9)
      subst this; cases hl

/-! ### What does not hold -/

/-- There are 2200 bytes of space, and a link takes 100. -/
def exEnvR : Env := { exEnvE with storageLimit := 2200, symlinkSize := 100 }

/-- `a` has been used most, `s` is empty. -/
def exRankEmpty : World := exWorld exEnvR
  [(["l".toList, "a".toList], .file 7 3 4), (["r".toList, "a".toList], .file 7 3 4),
    (["l".toList, "b".toList], .file 9 3 4), (["r".toList, "b".toList], .file 9 3 4),
    (["l".toList, "s".toList], .file 6 3 0), (["r".toList, "s".toList], .file 6 3 0)]
  [exRow ["a".toList] false 3 true, exRow ["b".toList] false 1 true, exRow ["s".toList] false 2 true]
  [exRRow ["a".toList] false, exRRow ["b".toList] false, exRRow ["s".toList] false] 1000

/-- C101 fails if a file is smaller than a link: `a` and `b` are of the same size, `a` has the higher priority, and it is
`a` that is replaced with a link, while `b` stays. -/
theorem C101_small_fails : SyncReady exEnvR exRankEmpty ∧ (sync exEnvR exRankEmpty).1 = .ok () ∧
    (sync exEnvR exRankEmpty).2.db.map (fun e => (e.path, e.data.priority)) =
      [(["a".toList], 3), (["b".toList], 1), (["s".toList], 2)] ∧
    (sync exEnvR exRankEmpty).2.os.fs.get (exEnvR.loc ++ ["b".toList]) = some (.file 9 3 4) ∧
    ((sync exEnvR exRankEmpty).2.os.fs.get (exEnvR.loc ++ ["a".toList])).any Node.isLink = true :=
  ⟨syncReady_of_readyB (by decide +kernel) (fun _ => List.Perm.refl _) (by unfold Apart; decide +kernel)
    (fun _ => by show GoodStamp "19700101-000000".toList; decide +kernel) rfl, by decide +kernel, by decide +kernel,
    by decide +kernel, by decide +kernel⟩

end Verif
