import Verif.SyncFrame
import Verif.Spec.Sync
import Verif.Props.C16_C17_Changes
import Verif.Props.C18_Deletions
import Verif.Props.C22_CleanupTrash
import Verif.Props.C45_Reset
/-
A whole sync, step by step.
-/
namespace Verif
open Prog OSM Call FSTools WM

/-- What is assumed about the state in which a sync starts. -/
structure SyncReady (env : Env) (w : World) : Prop where
  order : ∀ l, (env.order l).Perm l
  apart : Apart env.loc env.rem
  wf : w.os.fs.WF
  goodId : GoodName env.id
  goodRem : GoodPath env.rem
  loc_dir : w.os.fs.isDir env.loc = true
  slot : ∀ n, w.os.fs.get (env.exclDir ++ [env.id]) = some n → ∃ c m b, n = .file c m b
  excl : ∃ c m b, w.os.fs.get env.excl = some (.file c m b)
  excl_slot : env.excl ≠ env.exclDir ++ [env.id]
  no_util : w.os.fs.get (env.loc ++ [Env.utilName]) = none
  tidy : Tidy env w.os.fs
  db : Fit env w.os.fs w.db
  rdb : Fit env w.os.fs w.rdb
  nodup_db : (ADB.paths w.db).Nodup
  nodup : (ADB.paths w.rdb).Nodup
  stamp : ∀ k, w.os.tick ≤ k → GoodStamp (env.stamp (w.os.clk k))
  free : ∀ k p, w.os.tick ≤ k → UserPath p → GoodPath p →
    w.os.fs.get (env.loc ++ conflictPath (env.stamp (w.os.clk k)) p) = none ∧
    w.os.fs.get (env.rem ++ conflictPath (env.stamp (w.os.clk k)) p) = none
  free_db : ∀ k p, w.os.tick ≤ k → UserPath p → GoodPath p →
    ∀ q, q ∈ ADB.paths w.db ∨ q ∈ ADB.paths w.rdb → ¬ conflictPath (env.stamp (w.os.clk k)) p <+: q
  lmemo : w.lmemo = []
  rmemo : w.rmemo = []
  matches_ : w.matches_ = none

/-! ### Frames -/

theorem Shrink.frame {P : Path → Prop} {a b : FS} (h : Shrink P a b) : Frame P a b := Frame.of_eq h.keeps

theorem OnlyAt.frame {p : Path} {a b : FS} (h : OnlyAt p a b) : Frame (· = p) a b := Frame.of_eq h

theorem Grow.frame {P : Path → Prop} {a b : FS} (h : Grow P a b) : Frame P a b := by
  refine Frame.of_eq (fun q hq => ?_)
  rcases Option.eq_none_or_eq_some (a.get q) with h1 | ⟨n, h1⟩
  · rcases h.new q h1 with h2 | ⟨h2, _⟩
    · rw [h1, h2]
    · exact absurd h2 hq
  · rw [h1, h.keeps q n h1]

/-- What changes in the trash is at or below the names of the moved files. -/
theorem TrashInv.frame {env : Env} {ps : List Path} {tn : Path → Str} {fs : FS} {done : List Path} {fs' : FS}
    (h : TrashInv env ps tn fs done fs') :
    Frame (fun q => InBatch env ps q ∨ ∃ p, env.trash ++ [tn p] <+: q) fs fs' := by
  refine ⟨?_, ?_⟩
  · intro q hq
    rcases Option.eq_none_or_eq_some (fs.get q) with h1 | ⟨n, h1⟩
    · rcases Option.eq_none_or_eq_some (fs'.get q) with h2 | ⟨n', h2⟩
      · rw [h1, h2]
      · rcases h.new q n' h2 with ⟨n, h3⟩ | ⟨p, _, h3⟩
        · rw [h1] at h3; cases h3
        · exact absurd (Or.inr ⟨p, h3⟩) hq
    · obtain ⟨n', h2, h3, _⟩ := h.kept q n h1 (fun x => hq (Or.inl x))
      rw [h1, h2]; simp [h3]
  · intro q n hq hn hd
    obtain ⟨n', h2, _, h3⟩ := h.kept q n hn (fun x => hq (Or.inl x))
    rw [h2, h3 hd]

theorem ConflictEff.frame {env : Env} {cp : Path → Path} {DL DR : Path → Prop} {fs fs' : FS}
    (h : ConflictEff env cp DL DR fs fs') :
    Frame (fun q => (∃ p, DL p ∧ (q = env.loc ++ p ∨ q = env.loc ++ cp p)) ∨
      (∃ p, DR p ∧ (q = env.rem ++ p ∨ q = env.rem ++ cp p))) fs fs' := by
  refine Frame.of_eq (fun q hq => h.other q ?_ ?_)
  · intro p hp; exact ⟨fun e => hq (Or.inl ⟨p, hp, Or.inl e⟩), fun e => hq (Or.inl ⟨p, hp, Or.inr e⟩)⟩
  · intro p hp; exact ⟨fun e => hq (Or.inr ⟨p, hp, Or.inl e⟩), fun e => hq (Or.inr ⟨p, hp, Or.inr e⟩)⟩

theorem Moving.frame {source dest : Path} {f0 : FS} {L : List Path} {fs : FS}
    (h : Moving source dest false f0 L fs) :
    Frame (fun q => (∃ p ∈ L, q = dest ++ p) ∨ (f0.get q = none ∧ ∃ p ∈ L, q <+: dest ++ p)) f0 fs := by
  refine Frame.of_eq (fun q hq => ?_)
  by_cases hs : source <+: q
  · obtain ⟨t, rfl⟩ := hs
    rcases h.src t with h1 | ⟨h1, _⟩
    · exact h1
    · cases h1
  · have hL : ∀ p ∈ L, q ≠ dest ++ p := fun p hp e => hq (Or.inl ⟨p, hp, e⟩)
    rcases Option.eq_none_or_eq_some (f0.get q) with h1 | ⟨n, h1⟩
    · rcases h.new q hs hL h1 with h2 | ⟨_, h2⟩
      · rw [h1, h2]
      · exact absurd (Or.inr ⟨h1, h2⟩) hq
    · rw [h1, h.keeps q hs hL n h1]

theorem UpdKept.frame {env : Env} {w : World} {ps : List Path} {fs' : FS} (h : UpdKept env w ps fs') :
    Frame (fun q => ∃ p, p ≠ [] ∧ q = env.loc ++ p ∧ (w.os.fs.get q = none ∨ StalePath env w ps p ∨
      (Listed w.os.fs env.rem (some ps) p ∧ w.os.fs.isDir q = false))) w.os.fs fs' := by
  refine Frame.of_eq (fun q hq => ?_)
  by_cases hl : env.loc <+: q ∧ q ≠ env.loc
  · obtain ⟨⟨p, rfl⟩, hne⟩ := hl
    have hp : p ≠ [] := by rintro rfl; simp at hne
    rcases Option.eq_none_or_eq_some (w.os.fs.get (env.loc ++ p)) with h1 | ⟨n, h1⟩
    · exact absurd ⟨p, hp, rfl, Or.inl h1⟩ hq
    · rcases h.loc p n h1 with h2 | ⟨h2, _⟩ | ⟨h2, h3⟩
      · rw [h1, h2]
      · exact absurd ⟨p, hp, rfl, Or.inr (Or.inl h2)⟩ hq
      · exact absurd ⟨p, hp, rfl, Or.inr (Or.inr ⟨h2, by rw [isDir_iff_false h1]; exact h3⟩)⟩ hq
  · exact h.out q hl

/-! ### The first step -/

section
variable {env : Env} {w : World}

theorem SyncReady.slot_good (h : SyncReady env w) : GoodPath (env.exclDir ++ [env.id]) := by
  unfold Env.exclDir Env.util
  rw [goodPath_append, goodPath_append, goodPath_append]
  refine ⟨⟨⟨h.goodRem, by decide⟩, by decide⟩, ?_⟩
  intro x hx
  simp at hx; subst hx
  exact h.goodId

theorem plain_ne_slot {p : Path} (hp : PlainPath p) : env.rem ++ p ≠ env.exclDir ++ [env.id] := by
  unfold Env.exclDir Env.util
  intro e
  rw [List.append_assoc, List.append_assoc, List.append_cancel_left_eq] at e
  rw [e] at hp
  exact hp rfl

theorem loc_ne_slot' (h : Apart env.loc env.rem) (p : Path) : env.loc ++ p ≠ env.exclDir ++ [env.id] := by
  unfold Env.exclDir Env.util
  rw [List.append_assoc, List.append_assoc]
  exact h.ne p _

end

/-- The state in which the directories are scanned. -/
structure SyncStart (env : Env) (w : World) (fs : FS) : Prop where
  only : OnlyAt (env.exclDir ++ [env.id]) w.os.fs fs
  wf : fs.WF
  util_dir : fs.isDir env.util = true
  slot : ∃ k m b, fs.get (env.exclDir ++ [env.id]) = some (.file k m b)

section
variable {env : Env} {w : World} {fs : FS}

theorem SyncStart.loc (h : SyncStart env w fs) (r : SyncReady env w) (p : Path) :
    fs.get (env.loc ++ p) = w.os.fs.get (env.loc ++ p) := h.only _ (loc_ne_slot' r.apart p)

theorem SyncStart.rem (h : SyncStart env w fs) {p : Path} (hp : PlainPath p) :
    fs.get (env.rem ++ p) = w.os.fs.get (env.rem ++ p) := h.only _ (plain_ne_slot hp)

theorem SyncStart.less (h : SyncStart env w fs) (r : SyncReady env w) : Less env w.os.fs fs :=
  ⟨LessAt.of_eq (h.loc r), fun p hp n hn => ⟨n, by rw [← h.rem hp]; exact hn, rfl, fun _ => rfl⟩⟩

theorem SyncStart.rem_dir (h : SyncStart env w fs) : fs.isDir env.rem = true := by
  obtain ⟨m, b, h1⟩ := FS.isDir_iff.1 h.util_dir
  refine h.wf.isDir_prefix h1 _ (List.prefix_append _ _) ?_
  unfold Env.util
  simp

theorem stat_file {fs : FS} (wf : fs.WF) {p : Path} {c : Nat} {m : Int} {b : Nat}
    (h : fs.get p = some (.file c m b)) : fs.stat p = .ok (p, .file c m b) :=
  FS.stat_nonlink (Spot.of_get wf h rfl).pathErr h rfl

theorem SyncStart.own (h : SyncStart env w fs) (r : SyncReady env w) (p : Path) :
    OwnExcludes env fs p ↔ OwnExcludes env w.os.fs p := by
  obtain ⟨c, m, b, h1⟩ := r.excl
  have h2 : fs.get env.excl = some (.file c m b) := by rw [h.only _ r.excl_slot]; exact h1
  unfold OwnExcludes ExcludedIn
  rw [stat_file r.wf h1, stat_file h.wf h2, h.loc r]

/-- The local directory has no path in a util directory. -/
theorem SyncReady.local_user (r : SyncReady env w) {p : Path} (hp : p ≠ []) {n : Node}
    (h : w.os.fs.get (env.loc ++ p) = some n) : UserPath p := by
  refine ⟨hp, ?_⟩
  intro hh
  cases p with
  | nil => exact hp rfl
  | cons c p =>
    cases hh
    have hpre : env.loc ++ [Env.utilName] <+: env.loc ++ Env.utilName :: p := by
      rw [List.prefix_append_right_inj]; exact ⟨p, rfl⟩
    have hnd : w.os.fs.isDir (env.loc ++ [Env.utilName]) = false := by unfold FS.isDir; rw [r.no_util]; rfl
    by_cases he : env.loc ++ [Env.utilName] = env.loc ++ Env.utilName :: p
    · rw [← he, r.no_util] at h; cases h
    · rw [r.wf.none_below hnd hpre he] at h; cases h

/-! ### Scanning -/

/-- What holds after the scans and the first change of the databases. -/
structure Scanned (env : Env) (w : World) (del : DeletedPaths) (new mod : UpdatedPaths) (w1 : World) : Prop where
  start : SyncStart env w w1.os.fs
  lmemo : w1.lmemo = w1.os.fs.below env.loc
  rmemo : w1.rmemo = w1.os.fs.below env.rem
  ex : ∃ l, w1.matches_ = some l ∧ ∀ p, p ∈ l ↔ OwnExcludes env w.os.fs p
  delLoc : ∀ d ∈ del.loc, UserPath d ∧ GoodPath d ∧ GoneRemotely env w d
  delRem : ∀ d, d ∈ del.rem ∨ d ∈ del.trash → UserPath d ∧ GoodPath d ∧ GoneLocally env w d
  loc : ∀ f, f ∈ mod.loc ∨ f ∈ new.loc → ChangedLocally env w f
  modLoc : ∀ f ∈ mod.loc, ∃ n, w.os.fs.get (env.loc ++ f) = some n ∧ n.isDir = false ∧ f ∈ ADB.paths w.db
  newLoc : ∀ f ∈ new.loc, f ∈ ADB.paths w1.db ∧ f ∈ ADB.paths w1.rdb
  newRem : ∀ f ∈ new.rem, UserPath f ∧ (∃ n, w.os.fs.get (env.rem ++ f) = some n) ∧
    f ∈ ADB.paths w1.db ∧ f ∈ ADB.paths w1.rdb
  modRem : ∀ f ∈ mod.rem, UserPath f ∧ ((∃ n, w.os.fs.get (env.rem ++ f) = some n ∧ n.isDir = false) ∨
    ∃ e ∈ w.rdb, e.path = f ∧ e.directory = false)
  db : Fit env w.os.fs w1.db
  rdb : Fit env w.os.fs w1.rdb
  mono : ∀ p ∈ ADB.paths w.db, p ∈ ADB.paths w1.db
  nodup_db : (ADB.paths w1.db).Nodup
  nodup : (ADB.paths w1.rdb).Nodup
  rows : ∀ q, q ∈ ADB.paths w1.db ∨ q ∈ ADB.paths w1.rdb → q ∈ ADB.paths w.db ∨ q ∈ ADB.paths w.rdb ∨
    (∃ n, w.os.fs.get (env.loc ++ q) = some n) ∨ ∃ n, w.os.fs.get (env.rem ++ q) = some n
  newLocIff : ∀ f, f ∈ new.loc ↔ f ≠ [] ∧ ∃ n, w.os.fs.get (env.loc ++ f) = some n ∧ f ∉ ADB.paths w.db ∧
    ¬ UnsafeLink env.loc f n ∧ ¬ OwnExcludes env w.os.fs f
  newRemIff : ∀ f, f ∈ new.rem ↔ UserPath f ∧ (∃ n, w.os.fs.get (env.rem ++ f) = some n) ∧ f ∉ ADB.paths w.db
  modLocIff : ∀ f, f ∈ mod.loc ↔ f ≠ [] ∧ ∃ n, w.os.fs.get (env.loc ++ f) = some n ∧ n.isDir = false ∧
    w.last < n.mtime ∧ f ∈ ADB.paths w.db ∧ ¬ UnsafeLink env.loc f n
  modRemIff : ∀ f, f ∈ mod.rem ↔ (UserPath f ∧ ∃ n, w.os.fs.get (env.rem ++ f) = some n ∧ n.isDir = false ∧
    w.last < n.mtime ∧ f ∈ ADB.paths w.db) ∨ ∃ e ∈ w.rdb, e.path = f ∧ e.directory = false ∧ w.last < e.data
  dbIff : ∀ q, q ∈ ADB.paths w1.db ↔ q ∈ ADB.paths w.db ∨ q ∈ new.loc ∨ q ∈ new.rem
  rdbIff : ∀ q, q ∈ ADB.paths w1.rdb ↔ q ∈ ADB.paths w.rdb ∨ q ∈ new.loc ∨ q ∈ new.rem
  delLocAll : ∀ d, GoneRemotely env w d → ∃ d' ∈ del.loc, d' <+: d
  delRemAll : ∀ d, GoneLocally env w d → ∃ d', (d' ∈ del.rem ∨ d' ∈ del.trash) ∧ d' <+: d
  trashTop : ∀ d ∈ del.trash, ∀ d' ∈ del.trash, d' <+: d → d' = d
  trashIff : ∀ d, d ∈ del.trash ↔ env.useTrash = true ∧ (d ∈ del.rem ∨ d ∈ del.trash) ∧
    ∃ e ∈ w.db, e.path = d ∧ e.data.loc = false
  remNot : ∀ d ∈ del.rem, d ∉ del.trash
  delRemTop : ∀ d, d ∈ del.rem ∨ d ∈ del.trash → ∀ q, GoneLocally env w q → q <+: d → q = d
  tr : ∃ db0 b0 b1 x now, (db0 = w.db ∨ db0 = ALocal.addPaths w.db b0 x true) ∧
    w1.db = ALocal.addPaths db0 b1 0 true ∧ w1.rdb = w.rdb.addPaths b1 now ∧
    (∀ p, p ∈ b0.map Prod.fst ↔ p ∈ new.loc) ∧ ∀ p, p ∈ b1.map Prod.fst ↔ p ∈ new.loc ∨ p ∈ new.rem
  top : ∃ db0 b0 b1, w1.db = ALocal.addPaths db0 b1 0 true ∧ (∀ p, p ∈ b0.map Prod.fst ↔ p ∈ new.loc) ∧
    (∀ p, p ∈ b1.map Prod.fst ↔ p ∈ new.loc ∨ p ∈ new.rem) ∧ ((env.inflate = false ∧ db0 = w.db) ∨
      (env.inflate = true ∧ ∃ x, db0 = ALocal.addPaths w.db b0 x true ∧ (ALocal.maxPriority w.db = some x ∨ b0 = [])))

/-- Above a path with a property there is a topmost path with it. -/
theorem exists_topmost {P : Path → Prop} {d : Path} (h : P d) :
    ∃ d', d' <+: d ∧ P d' ∧ ∀ q, q <+: d' → q ≠ d' → ¬ P q := by
  induction hn : d.length using Nat.strongRecOn generalizing d with
  | ind n ih =>
    by_cases ht : ∀ q, q <+: d → q ≠ d → ¬ P q
    · exact ⟨d, List.prefix_refl _, h, ht⟩
    · obtain ⟨q, h1, h2, h3⟩ : ∃ q, q <+: d ∧ q ≠ d ∧ P q := by
        apply Classical.byContradiction
        intro hc
        exact ht (fun q h1 h2 h3 => hc ⟨q, h1, h2, h3⟩)
      have hlt : q.length < n := by
        rw [← hn]
        exact Nat.lt_of_le_of_ne h1.length_le (fun e => h2 (h1.eq_of_length e))
      obtain ⟨d', k1, k2⟩ := ih q.length hlt h3 rfl
      exact ⟨d', k1.trans h1, k2⟩

theorem Tidy.above {env : Env} {fs : FS} (t : Tidy env fs) (wf : fs.WF) {p : Path} (hp : PlainPath p)
    (h : (∃ n, fs.get (env.loc ++ p) = some n) ∨ ∃ n, fs.get (env.rem ++ p) = some n) :
    NoFileAbove fs env.loc p ∧ NoFileAbove fs env.rem p := by
  have ne : ∀ {root q : Path}, q ≠ p → root ++ q ≠ root ++ p := fun h e => h (by simpa using e)
  rcases h with ⟨n, h⟩ | ⟨n, h⟩
  · refine ⟨?_, ?_⟩
    · intro q k hq hne hk
      have := wf.isDir_prefix h (env.loc ++ q) ((List.prefix_append_right_inj _).2 hq) (ne hne)
      rw [isDir_iff_false hk] at this; exact this
    · intro q k hq hne hk
      have := wf.isDir_prefix h (env.loc ++ q) ((List.prefix_append_right_inj _).2 hq) (ne hne)
      obtain ⟨m, b, hd⟩ := FS.isDir_iff.1 this
      exact (t.kind q (hp.prefix hq) _ _ hd hk).symm
  · refine ⟨?_, ?_⟩
    · intro q k hq hne hk
      have := wf.isDir_prefix h (env.rem ++ q) ((List.prefix_append_right_inj _).2 hq) (ne hne)
      obtain ⟨m, b, hd⟩ := FS.isDir_iff.1 this
      exact t.kind q (hp.prefix hq) _ _ hk hd
    · intro q k hq hne hk
      have := wf.isDir_prefix h (env.rem ++ q) ((List.prefix_append_right_inj _).2 hq) (ne hne)
      rw [isDir_iff_false hk] at this; exact this

/-- Something that is in one of the directories fits. -/
theorem Tidy.fits {env : Env} {fs : FS} (t : Tidy env fs) (wf : fs.WF) {p : Path} (hu : UserPath p) {d : Bool}
    (h : ∃ n, (fs.get (env.loc ++ p) = some n ∨ fs.get (env.rem ++ p) = some n) ∧ n.isDir = d) :
    Fits env fs p d := by
  obtain ⟨n, h1, h2⟩ := h
  have hab := t.above wf hu.plain (h1.imp (fun x => ⟨n, x⟩) (fun x => ⟨n, x⟩))
  have hg : GoodPath p := by
    rcases h1 with h1 | h1
    · exact (goodPath_append.1 (wf.goodPath h1)).2
    · exact (goodPath_append.1 (wf.goodPath h1)).2
  refine ⟨hu, hg, ?_, ?_, hab.1, hab.2⟩
  · intro k hk
    rcases h1 with h1 | h1
    · rw [h1] at hk; cases hk; exact h2
    · rw [← h2]; exact t.kind p hu.plain _ _ hk h1
  · intro k hk
    rcases h1 with h1 | h1
    · rw [← h2]; exact (t.kind p hu.plain _ _ h1 hk).symm
    · rw [h1] at hk; cases hk; exact h2

theorem goodScan_below {fs : FS} (wf : fs.WF) (root : Path) : GoodScan (fs.below root) := by
  refine ⟨?_, nodup_keys_below wf root⟩
  rintro ⟨p, n⟩ he
  obtain ⟨h1, h2⟩ := wf.mem_below_iff.1 he
  exact ⟨(goodPath_append.1 (wf.goodPath h1)).2, h2⟩

theorem wp_inflateTop {env : Env} {files dirs : List Path} {w : World} {Q : Unit → World → Prop}
    {E : Err → World → Prop}
    (h : ∀ db, ((env.inflate = false ∧ db = w.db) ∨ (env.inflate = true ∧ ∃ x,
      db = ALocal.addPaths w.db (batchOf files dirs) x true ∧
      (ALocal.maxPriority w.db = some x ∨ batchOf files dirs = []))) → Q () { w with db := db })
    (hE : ∀ e, E e w) : wp (inflateNew env files dirs) Q E w := by
  unfold inflateNew
  split
  · rename_i hi
    unfold addInflated
    rw [wp_bind, wp_gets, wp_bind, wp_get?]
    refine ⟨?_, fun _ => hE _⟩
    intro db hdb
    rw [wp_modify]
    apply h
    refine Or.inr ⟨hi, ?_⟩
    unfold ALocal.addInflated at hdb
    split at hdb
    · rename_i m hm
      cases hdb
      exact ⟨m, rfl, Or.inl hm⟩
    · split at hdb
      · rename_i he
        cases hdb
        exact ⟨0, rfl, Or.inr (List.isEmpty_iff.1 he)⟩
      · cases hdb
  · rename_i hi
    rw [wp_pure]
    exact h w.db (Or.inl ⟨by simpa using hi, rfl⟩)

theorem wp_inflateNew {env : Env} {files dirs : List Path} {w : World} {Q : Unit → World → Prop}
    {E : Err → World → Prop}
    (h : ∀ db, (db = w.db ∨ ∃ x, db = ALocal.addPaths w.db (batchOf files dirs) x true) → Q () { w with db := db })
    (hE : ∀ e, E e w) : wp (inflateNew env files dirs) Q E w :=
  wp_inflateTop (fun db hdb => h db (hdb.imp And.right (fun ⟨_, x, h, _⟩ => ⟨x, h⟩))) hE

theorem nodup_addPaths {a : ALocal} {batch : List (Path × Bool)} {x : Rat} {l : Bool} (h : (ADB.paths a).Nodup) :
    (ADB.paths (ALocal.addPaths a batch x l)).Nodup := by
  unfold ALocal.addPaths
  rw [paths_refresh]
  exact ADB.nodup_addCore h

theorem wp_addLocal {files dirs : List Path} {l : Bool} {w : World} {Q : Unit → World → Prop} {E : Err → World → Prop} :
    wp (addLocal files dirs l) Q E w ↔ Q () { w with db := w.db.addPaths (batchOf files dirs) 0 l } := Iff.rfl

theorem wp_addRemote {files dirs : List Path} {w : World} {Q : Unit → World → Prop} {E : Err → World → Prop}
    (h : ∀ now, Q () { w with rdb := w.rdb.addPaths (batchOf files dirs) now }) :
    wp (addRemote files dirs) Q E w := by
  unfold addRemote
  rw [wp_bind, wp_sys, wp_time, wp_modify]
  exact h _

theorem slot_util_dir {env : Env} {fs : FS} (wf : fs.WF) {n : Node} (h : fs.get (env.exclDir ++ [env.id]) = some n) :
    fs.isDir env.util = true := by
  refine wf.isDir_prefix h _ ?_ ?_
  · unfold Env.exclDir; rw [List.append_assoc]; exact List.prefix_append _ _
  · unfold Env.exclDir; simp

theorem wp_syncScan (r : SyncReady env w) :
    wp (syncScan env) (fun a w1 => Scanned env w a.1 a.2.1 a.2.2 w1)
      (fun _ w1 => OnlyAt (env.exclDir ++ [env.id]) w.os.fs w1.os.fs) w := by
  have frefl : OnlyAt (env.exclDir ++ [env.id]) w.os.fs w.os.fs := fun _ _ => rfl
  obtain ⟨lm, lb, hlg⟩ := FS.isDir_iff.1 r.loc_dir
  have hgl : GoodPath env.loc := r.wf.goodPath hlg
  unfold syncScan
  rw [wp_bind, wp_sys]
  refine wp_mono (wp_makedirs_dir r.wf hlg) ?_ (fun _ s' h => by dsimp only; rw [h.1]; exact frefl)
  intro _ s0 h0
  rw [wp_bind, wp_sys]
  have hO : ∀ {s1 : OS}, OnlyAt (env.exclDir ++ [env.id]) s0.fs s1.fs →
      OnlyAt (env.exclDir ++ [env.id]) w.os.fs s1.fs := by
    intro s1 h
    rw [h0] at h
    exact h
  refine wp_mono (wp_addExcludeFile (by rw [h0]; exact r.wf) r.slot_good (by rw [h0]; exact r.slot)) ?_
    (fun _ s' h => hO h.1)
  rintro _ s1 ⟨h1, wf1, _, _, _, _, _, _, hs1⟩
  have fr := hO h1
  have st : SyncStart env w s1.fs := ⟨by rw [← h0]; exact h1, wf1, slot_util_dir wf1 hs1, _, _, _, hs1⟩
  clear h1 hs1 hO h0
  dsimp only
  rw [wp_bind]
  refine wp_scanLocal (fun h => absurd r.lmemo h) ?_ (fun _ => fr)
  intro _
  rw [wp_bind]
  refine wp_scanRemote (fun h => absurd r.rmemo h) ?_ (fun _ => fr)
  intro _
  rw [wp_bind]
  refine wp_exclMatches (fun l h => by rw [r.matches_] at h; cases h) ?_ (fun _ => fr)
  intro _ q k m b hst
  dsimp only at hst ⊢
  generalize hex : allMatches (env.patsOf k) ((s1.fs.below env.loc).map Prod.fst) = ex
  have hexm : ∀ p, p ∈ ex ↔ OwnExcludes env w.os.fs p := by
    intro p
    rw [← hex, mem_allMatches_fs wf1, ← st.own r]
    unfold OwnExcludes
    rw [hst]
    constructor
    · intro h; exact ⟨q, k, m, b, rfl, h⟩
    · rintro ⟨q', k', m', b', h1, h2⟩; cases h1; exact h2
  rw [wp_bind, wp_gets, wp_bind, wp_gets, wp_bind, wp_gets]
  dsimp only
  rw [wp_bind, wp_get?]
  refine ⟨?_, fun _ => fr⟩
  intro del hdel
  rw [wp_bind]
  have hl : ∀ p n, (p, n) ∈ s1.fs.below env.loc ↔ w.os.fs.get (env.loc ++ p) = some n ∧ p ≠ [] := by
    intro p n; rw [wf1.mem_below_iff, st.loc r]
  have hr : ∀ p n, (p, n) ∈ Scan.user (s1.fs.below env.rem) ↔ w.os.fs.get (env.rem ++ p) = some n ∧ UserPath p := by
    intro p n
    rw [mem_user_below wf1]
    constructor
    · rintro ⟨h1, h2⟩; rw [st.rem h2.plain] at h1; exact ⟨h1, h2⟩
    · rintro ⟨h1, h2⟩; rw [← st.rem h2.plain] at h1; exact ⟨h1, h2⟩
  have gs := goodScan_below wf1 env.loc
  have hNL := C16_local hgl gs (Scan.user (s1.fs.below env.rem)) w.db ex
  have hNR := C16_remote env.loc (s1.fs.below env.loc) (Scan.user (s1.fs.below env.rem)) w.db ex
  have hML := C17_local hgl gs (Scan.user (s1.fs.below env.rem)) w.db w.rdb w.last
  have hMR := C17_remote env.loc (s1.fs.below env.loc) (Scan.user (s1.fs.below env.rem)) w.db w.rdb w.last
  generalize computeAdded env.loc (s1.fs.below env.loc) (Scan.user (s1.fs.below env.rem)) w.db ex = new at *
  generalize computeModified env.loc (s1.fs.below env.loc) (Scan.user (s1.fs.below env.rem)) w.db w.rdb w.last = mod at *
  have keysL : ∀ p, p ∈ Scan.keys (s1.fs.below env.loc) ↔ p ≠ [] ∧ ∃ n, w.os.fs.get (env.loc ++ p) = some n := by
    intro p; unfold Scan.keys; rw [mem_keys_below wf1, st.loc r]
  have keysR : ∀ p, p ∈ Scan.keys (Scan.user (s1.fs.below env.rem)) ↔
      UserPath p ∧ ∃ n, w.os.fs.get (env.rem ++ p) = some n := by
    intro p
    unfold Scan.keys
    rw [List.mem_map]
    constructor
    · rintro ⟨⟨q, n⟩, h, rfl⟩
      obtain ⟨h1, h2⟩ := (hr q n).1 h
      exact ⟨h2, n, h1⟩
    · rintro ⟨h2, n, h1⟩; exact ⟨(p, n), (hr p n).2 ⟨h1, h2⟩, rfl⟩
  have hF : ∀ p, p ∈ (Scan.nonDirs (s1.fs.below env.loc)).keys ++ (Scan.user (s1.fs.below env.rem)).nonDirs.keys ↔
      ∃ n, n.isDir = false ∧ ((w.os.fs.get (env.loc ++ p) = some n ∧ p ≠ []) ∨
        (w.os.fs.get (env.rem ++ p) = some n ∧ UserPath p)) := by
    intro p
    rw [List.mem_append, mem_nonDirs_keys, mem_nonDirs_keys]
    simp only [hl, hr]
    constructor
    · rintro (⟨n, h1, h2⟩ | ⟨n, h1, h2⟩)
      · exact ⟨n, h2, Or.inl h1⟩
      · exact ⟨n, h2, Or.inr h1⟩
    · rintro ⟨n, h2, h1 | h1⟩
      · exact Or.inl ⟨n, h1, h2⟩
      · exact Or.inr ⟨n, h1, h2⟩
  have hD : ∀ p, p ∈ (Scan.dirs (s1.fs.below env.loc)).keys ++ (Scan.user (s1.fs.below env.rem)).dirs.keys ↔
      ∃ n, n.isDir = true ∧ ((w.os.fs.get (env.loc ++ p) = some n ∧ p ≠ []) ∨
        (w.os.fs.get (env.rem ++ p) = some n ∧ UserPath p)) := by
    intro p
    rw [List.mem_append, mem_dirs_keys, mem_dirs_keys]
    simp only [hl, hr]
    constructor
    · rintro (⟨n, h1, h2⟩ | ⟨n, h1, h2⟩)
      · exact ⟨n, h2, Or.inl h1⟩
      · exact ⟨n, h2, Or.inr h1⟩
    · rintro ⟨n, h2, h1 | h1⟩
      · exact Or.inl ⟨n, h1, h2⟩
      · exact Or.inr ⟨n, h1, h2⟩
  generalize (Scan.nonDirs (s1.fs.below env.loc)).keys ++ (Scan.user (s1.fs.below env.rem)).nonDirs.keys = filePaths at *
  generalize (Scan.dirs (s1.fs.below env.loc)).keys ++ (Scan.user (s1.fs.below env.rem)).dirs.keys = dirPaths at *
  have sL : ∀ p ∈ new.loc, UserPath p ∧ ∃ n, w.os.fs.get (env.loc ++ p) = some n := by
    intro p hp
    obtain ⟨n, h1, _⟩ := (hNL p).1 hp
    obtain ⟨h2, h3⟩ := (hl p n).1 h1
    exact ⟨r.local_user h3 h2, n, h2⟩
  have sR : ∀ p ∈ new.rem, UserPath p ∧ ∃ n, w.os.fs.get (env.rem ++ p) = some n :=
    fun p hp => (keysR p).1 ((hNR p).1 hp).1
  have sA : ∀ p, p ∈ new.loc ∨ p ∈ new.rem → UserPath p ∧
      ∃ n, w.os.fs.get (env.loc ++ p) = some n ∨ w.os.fs.get (env.rem ++ p) = some n := by
    rintro p (hp | hp)
    · obtain ⟨h1, n, h2⟩ := sL p hp; exact ⟨h1, n, Or.inl h2⟩
    · obtain ⟨h1, n, h2⟩ := sR p hp; exact ⟨h1, n, Or.inr h2⟩
  have batchFits : ∀ S : List Path, (∀ p ∈ S, p ∈ new.loc ∨ p ∈ new.rem) →
      ∀ e ∈ batchOf (S.filter (fun p => decide (p ∉ dirPaths))) (S.filter (fun p => decide (p ∉ filePaths))),
        Fits env w.os.fs e.1 e.2 := by
    intro S hS e he
    rcases mem_batchOf.1 he with ⟨h1, h2⟩ | ⟨h1, h2⟩
    · rw [List.mem_filter, decide_eq_true_eq] at h1
      obtain ⟨hu, n, hn⟩ := sA _ (hS _ h1.1)
      refine r.tidy.fits r.wf hu ⟨n, hn, ?_⟩
      rw [h2]
      cases hk : n.isDir with
      | false => rfl
      | true =>
        exact absurd ((hD _).2 ⟨n, hk, hn.imp (fun x => ⟨x, hu.1⟩) (fun x => ⟨x, hu⟩)⟩) h1.2
    · rw [List.mem_filter, decide_eq_true_eq] at h1
      obtain ⟨hu, n, hn⟩ := sA _ (hS _ h1.1)
      refine r.tidy.fits r.wf hu ⟨n, hn, ?_⟩
      rw [h2]
      cases hk : n.isDir with
      | true => rfl
      | false =>
        exact absurd ((hF _).2 ⟨n, hk, hn.imp (fun x => ⟨x, hu.1⟩) (fun x => ⟨x, hu⟩)⟩) h1.2
  have batchMem : ∀ S : List Path, (∀ p ∈ S, p ∈ new.loc ∨ p ∈ new.rem) → ∀ p,
      p ∈ (batchOf (S.filter (fun p => decide (p ∉ dirPaths))) (S.filter (fun p => decide (p ∉ filePaths)))).map
        Prod.fst ↔ p ∈ S := by
    intro S hS p
    rw [map_fst_batchOf]
    simp only [List.mem_filter, decide_eq_true_eq]
    constructor
    · rintro (h | h) <;> exact h.1
    · intro h
      by_cases hd : p ∈ dirPaths
      · refine Or.inr ⟨h, fun hf => ?_⟩
        obtain ⟨n, k1, k2⟩ := (hD p).1 hd
        obtain ⟨n', k3, k4⟩ := (hF p).1 hf
        have hu := (sA p (hS p h)).1
        have := r.tidy.fits r.wf hu (d := true) ⟨n, k2.imp And.left And.left, k1⟩
        rcases k4 with ⟨k4, _⟩ | ⟨k4, _⟩
        · rw [this.loc n' k4] at k3; cases k3
        · rw [this.rem n' k4] at k3; cases k3
      · exact Or.inl ⟨h, hd⟩
  have hSL : ∀ p ∈ new.loc, p ∈ new.loc ∨ p ∈ new.rem := fun p hp => Or.inl hp
  have hSA : ∀ p ∈ setOf (new.loc ++ new.rem), p ∈ new.loc ∨ p ∈ new.rem := by
    intro p hp; rw [mem_setOf, List.mem_append] at hp; exact hp
  refine wp_inflateTop ?_ (fun _ => fr)
  intro db hdbT
  have hdb : db = w.db ∨ ∃ x, db = ALocal.addPaths w.db (batchOf (new.loc.filter (fun p => decide (p ∉ dirPaths)))
      (new.loc.filter (fun p => decide (p ∉ filePaths)))) x true :=
    hdbT.imp And.right (fun ⟨_, x, h, _⟩ => ⟨x, h⟩)
  have db1 : Fit env w.os.fs db ∧ (ADB.paths db).Nodup ∧ (∀ p ∈ ADB.paths w.db, p ∈ ADB.paths db) ∧
      ∀ p ∈ ADB.paths db, p ∈ ADB.paths w.db ∨ p ∈ new.loc := by
    rcases hdb with rfl | ⟨x, rfl⟩
    · exact ⟨r.db, r.nodup_db, fun _ h => h, fun _ h => Or.inl h⟩
    · refine ⟨r.db.addLocal (fun e he => Or.inr (batchFits _ hSL e he)), nodup_addPaths r.nodup_db, ?_, ?_⟩
      · intro p hp; exact mem_paths_addPaths.2 (Or.inl hp)
      · intro p hp
        rcases mem_paths_addPaths.1 hp with h | h
        · exact Or.inl h
        · exact Or.inr ((batchMem _ hSL p).1 h)
  rw [wp_bind]
  apply wp_addRemote
  intro now
  rw [wp_bind, wp_addLocal, wp_pure]
  dsimp only
  have mR : ∀ {p}, p ∈ ADB.paths (w.rdb.addPaths (batchOf
      ((setOf (new.loc ++ new.rem)).filter (fun p => decide (p ∉ dirPaths)))
      ((setOf (new.loc ++ new.rem)).filter (fun p => decide (p ∉ filePaths)))) now) ↔
      p ∈ ADB.paths w.rdb ∨ p ∈ setOf (new.loc ++ new.rem) := by
    intro p
    unfold ARemote.addPaths
    rw [ADB.mem_paths_addCore, batchMem _ hSA]
  have mL : ∀ {p}, p ∈ ADB.paths (db.addPaths (batchOf
      ((setOf (new.loc ++ new.rem)).filter (fun p => decide (p ∉ dirPaths)))
      ((setOf (new.loc ++ new.rem)).filter (fun p => decide (p ∉ filePaths)))) 0 true) ↔
      p ∈ ADB.paths db ∨ p ∈ setOf (new.loc ++ new.rem) := by
    intro p
    rw [mem_paths_addPaths, batchMem _ hSA]
  have inS : ∀ {p}, p ∈ new.loc ∨ p ∈ new.rem → p ∈ setOf (new.loc ++ new.rem) := by
    intro p hp; rw [mem_setOf, List.mem_append]; exact hp
  have goodDb : ∀ p ∈ ADB.paths w.db, UserPath p ∧ GoodPath p := by
    intro p hp; obtain ⟨d, hd⟩ := r.db.path hp; exact ⟨hd.user, hd.good⟩
  refine ⟨st, rfl, rfl, ⟨ex, rfl, hexm⟩, ?_, ?_, ?_, ?_, ?_, ?_, ?_, ?_, ?_, ?_, ?_, ?_, ?_, ?_, ?_, ?_, ?_, ?_, ?_, ?_, ?_, ?_, ?_, ?_, ?_, ?_, ?_⟩
  · intro d hd
    obtain ⟨h1, h2, _⟩ := (C18_local_partial hdel d).1 hd
    obtain ⟨h3, h4⟩ := goodDb d h1
    refine ⟨h3, h4, h1, ?_⟩
    rcases Option.eq_none_or_eq_some (w.os.fs.get (env.rem ++ d)) with h5 | ⟨n, h5⟩
    · exact h5
    · exact absurd ((keysR d).2 ⟨h3, n, h5⟩) h2
  · intro d hd
    obtain ⟨h1, h2, _⟩ := (C18_remote_partial hdel d).1.1 hd
    obtain ⟨h3, h4⟩ := goodDb d h1
    refine ⟨h3, h4, h1, ?_⟩
    rcases Option.eq_none_or_eq_some (w.os.fs.get (env.loc ++ d)) with h5 | ⟨n, h5⟩
    · exact h5
    · exact absurd ((keysL d).2 ⟨h3.1, n, h5⟩) h2
  · rintro f (hf | hf)
    · obtain ⟨n, h1, h2, h3, h4, h5⟩ := (hML f).1 hf
      obtain ⟨h6, h7⟩ := (hl f n).1 h1
      exact ⟨h7, n, h6, h5, Or.inr ⟨h4, h2, h3⟩⟩
    · obtain ⟨n, h1, h2, h3, h4⟩ := (hNL f).1 hf
      obtain ⟨h6, h7⟩ := (hl f n).1 h1
      exact ⟨h7, n, h6, h3, Or.inl ⟨h2, fun h => h4 ((hexm f).2 h)⟩⟩
  · intro f hf
    obtain ⟨n, h1, h2, h3, h4, h5⟩ := (hML f).1 hf
    exact ⟨n, ((hl f n).1 h1).1, h2, h4⟩
  · intro f hf
    exact ⟨mL.2 (Or.inr (inS (Or.inl hf))), mR.2 (Or.inr (inS (Or.inl hf)))⟩
  · intro f hf
    exact ⟨(sR f hf).1, (sR f hf).2, mL.2 (Or.inr (inS (Or.inr hf))), mR.2 (Or.inr (inS (Or.inr hf)))⟩
  · intro f hf
    rcases (hMR f).1 hf with ⟨n, h1, h2, _⟩ | ⟨e, h1, h2, h3, _⟩
    · obtain ⟨h3, h4⟩ := (hr f n).1 h1
      exact ⟨h4, Or.inl ⟨n, h3, h2⟩⟩
    · exact ⟨h2 ▸ (r.rdb e h1).user, Or.inr ⟨e, h1, h2, h3⟩⟩
  · exact db1.1.addLocal (fun e he => Or.inr (batchFits _ hSA e he))
  · exact r.rdb.addRemote (fun e he => Or.inr (batchFits _ hSA e he))
  · intro p hp; exact mL.2 (Or.inl (db1.2.2.1 p hp))
  · exact nodup_addPaths db1.2.1
  · exact ADB.nodup_addCore r.nodup
  · intro q hq
    have key : q ∈ setOf (new.loc ++ new.rem) → (∃ n, w.os.fs.get (env.loc ++ q) = some n) ∨
        ∃ n, w.os.fs.get (env.rem ++ q) = some n := by
      intro h
      rcases hSA q h with h | h
      · exact Or.inl (sL q h).2
      · exact Or.inr (sR q h).2
    rcases hq with hq | hq
    · rcases mL.1 hq with h | h
      · rcases db1.2.2.2 q h with h | h
        · exact Or.inl h
        · exact Or.inr (Or.inr (Or.inl (sL q h).2))
      · exact Or.inr (Or.inr (key h))
    · rcases mR.1 hq with h | h
      · exact Or.inr (Or.inl h)
      · exact Or.inr (Or.inr (key h))
  · intro f
    rw [hNL]
    constructor
    · rintro ⟨n, h1, h2, h3, h4⟩
      obtain ⟨h6, h7⟩ := (hl f n).1 h1
      exact ⟨h7, n, h6, h2, h3, fun h => h4 ((hexm f).2 h)⟩
    · rintro ⟨h7, n, h6, h2, h3, h4⟩
      exact ⟨n, (hl f n).2 ⟨h6, h7⟩, h2, h3, fun h => h4 ((hexm f).1 h)⟩
  · intro f
    rw [hNR, keysR, and_assoc]
  · intro f
    rw [hML]
    constructor
    · rintro ⟨n, h1, h2, h3, h4, h5⟩
      obtain ⟨h6, h7⟩ := (hl f n).1 h1
      exact ⟨h7, n, h6, h2, h3, h4, h5⟩
    · rintro ⟨h7, n, h6, h2, h3, h4, h5⟩
      exact ⟨n, (hl f n).2 ⟨h6, h7⟩, h2, h3, h4, h5⟩
  · intro f
    rw [hMR]
    refine or_congr ?_ Iff.rfl
    constructor
    · rintro ⟨n, h1, h2⟩
      obtain ⟨h6, h7⟩ := (hr f n).1 h1
      exact ⟨h7, n, h6, h2⟩
    · rintro ⟨h7, n, h6, h2⟩
      exact ⟨n, (hr f n).2 ⟨h6, h7⟩, h2⟩
  · intro q
    rw [mL, mem_setOf, List.mem_append]
    constructor
    · rintro (h | h)
      · exact (db1.2.2.2 q h).imp id Or.inl
      · exact Or.inr h
    · rintro (h | h)
      · exact Or.inl (db1.2.2.1 q h)
      · exact Or.inr h
  · intro q
    rw [mR, mem_setOf, List.mem_append]
  · intro d hd
    obtain ⟨d', h1, ⟨h2, h3⟩, h4⟩ := exists_topmost (P := GoneRemotely env w) hd
    refine ⟨d', (C18_local_partial hdel d').2 ⟨h2, ?_, ?_⟩, h1⟩
    · intro h
      obtain ⟨_, n, h5⟩ := (keysR d').1 h
      rw [h3] at h5; cases h5
    · intro q hq hqd hne
      rcases Option.eq_none_or_eq_some (w.os.fs.get (env.rem ++ q)) with h5 | h5
      · exact absurd ⟨hq, h5⟩ (h4 q hqd hne)
      · exact (keysR q).2 ⟨(goodDb q hq).1, h5⟩
  · intro d hd
    obtain ⟨d', h1, ⟨h2, h3⟩, h4⟩ := exists_topmost (P := GoneLocally env w) hd
    refine ⟨d', (C18_remote_partial hdel d').1.2 ⟨h2, ?_, ?_⟩, h1⟩
    · intro h
      obtain ⟨_, n, h5⟩ := (keysL d').1 h
      rw [h3] at h5; cases h5
    · intro q hq hqd hne
      rcases Option.eq_none_or_eq_some (w.os.fs.get (env.loc ++ q)) with h5 | h5
      · exact absurd ⟨hq, h5⟩ (h4 q hqd hne)
      · exact (keysL q).2 ⟨(goodDb q hq).1.1, h5⟩
  · intro d hd d' hd' hp
    apply Classical.byContradiction
    intro hne
    obtain ⟨_, _, h1⟩ := (C18_remote_partial hdel d).1.1 (Or.inr hd)
    obtain ⟨h2, h3, _⟩ := (C18_remote_partial hdel d').1.1 (Or.inr hd')
    exact h3 (h1 d' h2 hp hne)
  · exact C18_trash_partial hdel
  · exact fun d h1 h2 => (C18_remote_partial hdel d).2 ⟨h1, h2⟩
  · intro d hd q hq hqd
    apply Classical.byContradiction
    intro hne
    obtain ⟨_, n, h1⟩ := (keysL q).1 (((C18_remote_partial hdel d).1.1 hd).2.2 q hq.1 hqd hne)
    rw [hq.2] at h1; cases h1
  · have hb : ∀ p, _ := batchMem _ hSA
    simp only [mem_setOf, List.mem_append] at hb
    rcases hdb with rfl | ⟨x, rfl⟩
    · exact ⟨_, _, _, 0, now, Or.inl rfl, rfl, rfl, batchMem _ hSL, hb⟩
    · exact ⟨_, _, _, x, now, Or.inr rfl, rfl, rfl, batchMem _ hSL, hb⟩
  · have hb : ∀ p, _ := batchMem _ hSA
    simp only [mem_setOf, List.mem_append] at hb
    exact ⟨db, _, _, rfl, batchMem _ hSL, hb, hdbT⟩

end

end Verif
