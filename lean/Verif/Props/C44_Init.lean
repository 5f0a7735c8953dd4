import Verif.InitRest
import Verif.ExampleWorlds
/-
C44: an initialisation from local files preserves them at every crash point.
C53: it does not touch what is excluded.

What the theorems assume beyond the claim: the program starts with empty databases, neither directory is in
the other, there is no local `.zielen`, and where the remote directory has something at the path of a local
file that is to be moved, it is clean in the sense of C27 (a regular file, a directory over a directory, a link
over a link).
-/
namespace Verif
open Prog OSM Call FSTools WM

/-- The state in which an initialisation starts. -/
structure InitReady (env : Env) (w : World) : Prop where
  wf : w.os.fs.WF
  apart : Apart env.loc env.rem
  loc_dir : w.os.fs.isDir env.loc = true
  rem_good : GoodPath env.rem
  id_good : GoodPath [env.id]
  excl : ∃ k m b, w.os.fs.get env.excl = some (.file k m b)
  slot : ∀ n, w.os.fs.get (env.exclDir ++ [env.id]) = some n → ∃ c m b, n = .file c m b
  no_util : w.os.fs.get (env.loc ++ [Env.utilName]) = none
  clean : ∀ p n, p ≠ [] → w.os.fs.get (env.loc ++ p) = some n → ¬ OwnExcludes env w.os.fs p →
    ¬ UnsafeLink env.loc p n → Clean w.os.fs (env.loc ++ p) (env.rem ++ p)
  lmemo : w.lmemo = []
  rmemo : w.rmemo = []
  fresh : w.matches_ = none
  rows : w.db = []
  saved : w.dbSaved = []

/-- A regular local file that is not excluded. -/
def ToStore (env : Env) (fs : FS) (p : Path) (n : Node) : Prop :=
  p ≠ [] ∧ fs.get (env.loc ++ p) = some n ∧ (∃ c m b, n = .file c m b) ∧ ¬ OwnExcludes env fs p

/-- A local path that stays where it is: excluded or an unsafe link, and not in the remote directory. -/
def ToLeave (env : Env) (fs : FS) (p : Path) (n : Node) : Prop :=
  p ≠ [] ∧ fs.get (env.loc ++ p) = some n ∧ (OwnExcludes env fs p ∨ UnsafeLink env.loc p n) ∧
    fs.get (env.rem ++ p) = none

/-- What holds however it ends. -/
structure InitKept (env : Env) (fs fs' : FS) : Prop where
  stored : ∀ p n, ToStore env fs p n → fs'.get (env.loc ++ p) = some n ∨ fs'.get (env.rem ++ p) = some n
  left : ∀ p n, ToLeave env fs p n → fs'.get (env.loc ++ p) = some n

/-- What holds after a success. -/
structure InitDone (env : Env) (fs fs' : FS) : Prop extends InitKept env fs fs' where
  moved : ∀ p n, ToStore env fs p n → fs'.get (env.rem ++ p) = some n ∧
    ∃ m, fs'.get (env.loc ++ p) = some (.link (absStr (env.rem ++ p)) m)
  resumed : ∀ p n, UserPath p → fs.get (env.rem ++ p) = some n → n.isDir = false →
    (fs.get (env.loc ++ p) = none ∨ ∃ m, fs.get (env.loc ++ p) = some (.link (absStr (env.rem ++ p)) m)) →
    fs'.get (env.rem ++ p) = some n ∧ ∃ m, fs'.get (env.loc ++ p) = some (.link (absStr (env.rem ++ p)) m)
  origin : ∀ p n, UserPath p → fs'.get (env.rem ++ p) = some n → fs.get (env.rem ++ p) = some n ∨
    ∃ x, fs.get (env.loc ++ p) = some x ∧ x.isDir = n.isDir ∧ (n.isDir = false → x = n)
  listed : ∃ c m b, fs'.get (env.exclDir ++ [env.id]) = some (.file c m b)

theorem pathErr_of_pathIsDir {fs : FS} {p : Path} (h : fs.pathIsDir p = true) : fs.pathErr p = none := by
  rcases Option.eq_none_or_eq_some (fs.pathErr p) with h1 | ⟨e, h1⟩
  · exact h1
  · unfold FS.pathIsDir FS.stat at h
    rw [FS.follow] at h
    simp [h1] at h

theorem unsafeLink_abs (root p q : Path) (m : Int) : UnsafeLink root p (.link (absStr q) m) :=
  ⟨_, _, rfl, fun h => by
    have := h.1
    simp [absStr, Posix.isabs] at this⟩

theorem UnsafeLink.isDir {root p : Path} {n : Node} (h : UnsafeLink root p n) : n.isDir = false := by
  obtain ⟨t, m, rfl, _⟩ := h; rfl

section
variable {env : Env} {w : World}

/-- The directories that an initialisation makes first. -/
def InitDirs (env : Env) (q : Path) : Prop := q ≠ [] ∧ (q <+: env.exclDir ∨ q <+: env.trash)

theorem InitDirs.not_loc (ha : Apart env.loc env.rem) (p : Path) : ¬ InitDirs env (env.loc ++ p) := by
  rintro ⟨_, h | h⟩
  · unfold Env.exclDir Env.util at h
    rw [List.append_assoc] at h
    exact ha.not_prefix _ _ h
  · unfold Env.trash Env.util at h
    rw [List.append_assoc] at h
    exact ha.not_prefix _ _ h

theorem InitDirs.not_user {p : Path} (hu : UserPath p) : ¬ InitDirs env (env.rem ++ p) := by
  rintro ⟨_, h | h⟩
  · exact hu.not_prefix env h
  · exact hu.not_prefix env h

theorem InitDirs.not_slot : ¬ InitDirs env (env.exclDir ++ [env.id]) := by
  rintro ⟨_, h | h⟩
  · have := h.length_le
    simp at this
  · have := h.length_le
    unfold Env.exclDir Env.trash at this
    simp at this

theorem InitReady.userPath (h : InitReady env w) {p : Path} {n : Node} (h0 : p ≠ [])
    (hn : w.os.fs.get (env.loc ++ p) = some n) : UserPath p := by
  refine ⟨h0, ?_⟩
  intro hh
  obtain ⟨a, t, rfl⟩ : ∃ a t, p = a :: t := by
    cases p with
    | nil => exact absurd rfl h0
    | cons a t => exact ⟨a, t, rfl⟩
  simp only [List.head?_cons, Option.some.injEq] at hh
  subst hh
  have hnone := h.no_util
  by_cases ht : t = []
  · subst ht; rw [hnone] at hn; cases hn
  · have := h.wf.isDir_prefix hn (env.loc ++ [Env.utilName]) ⟨t, by simp⟩ (by simp [ht])
    obtain ⟨m, b, h1⟩ := FS.isDir_iff.1 this
    rw [hnone] at h1; cases h1

/-- Nothing has happened to local files. -/
theorem initKept_of_loc {fs fs' : FS} (h : ∀ p n, p ≠ [] → fs.get (env.loc ++ p) = some n →
    fs'.get (env.loc ++ p) = some n) : InitKept env fs fs' :=
  ⟨fun p n hp => Or.inl (h p n hp.1 hp.2.1), fun p n hp => h p n hp.1 hp.2.1⟩

/-- The state after the transfer. -/
structure Transferred (env : Env) (fs fs2 : FS) : Prop where
  wf : fs2.WF
  loc : ∀ p, fs2.get (env.loc ++ p) = fs.get (env.loc ++ p)
  stored : ∀ p n, ToStore env fs p n → fs2.get (env.rem ++ p) = some n
  leave : ∀ p n, ToLeave env fs p n → fs2.get (env.rem ++ p) = none
  slot : fs2.get (env.exclDir ++ [env.id]) = fs.get (env.exclDir ++ [env.id])

/-- Linking and the rest of the initialisation after the transfer. -/
theorem initKept_of_remote {fs fs2 fs' : FS} (h2 : Transferred env fs fs2)
    (hr : ∀ p n, ToStore env fs p n → fs'.get (env.rem ++ p) = fs2.get (env.rem ++ p))
    (hl : ∀ p n, ToLeave env fs p n → fs'.get (env.loc ++ p) = fs2.get (env.loc ++ p)) : InitKept env fs fs' :=
  ⟨fun p n hp => Or.inr (by rw [hr p n hp]; exact h2.stored p n hp),
   fun p n hp => by rw [hl p n hp, h2.loc]; exact hp.2.1⟩

/-- The state before links are made. -/
structure InitMid (env : Env) (fs fs' : FS) : Prop where
  wf : fs'.WF
  loc : ∀ p, fs'.get (env.loc ++ p) = fs.get (env.loc ++ p)
  clean : ∀ p n, p ≠ [] → fs.get (env.loc ++ p) = some n → ¬ OwnExcludes env fs p → ¬ UnsafeLink env.loc p n →
    Clean fs' (env.loc ++ p) (env.rem ++ p)
  rem : ∀ p n, UserPath p → fs.get (env.rem ++ p) = some n → n.isDir = false →
    (∀ x, fs.get (env.loc ++ p) = some x → OwnExcludes env fs p ∨ UnsafeLink env.loc p x) →
    fs'.get (env.rem ++ p) = some n
  out : ∀ q n, ¬ env.loc <+: q → ¬ env.rem <+: q → fs.get q = some n → fs'.get q = some n
  slot : ∀ n, fs'.get (env.exclDir ++ [env.id]) = some n → ∃ c m b, n = .file c m b

/-- The state in which an initialisation is resumed. -/
structure InitNext (env : Env) (fs fs' : FS) : Prop where
  wf : fs'.WF
  loc : ∀ p, fs'.get (env.loc ++ p) = fs.get (env.loc ++ p) ∨ (UserPath p ∧ ∃ n, fs'.get (env.rem ++ p) = some n ∧
    ((n.isDir = false ∧ (fs'.get (env.loc ++ p) = none ∨
      ∃ m, fs'.get (env.loc ++ p) = some (.link (absStr (env.rem ++ p)) m))) ∨
    (n.isDir = true ∧ fs'.isDir (env.loc ++ p) = true)))
  clean : ∀ p n, p ≠ [] → fs.get (env.loc ++ p) = some n → ¬ OwnExcludes env fs p → ¬ UnsafeLink env.loc p n →
    fs'.get (env.loc ++ p) = some n → Clean fs' (env.loc ++ p) (env.rem ++ p)
  rem : ∀ p n, UserPath p → fs.get (env.rem ++ p) = some n → n.isDir = false →
    (∀ x, fs.get (env.loc ++ p) = some x → OwnExcludes env fs p ∨ UnsafeLink env.loc p x) →
    fs'.get (env.rem ++ p) = some n
  out : ∀ q n, ¬ env.loc <+: q → ¬ env.rem <+: q → fs.get q = some n → fs'.get q = some n
  slot : ∀ n, fs'.get (env.exclDir ++ [env.id]) = some n → ∃ c m b, n = .file c m b

theorem InitMid.next {fs fs' : FS} (h : InitMid env fs fs') : InitNext env fs fs' :=
  ⟨h.wf, fun p => Or.inl (h.loc p), fun p n h0 hn hx hu _ => h.clean p n h0 hn hx hu, h.rem, h.out, h.slot⟩

theorem InitMid.setup {fs fs2 fs3 : FS} (ha : Apart env.loc env.rem) (h : InitMid env fs fs2)
    (hf : SetupFrame env fs2 fs3) : InitNext env fs fs3 := by
  have hout : ∀ q, ¬ env.loc <+: q → fs3.get q = fs2.get q := by
    intro q hq
    apply hf.other
    rintro p _ rfl
    exact absurd (List.prefix_append _ _) hq
  have hrem : ∀ q, fs3.get (env.rem ++ q) = fs2.get (env.rem ++ q) := by
    intro q
    apply hout
    rintro ⟨t, ht⟩
    exact ha.ne t q ht
  refine ⟨hf.wf, ?_, ?_, ?_, ?_, ?_⟩
  · intro p
    rw [← h.loc p, hrem p]
    by_cases hu : UserPath p
    · rcases Option.eq_none_or_eq_some (fs2.get (env.rem ++ p)) with h1 | ⟨n, h1⟩
      · left
        apply hf.other
        intro p' _ he
        rw [← List.append_cancel_left he]
        exact h1
      · rcases hf.at_ p n hu h1 with h2 | h2 | h2
        · exact Or.inl h2
        · exact Or.inr ⟨hu, n, h1, Or.inl h2⟩
        · exact Or.inr ⟨hu, n, h1, Or.inr ⟨h2.1, h2.2.2⟩⟩
    · left
      apply hf.other
      intro p' hu' he
      rw [← List.append_cancel_left he] at hu'
      exact absurd hu' hu
  · intro p n h0 hn hx hu hn'
    refine (h.clean p n h0 hn hx hu).congr ?_ (hrem p)
    rw [hn', h.loc, hn]
  · intro p n hu hn hnd hx
    rw [hrem]
    exact h.rem p n hu hn hnd hx
  · intro q n h1 h2 hn
    rw [hout q h1]
    exact h.out q n h1 h2 hn
  · intro n hn
    rw [hout] at hn
    · exact h.slot n hn
    · unfold Env.exclDir Env.util
      rw [List.append_assoc, List.append_assoc]
      rintro ⟨t, ht⟩
      exact ha.ne t _ ht

theorem InitNext.tail {fs fs2 fs3 : FS} (ha : Apart env.loc env.rem) (h : InitNext env fs fs2)
    (hU : ∀ p n, p ≠ [] → fs.get (env.loc ++ p) = some n → UserPath p) (hw : fs3.WF)
    (ho : OnlyAt (env.exclDir ++ [env.id]) fs2 fs3)
    (hs : ∀ n, fs3.get (env.exclDir ++ [env.id]) = some n → ∃ c m b, n = .file c m b) : InitNext env fs fs3 := by
  have hloc : ∀ p, fs3.get (env.loc ++ p) = fs2.get (env.loc ++ p) := by
    intro p
    apply ho
    unfold Env.exclDir Env.util
    rw [List.append_assoc, List.append_assoc]
    exact ha.ne _ _
  have hrem : ∀ p, UserPath p → fs3.get (env.rem ++ p) = fs2.get (env.rem ++ p) := by
    intro p hu
    apply ho
    intro he
    refine (hu.not_prefix env (q := ["exclude".toList] ++ [env.id])) ?_
    rw [he]
    unfold Env.exclDir
    rw [List.append_assoc]
    exact List.prefix_refl _
  refine ⟨hw, ?_, ?_, ?_, ?_, hs⟩
  · intro p
    rw [hloc, FS.isDir_congr (hloc p)]
    rcases h.loc p with h1 | ⟨h1, h2⟩
    · exact Or.inl h1
    · rw [hrem p h1]
      exact Or.inr ⟨h1, h2⟩
  · intro p n h0 hn hx hu hn'
    rw [hloc] at hn'
    exact (h.clean p n h0 hn hx hu hn').congr (hloc p) (hrem p (hU p n h0 hn))
  · intro p n hu hn hnd hx
    rw [hrem p hu]
    exact h.rem p n hu hn hnd hx
  · intro q n h1 h2 hn
    rw [ho]
    · exact h.out q n h1 h2 hn
    · rintro rfl
      apply h2
      unfold Env.exclDir Env.util
      rw [List.append_assoc, List.append_assoc]
      exact List.prefix_append _ _

theorem goodPath_exclDir (h : GoodPath env.rem) : GoodPath env.exclDir := by
  unfold Env.exclDir Env.util
  rw [goodPath_append, goodPath_append]
  refine ⟨⟨h, ?_⟩, ?_⟩
  · decide
  · decide

/-- The end of an initialisation. -/
def initTail (env : Env) : WM Unit := do
  sys (addExcludeFile env)
  writeRemote
  let now ← sys time
  modify (fun w => { w with last := now })
  writeProfile

/-- At most the copy of the exclude file has changed. -/
structure SlotOnly (env : Env) (fs fs' : FS) : Prop where
  only : OnlyAt (env.exclDir ++ [env.id]) fs fs'
  wf : fs'.WF
  file : ∀ n, fs'.get (env.exclDir ++ [env.id]) = some n → ∃ c m b, n = .file c m b

theorem wp_initTail {s : World} (hw : s.os.fs.WF) (hg : GoodPath (env.exclDir ++ [env.id]))
    (hslot : ∀ n, s.os.fs.get (env.exclDir ++ [env.id]) = some n → ∃ c m b, n = .file c m b) :
    wp (initTail env) (fun _ w' => SlotOnly env s.os.fs w'.os.fs ∧ w'.db = s.db ∧ w'.rdb = s.rdb ∧
        w'.dbSaved = w'.db ∧ w'.rdbSaved = w'.rdb ∧ w'.lastSaved = w'.last ∧
        ∃ c m b, w'.os.fs.get (env.exclDir ++ [env.id]) = some (.file c m b))
      (fun _ w' => SlotOnly env s.os.fs w'.os.fs ∧ w'.dbSaved = s.dbSaved) s := by
  unfold initTail
  rw [wp_bind, wp_sys]
  refine wp_mono (wp_addExcludeFile hw hg hslot) ?_ (fun _ s1 h => ⟨⟨h.1, h.2.1, h.2.2⟩, rfl⟩)
  rintro _ s1 ⟨h1', hw1, q, k, m, b, now, _, hq⟩
  have h1 : SlotOnly env s.os.fs s1.fs := ⟨h1', hw1, fun n hn => by rw [hq] at hn; cases hn; exact ⟨_, _, _, rfl⟩⟩
  unfold writeRemote writeProfile
  rw [wp_bind]
  apply wp_save
  · exact ⟨h1, rfl⟩
  rw [wp_bind, wp_sys, wp_time, wp_bind, wp_modify, wp_bind]
  apply wp_save
  · exact ⟨h1, rfl⟩
  apply wp_save
  · exact ⟨h1, rfl⟩
  · exact ⟨h1, rfl, rfl, rfl, rfl, rfl, _, _, _, hq⟩

theorem wp_init (h : InitReady env w) :
    wp (init env false) (fun _ w' => InitDone env w.os.fs w'.os.fs ∧ InitNext env w.os.fs w'.os.fs ∧
        (w.rdb = [] → (∀ p, UserPath p → w.os.fs.get (env.rem ++ p) = none) → AtRest env w'))
      (fun _ w' => (InitKept env w.os.fs w'.os.fs ∧ InitNext env w.os.fs w'.os.fs) ∧ w'.dbSaved = w.dbSaved) w := by
  obtain ⟨lm, lb, hlg⟩ := FS.isDir_iff.1 h.loc_dir
  have hgl : GoodPath env.loc := h.wf.goodPath hlg
  have hge := goodPath_exclDir h.rem_good
  have hgt := goodPath_trash h.rem_good
  have hgdirs : ∀ q, InitDirs env q → GoodPath q := by
    rintro q ⟨_, h1 | h1⟩
    · exact goodPath_of_prefix hge h1
    · exact goodPath_of_prefix hgt h1
  have keptG : ∀ fs', Grow (InitDirs env) w.os.fs fs' → InitKept env w.os.fs fs' ∧ InitNext env w.os.fs fs' := by
    intro fs' hg
    have hl : ∀ p, fs'.get (env.loc ++ p) = w.os.fs.get (env.loc ++ p) :=
      fun p => hg.get_eq (InitDirs.not_loc h.apart p)
    refine ⟨initKept_of_loc (fun p n _ hn => hg.keeps _ _ hn), InitMid.next ?_⟩
    refine ⟨hg.wf hgdirs h.wf, hl, ?_, fun p n _ hn _ _ => hg.keeps _ _ hn, fun q n _ _ hn => hg.keeps _ _ hn, ?_⟩
    · intro p n h0 hn hx hu
      exact (h.clean p n h0 hn hx hu).congr (hl p) (hg.get_eq (InitDirs.not_user (h.userPath h0 hn)))
    · intro n hn
      rw [hg.get_eq InitDirs.not_slot] at hn
      exact h.slot n hn
  unfold init
  rw [wp_bind, wp_sys]
  refine wp_mono (wp_makedirs_dir h.wf hlg) ?_ ?_
  swap
  · rintro e s ⟨h1, _⟩
    exact ⟨keptG _ (by rw [show ({ w with os := s } : World).os.fs = w.os.fs from h1]; exact Grow.refl _ _), rfl⟩
  intro _ s0 hs0
  rw [wp_bind, wp_sys]
  have hex : ∀ {s0 s1 : OS} {d : Path}, (∀ q, q ≠ [] ∧ q <+: d → InitDirs env q) →
      Grow (InitDirs env) w.os.fs s0.fs → Grow (fun q => q ≠ [] ∧ q <+: d) s0.fs s1.fs →
      Grow (InitDirs env) w.os.fs s1.fs := fun hd h0 h1 => h0.trans (h1.mono hd)
  have hd1 : ∀ q, q ≠ [] ∧ q <+: env.exclDir → InitDirs env q := fun q hq => ⟨hq.1, Or.inl hq.2⟩
  have hd2 : ∀ q, q ≠ [] ∧ q <+: env.trash → InitDirs env q := fun q hq => ⟨hq.1, Or.inr hq.2⟩
  have hg0 : Grow (InitDirs env) w.os.fs s0.fs := by rw [hs0]; exact Grow.refl _ _
  refine wp_mono (wp_makedirs env.exclDir s0) ?_ (fun _ s1 h1 => ⟨keptG _ (hex hd1 hg0 h1), rfl⟩)
  rintro _ s1 ⟨hg1, hpd⟩
  have hg1 := hex hd1 hg0 hg1
  rw [wp_bind, wp_sys]
  refine wp_mono (wp_makedirs env.trash s1) ?_ (fun _ s2 h2 => ⟨keptG _ (hex hd2 hg1 h2), rfl⟩)
  rintro _ s2 ⟨hg2', _⟩
  have hg2 := hex hd2 hg1 hg2'
  -- the state before the transfer
  have wf2 : s2.fs.WF := hg2.wf hgdirs h.wf
  have hloc2 : ∀ p, s2.fs.get (env.loc ++ p) = w.os.fs.get (env.loc ++ p) :=
    fun p => hg2.get_eq (InitDirs.not_loc h.apart p)
  have hrem2 : ∀ p, UserPath p → s2.fs.get (env.rem ++ p) = w.os.fs.get (env.rem ++ p) :=
    fun p hu => hg2.get_eq (InitDirs.not_user hu)
  have hremd : s2.fs.isDir env.rem = true := by
    have h1 := FS.pathErr_none_iff.1 (pathErr_of_pathIsDir hpd) env.rem
      (by unfold Env.exclDir Env.util; rw [List.append_assoc]; exact List.prefix_append _ _)
      (by unfold Env.exclDir Env.util; rw [List.append_assoc]; simp)
    obtain ⟨m, b, h2⟩ := FS.isDir_iff.1 h1
    exact FS.isDir_iff.2 ⟨m, b, hg2'.keeps _ _ h2⟩
  have hld2 : s2.fs.isDir env.loc = true := FS.isDir_iff.2 ⟨lm, lb, hg2.keeps _ _ hlg⟩
  obtain ⟨ek, em, eb, hexg⟩ := h.excl
  have hstat : w.os.fs.stat env.excl = .ok (env.excl, .file ek em eb) :=
    FS.stat_nonlink (h.wf.pathErr hexg) hexg rfl
  have hstat2 : s2.fs.stat env.excl = .ok (env.excl, .file ek em eb) :=
    FS.stat_nonlink (wf2.pathErr (hg2.keeps _ _ hexg)) (hg2.keeps _ _ hexg) rfl
  have hown : ∀ p, OwnExcludes env w.os.fs p ↔ ExcludedIn w.os.fs env.loc (env.patsOf ek) p := by
    intro p
    unfold OwnExcludes
    constructor
    · rintro ⟨q, k, m, b, h1, h2⟩
      rw [hstat] at h1
      cases h1
      exact h2
    · intro h2
      exact ⟨_, _, _, _, hstat, h2⟩
  rw [if_neg (by simp)]
  show wp (setupFromLocal env >>= fun _ => initTail env) _ _ _
  rw [wp_bind]
  unfold setupFromLocal
  rw [wp_bind]
  apply wp_scanLocal
  · intro hm; exact absurd h.lmemo hm
  swap
  · intro e; exact ⟨keptG _ hg2, rfl⟩
  intro _
  rw [wp_bind]
  apply wp_exclMatches
  · intro l hl
    have : (none : Option (List Path)) = some l := h.fresh.symm.trans hl
    cases this
  swap
  · intro e; exact ⟨keptG _ hg2, rfl⟩
  intro _ q k m b hst
  dsimp only at hst ⊢
  rw [hstat2] at hst
  cases hst
  generalize hexdef : allMatches (env.patsOf ek) ((s2.fs.below env.loc).map Prod.fst) = ex
  have hexm : ∀ p, p ∈ ex ↔ OwnExcludes env w.os.fs p := by
    intro p
    rw [← hexdef, mem_allMatches_fs wf2, hown]
    unfold ExcludedIn
    rw [hloc2]
  generalize hun : unsafeLinks env.loc (s2.fs.below env.loc) = un
  have hunm : ∀ p, p ∈ un ↔ p ≠ [] ∧ ∃ n, w.os.fs.get (env.loc ++ p) = some n ∧ UnsafeLink env.loc p n := by
    intro p
    rw [← hun, mem_unsafeLinks wf2 hgl, hloc2]
  rw [wp_bind, wp_sys]
  -- prefixes of paths that are transferred
  have hpre : ∀ p, (∃ n, w.os.fs.get (env.loc ++ p) = some n) → p ≠ [] → p ∉ ex ++ un → ∀ q, q <+: p → q ≠ [] →
      ∃ n, w.os.fs.get (env.loc ++ q) = some n ∧ ¬ OwnExcludes env w.os.fs q ∧ ¬ UnsafeLink env.loc q n := by
    rintro p ⟨n, hn⟩ hp0 hx q hq hq0
    rw [List.mem_append, not_or] at hx
    by_cases hqp : q = p
    · subst hqp
      exact ⟨n, hn, fun h1 => hx.1 ((hexm _).2 h1), fun h1 => hx.2 ((hunm _).2 ⟨hp0, n, hn, h1⟩)⟩
    · have hd := h.wf.isDir_prefix hn (env.loc ++ q) (by rw [List.prefix_append_right_inj]; exact hq)
        (fun he => hqp (List.append_cancel_left he))
      obtain ⟨m, b, hd⟩ := FS.isDir_iff.1 hd
      refine ⟨_, hd, ?_, ?_⟩
      · intro h1
        apply hx.1
        rw [hexm, hown]
        obtain ⟨_, _, m, hm0, hm1, hm2⟩ := (hown q).1 h1
        exact ⟨hp0, ⟨n, hn⟩, m, hm0, hm1.trans hq, hm2⟩
      · intro h1
        have := h1.isDir
        cases this
  have transferred : ∀ l fs2, Moved env.loc env.rem false s2.fs l fs2 →
      (∀ p ∈ l, Listed s2.fs env.loc none p ∧ p ∉ ex ++ un) →
      (∀ p, Listed s2.fs env.loc none p → p ∉ ex ++ un → p ∈ l) → Transferred env w.os.fs fs2 := by
    intro l fs2 hm hl hall
    have hlU : ∀ p ∈ l, UserPath p := by
      intro p hp
      obtain ⟨⟨⟨n, hn⟩, hp0, _⟩, _⟩ := hl p hp
      rw [hloc2] at hn
      exact h.userPath hp0 hn
    have hnl : ∀ q, ¬ env.loc <+: env.rem ++ q := by
      rintro q ⟨t, ht⟩
      exact h.apart.ne t q ht
    refine ⟨hm.wf, ?_, ?_, ?_, ?_⟩
    · intro p
      rw [← hloc2]
      rcases hm.src p with h1 | ⟨h1, _⟩
      · exact h1
      · cases h1
    · rintro p n ⟨hp0, hn, ⟨c, m, b, rfl⟩, hne⟩
      have hx : p ∉ ex ++ un := by
        rw [List.mem_append, not_or]
        refine ⟨fun h1 => hne ((hexm p).1 h1), ?_⟩
        intro h1
        obtain ⟨_, n', hn', t, m', h2, _⟩ := (hunm p).1 h1
        rw [hn, h2] at hn'
        cases hn'
      have hn2 : s2.fs.get (env.loc ++ p) = some (.file c m b) := by rw [hloc2]; exact hn
      exact hm.copied p (hall p ⟨⟨_, hn2⟩, hp0, trivial⟩ hx) _ hn2
    · rintro p n ⟨hp0, hn, hx, hnone⟩
      have hu := h.userPath hp0 hn
      have hx' : p ∈ ex ++ un := by
        rw [List.mem_append]
        rcases hx with hx | hx
        · exact Or.inl ((hexm p).2 hx)
        · exact Or.inr ((hunm p).2 ⟨hp0, n, hn, hx⟩)
      have hne : ∀ p' ∈ l, env.rem ++ p ≠ env.rem ++ p' := by
        intro p' hp' he
        rw [← List.append_cancel_left he] at hp'
        exact (hl p hp').2 hx'
      rcases hm.new (env.rem ++ p) (hnl p) hne (by rw [hrem2 p hu]; exact hnone) with h1 | ⟨_, p', hp', h1⟩
      · exact h1
      · exfalso
        rw [List.prefix_append_right_inj] at h1
        obtain ⟨⟨⟨n', hn'⟩, hp0', _⟩, hx''⟩ := hl p' hp'
        rw [hloc2] at hn'
        obtain ⟨n'', h2, h3, h4⟩ := hpre p' ⟨n', hn'⟩ hp0' hx'' p h1 hp0
        rw [hn] at h2
        cases h2
        rcases hx with hx | hx
        · exact h3 hx
        · exact h4 hx
    · have hnu : ∀ p ∈ l, ¬ env.exclDir ++ [env.id] <+: env.rem ++ p := by
        intro p hp hpre
        have hu := hlU p hp
        have h1 : env.util <+: env.rem ++ p := by
          refine List.IsPrefix.trans ?_ hpre
          unfold Env.exclDir
          rw [List.append_assoc]
          exact List.prefix_append _ _
        unfold Env.util at h1
        rw [List.prefix_append_right_inj] at h1
        obtain ⟨t, ht⟩ := h1
        apply hu.2
        rw [← ht]; rfl
      have hne : ∀ p ∈ l, env.exclDir ++ [env.id] ≠ env.rem ++ p := fun p hp he =>
        hnu p hp (he ▸ List.prefix_refl _)
      have hns : ¬ env.loc <+: env.exclDir ++ [env.id] := by
        unfold Env.exclDir Env.util
        rw [List.append_assoc, List.append_assoc]
        exact hnl _
      rw [← hg2.get_eq (InitDirs.not_slot)]
      rcases Option.eq_none_or_eq_some (s2.fs.get (env.exclDir ++ [env.id])) with h1 | ⟨n, h1⟩
      · rcases hm.new _ hns hne h1 with h2 | ⟨_, p, hp, h3⟩
        · rw [h1, h2]
        · exact absurd h3 (hnu p hp)
      · rw [h1]; exact hm.keeps _ hns hne n h1
  -- the state during the transfer
  have mid : ∀ l fs2, Moving env.loc env.rem false s2.fs l fs2 →
      (∀ p ∈ l, Listed s2.fs env.loc none p ∧ p ∉ ex ++ un) → InitMid env w.os.fs fs2 := by
    intro l fs2 hm hl
    have hnl : ∀ q, ¬ env.loc <+: env.rem ++ q := by
      rintro q ⟨t, ht⟩
      exact h.apart.ne t q ht
    have hll : ∀ p ∈ l, ∃ n, s2.fs.get (env.loc ++ p) = some n := fun p hp => (hl p hp).1.1
    have hloc : ∀ p, fs2.get (env.loc ++ p) = s2.fs.get (env.loc ++ p) := by
      intro p
      rcases hm.src p with h1 | ⟨h1, _⟩
      · exact h1
      · cases h1
    have hlU : ∀ p ∈ l, UserPath p := by
      intro p hp
      obtain ⟨⟨⟨n, hn⟩, hp0, _⟩, _⟩ := hl p hp
      rw [hloc2] at hn
      exact h.userPath hp0 hn
    refine ⟨hm.wf, fun p => by rw [hloc, hloc2], ?_, ?_, ?_, ?_⟩
    · intro p n h0 hn hx hu
      by_cases hpl : p ∈ l
      · exact hm.dst p hpl (hloc p)
      · refine hm.clean h.apart wf2 hll hpl ?_
        exact (h.clean p n h0 hn hx hu).congr (hloc2 p) (hrem2 p (h.userPath h0 hn))
    · intro p n hu hn hnd hx
      refine hm.keeps _ (hnl p) ?_ n (by rw [hrem2 p hu]; exact hn)
      intro p' hp' he
      rw [← List.append_cancel_left he] at hp'
      obtain ⟨⟨⟨x, hx1⟩, h0, _⟩, hx2⟩ := hl p hp'
      rw [hloc2] at hx1
      apply hx2
      rw [List.mem_append]
      rcases hx x hx1 with h1 | h1
      · exact Or.inl ((hexm p).2 h1)
      · exact Or.inr ((hunm p).2 ⟨h0, x, hx1, h1⟩)
    · intro q n h1 h2 hn
      refine hm.keeps q h1 ?_ n (hg2.keeps _ _ hn)
      rintro p _ rfl
      exact h2 (List.prefix_append _ _)
    · intro n hn
      have hnu : ∀ p ∈ l, ¬ env.exclDir ++ [env.id] <+: env.rem ++ p := by
        intro p hp hpre
        have hu := hlU p hp
        have h1 : env.util <+: env.rem ++ p := by
          refine List.IsPrefix.trans ?_ hpre
          unfold Env.exclDir
          rw [List.append_assoc]
          exact List.prefix_append _ _
        unfold Env.util at h1
        rw [List.prefix_append_right_inj] at h1
        obtain ⟨t, ht⟩ := h1
        apply hu.2
        rw [← ht]; rfl
      have hne : ∀ p ∈ l, env.exclDir ++ [env.id] ≠ env.rem ++ p := fun p hp he =>
        hnu p hp (he ▸ List.prefix_refl _)
      have hns : ¬ env.loc <+: env.exclDir ++ [env.id] := by
        unfold Env.exclDir Env.util
        rw [List.append_assoc, List.append_assoc]
        exact hnl _
      have hsame := hg2.get_eq (InitDirs.not_slot (env := env))
      rcases Option.eq_none_or_eq_some (s2.fs.get (env.exclDir ++ [env.id])) with h1 | ⟨n', h1⟩
      · rcases hm.new _ hns hne h1 with h2 | ⟨_, p, hp, h3⟩
        · rw [h2] at hn; cases hn
        · exact absurd h3 (hnu p hp)
      · rw [hm.keeps _ hns hne n' h1] at hn
        cases hn
        rw [hsame] at h1
        exact h.slot n h1
  have keptM : ∀ l fs2, Moving env.loc env.rem false s2.fs l fs2 → InitKept env w.os.fs fs2 := by
    intro l fs2 hm
    apply initKept_of_loc
    intro p n _ hn
    rcases hm.src p with h1 | ⟨h1, _⟩
    · rw [h1, hloc2]; exact hn
    · cases h1
  apply wp_orRemote
  refine wp_mono (wp_transferTree (s := s2) h.apart wf2 hld2 hremd (fun fl hfl => by cases hfl) ?_) ?_ ?_
  · rintro p ⟨⟨n, hn⟩, hp0, _⟩ hx q hq
    by_cases hq0 : q = []
    · subst hq0
      rw [List.append_nil, List.append_nil]
      obtain ⟨m, b, h1⟩ := FS.isDir_iff.1 hremd
      unfold Clean
      rw [h1]
      exact hld2
    · obtain ⟨n', h1, h2, h3⟩ := hpre p ⟨n, by rw [← hloc2]; exact hn⟩ hp0 hx q hq hq0
      have hc := h.clean q n' hq0 h1 h2 h3
      unfold Clean at hc ⊢
      rw [hrem2 q (h.userPath hq0 h1), hloc2, FS.isDir_congr (hloc2 q)]
      exact hc
  swap
  · rintro e s3 ⟨l, hm, hl⟩
    exact ⟨⟨⟨keptM l _ hm, (mid l _ hm hl).next⟩, rfl⟩, fun _ => ⟨⟨keptM l _ hm, (mid l _ hm hl).next⟩, rfl⟩⟩
  rintro _ s3 ⟨l, hm, hl, hall⟩
  have ht : Transferred env w.os.fs s3.fs := by
    refine transferred l _ hm hl ?_
    intro p hp hx
    rcases hall p hp hx with h1 | ⟨_, h1, _⟩
    · exact h1
    · cases h1
  have hld3 : s3.fs.isDir env.loc = true := by
    have := ht.loc []
    rw [List.append_nil] at this
    rw [FS.isDir_congr this]
    exact h.loc_dir
  have hslotn : ∀ p, env.exclDir ++ [env.id] ≠ env.loc ++ p := by
    intro p he
    unfold Env.exclDir Env.util at he
    rw [List.append_assoc, List.append_assoc] at he
    exact h.apart.ne _ _ he.symm
  have hslotr : ∀ p, UserPath p → env.rem ++ p ≠ env.exclDir ++ [env.id] := by
    intro p hu he
    refine (hu.not_prefix env (q := ["exclude".toList] ++ [env.id])) ?_
    rw [he]
    unfold Env.exclDir
    rw [List.append_assoc]
    exact List.prefix_refl _
  have frame : ∀ fs', SetupFrame env s3.fs fs' →
      (∀ p n, ToStore env w.os.fs p n → fs'.get (env.rem ++ p) = s3.fs.get (env.rem ++ p)) ∧
      (∀ p n, ToLeave env w.os.fs p n → fs'.get (env.loc ++ p) = s3.fs.get (env.loc ++ p)) ∧
      (∀ n, fs'.get (env.exclDir ++ [env.id]) = some n → ∃ c m b, n = .file c m b) := by
    intro fs' hf
    refine ⟨?_, ?_, ?_⟩
    · intro p n hp
      apply hf.other
      intro p' _ he
      exact absurd he.symm (h.apart.ne _ _)
    · intro p n hp
      apply hf.other
      intro p' _ he
      rw [← List.append_cancel_left he]
      exact ht.leave p n hp
    · intro n hn
      rw [hf.other _ (fun p _ he => absurd he (hslotn p)), ht.slot] at hn
      exact h.slot n hn
  refine wp_mono (wp_setupDir (w := { w with
      os := s3, lmemo := s2.fs.below env.loc, matches_ := some ex }) ht.wf hld3 (Or.inl h.rmemo) h.rows) ?_ ?_
  swap
  · rintro e w' ⟨hf, hdb⟩
    obtain ⟨h1, h2, _⟩ := frame _ hf
    exact ⟨⟨initKept_of_remote ht h1 h2, (mid l _ hm.toMoving hl).setup h.apart hf⟩, hdb⟩
  rintro _ w4 ⟨hf, hsv, hlink, hsr⟩
  obtain ⟨h1, h2, h3⟩ := frame _ hf
  have fin : ∀ fs', OnlyAt (env.exclDir ++ [env.id]) w4.os.fs fs' → InitKept env w.os.fs fs' := by
    intro fs' ho
    refine initKept_of_remote ht ?_ ?_
    · intro p n hp
      rw [ho _ (hslotr p (h.userPath hp.1 hp.2.1)), h1 p n hp]
    · intro p n hp
      rw [ho _ (Ne.symm (hslotn p)), h2 p n hp]
  have next : ∀ fs', SlotOnly env w4.os.fs fs' → InitNext env w.os.fs fs' := fun fs' ho =>
    ((mid l _ hm.toMoving hl).setup h.apart hf).tail h.apart (fun p n h0 hn => h.userPath h0 hn) ho.wf ho.only ho.file
  refine wp_mono (wp_initTail hf.wf ?_ h3) ?_ ?_
  · rw [goodPath_append]
    exact ⟨hge, h.id_good⟩
  swap
  · rintro e w' ⟨ho, hdb⟩; exact ⟨⟨fin _ ho.only, next _ ho⟩, hdb.trans hsv⟩
  rintro _ w' ⟨ho', hdb', hrdb', hs1, hs2, hs3, hsl⟩
  refine ⟨⟨fin _ ho'.only, ?_, ?_, ?_, hsl⟩, next _ ho', ?_⟩
  rotate_left 2
  · intro p n hu hn
    rw [ho'.only _ (hslotr p hu), hf.other _ (fun p' _ he => absurd he.symm (h.apart.ne _ _))] at hn
    have hn3 : s3.fs.get (env.rem ++ p) = some n := hn
    have hnl : ¬ env.loc <+: env.rem ++ p := by
      rintro ⟨t, ht⟩
      exact h.apart.ne t p ht
    by_cases hpl : p ∈ l
    · right
      obtain ⟨⟨⟨x, hx⟩, _⟩, _⟩ := hl p hpl
      have hc := hm.copied p hpl x hx
      refine ⟨x, (hloc2 p).symm.trans hx, ?_⟩
      unfold Copied at hc
      cases x with
      | dir m b =>
        have hc : s3.fs.isDir (env.rem ++ p) = true := hc
        rw [isDir_iff_false hn3] at hc
        exact ⟨hc.symm, fun h1 => by rw [hc] at h1; cases h1⟩
      | file c m b =>
        have hc : s3.fs.get (env.rem ++ p) = some (.file c m b) := hc
        rw [hc] at hn3; cases hn3; exact ⟨rfl, fun _ => rfl⟩
      | link t m =>
        have hc : s3.fs.get (env.rem ++ p) = some (.link t m) := hc
        rw [hc] at hn3; cases hn3; exact ⟨rfl, fun _ => rfl⟩
    · have hne : ∀ p' ∈ l, env.rem ++ p ≠ env.rem ++ p' :=
        fun p' hp' he => hpl (by rw [List.append_cancel_left he]; exact hp')
      rcases Option.eq_none_or_eq_some (w.os.fs.get (env.rem ++ p)) with h4 | ⟨x, h4⟩
      · rcases hm.new _ hnl hne ((hrem2 p hu).trans h4) with h5 | ⟨h5, q, hq, h6⟩
        · rw [hn3] at h5; cases h5
        · right
          rw [List.prefix_append_right_inj] at h6
          obtain ⟨⟨⟨x, hx⟩, _⟩, _⟩ := hl q hq
          have h7 := wf2.isDir_prefix hx (env.loc ++ p) ((List.prefix_append_right_inj _).2 h6)
            (fun e => hpl (by rw [List.append_cancel_left e]; exact hq))
          obtain ⟨m, b, h7⟩ := FS.isDir_iff.1 h7
          have h5 : s3.fs.isDir (env.rem ++ p) = true := h5
          rw [isDir_iff_false hn3] at h5
          exact ⟨_, (hloc2 p).symm.trans h7, h5.symm, fun h8 => by rw [h5] at h8; cases h8⟩
      · have h5 := hm.keeps _ hnl hne x ((hrem2 p hu).trans h4)
        rw [hn3] at h5; cases h5
        exact Or.inl h4
  · intro hrdb hfresh
    refine atRest_of_setup ht.wf h.apart hf hlink hsr (by rw [hrdb]; simp) (by rw [hrdb]; simp [ADB.paths])
      (by rw [hrdb]; simp [ADB.paths]) ?_ ?_ ho'.only ho'.wf hdb' hrdb' hs1 hs2 hs3
    · intro p hp hu n hn
      obtain ⟨h0, n', hn', hx⟩ := (hunm p).1 hp
      rw [show (s3.fs.get (env.rem ++ p)) = none from ht.leave p n' ⟨h0, hn', Or.inr hx, hfresh p hu⟩] at hn
      cases hn
    · intro p hu hd n hn
      have hn' : w.os.fs.get (env.loc ++ p) = some n := (ht.loc p).symm.trans hn
      have hn2 : s2.fs.get (env.loc ++ p) = some n := (hloc2 p).trans hn'
      by_cases hpl : p ∈ l
      · have hc := hm.copied p hpl n hn2
        have hd' : s3.fs.isDir (env.rem ++ p) = true := hd
        cases n with
        | dir m b => rfl
        | file c m b =>
          rw [isDir_iff_false (show s3.fs.get (env.rem ++ p) = some (.file c m b) from hc)] at hd'; cases hd'
        | link t m =>
          rw [isDir_iff_false (show s3.fs.get (env.rem ++ p) = some (.link t m) from hc)] at hd'; cases hd'
      · have hd' : s3.fs.isDir (env.rem ++ p) = true := hd
        have hnl : ¬ env.loc <+: env.rem ++ p := by
          rintro ⟨t, ht⟩
          exact h.apart.ne t p ht
        rcases hm.new (env.rem ++ p) hnl (fun p' hp' he => hpl (by rw [List.append_cancel_left he]; exact hp'))
          (by rw [hrem2 p hu]; exact hfresh p hu) with h4 | ⟨_, q, hq, h4⟩
        · unfold FS.isDir at hd'
          rw [h4] at hd'; cases hd'
        · rw [List.prefix_append_right_inj] at h4
          obtain ⟨⟨⟨x, hx⟩, _⟩, _⟩ := hl q hq
          have h5 := wf2.isDir_prefix hx (env.loc ++ p) ((List.prefix_append_right_inj _).2 h4)
            (fun e => hpl (by rw [List.append_cancel_left e]; exact hq))
          rw [isDir_iff_false hn2] at h5
          exact h5
  swap
  · intro p n hu hn hnd hl'
    have hl2 : ∀ x, w.os.fs.get (env.loc ++ p) = some x → OwnExcludes env w.os.fs p ∨ UnsafeLink env.loc p x := by
      intro x hx
      rcases hl' with h1 | ⟨m, h1⟩
      · rw [h1] at hx; cases hx
      · rw [h1] at hx; cases hx; exact Or.inr (unsafeLink_abs _ _ _ _)
    refine ⟨(next _ ho').rem p n hu hn hnd hl2, ?_⟩
    have hs3 := (mid l _ hm.toMoving hl).rem p n hu hn hnd hl2
    rw [ho'.only _ (Ne.symm (hslotn p))]
    by_cases hx : p ∈ un
    · obtain ⟨_, n', hn', _⟩ := (hunm p).1 hx
      rw [(hlink p n hu hs3 hnd).2 hx]
      rcases hl' with h1 | ⟨m, h1⟩
      · rw [h1] at hn'; cases hn'
      · exact ⟨m, by rw [ht.loc]; exact h1⟩
    · exact (hlink p n hu hs3 hnd).1 hx
  have ho := ho'.only
  intro p n hp
  have hu := h.userPath hp.1 hp.2.1
  rw [ho _ (hslotr p hu), h1 p n hp, ho _ (Ne.symm (hslotn p))]
  refine ⟨ht.stored p n hp, ?_⟩
  refine (hlink p n hu (ht.stored p n hp) ?_).1 ?_
  swap
  · intro hx
    obtain ⟨_, n', hn', t, m', h4, _⟩ := (hunm p).1 hx
    obtain ⟨_, h5, ⟨c, m, b, rfl⟩, _⟩ := hp
    rw [h5, h4] at hn'
    cases hn'
  · obtain ⟨_, _, ⟨c, m, b, rfl⟩, _⟩ := hp
    rfl

/-- C44: however the initialisation ends, a regular local file that is not excluded still has its content and
its times, at its local path or at its remote path. -/
theorem C44_kept_partial (h : InitReady env w) {p : Path} {c : Nat} {m : Int} {b : Nat} (hp : p ≠ [])
    (hn : w.os.fs.get (env.loc ++ p) = some (.file c m b)) (hx : ¬ OwnExcludes env w.os.fs p) :
    (init env false w).2.os.fs.get (env.loc ++ p) = some (.file c m b) ∨
      (init env false w).2.os.fs.get (env.rem ++ p) = some (.file c m b) :=
  wp_state (I := fun w' : World => w'.os.fs.get (env.loc ++ p) = some (.file c m b) ∨
      w'.os.fs.get (env.rem ++ p) = some (.file c m b))
    (wp_mono (wp_init h) (fun _ _ h1 => h1.1.stored p _ ⟨hp, hn, ⟨_, _, _, rfl⟩, hx⟩)
      (fun _ _ h1 => h1.1.1.stored p _ ⟨hp, hn, ⟨_, _, _, rfl⟩, hx⟩))

/-- C44: after a success it is in the remote directory and the local path is a link to it. -/
theorem C44_done_partial (h : InitReady env w) {w' : World} (hr : init env false w = (.ok (), w'))
    {p : Path} {c : Nat} {m : Int} {b : Nat} (hp : p ≠ [])
    (hn : w.os.fs.get (env.loc ++ p) = some (.file c m b)) (hx : ¬ OwnExcludes env w.os.fs p) :
    w'.os.fs.get (env.rem ++ p) = some (.file c m b) ∧
      ∃ t m', w'.os.fs.get (env.loc ++ p) = some (.link t m') ∧ FS.linkDest (env.loc ++ p) t = env.rem ++ p := by
  obtain ⟨h1, m', h2⟩ := (wp_ok (wp_init h) hr).1.moved p _ ⟨hp, hn, ⟨_, _, _, rfl⟩, hx⟩
  refine ⟨h1, _, m', h2, FS.linkDest_abs ?_ _⟩
  exact goodPath_append.2 ⟨h.rem_good, (goodPath_append.1 (h.wf.goodPath hn)).2⟩

/-- C53: what is excluded, or an unsafe link, and has no counterpart in the remote directory is not touched. -/
theorem C53_left_partial (h : InitReady env w) {p : Path} {n : Node} (hp : p ≠ [])
    (hn : w.os.fs.get (env.loc ++ p) = some n) (hx : OwnExcludes env w.os.fs p ∨ UnsafeLink env.loc p n)
    (hr : w.os.fs.get (env.rem ++ p) = none) :
    (init env false w).2.os.fs.get (env.loc ++ p) = some n :=
  wp_state (I := fun w' : World => w'.os.fs.get (env.loc ++ p) = some n)
    (wp_mono (wp_init h) (fun _ _ h1 => h1.1.left p _ ⟨hp, hn, hx, hr⟩)
      (fun _ _ h1 => h1.1.1.left p _ ⟨hp, hn, hx, hr⟩))

/-! ### Resuming -/

/-- An initialisation has ended with an error, or has been killed, and the program is started again; any number of
times. -/
inductive Resumed (env : Env) : World → World → Prop
  | start (w : World) : Resumed env w w
  | again {w w' : World} (fuel : Nat) : Resumed env w w' → (∀ u, (init env false w').1 ≠ .ok u) →
      Resumed env w ((init env false w').2.restart fuel)

theorem InitReady.next (h : InitReady env w) (hxl : ¬ env.loc <+: env.excl) (hxr : ¬ env.rem <+: env.excl)
    {w' : World} (hn : InitNext env w.os.fs w'.os.fs) (hdb : w'.dbSaved = w.dbSaved) (fuel : Nat) :
    InitReady env (w'.restart fuel) := by
  have hfs : (w'.restart fuel).os.fs = w'.os.fs := rfl
  obtain ⟨k, m, b, hk⟩ := h.excl
  have hk' := hn.out _ _ hxl hxr hk
  have hst := FS.stat_nonlink (h.wf.pathErr hk) hk rfl
  have hst' := FS.stat_nonlink (hn.wf.pathErr hk') hk' rfl
  have hown : ∀ p n n', w.os.fs.get (env.loc ++ p) = some n → w'.os.fs.get (env.loc ++ p) = some n' →
      OwnExcludes env w.os.fs p → OwnExcludes env w'.os.fs p := by
    rintro p n n' h1 h2 ⟨q, k', m', b', h3, h4, _, h5⟩
    rw [hst] at h3
    cases h3
    exact ⟨_, _, _, _, hst', h4, ⟨n', h2⟩, h5⟩
  refine ⟨hn.wf, h.apart, ?_, h.rem_good, h.id_good, ⟨k, m, b, hk'⟩, hn.slot, ?_, ?_, rfl, rfl, rfl,
    by rw [← h.saved]; exact hdb, by rw [← h.saved]; exact hdb⟩
  · have := hn.loc []
    simp only [List.append_nil] at this
    rcases this with h1 | ⟨h1, _⟩
    · rw [hfs, FS.isDir_congr h1]; exact h.loc_dir
    · exact absurd rfl h1.1
  · rcases hn.loc [Env.utilName] with h1 | ⟨h1, _⟩
    · rw [hfs, h1]; exact h.no_util
    · exact absurd rfl h1.2
  · intro p n h0 hpn hx hu
    rw [hfs] at hpn hx ⊢
    rcases hn.loc p with h1 | ⟨h1, n', h2, h3⟩
    · rw [hpn] at h1
      refine hn.clean p n h0 h1.symm (fun h4 => hx (hown p n n h1.symm hpn h4)) hu hpn
    · rcases h3 with ⟨h3, h4 | ⟨m, h4⟩⟩ | ⟨h3, h4⟩
      · rw [hpn] at h4; cases h4
      · rw [hpn] at h4
        cases h4
        exact absurd (unsafeLink_abs _ _ _ _) hu
      · unfold Clean
        rw [h2]
        cases n' with
        | dir m b => exact h4
        | file c m b => cases h3
        | link t m => cases h3

/-- Where a file is while an initialisation is being resumed. -/
def Placed (env : Env) (fs : FS) (p : Path) (n : Node) : Prop :=
  (fs.get (env.loc ++ p) = some n ∧ ¬ OwnExcludes env fs p) ∨
  (fs.get (env.rem ++ p) = some n ∧
    (fs.get (env.loc ++ p) = none ∨ ∃ m, fs.get (env.loc ++ p) = some (.link (absStr (env.rem ++ p)) m)))

theorem Placed.next (h : InitReady env w) (hxl : ¬ env.loc <+: env.excl) (hxr : ¬ env.rem <+: env.excl)
    {fs' : FS} (hk : InitKept env w.os.fs fs') (hn : InitNext env w.os.fs fs')
    {p : Path} (hu : UserPath p) {n : Node} (hf : ∃ c m b, n = .file c m b) (hp : Placed env w.os.fs p n) :
    Placed env fs' p n := by
  have hnd : n.isDir = false := by obtain ⟨c, m, b, rfl⟩ := hf; rfl
  obtain ⟨k, m, b, hk1⟩ := h.excl
  have hk' := hn.out _ _ hxl hxr hk1
  have hst := FS.stat_nonlink (h.wf.pathErr hk1) hk1 rfl
  have hst' := FS.stat_nonlink (hn.wf.pathErr hk') hk' rfl
  have hown : w.os.fs.get (env.loc ++ p) = some n → ¬ OwnExcludes env w.os.fs p → ¬ OwnExcludes env fs' p := by
    rintro hl h1 ⟨q, k', m', b', h3, h4, _, h5⟩
    rw [hst'] at h3
    cases h3
    exact h1 ⟨_, _, _, _, hst, h4, ⟨n, hl⟩, h5⟩
  rcases hp with ⟨h1, h2⟩ | ⟨h1, h2⟩
  · rcases hn.loc p with h3 | ⟨_, n', h3, h4⟩
    · exact Or.inl ⟨by rw [h3]; exact h1, hown h1 h2⟩
    · rcases hk.stored p n ⟨hu.1, h1, hf, h2⟩ with h5 | h5
      · exact Or.inl ⟨h5, hown h1 h2⟩
      · rw [h5] at h3
        cases h3
        rcases h4 with ⟨_, h4⟩ | ⟨h4, _⟩
        · exact Or.inr ⟨h5, h4⟩
        · rw [hnd] at h4; cases h4
  · right
    have h2' : ∀ x, w.os.fs.get (env.loc ++ p) = some x → OwnExcludes env w.os.fs p ∨ UnsafeLink env.loc p x := by
      intro x hx
      rcases h2 with h2 | ⟨m, h2⟩
      · rw [h2] at hx; cases hx
      · rw [h2] at hx; cases hx; exact Or.inr (unsafeLink_abs _ _ _ _)
    have h3 := hn.rem p n hu h1 hnd h2'
    refine ⟨h3, ?_⟩
    rcases hn.loc p with h4 | ⟨_, n', h4, h5⟩
    · rw [h4]; exact h2
    · rw [h3] at h4
      cases h4
      rcases h5 with ⟨_, h5⟩ | ⟨h5, _⟩
      · exact h5
      · rw [hnd] at h5; cases h5

theorem Resumed.inv {w' : World} (hr : Resumed env w w') (h : InitReady env w) (hxl : ¬ env.loc <+: env.excl)
    (hxr : ¬ env.rem <+: env.excl) {p : Path} (hu : UserPath p) {n : Node} (hf : ∃ c m b, n = .file c m b)
    (hp : Placed env w.os.fs p n) : InitReady env w' ∧ Placed env w'.os.fs p n := by
  induction hr with
  | start => exact ⟨h, hp⟩
  | again fuel _ hfail ih =>
    rename_i w2 hr
    obtain ⟨ih1, ih2⟩ := ih
    have hwp := wp_init ih1
    unfold wp at hwp
    rcases hi : init env false w2 with ⟨r, w3⟩
    rw [hi] at hwp hfail
    cases r with
    | ok u => exact absurd rfl (hfail u)
    | error e =>
      obtain ⟨⟨h1, h2⟩, h3⟩ := hwp
      exact ⟨ih1.next hxl hxr h2 h3 fuel, ih2.next ih1 hxl hxr h1 h2 hu hf⟩

/-- C44 for a resumed initialisation: after any number of failed or killed runs, each started from what the one
before has left, a regular local file that was not excluded is at its local or at its remote path; and if a run
succeeds, it is in the remote directory and the local path is a link to it. -/
theorem C44_resumed_partial (h : InitReady env w) (hxl : ¬ env.loc <+: env.excl) (hxr : ¬ env.rem <+: env.excl)
    {w' : World} (hr : Resumed env w w') {p : Path} {c : Nat} {m : Int} {b : Nat} (hp : p ≠ [])
    (hn : w.os.fs.get (env.loc ++ p) = some (.file c m b)) (hx : ¬ OwnExcludes env w.os.fs p) :
    (w'.os.fs.get (env.loc ++ p) = some (.file c m b) ∨ w'.os.fs.get (env.rem ++ p) = some (.file c m b)) ∧
    ∀ w'', init env false w' = (.ok (), w'') → w''.os.fs.get (env.rem ++ p) = some (.file c m b) ∧
      ∃ t m', w''.os.fs.get (env.loc ++ p) = some (.link t m') ∧ FS.linkDest (env.loc ++ p) t = env.rem ++ p := by
  have hu := h.userPath hp hn
  have hf : ∃ c' m' b', Node.file c m b = .file c' m' b' := ⟨_, _, _, rfl⟩
  obtain ⟨h1, h2⟩ := hr.inv h hxl hxr hu hf (Or.inl ⟨hn, hx⟩)
  have hg : GoodPath (env.rem ++ p) := goodPath_append.2 ⟨h.rem_good, (goodPath_append.1 (h.wf.goodPath hn)).2⟩
  refine ⟨h2.imp And.left And.left, ?_⟩
  intro w'' hi
  have hd := (wp_ok (wp_init h1) hi).1
  rcases h2 with ⟨h3, h4⟩ | ⟨h3, h4⟩
  · obtain ⟨h5, m', h6⟩ := hd.moved p _ ⟨hp, h3, hf, h4⟩
    exact ⟨h5, _, m', h6, FS.linkDest_abs hg _⟩
  · obtain ⟨h5, m', h6⟩ := hd.resumed p _ hu h3 rfl h4
    exact ⟨h5, _, m', h6, FS.linkDest_abs hg _⟩

/-! ### Examples -/

/-- `/l` with `d/a`, the excluded `d/e`, `b` and an unsafe link `k`; there is no remote directory yet. -/
def exInitFS : FS :=
  [(["x".toList], .file 1 1 1), (["l".toList], .dir 1 8), (["l".toList, "d".toList], .dir 2 8),
    (["l".toList, "d".toList, "a".toList], .file 7 3 1), (["l".toList, "d".toList, "e".toList], .file 8 3 1),
    (["l".toList, "b".toList], .file 9 4 1), (["l".toList, "k".toList], .link "/q".toList 4)]

def exInit (fuel : Nat) : World :=
  { exWorld exEnvE [] [] [] fuel with os := ⟨exInitFS, fuel, 0, fun n => n + 50⟩ }

theorem exInit_ready (fuel : Nat) : InitReady exEnvE (exInit fuel) where
  wf := (⟨by decide +kernel, by decide +kernel, by decide +kernel, by decide +kernel⟩ : exInitFS.WF)
  apart := by unfold Apart; decide +kernel
  loc_dir := (by decide +kernel : exInitFS.isDir exEnvE.loc = true)
  rem_good := by decide +kernel
  id_good := by decide +kernel
  excl := ⟨1, 1, 1, (by decide +kernel : exInitFS.get exEnvE.excl = some (.file 1 1 1))⟩
  slot n hn := by
    have : exInitFS.get (exEnvE.exclDir ++ [exEnvE.id]) = none := by decide +kernel
    have hn : exInitFS.get (exEnvE.exclDir ++ [exEnvE.id]) = some n := hn
    rw [this] at hn; cases hn
  no_util := (by decide +kernel : exInitFS.get (exEnvE.loc ++ [Env.utilName]) = none)
  clean p n _ _ _ _ := clean_of_none (by
    change exInitFS.get (exEnvE.rem ++ p) = none
    rcases Option.eq_none_or_eq_some (exInitFS.get (exEnvE.rem ++ p)) with h | ⟨n, h⟩
    · exact h
    · have hm := FS.mem_of_get (by simp [exEnvE]) h
      simp [exInitFS, exEnvE] at hm)
  lmemo := rfl
  rmemo := rfl
  fresh := rfl
  rows := rfl
  saved := rfl

example : ¬ exEnvE.loc <+: exEnvE.excl ∧ ¬ exEnvE.rem <+: exEnvE.excl := by decide +kernel

/-- The whole initialisation. -/
example : (init exEnvE false (exInit 100)).1 = .ok () ∧
    (init exEnvE false (exInit 100)).2.os.fs.get ["r".toList, "d".toList, "a".toList] = some (.file 7 3 1) ∧
    (∃ m, (init exEnvE false (exInit 100)).2.os.fs.get ["l".toList, "d".toList, "a".toList] =
      some (.link "/r/d/a".toList m)) ∧
    (init exEnvE false (exInit 100)).2.os.fs.get ["l".toList, "d".toList, "e".toList] = some (.file 8 3 1) :=
  ⟨by decide +kernel, by decide +kernel, ⟨72, by decide +kernel⟩, by decide +kernel⟩

/-- Killed between removing `b` and making the link. -/
example : (init exEnvE false (exInit 19)).1 = .error .killed ∧
    (init exEnvE false (exInit 19)).2.os.fs.get ["l".toList, "b".toList] = none ∧
    (init exEnvE false (exInit 19)).2.os.fs.get ["r".toList, "b".toList] = some (.file 9 4 1) := by decide +kernel

/-- Then it is started again. -/
example : Resumed exEnvE (exInit 19) ((init exEnvE false (exInit 19)).2.restart 100) ∧
    (init exEnvE false ((init exEnvE false (exInit 19)).2.restart 100)).1 = .ok () := by
  refine ⟨.again 100 (.start _) ?_, by decide +kernel⟩
  have : (init exEnvE false (exInit 19)).1 = .error .killed := by decide +kernel
  intro u h
  rw [this] at h
  cases h

/-- `p` of the remote directory is a link to the remote `x`. The remote directory of a new profile is empty, but it
is not looked at again when an initialisation is resumed. -/
def exInitLoss : World := exWorld exEnvE
  [(["l".toList, "p".toList], .file 7 3 1), (["l".toList, "x".toList], .file 9 4 1),
    (["r".toList, "p".toList], .link "x".toList 1)] [] [] 100

/-- C44 in full is false: a resumed initialisation copies `p` through a link in the remote directory over the copy of
`x` it has made before; the content of `x` is in no file any more. -/
theorem C44_unclean_fails :
    exInitLoss.os.fs.get ["l".toList, "x".toList] = some (.file 9 4 1) ∧
    (init exEnvE false exInitLoss).1 = .ok () ∧
    (∀ e ∈ (init exEnvE false exInitLoss).2.os.fs, ∀ m b, e.2 ≠ .file 9 m b) := by
  refine ⟨by decide +kernel, by decide +kernel, ?_⟩
  have h : (init exEnvE false exInitLoss).2.os.fs.all
      (fun e => match e.2 with | .file c _ _ => c != 9 | _ => true) = true := by decide +kernel
  intro e he m b hc
  have := List.all_eq_true.1 h e he
  rw [hc] at this
  simp at this

/-- The excluded `e` is in both directories. -/
def exInitExcl : World := exWorld exEnvE
  [(["l".toList, "e".toList], .file 7 3 1), (["r".toList, "e".toList], .file 9 4 1)] [] [] 100

/-- C53 in full is false: a resumed initialisation replaces an excluded local file by a link if the remote directory
has something at its path; the content is in no file any more. -/
theorem C53_both_fails :
    exInitExcl.os.fs.get ["l".toList, "e".toList] = some (.file 7 3 1) ∧
    (init exEnvE false exInitExcl).1 = .ok () ∧
    (∀ e ∈ (init exEnvE false exInitExcl).2.os.fs, ∀ m b, e.2 ≠ .file 7 m b) := by
  refine ⟨by decide +kernel, by decide +kernel, ?_⟩
  have h : (init exEnvE false exInitExcl).2.os.fs.all
      (fun e => match e.2 with | .file c _ _ => c != 7 | _ => true) = true := by decide +kernel
  intro e he m b hc
  have := List.all_eq_true.1 h e he
  rw [hc] at this
  simp at this

end
end Verif
