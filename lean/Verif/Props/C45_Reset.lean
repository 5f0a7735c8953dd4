import Verif.ResetLemmas
import Verif.Props.C21_Trash
import Verif.ExampleWorlds
import Verif.ExampleTools
/-
C45: a reset retrieves every file before clearing the remote directory.
C54: a reset does not destroy a local file.
C55: a reset that has been interrupted can be run again.

What the theorems assume beyond the claim: neither directory is in the other, both and the util directory exist,
and where the local directory has something at the path of a file that is to be retrieved, it is clean in the
sense of C27 (a regular file, a directory over a directory, the link to the remote file or a link over a link).
-/
namespace Verif
open Prog OSM Call FSTools WM

/-- The state in which a reset starts. -/
structure ResetReady (env : Env) (w : World) : Prop where
  wf : w.os.fs.WF
  apart : Apart env.loc env.rem
  order : ∀ l, (env.order l).Perm l
  loc_dir : w.os.fs.isDir env.loc = true
  util_dir : w.os.fs.isDir env.util = true
  rows : ∀ f ∈ ADB.paths w.rdb, UserPath f ∧ NoFileAbove w.os.fs env.rem f
  clean : ∀ p, Listed w.os.fs env.rem (some (ADB.paths w.rdb)) p → ∀ q, q <+: p →
    Clean w.os.fs (env.rem ++ q) (env.loc ++ q)
  lmemo : w.lmemo = []
  rmemo : w.rmemo = []

/-- What holds however it ends. -/
structure ResetKept (env : Env) (keep : Bool) (rows : List Path) (fs fs' : FS) : Prop where
  wf : fs'.WF
  loc_dir : fs'.isDir env.loc = true
  clean : ∀ p, Listed fs env.rem (some rows) p → ∀ q, q <+: p → fs'.get (env.rem ++ q) = fs.get (env.rem ++ q) →
    Clean fs' (env.rem ++ q) (env.loc ++ q)
  stored : ∀ p c m b, UserPath p → fs.get (env.rem ++ p) = some (.file c m b) →
    fs'.get (env.loc ++ p) = some (.file c m b) ∨ fs'.get (env.rem ++ p) = some (.file c m b)
  unlisted : ∀ p n, UserPath p → fs.get (env.rem ++ p) = some n → n.isDir = false →
    ¬ Listed fs env.rem (some rows) p → fs'.get (env.rem ++ p) = some n
  kept : keep = true → ∀ q, env.rem <+: q → q ≠ env.exclDir ++ [env.id] → fs'.get q = fs.get q
  loc : ∀ p n, fs.get (env.loc ++ p) = some n → n.isLink = false → ¬ Listed fs env.rem (some rows) p →
    fs'.get (env.loc ++ p) = some n
  dirs : ∀ p, fs.isDir (env.loc ++ p) = true → fs'.get (env.loc ++ p) = fs.get (env.loc ++ p)
  rem : ∀ q, env.rem <+: q → fs'.get q = fs.get q ∨ fs'.get q = none
  out : ∀ q, ¬ env.loc <+: q → ¬ env.rem <+: q → fs'.get q = fs.get q

theorem ResetKept.refl {env : Env} {w : World} (h : ResetReady env w) (keep : Bool) :
    ResetKept env keep (ADB.paths w.rdb) w.os.fs w.os.fs :=
  ⟨h.wf, h.loc_dir, fun p hp q hq _ => h.clean p hp q hq, fun _ _ _ _ _ h => Or.inr h, fun _ _ _ h _ _ => h, fun _ _ _ _ => rfl, fun _ _ h _ _ => h, fun _ _ => rfl,
    fun _ _ => Or.inl rfl, fun _ _ _ => rfl⟩

/-- What the last steps of a reset do. -/
structure ResetTail (env : Env) (fs fs' : FS) : Prop where
  wf : fs.WF → fs'.WF
  out : ∀ q, ¬ env.loc <+: q → q ≠ env.exclDir ++ [env.id] → fs'.get q = fs.get q
  keeps : ∀ q n, fs.get q = some n → n.isLink = false → q ≠ env.exclDir ++ [env.id] → fs'.get q = some n
  gone : ∀ q, fs'.get q = fs.get q ∨ fs'.get q = none

theorem ResetTail.of {env : Env} {a b c : FS} (h1 : Unlinked env a b)
    (h2 : Shrink (· = env.exclDir ++ [env.id]) b c) : ResetTail env a c where
  wf := fun w => h2.wf (h1.shrink.wf w)
  out := fun q hq hs => (h2.keeps q hs).trans (h1.shrink.keeps q hq)
  keeps := fun q n hq hl hs => (h2.keeps q hs).trans (h1.keeps q n hq hl)
  gone := fun q => by
    rcases h2.gone q with h | h
    · rw [h]; exact h1.shrink.gone q
    · exact Or.inr h

theorem exclSlot_eq (env : Env) : env.exclDir ++ [env.id] = env.util ++ (["exclude".toList] ++ [env.id]) := by
  unfold Env.exclDir; simp

theorem user_ne_slot {env : Env} {p : Path} (h : UserPath p) : env.rem ++ p ≠ env.exclDir ++ [env.id] := by
  rw [exclSlot_eq]
  have := (h.apart env (q := ["exclude".toList] ++ [env.id])).ne [] []
  simpa using this

theorem rem_prefix_slot (env : Env) : env.rem <+: env.exclDir ++ [env.id] := by
  unfold Env.exclDir Env.util
  rw [List.append_assoc, List.append_assoc]
  exact List.prefix_append _ _

theorem loc_ne_slot {env : Env} (h : Apart env.loc env.rem) (p : Path) : env.loc ++ p ≠ env.exclDir ++ [env.id] := by
  obtain ⟨t, ht⟩ := rem_prefix_slot env
  rw [← ht]
  exact h.ne _ _

theorem loc_not_rem {env : Env} (h : Apart env.loc env.rem) {q : Path} (hq : env.rem <+: q) : ¬ env.loc <+: q := by
  obtain ⟨t, rfl⟩ := hq
  have := h.not_prefix [] t
  simpa using this

theorem ResetKept.tail {env : Env} {keep : Bool} {rows : List Path} {a b c : FS} (ha : Apart env.loc env.rem)
    (hu : ∀ f ∈ rows, UserPath f) (h1 : ResetKept env keep rows a b) (h2 : ResetTail env b c) : ResetKept env keep rows a c where
  wf := h2.wf h1.wf
  loc_dir := by
    obtain ⟨m, b, hg⟩ := FS.isDir_iff.1 h1.loc_dir
    have := h2.keeps _ _ hg rfl (by simpa using loc_ne_slot ha [])
    rw [isDir_iff_false this]; rfl
  clean := by
    intro p hp q hq hs
    have hq' : env.rem ++ q ≠ env.exclDir ++ [env.id] := by
      obtain ⟨_, _, f, hf, hpre⟩ := hp
      rintro he
      rw [exclSlot_eq] at he
      unfold Env.util at he
      rw [List.append_assoc, List.append_cancel_left_eq] at he
      subst he
      obtain ⟨hu1, hu2⟩ := hu f hf
      cases f with
      | nil => exact hu1 rfl
      | cons x t =>
        obtain ⟨r1, hr1⟩ := hq
        obtain ⟨r2, hr2⟩ := hpre
        rw [← hr1] at hr2
        simp only [List.cons_append, List.nil_append, List.append_assoc, List.cons.injEq] at hr2
        exact hu2 (by simp [hr2.1])
    have hsrc := h2.out _ (loc_not_rem ha (List.prefix_append env.rem q)) hq'
    have hc := h1.clean p hp q hq (hsrc.symm.trans hs)
    rcases h2.gone (env.loc ++ q) with h3 | h3
    · exact hc.congr hsrc h3
    · exact clean_of_none h3
  stored := by
    intro p k m s hu hg
    rcases h1.stored p k m s hu hg with h | h
    · exact Or.inl (h2.keeps _ _ h rfl (loc_ne_slot ha p))
    · exact Or.inr (h2.keeps _ _ h rfl (user_ne_slot hu))
  unlisted := by
    intro p n hu hg hd hx
    rw [h2.out _ (loc_not_rem ha (List.prefix_append _ _)) (user_ne_slot hu)]
    exact h1.unlisted p n hu hg hd hx
  kept := by
    intro hk q hq hs
    rw [h2.out q (loc_not_rem ha hq) hs]
    exact h1.kept hk q hq hs
  loc := fun p n hg hl hx => h2.keeps _ _ (h1.loc p n hg hl hx) hl (loc_ne_slot ha p)
  dirs := by
    intro p hd
    obtain ⟨m, b, hg⟩ := FS.isDir_iff.1 hd
    rw [hg]
    exact h2.keeps _ _ ((h1.dirs p hd).trans hg) rfl (loc_ne_slot ha p)
  rem := by
    intro q hq
    rcases h2.gone q with h3 | h3
    · rw [h3]; exact h1.rem q hq
    · exact Or.inr h3
  out := by
    intro q hl hr
    rw [h2.out q hl (by rintro rfl; exact hr (rem_prefix_slot env))]
    exact h1.out q hl hr

/-- What is in the local directory has been there before, or in the remote directory. -/
def Origin (env : Env) (fs fs' : FS) : Prop :=
  ∀ p n, fs'.get (env.loc ++ p) = some n → fs.get (env.loc ++ p) = some n ∨
    (UserPath p ∧ ∃ x, fs.get (env.rem ++ p) = some x ∧ x.isDir = n.isDir ∧ (n.isDir = false → x = n))

/-- What holds when a reset has succeeded. -/
structure ResetDone (env : Env) (keep noRetrieve : Bool) (rows : List Path) (fs fs' : FS) : Prop where
  present : noRetrieve = false → ∀ f ∈ rows, ∃ n, fs.get (env.rem ++ f) = some n
  retrieved : noRetrieve = false → ∀ p c m b, Listed fs env.rem (some rows) p →
    fs.get (env.rem ++ p) = some (.file c m b) → fs'.get (env.loc ++ p) = some (.file c m b)
  cleared : noRetrieve = false → keep = false → ∀ p, p ≠ [] → fs'.get (env.rem ++ p) = none
  links : GoodPath env.rem → ∀ p q m, p ≠ [] → GoodPath q →
    fs'.get (env.loc ++ p) ≠ some (.link (absStr (env.rem ++ q)) m)
  origin : Origin env fs fs'

variable {env : Env} {w : World}

/-- While the files are retrieved. -/
theorem ResetKept.moving (h : ResetReady env w) {keep : Bool} {l : List Path} {fs' : FS}
    (hm : Moving env.rem env.loc (!keep) w.os.fs l fs')
    (hl : ∀ p ∈ l, Listed w.os.fs env.rem (some (ADB.paths w.rdb)) p) :
    ResetKept env keep (ADB.paths w.rdb) w.os.fs fs' where
  wf := hm.wf
  loc_dir := by rw [FS.isDir_congr (hm.ddir _ h.apart.2 h.loc_dir)]; exact h.loc_dir
  clean := by
    intro p hp q hq hs
    by_cases hql : q ∈ l
    · exact hm.dst q hql hs
    have hc := h.clean p hp q hq
    have hnr : ¬ env.rem <+: env.loc ++ q := by simpa using h.apart.symm.not_prefix [] q
    have hne : ∀ p ∈ l, env.loc ++ q ≠ env.loc ++ p := by
      intro x hx he
      rw [List.append_cancel_left_eq] at he
      subst he
      exact hql hx
    rcases Option.eq_none_or_eq_some (w.os.fs.get (env.loc ++ q)) with hn | ⟨n, hn⟩
    · rcases hm.new _ hnr hne hn with h1 | ⟨h1, x, hx, h2⟩
      · exact clean_of_none h1
      · rw [List.prefix_append_right_inj] at h2
        obtain ⟨n', h3, h4⟩ := (hl x hx).some h.wf h2
        have h5 := h4 (by rintro rfl; exact hql hx)
        obtain ⟨m, b, h6⟩ := FS.isDir_iff.1 h1
        unfold Clean
        rw [h6]
        show fs'.isDir _ = true
        rw [isDir_iff_false (hs.trans h3)]
        exact h5
    · exact hc.congr hs ((hm.keeps _ hnr hne n hn).trans hn.symm)
  stored := by
    intro p c m b _ hg
    rcases hm.src p with h1 | ⟨_, _, _, h2⟩
    · exact Or.inr (h1.trans hg)
    · exact Or.inl (h2 _ hg)
  unlisted := by
    intro p n _ hg _ hx
    rcases hm.src p with h1 | ⟨_, h2, _⟩
    · exact h1.trans hg
    · exact absurd (hl p h2) hx
  kept := by
    rintro rfl q ⟨t, rfl⟩ _
    rcases hm.src t with h1 | ⟨h1, _⟩
    · exact h1
    · cases h1
  loc := by
    intro p n hg _ hx
    refine hm.keeps _ (by simpa using h.apart.symm.not_prefix [] p) ?_ n hg
    intro x hx' he
    rw [List.append_cancel_left_eq] at he
    subst he
    exact hx (hl p hx')
  dirs := fun p hd => hm.ddir _ (by simpa using h.apart.symm.not_prefix [] p) hd
  rem := by
    rintro q ⟨t, rfl⟩
    rcases hm.src t with h1 | ⟨_, _, h1, _⟩
    · exact Or.inl h1
    · exact Or.inr h1
  out := by
    intro q hq hr
    have hne : ∀ p ∈ l, q ≠ env.loc ++ p := by rintro p _ rfl; exact hq (List.prefix_append _ _)
    rcases Option.eq_none_or_eq_some (w.os.fs.get q) with hn | ⟨n, hn⟩
    · rcases hm.new q hr hne hn with h1 | ⟨_, p, _, h1⟩
      · rw [h1, hn]
      · exfalso
        rcases List.prefix_or_prefix_of_prefix h1 (List.prefix_append env.loc p) with h2 | h2
        · obtain ⟨m, b, hg⟩ := FS.isDir_iff.1 h.loc_dir
          have : q ≠ env.loc := by rintro rfl; exact hq (List.prefix_refl _)
          obtain ⟨m', b', h3⟩ := FS.isDir_iff.1 (h.wf.isDir_prefix hg q h2 this)
          rw [hn] at h3; cases h3
        · exact hq h2
    · rw [hm.keeps q hr hne n hn, hn]

/-- Clearing the remote directory after everything has been retrieved. -/
theorem ResetKept.cleared (ha : Apart env.loc env.rem) {rows : List Path} {fs a b : FS} (wf : fs.WF)
    (h : ResetKept env false rows fs a)
    (hs : Shrink (fun q => env.rem <+: q ∧ env.rem ≠ q) a b)
    (hd : ∀ p n, UserPath p → a.get (env.rem ++ p) = some n → n.isDir = true) :
    ResetKept env false rows fs b where
  wf := hs.wf h.wf
  loc_dir := by
    rw [FS.isDir_congr (hs.keeps _ (fun h2 => ha.2 h2.1))]; exact h.loc_dir
  clean := by
    intro p hp q hq he
    obtain ⟨n, hn, _⟩ := hp.some wf hq
    have hd : b.get (env.loc ++ q) = a.get (env.loc ++ q) :=
      hs.keeps _ (fun h2 => ha.symm.not_prefix [] q (by simpa using h2.1))
    rcases hs.gone (env.rem ++ q) with h3 | h3
    · exact (h.clean p hp q hq (h3.symm.trans he)).congr h3 hd
    · rw [he, hn] at h3; cases h3
  stored := by
    intro p c m k hu hg
    rcases h.stored p c m k hu hg with h1 | h1
    · refine Or.inl ?_
      rw [hs.keeps _ ?_]
      · exact h1
      · rintro ⟨h2, _⟩
        exact ha.symm.not_prefix [] p (by simpa using h2)
    · have := hd p _ hu h1
      cases this
  unlisted := by
    intro p n hu hg hnd hx
    have := hd p n hu (h.unlisted p n hu hg hnd hx)
    rw [hnd] at this; cases this
  kept := fun hk => by cases hk
  loc := by
    intro p n hg hl hx
    rw [hs.keeps _ ?_]
    · exact h.loc p n hg hl hx
    · rintro ⟨h2, _⟩
      exact ha.symm.not_prefix [] p (by simpa using h2)
  dirs := by
    intro p hd
    rw [hs.keeps _ ?_]
    · exact h.dirs p hd
    · rintro ⟨h2, _⟩
      exact ha.symm.not_prefix [] p (by simpa using h2)
  rem := by
    intro q hq
    rcases hs.gone q with h3 | h3
    · rw [h3]; exact h.rem q hq
    · exact Or.inr h3
  out := by
    intro q hl hr
    rw [hs.keeps q (fun h2 => hr h2.1)]
    exact h.out q hl hr

theorem wp_resetTail (ha : Apart env.loc env.rem) (wf : w.os.fs.WF) (hm : w.lmemo = []) :
    wp (resetTail env)
      (fun _ w' => ResetTail env w.os.fs w'.os.fs ∧ w'.rdbSaved = w.rdbSaved ∧ (GoodPath env.rem → ∀ p q m, p ≠ [] → GoodPath q →
        w'.os.fs.get (env.loc ++ p) ≠ some (.link (absStr (env.rem ++ q)) m)))
      (fun _ w' => ResetTail env w.os.fs w'.os.fs ∧ w'.rdbSaved = w.rdbSaved) w := by
  unfold resetTail
  rw [wp_bind]
  apply wp_scanLocal
  · intro h; exact absurd hm h
  swap
  · intro e; exact ⟨ResetTail.of (Unlinked.refl _ _) (Shrink.refl _ _), rfl⟩
  intro _
  rw [wp_bind, wp_sys]
  refine wp_mono (wp_unlinkAll (env := env) wf _) ?_ ?_
  swap
  · intro e s' h1; exact ⟨ResetTail.of h1 (Shrink.refl _ _), rfl⟩
  rintro _ s1 ⟨h1, h2⟩
  rw [wp_sys]
  refine wp_mono (wp_rmExcludeFile _) ?_ ?_
  swap
  · intro e s' h3; exact ⟨ResetTail.of h1 h3, rfl⟩
  intro _ s2 h3
  refine ⟨ResetTail.of h1 h3, rfl, ?_⟩
  intro hr p q m hp hq hg
  have hg1 : s1.fs.get (env.loc ++ p) = _ := h3.some hg
  have hg0 : w.os.fs.get (env.loc ++ p) = _ := h1.shrink.some hg1
  have hin : p ∈ ((w.os.fs.below env.loc).filter (fun e => e.2.isLink)).map Prod.fst := by
    rw [List.mem_map]
    exact ⟨(p, _), List.mem_filter.2 ⟨FS.mem_below.2 ⟨FS.mem_of_get (by simp [hp]) hg0, hp⟩, rfl⟩, rfl⟩
  have := h2 p hin _ _ hg1
  rw [pointsToRemote_abs hr hq] at this
  cases this

theorem origin_of_moved (ha : Apart env.loc env.rem) {fs fs' : FS} (wf : fs.WF) {l rows : List Path} {rm : Bool}
    (hm : Moved env.rem env.loc rm fs l fs') (hl : ∀ p ∈ l, Listed fs env.rem (some rows) p)
    (hd : fs.isDir env.loc = true) (hu : ∀ f ∈ rows, UserPath f) : Origin env fs fs' := by
  have huser : ∀ {q p}, q ∈ l → p <+: q → p ≠ [] → UserPath p := by
    intro q p hq hp h0
    obtain ⟨_, _, f, hf, hfq⟩ := hl q hq
    obtain ⟨h1, h2⟩ := hu f hf
    refine ⟨h0, ?_⟩
    obtain ⟨a, rfl⟩ := hp
    obtain ⟨b, hb⟩ := hfq
    cases p with
    | nil => exact absurd rfl h0
    | cons c p =>
      cases f with
      | nil => exact absurd rfl h1
      | cons d f =>
        simp only [List.cons_append, List.cons.injEq] at hb
        simpa [hb.1] using h2
  intro p n hn
  have hnr : ¬ env.rem <+: env.loc ++ p := by simpa using ha.symm.not_prefix [] p
  by_cases hpl : p ∈ l
  · right
    obtain ⟨⟨x, hx⟩, _⟩ := hl p hpl
    have hc := hm.copied p hpl x hx
    refine ⟨huser hpl (List.prefix_refl _) (hl p hpl).2.1, x, hx, ?_⟩
    unfold Copied at hc
    cases x with
    | dir m b =>
      dsimp only at hc
      rw [isDir_iff_false hn] at hc
      exact ⟨hc.symm, fun h1 => by rw [hc] at h1; cases h1⟩
    | file c m b => dsimp only at hc; rw [hc] at hn; cases hn; exact ⟨rfl, fun _ => rfl⟩
    | link t m => dsimp only at hc; rw [hc] at hn; cases hn; exact ⟨rfl, fun _ => rfl⟩
  · have hne : ∀ p' ∈ l, env.loc ++ p ≠ env.loc ++ p' :=
      fun p' hp' he => hpl (by rw [List.append_cancel_left he]; exact hp')
    rcases Option.eq_none_or_eq_some (fs.get (env.loc ++ p)) with h1 | ⟨x, h1⟩
    · rcases hm.new _ hnr hne h1 with h2 | ⟨h2, q, hq, h3⟩
      · rw [hn] at h2; cases h2
      · right
        rw [List.prefix_append_right_inj] at h3
        obtain ⟨y, h4, h5⟩ := (hl q hq).some wf h3
        have h6 := h5 (by rintro rfl; exact hpl hq)
        rw [isDir_iff_false hn] at h2
        refine ⟨huser hq h3 ?_, y, h4, by rw [h6, h2], fun h7 => by rw [h2] at h7; cases h7⟩
        rintro rfl
        obtain ⟨_, _, h8⟩ := FS.isDir_iff.1 hd
        rw [List.append_nil, h8] at h1; cases h1
    · left
      have := hm.keeps _ hnr hne x h1
      rw [hn] at this; cases this
      exact h1

theorem wp_resetGet (h : ResetReady env w) (keep nor : Bool) :
    wp (resetGet env keep nor)
      (fun _ w' => w'.rdbSaved = w.rdbSaved ∧ w'.lmemo = [] ∧
        ResetKept env (keep || nor) (ADB.paths w.rdb) w.os.fs w'.os.fs ∧
        (nor = false → ∀ f ∈ ADB.paths w.rdb, ∃ n, w.os.fs.get (env.rem ++ f) = some n) ∧
        (nor = false → ∀ p c m b, Listed w.os.fs env.rem (some (ADB.paths w.rdb)) p →
          w.os.fs.get (env.rem ++ p) = some (.file c m b) → w'.os.fs.get (env.loc ++ p) = some (.file c m b)) ∧
        (nor = false → keep = false → ∀ p, p ≠ [] → w'.os.fs.get (env.rem ++ p) = none) ∧
        Origin env w.os.fs w'.os.fs)
      (fun _ w' => w'.rdbSaved = w.rdbSaved ∧ ResetKept env (keep || nor) (ADB.paths w.rdb) w.os.fs w'.os.fs) w := by
  unfold resetGet
  cases nor with
  | true =>
    simp only [if_true]
    rw [wp_pure]
    exact ⟨rfl, h.lmemo, ResetKept.refl h _, by simp, by simp, by simp, fun _ _ h => Or.inl h⟩
  | false =>
    simp only [Bool.false_eq_true, if_false, Bool.or_false]
    rw [wp_bind]
    apply wp_scanRemote
    · intro hm; exact absurd h.rmemo hm
    swap
    · intro e; exact ⟨rfl, ResetKept.refl h _⟩
    intro _
    rw [wp_bind, wp_gets, wp_bind, wp_sys]
    obtain ⟨um, ub, hug⟩ := FS.isDir_iff.1 h.util_dir
    have hrd : w.os.fs.isDir env.rem = true :=
      h.wf.isDir_prefix hug env.rem (by unfold Env.util; exact List.prefix_append _ _) (by unfold Env.util; simp)
    apply wp_orRemote
    refine wp_mono (wp_transferTree_missing h.apart.symm h.wf hrd h.loc_dir (fun f hf => (h.rows f hf).2)
      (fun p hp _ => h.clean p hp)) ?_ ?_
    swap
    · rintro e s' ⟨l, h1, h2⟩
      have := ResetKept.moving h h1 (fun p hp => (h2 p hp).1)
      exact ⟨⟨rfl, this⟩, fun _ => ⟨rfl, this⟩⟩
    rintro _ s1 ⟨l, h1, h2, h3, hex⟩
    have hk := ResetKept.moving h h1.toMoving (fun p hp => (h2 p hp).1)
    have hget : ∀ p c m b, Listed w.os.fs env.rem (some (ADB.paths w.rdb)) p →
        w.os.fs.get (env.rem ++ p) = some (.file c m b) → s1.fs.get (env.loc ++ p) = some (.file c m b) := by
      intro p c m b hp hg
      rcases h3 p hp (by simp) with h4 | h4
      · exact h1.copied p h4 _ hg
      · rw [isDir_iff_false hg] at h4; cases h4
    have horig := origin_of_moved h.apart h.wf h1 (fun p hp => (h2 p hp).1) h.loc_dir (fun f hf => (h.rows f hf).1)
    cases keep with
    | true =>
      simp only [if_true]
      rw [wp_pure]
      exact ⟨rfl, h.lmemo, hk, fun _ => hex, fun _ => hget, by simp, horig⟩
    | false =>
      simp only [Bool.false_eq_true, if_false]
      have hu1 : s1.fs.isDir env.util = true := by
        rw [FS.isDir_congr (show s1.fs.get env.util = w.os.fs.get env.util from ?_)]
        · exact h.util_dir
        · rcases h1.src [Env.utilName] with h4 | ⟨_, h4, _⟩
          · exact h4
          · obtain ⟨_, _, f, hf, hpre⟩ := (h2 _ h4).1
            obtain ⟨hf1, hf2⟩ := (h.rows f hf).1
            cases f with
            | nil => exact absurd rfl hf1
            | cons x t =>
              obtain ⟨r, hr⟩ := hpre
              simp only [List.cons_append, List.cons.injEq] at hr
              exact absurd (by simp [hr.1]) hf2
      refine wp_mono (wp_clearRemote h.order h1.wf hu1) ?_ ?_
      · rintro _ w2 ⟨h4, h5, hsv, h6, h7⟩
        refine ⟨hsv, h5.trans h.lmemo, hk.cleared h.apart h.wf h4 h6, fun _ => hex, ?_, fun _ _ => h7, ?_⟩
        swap
        · intro p n hn
          refine horig p n ?_
          rw [h4.keeps _ ?_] at hn
          · exact hn
          · rintro ⟨h8, _⟩
            exact h.apart.symm.not_prefix [] p (by simpa using h8)
        intro _ p c m b hp hg
        rw [h4.keeps _ ?_]
        · exact hget p c m b hp hg
        · rintro ⟨h8, _⟩
          exact h.apart.symm.not_prefix [] p (by simpa using h8)
      · rintro e w2 ⟨hsv, h4 | ⟨h4, h5⟩, _⟩
        · rw [h4]; exact ⟨hsv, hk⟩
        · exact ⟨hsv, hk.cleared h.apart h.wf h4 h5⟩

theorem ResetReady.congr (h : ResetReady env w) {w' : World} (hf : w'.os.fs = w.os.fs) (hr : w'.rdb = w.rdb)
    (hl : w'.lmemo = []) (hm : w'.rmemo = []) : ResetReady env w' := by
  refine ⟨?_, h.apart, h.order, ?_, ?_, ?_, ?_, hl, hm⟩
  · rw [hf]; exact h.wf
  · rw [hf]; exact h.loc_dir
  · rw [hf]; exact h.util_dir
  · rw [hf, hr]; exact h.rows
  · rw [hf, hr]; exact h.clean

theorem wp_reset (h : ResetReady env w) (keep nor : Bool) :
    wp (reset env keep nor)
      (fun _ w' => w'.rdbSaved = w.rdbSaved ∧
        ResetKept env (keep || nor) (ADB.paths w.rdb) w.os.fs w'.os.fs ∧
        ResetDone env keep nor (ADB.paths w.rdb) w.os.fs w'.os.fs)
      (fun _ w' => w'.rdbSaved = w.rdbSaved ∧
        ResetKept env (keep || nor) (ADB.paths w.rdb) w.os.fs w'.os.fs) w := by
  unfold reset
  rw [wp_bind, wp_sys]
  obtain ⟨m, b, hg⟩ := FS.isDir_iff.1 h.loc_dir
  refine wp_mono (wp_makedirs_dir h.wf hg) ?_ ?_
  swap
  · rintro e s' ⟨h1, _⟩
    refine ⟨rfl, ?_⟩
    show ResetKept _ _ _ _ s'.fs
    rw [h1]; exact ResetKept.refl h _
  intro _ s1 h1
  have hr : ResetReady env { w with os := s1 } := h.congr h1 rfl h.lmemo h.rmemo
  rw [wp_bind]
  refine wp_mono (wp_resetGet hr keep nor) ?_ ?_
  swap
  · rintro e w2 ⟨hsv, h2⟩
    have h2 : ResetKept _ _ _ s1.fs _ := h2
    rw [h1] at h2; exact ⟨hsv, h2⟩
  rintro _ w2 ⟨hsv, h3, h4, hex, h5, h6, h10⟩
  have h4 : ResetKept env (keep || nor) (ADB.paths w.rdb) s1.fs w2.os.fs := h4
  have h5 : nor = false → ∀ p c m b, Listed s1.fs env.rem (some (ADB.paths w.rdb)) p →
    s1.fs.get (env.rem ++ p) = some (.file c m b) → w2.os.fs.get (env.loc ++ p) = some (.file c m b) := h5
  have hex : nor = false → ∀ f ∈ ADB.paths w.rdb, ∃ n, s1.fs.get (env.rem ++ f) = some n := hex
  have h10 : Origin env s1.fs w2.os.fs := h10
  rw [h1] at h4 h5 hex h10
  refine wp_mono (wp_resetTail h.apart h4.wf h3) ?_ ?_
  swap
  · rintro e w3 ⟨h7, hsv'⟩; exact ⟨hsv'.trans hsv, h4.tail h.apart (fun f hf => (h.rows f hf).1) h7⟩
  rintro _ w3 ⟨h7, hsv', h8⟩
  refine ⟨hsv'.trans hsv, h4.tail h.apart (fun f hf => (h.rows f hf).1) h7, hex, ?_, ?_, h8, ?_⟩
  rotate_left 2
  · intro p n hn
    rcases h7.gone (env.loc ++ p) with h9 | h9
    · exact h10 p n (h9.symm.trans hn)
    · rw [hn] at h9; cases h9
  · intro hn p c m b hp hg
    exact h7.keeps _ _ (h5 hn p c m b hp hg) rfl (loc_ne_slot h.apart p)
  · intro hn hk p hp
    rcases h7.gone (env.rem ++ p) with h9 | h9
    · rw [h9]; exact h6 hn hk p hp
    · exact h9

/-! ### The claims -/

/-- C45: however a reset ends, a regular file of the remote directory is at its local or at its remote path. -/
theorem C45_kept_partial (h : ResetReady env w) (keep nor : Bool) {p : Path} {c : Nat} {m : Int} {b : Nat}
    (hu : UserPath p) (hg : w.os.fs.get (env.rem ++ p) = some (.file c m b)) :
    (reset env keep nor w).2.os.fs.get (env.loc ++ p) = some (.file c m b) ∨
      (reset env keep nor w).2.os.fs.get (env.rem ++ p) = some (.file c m b) :=
  wp_state (I := fun w' : World => w'.os.fs.get (env.loc ++ p) = some (.file c m b) ∨
      w'.os.fs.get (env.rem ++ p) = some (.file c m b))
    (wp_mono (wp_reset h keep nor) (fun _ _ h1 => h1.2.1.stored p c m b hu hg) (fun _ _ h1 => h1.2.stored p c m b hu hg))

/-- C45: when it succeeds without `--no-retrieve`, every file of the remote database is a regular local file. -/
theorem C45_retrieved_partial (h : ResetReady env w) {keep : Bool} {w' : World}
    (hr : reset env keep false w = (.ok (), w')) {p : Path} {c : Nat} {m : Int} {b : Nat}
    (hp : p ∈ ADB.paths w.rdb) (hg : w.os.fs.get (env.rem ++ p) = some (.file c m b)) :
    w'.os.fs.get (env.loc ++ p) = some (.file c m b) :=
  (wp_ok (wp_reset h keep false) hr).2.2.retrieved rfl p c m b
    ⟨⟨_, hg⟩, (h.rows p hp).1.1, p, hp, List.prefix_refl _⟩ hg

/-- C45: when it succeeds without either option the remote directory is empty, and every regular file that was in it
outside the util directory is a regular local file. -/
theorem C45_cleared_partial (h : ResetReady env w) {w' : World} (hr : reset env false false w = (.ok (), w')) :
    (∀ p, p ≠ [] → w'.os.fs.get (env.rem ++ p) = none) ∧
    ∀ p c m b, UserPath p → w.os.fs.get (env.rem ++ p) = some (.file c m b) →
      w'.os.fs.get (env.loc ++ p) = some (.file c m b) := by
  obtain ⟨_, h1, h2⟩ := wp_ok (wp_reset h false false) hr
  refine ⟨h2.cleared rfl rfl, ?_⟩
  intro p c m b hu hg
  rcases h1.stored p c m b hu hg with h3 | h3
  · exact h3
  · rw [h2.cleared rfl rfl p hu.1] at h3; cases h3

/-- C45: a file or link of the remote directory that is not in the remote database, nor in a directory of it, stays
where it is; so the remote directory is not cleared. -/
theorem C45_unlisted_partial (h : ResetReady env w) (keep nor : Bool) {p : Path} {n : Node} (hu : UserPath p)
    (hg : w.os.fs.get (env.rem ++ p) = some n) (hd : n.isDir = false) (hx : ∀ f ∈ ADB.paths w.rdb, ¬ f <+: p) :
    (reset env keep nor w).2.os.fs.get (env.rem ++ p) = some n :=
  wp_state (I := fun w' : World => w'.os.fs.get (env.rem ++ p) = some n)
    (wp_mono (wp_reset h keep nor)
      (fun _ _ h1 => h1.2.1.unlisted p n hu hg hd (fun ⟨_, _, f, hf, hpre⟩ => hx f hf hpre))
      (fun _ _ h1 => h1.2.unlisted p n hu hg hd (fun ⟨_, _, f, hf, hpre⟩ => hx f hf hpre)))

/-- C45: with `--keep-remote` or `--no-retrieve` nothing in the remote directory changes, except that the exclude file
of this profile is removed. -/
theorem C45_keep_partial (h : ResetReady env w) {keep nor : Bool} (hk : keep = true ∨ nor = true) {q : Path}
    (hq : env.rem <+: q) (hs : q ≠ env.exclDir ++ [env.id]) :
    (reset env keep nor w).2.os.fs.get q = w.os.fs.get q := by
  have hk' : (keep || nor) = true := by rcases hk with rfl | rfl <;> simp
  exact wp_state (I := fun w' : World => w'.os.fs.get q = w.os.fs.get q)
    (wp_mono (wp_reset h keep nor) (fun _ _ h1 => h1.2.1.kept hk' q hq hs) (fun _ _ h1 => h1.2.kept hk' q hq hs))

/-- C45: after a success no link to a path in the remote directory is left. -/
theorem C45_links_partial (h : ResetReady env w) (hgood : GoodPath env.rem) {keep nor : Bool} {w' : World}
    (hr : reset env keep nor w = (.ok (), w')) {p q : Path} {m : Int} (hp : p ≠ []) (hq : GoodPath q) :
    w'.os.fs.get (env.loc ++ p) ≠ some (.link (absStr (env.rem ++ q)) m) :=
  (wp_ok (wp_reset h keep nor) hr).2.2.links hgood p q m hp hq

/-- C54: a regular file or directory of the local directory that has no counterpart in the remote directory stays, and
so does one that is not in the remote database, nor in a directory of it. -/
theorem C54_kept_partial (h : ResetReady env w) (keep nor : Bool) {p : Path} {n : Node}
    (hg : w.os.fs.get (env.loc ++ p) = some n) (hl : n.isLink = false)
    (hx : w.os.fs.get (env.rem ++ p) = none ∨ ∀ f ∈ ADB.paths w.rdb, ¬ f <+: p) :
    (reset env keep nor w).2.os.fs.get (env.loc ++ p) = some n := by
  have hx' : ¬ Listed w.os.fs env.rem (some (ADB.paths w.rdb)) p := by
    rintro ⟨⟨n', hn'⟩, _, f, hf, hpre⟩
    rcases hx with hx | hx
    · rw [hx] at hn'; cases hn'
    · exact hx f hf hpre
  exact wp_state (I := fun w' : World => w'.os.fs.get (env.loc ++ p) = some n)
    (wp_mono (wp_reset h keep nor) (fun _ _ h1 => h1.2.1.loc p n hg hl hx') (fun _ _ h1 => h1.2.loc p n hg hl hx'))

/-- C54: nothing outside the local and the remote directory changes. -/
theorem C54_outside_partial (h : ResetReady env w) (keep nor : Bool) {q : Path} (hl : ¬ env.loc <+: q)
    (hr : ¬ env.rem <+: q) : (reset env keep nor w).2.os.fs.get q = w.os.fs.get q :=
  wp_state (I := fun w' : World => w'.os.fs.get q = w.os.fs.get q)
    (wp_mono (wp_reset h keep nor) (fun _ _ h1 => h1.2.1.out q hl hr) (fun _ _ h1 => h1.2.out q hl hr))

/-! ### Repeating a reset -/

/-- C55: once a path of the remote database is missing from the remote directory, no reset without `--no-retrieve`
succeeds. -/
theorem C55_missing_fails (h : ResetReady env w) {f : Path} (hf : f ∈ ADB.paths w.rdb)
    (hn : w.os.fs.get (env.rem ++ f) = none) (keep : Bool) : (reset env keep false w).1 ≠ .ok () := by
  intro hr
  obtain ⟨n, h1⟩ := (wp_ok (wp_reset h keep false) (Prod.ext hr rfl)).2.2.present rfl f hf
  rw [hn] at h1; cases h1

/-- A reset with one of the options has been run any number of times, and may have ended in any way. -/
inductive ResetAgain (env : Env) : World → World → Prop
  | start (w : World) : ResetAgain env w w
  | again {w w' : World} (keep nor : Bool) (fuel : Nat) : ResetAgain env w w' → keep = true ∨ nor = true →
      ResetAgain env w ((reset env keep nor w').2.restart fuel)

theorem ResetReady.next (h : ResetReady env w) {rows : List Path} (hrows : rows = ADB.paths w.rdb) {w' : World}
    (hs : w'.rdbSaved = w.rdb) (hk : ResetKept env true rows w.os.fs w'.os.fs) (fuel : Nat) :
    ResetReady env (w'.restart fuel) := by
  subst hrows
  have hq : ∀ f ∈ ADB.paths w.rdb, ∀ q, f <+: q ∨ q <+: f → w'.os.fs.get (env.rem ++ q) = w.os.fs.get (env.rem ++ q) := by
    intro f hf q hq
    refine hk.kept rfl _ (List.prefix_append _ _) ?_
    by_cases hq0 : q = []
    · subst hq0
      unfold Env.exclDir Env.util
      simp
    · apply user_ne_slot
      refine ⟨hq0, ?_⟩
      obtain ⟨hu1, hu2⟩ := (h.rows f hf).1
      rcases hq with ⟨t, rfl⟩ | ⟨t, rfl⟩
      · cases f with
        | nil => exact absurd rfl hu1
        | cons x f => exact hu2
      · cases q with
        | nil => exact absurd rfl hq0
        | cons x q => exact hu2
  have hpaths : ADB.paths (w'.restart fuel).rdb = ADB.paths w.rdb := by
    show ADB.paths w'.rdbSaved = _
    rw [hs]
  have hfs : (w'.restart fuel).os.fs = w'.os.fs := rfl
  refine ⟨hk.wf, h.apart, h.order, hk.loc_dir, ?_, ?_, ?_, rfl, rfl⟩
  · rw [hfs, FS.isDir_congr (hk.kept rfl env.util ?_ ?_)]
    · exact h.util_dir
    · unfold Env.util; exact List.prefix_append _ _
    · unfold Env.exclDir; simp
  · rw [hpaths, hfs]
    intro f hf
    refine ⟨(h.rows f hf).1, ?_⟩
    intro q n hqf hne hg
    rw [hq f hf q (Or.inr hqf)] at hg
    exact (h.rows f hf).2 q n hqf hne hg
  · rw [hpaths, hfs]
    intro p hp q hqp
    obtain ⟨⟨n, hn⟩, hp0, f, hf, hpre⟩ := hp
    rw [hq f hf p (Or.inl hpre)] at hn
    refine hk.clean p ⟨⟨n, hn⟩, hp0, f, hf, hpre⟩ q hqp (hq f hf q ?_)
    exact List.prefix_or_prefix_of_prefix hpre hqp

theorem ResetAgain.inv {w' : World} (hr : ResetAgain env w w') (h : ResetReady env w) (hs : w.rdbSaved = w.rdb) :
    ResetReady env w' ∧ w'.rdb = w.rdb ∧ w'.rdbSaved = w.rdb ∧
    ∀ f ∈ ADB.paths w.rdb, w'.os.fs.get (env.rem ++ f) = w.os.fs.get (env.rem ++ f) := by
  induction hr with
  | start => exact ⟨h, rfl, hs, fun _ _ => rfl⟩
  | again keep nor fuel _ hk ih =>
    rename_i w2 _
    obtain ⟨ih1, ih2, ih3, ih4⟩ := ih
    have hk' : (keep || nor) = true := by rcases hk with rfl | rfl <;> simp
    have := wp_state (I := fun w' : World => w'.rdbSaved = w2.rdbSaved ∧
        ResetKept env true (ADB.paths w2.rdb) w2.os.fs w'.os.fs)
      (wp_mono (wp_reset ih1 keep nor) (fun _ _ h1 => ⟨h1.1, by rw [← hk']; exact h1.2.1⟩)
        (fun _ _ h1 => ⟨h1.1, by rw [← hk']; exact h1.2⟩))
    obtain ⟨h1, h2⟩ := this
    have h3 : (reset env keep nor w2).2.rdbSaved = w.rdb := h1.trans ih3
    refine ⟨ih1.next rfl (h3.trans ih2.symm) h2 fuel, h3, h3, ?_⟩
    intro f hf
    rw [← ih4 f hf]
    exact h2.kept rfl _ (List.prefix_append _ _) (user_ne_slot (h.rows f hf).1)

/-- C55: after any number of resets with `--keep-remote` or `--no-retrieve`, whether they succeeded, failed or were
killed, the remote files are as before, and a reset that then succeeds makes every file of the remote database a
regular local file. -/
theorem C55_repeat_partial (h : ResetReady env w) (hs : w.rdbSaved = w.rdb) {w' : World} (ha : ResetAgain env w w')
    {p : Path} {c : Nat} {m : Int} {b : Nat} (hp : p ∈ ADB.paths w.rdb)
    (hg : w.os.fs.get (env.rem ++ p) = some (.file c m b)) :
    w'.os.fs.get (env.rem ++ p) = some (.file c m b) ∧
    ∀ keep w'', reset env keep false w' = (.ok (), w'') → w''.os.fs.get (env.loc ++ p) = some (.file c m b) := by
  obtain ⟨h1, h2, _, h3⟩ := ha.inv h hs
  have h4 := (h3 p hp).trans hg
  exact ⟨h4, fun keep w'' hr => C45_retrieved_partial h1 hr (by rw [h2]; exact hp) h4⟩

/-! ### Examples -/

/-- The local `d/a` is a link to the remote file, `b` is a copy, `n` is new and not in the databases. -/
def exResetFS : FS := exBase exEnvE ++
  [(["l".toList, "d".toList], .dir 3 8), (["l".toList, "d".toList, "a".toList], .link "/r/d/a".toList 3),
    (["l".toList, "b".toList], .file 9 4 1), (["l".toList, "n".toList], .file 5 45 1),
    (["r".toList, "d".toList], .dir 3 8), (["r".toList, "d".toList, "a".toList], .file 7 3 1),
    (["r".toList, "b".toList], .file 9 4 1)]

def exReset (fuel : Nat) : World := { exWorld exEnvE []
  [exRow ["d".toList] true 1 false, exRow ["d".toList, "a".toList] false 1 false, exRow ["b".toList] false 1 true]
  [exRRow ["d".toList] true, exRRow ["d".toList, "a".toList] false, exRRow ["b".toList] false] fuel with
  os := ⟨exResetFS, fuel, 0, fun n => n + 50⟩ }

/-- Above a path of length 1 is only the root, above one of length 2 its parent. -/
theorem exNoFileAbove {fs : FS} {root p : Path}
    (h : ∀ q ∈ (List.range p.length).map p.take, fs.get (root ++ q) = none ∨ fs.isDir (root ++ q) = true) :
    NoFileAbove fs root p := by
  intro q n h1 h2 hg
  rcases h q (FS.mem_takes.2 ⟨h1, h2⟩) with h3 | h3
  · rw [h3] at hg; cases hg
  · rwa [isDir_iff_false hg] at h3

theorem exReset_ready (fuel : Nat) : ResetReady exEnvE (exReset fuel) where
  wf := (⟨by decide +kernel, by decide +kernel, by decide +kernel, by decide +kernel⟩ : exResetFS.WF)
  apart := by unfold Apart; decide +kernel
  order l := List.Perm.refl l
  loc_dir := (by decide +kernel : exResetFS.isDir exEnvE.loc = true)
  util_dir := (by decide +kernel : exResetFS.isDir exEnvE.util = true)
  rows f hf := by
    have hf : f ∈ [["d".toList], ["d".toList, "a".toList], ["b".toList]] := hf
    simp only [List.mem_cons, List.not_mem_nil, or_false] at hf
    rcases hf with rfl | rfl | rfl <;>
    · refine ⟨by decide +kernel, ?_⟩
      apply exNoFileAbove
      change ∀ q ∈ _, exResetFS.get _ = none ∨ exResetFS.isDir _ = true
      decide +kernel
  clean p hp q hq := by
    have wf : exResetFS.WF := ⟨by decide +kernel, by decide +kernel, by decide +kernel, by decide +kernel⟩
    obtain ⟨n, hn, _⟩ := Listed.some wf hp hq
    exact clean_of_allClean (by decide +kernel : allClean exResetFS exEnvE.rem exEnvE.loc = true) (by decide +kernel) hn
  lmemo := rfl
  rmemo := rfl

/-- The whole reset. -/
example : (reset exEnvE false false (exReset 100)).1 = .ok () ∧
    (reset exEnvE false false (exReset 100)).2.os.fs.get ["l".toList, "d".toList, "a".toList] = some (.file 7 3 1) ∧
    (reset exEnvE false false (exReset 100)).2.os.fs.get ["l".toList, "n".toList] = some (.file 5 45 1) ∧
    (reset exEnvE false false (exReset 100)).2.os.fs.get ["r".toList, "d".toList, "a".toList] = none := by
  decide +kernel

/-- With `--keep-remote`. -/
example : (reset exEnvE true false (exReset 100)).1 = .ok () ∧
    (reset exEnvE true false (exReset 100)).2.os.fs.get ["l".toList, "d".toList, "a".toList] = some (.file 7 3 1) ∧
    (reset exEnvE true false (exReset 100)).2.os.fs.get ["r".toList, "d".toList, "a".toList] = some (.file 7 3 1) := by
  decide +kernel

/-- Killed after the first file has been retrieved and removed from the remote directory. -/
example : (reset exEnvE false false (exReset 7)).1 = .error .killed ∧
    (reset exEnvE false false (exReset 7)).2.os.fs.get ["l".toList, "d".toList, "a".toList] = some (.file 7 3 1) ∧
    (reset exEnvE false false (exReset 7)).2.os.fs.get ["r".toList, "d".toList, "a".toList] = none := by
  decide +kernel

/-- Killed, and run again, with `--keep-remote`. -/
example : (reset exEnvE true false (exReset 4)).1 = .error .killed ∧
    ResetAgain exEnvE (exReset 4) ((reset exEnvE true false (exReset 4)).2.restart 100) ∧
    (reset exEnvE true false ((reset exEnvE true false (exReset 4)).2.restart 100)).1 = .ok () :=
  ⟨by decide +kernel, .again true false 100 (.start _) (Or.inl rfl), by decide +kernel⟩

example : (exReset 4).rdbSaved = (exReset 4).rdb := rfl

/-- C55 in full is false: a reset that has been killed after it has retrieved a file fails when it is run again. -/
theorem C55_killed_fails :
    (reset exEnvE false false (exReset 7)).1 = .error .killed ∧
    (reset exEnvE false false ((reset exEnvE false false (exReset 7)).2.restart 1000)).1 = .error .notFound ∧
    (reset exEnvE true false ((reset exEnvE false false (exReset 7)).2.restart 1000)).1 = .error .notFound := by
  decide +kernel

/-- The state after that reset. -/
def exGoneFS : FS := exBase exEnvE ++
  [(["l".toList, "d".toList], .dir 3 8), (["l".toList, "d".toList, "a".toList], .file 7 3 1),
    (["l".toList, "b".toList], .file 9 4 1), (["l".toList, "n".toList], .file 5 45 1),
    (["r".toList, "d".toList], .dir 3 8), (["r".toList, "b".toList], .file 9 4 1)]

def exGone (fuel : Nat) : World := { exReset fuel with os := ⟨exGoneFS, fuel, 0, fun n => n + 60⟩ }

theorem exGone_ready (fuel : Nat) : ResetReady exEnvE (exGone fuel) where
  wf := (⟨by decide +kernel, by decide +kernel, by decide +kernel, by decide +kernel⟩ : exGoneFS.WF)
  apart := by unfold Apart; decide +kernel
  order l := List.Perm.refl l
  loc_dir := (by decide +kernel : exGoneFS.isDir exEnvE.loc = true)
  util_dir := (by decide +kernel : exGoneFS.isDir exEnvE.util = true)
  rows f hf := by
    have hf : f ∈ [["d".toList], ["d".toList, "a".toList], ["b".toList]] := hf
    simp only [List.mem_cons, List.not_mem_nil, or_false] at hf
    rcases hf with rfl | rfl | rfl <;>
    · refine ⟨by decide +kernel, ?_⟩
      apply exNoFileAbove
      change ∀ q ∈ _, exGoneFS.get _ = none ∨ exGoneFS.isDir _ = true
      decide +kernel
  clean p hp q hq := by
    have wf : exGoneFS.WF := ⟨by decide +kernel, by decide +kernel, by decide +kernel, by decide +kernel⟩
    obtain ⟨n, hn, _⟩ := Listed.some wf hp hq
    exact clean_of_allClean (by decide +kernel : allClean exGoneFS exEnvE.rem exEnvE.loc = true) (by decide +kernel) hn
  lmemo := rfl
  rmemo := rfl

example (fuel : Nat) : ["d".toList, "a".toList] ∈ ADB.paths (exGone fuel).rdb ∧
    (exGone fuel).os.fs.get (exEnvE.rem ++ ["d".toList, "a".toList]) = none :=
  ⟨by show _ ∈ [["d".toList], ["d".toList, "a".toList], ["b".toList]]; simp,
   (by decide +kernel : exGoneFS.get (exEnvE.rem ++ ["d".toList, "a".toList]) = none)⟩

/-- The local `a` has been replaced by a link to the local `b`. -/
def exResetLoss : World := exWorld exEnvE
  [(["l".toList, "a".toList], .link "b".toList 45), (["l".toList, "b".toList], .file 9 4 1),
    (["r".toList, "a".toList], .file 7 3 1), (["r".toList, "b".toList], .file 9 4 1)]
  [exRow ["a".toList] false 1 true, exRow ["b".toList] false 1 true]
  [exRRow ["a".toList] false, exRRow ["b".toList] false] 100

/-- C45 in full is false: a reset copies `a` through a local link over `b`; the content of `b` is in no file any
more. -/
theorem C45_unclean_fails :
    exResetLoss.os.fs.get ["r".toList, "b".toList] = some (.file 9 4 1) ∧
    (reset exEnvE false false exResetLoss).1 = .ok () ∧
    (∀ e ∈ (reset exEnvE false false exResetLoss).2.os.fs, ∀ m b, e.2 ≠ .file 9 m b) := by
  refine ⟨by decide +kernel, by decide +kernel, ?_⟩
  have h : (reset exEnvE false false exResetLoss).2.os.fs.all
      (fun e => match e.2 with | .file c _ _ => c != 9 | _ => true) = true := by decide +kernel
  intro e he m b hc
  have := List.all_eq_true.1 h e he
  rw [hc] at this
  simp at this

/-- `a` has been changed locally since the last sync. -/
def exResetChanged : World := exWorld exEnvE
  [(["l".toList, "a".toList], .file 7 45 1), (["r".toList, "a".toList], .file 5 3 1)]
  [exRow ["a".toList] false 1 true] [exRRow ["a".toList] false] 100

/-- C54 in full is false: a reset replaces a file that has been changed locally since the last sync by the older remote
one; its content is in no file any more. -/
theorem C54_changed_fails :
    exResetChanged.os.fs.get ["l".toList, "a".toList] = some (.file 7 45 1) ∧
    (reset exEnvE false false exResetChanged).1 = .ok () ∧
    (∀ e ∈ (reset exEnvE false false exResetChanged).2.os.fs, ∀ m b, e.2 ≠ .file 7 m b) := by
  refine ⟨by decide +kernel, by decide +kernel, ?_⟩
  have h : (reset exEnvE false false exResetChanged).2.os.fs.all
      (fun e => match e.2 with | .file c _ _ => c != 7 | _ => true) = true := by decide +kernel
  intro e he m b hc
  have := List.all_eq_true.1 h e he
  rw [hc] at this
  simp at this

end Verif
