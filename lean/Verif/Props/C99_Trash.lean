import Verif.Props.SyncEffects
import Verif.Props.C71_Progress
import Verif.Props.C36_C37_Values
import Verif.Spec.Config
/-
C99: what a sync does with the trash, and how long things stay there.
-/
namespace Verif
open Prog OSM Call FSTools WM

/-- The times that a sync can read are those of the calls from `w.os.tick` to the one after its last. -/
def During (w w' : World) (k : Nat) : Prop := w.os.tick ≤ k ∧ k ≤ w'.os.tick

theorem not_excluded_trash {env : Env} {w : World} (r : SyncReady env w) {e q : Path} {c : Str}
    (h : OwnExcludes env w.os.fs e) (hq : env.trash ++ [c] <+: q) : ¬ env.rem ++ e <+: q := by
  intro h1
  obtain ⟨h2, n, h3⟩ := ownExcludes_exists h
  have := (r.local_user h2 h3).apart (q := "Trash".toList :: [c]) env
  have h4 : env.util ++ "Trash".toList :: [c] <+: q := by
    unfold Env.trash at hq
    rw [List.append_assoc] at hq
    exact hq
  exact prefix_comparable this h1 h4

/-- A number of days in seconds. -/
theorem cleanupPeriod_digits {v : Str} (hd : Digits v) : cleanupPeriod v = some (digitsValue v * (24 * 60 * 60)) := by
  have hm : v.head? ≠ some '-' := by
    cases v with
    | nil => simp
    | cons a l =>
      intro hc
      simp only [List.head?_cons, Option.some.injEq] at hc
      subst hc
      exact absurd (hd.2 '-' (by simp)) (by decide)
  unfold cleanupPeriod
  rw [if_neg hm, ← decimal_eq]
  unfold signed
  split
  · simp at hm
  · congr 1
    omega

/-- What is in the trash and not cleaned up stays. -/
theorem trash_kept {env : Env} {w : World} (r : SyncReady env w) {c : Str} {n : Node}
    (hn : w.os.fs.get (env.trash ++ [c]) = some n)
    (young : ∀ t k n', env.cleanup = some t → t ≠ 0 → During w (sync env w).2 k → n'.data = n.data →
      (n.isDir = false → n' = n) → n'.isLink = true ∨ w.os.clk k - t < n'.mtime) {q : Path} {m : Node}
    (hq : env.trash ++ [c] <+: q) (hm : w.os.fs.get q = some m) :
    ∃ m', (sync env w).2.os.fs.get q = some m' ∧ m'.data = m.data ∧ (m.isDir = false → m' = m) := by
  obtain ⟨fs, hf, hs⟩ := sync_end r
  have late : ¬ LateMay env w (sync env w).2.os.tick fs q := by
    rintro (⟨t, k, c', n', h1, h2, h3, h4, h5, h6, h7⟩ | ⟨e, h1, h2⟩)
    · have hcc : c' = c := by
        rcases List.prefix_or_prefix_of_prefix hq h7 with h | h
        · have := (List.prefix_append_right_inj _).1 h
          simpa using (this.eq_of_length rfl).symm
        · have := (List.prefix_append_right_inj _).1 h
          simpa using this.eq_of_length rfl
      subst hcc
      have hno := trash_fixed r.apart hn (List.prefix_refl _)
      obtain ⟨n2, h8, h9⟩ := getData (hf.data _ hno) hn
      rw [h4] at h8; cases h8
      have h10 : n.isDir = false → n' = n := by
        intro hd
        have := hf.same _ n hno hn hd
        rw [h4] at this
        exact Option.some.inj this
      rcases young t k n' h1 h2 h3 h9 h10 with h | h
      · rw [h5] at h; cases h
      · omega
    · exact not_excluded_trash r h1 hq h2
  have hno := trash_fixed r.apart hn hq
  rw [hs.keeps _ late]
  obtain ⟨m', h1, h2⟩ := getData (hf.data _ hno) hm
  refine ⟨m', h1, h2, ?_⟩
  intro hd
  have := hf.same _ m hno hm hd
  rw [h1] at this
  exact Option.some.inj this

/-- C99: if `TrashCleanupPeriod` is negative then however a sync ends, everything that was in the trash is still there:
files and links exactly as they were, and directories with what is in them. -/
theorem C99_never {env : Env} {w : World} (r : SyncReady env w) {v : Str} (hv : env.cleanup = cleanupPeriod ('-' :: v))
    {c : Str} {q : Path} {m : Node} (hq : env.trash ++ [c] <+: q) (hm : w.os.fs.get q = some m) :
    ∃ m', (sync env w).2.os.fs.get q = some m' ∧ m'.data = m.data ∧ (m.isDir = false → m' = m) := by
  have hn : ∃ n, w.os.fs.get (env.trash ++ [c]) = some n := by
    by_cases he : env.trash ++ [c] = q
    · exact ⟨m, he ▸ hm⟩
    · obtain ⟨a, b, h⟩ := FS.isDir_iff.1 (r.wf.isDir_prefix hm _ hq he)
      exact ⟨_, h⟩
  obtain ⟨n, hn⟩ := hn
  refine trash_kept r hn ?_ hq hm
  intro t k n' h1
  rw [hv] at h1
  simp [cleanupPeriod] at h1

/-- C99: if `TrashCleanupPeriod` is a number of days then however a sync ends, a file in the trash that is not that old
at any time of the sync is still there as it was, and so is every link. What is missing in comparison with C99: a
directory (its time can be changed by the sync), and `TrashCleanupPeriod=0`, see `C99_zero_fails`. -/
theorem C99_kept_partial {env : Env} {w : World} (r : SyncReady env w) {v : Str} (hv : env.cleanup = cleanupPeriod v)
    (hd : Digits v) {c : Str} {n : Node} (hn : w.os.fs.get (env.trash ++ [c]) = some n) (hnd : n.isDir = false)
    (young : ∀ k, During w (sync env w).2 k → n.isLink = true ∨ w.os.clk k < n.mtime + digitsValue v * (24 * 60 * 60)) :
    (sync env w).2.os.fs.get (env.trash ++ [c]) = some n := by
  obtain ⟨m', h1, _, h3⟩ := trash_kept r hn (fun t k n' h1 h2 h3 h4 h5 => by
    rw [h5 hnd]
    rcases young k h3 with h | h
    · exact Or.inl h
    · right
      rw [hv, cleanupPeriod_digits hd] at h1
      cases h1
      omega) (List.prefix_refl _) hn
  rw [h1, h3 hnd]

/-- C99: if `TrashCleanupPeriod` is a number of days that is not zero, then after a sync that has succeeded there is
nothing in the trash, apart from links, that was that old at a certain time of the sync. -/
theorem C99_cleaned_partial {env : Env} {w : World} (r : SyncReady env w) {v : Str} (hv : env.cleanup = cleanupPeriod v)
    (hd : Digits v) (h0 : digitsValue v ≠ 0) (h : (sync env w).1 = .ok ()) :
    ∃ k, During w (sync env w).2 k ∧ ∀ c n, (sync env w).2.os.fs.get (env.trash ++ [c]) = some n →
      n.isLink = false → w.os.clk k < n.mtime + digitsValue v * (24 * 60 * 60) := by
  have hok := wp_ok (wp_sync r) (show sync env w = (.ok (), (sync env w).2) by rw [← h])
  obtain ⟨_, _, _, _, _, _, _, _, _, _, _, _, w4, sel, rex, w5, w6, h4, h5, h6⟩ := hok
  have os5 : w5.os = w4.os := by obtain ⟨x, y, rfl⟩ := h5.same; rfl
  have hcl := hv.trans (cleanupPeriod_digits hd)
  obtain ⟨k, ⟨h7, h8⟩, h9⟩ := h6.ended.clean _ hcl (by omega)
  refine ⟨k, ⟨?_, h8⟩, ?_⟩
  · have h1 := h4.up.tick
    have h2 := h6.tick
    rw [os5] at h2
    omega
  · intro c n hn hl
    have := h9 c n hn hl
    rw [h6.clk, os5, h4.up.clk] at this
    omega

/-- `d` is what the user deleted: the profile knows it, the local directory does not have it, and this does not hold for
anything above it. -/
def Deleted (env : Env) (w : World) (d : Path) : Prop :=
  GoneLocally env w d ∧ ∀ q, GoneLocally env w q → q <+: d → q = d

/-- C99: with `UseTrash`, if the user has deleted a file of which the local directory had no copy, or a directory, then after
a sync that has succeeded the remote one is in the trash, at a place where nothing was, with the time of its
deletion: a file with its content, a directory with all that was in it. What is missing in comparison with C99: a
second deleted path that gets the same name in the trash (see `C21_same_name_fails`), remote links, and a sync that
takes longer than the clean-up period. -/
theorem C99_moved_partial {env : Env} {w : World} (r : SyncReady env w) (hu : env.useTrash = true)
    {e : Entry PData} (he : e ∈ w.db) (hl : e.data.loc = false) (hd : Deleted env w e.path) {n : Node}
    (hf : w.os.fs.get (env.rem ++ e.path) = some n) (hlk : n.isLink = false)
    (dist : ∀ p, Deleted env w p → ∀ t, TrashTarget env w.os.fs p t → TrashTarget env w.os.fs e.path t → p = e.path)
    (short : ∀ t, env.cleanup = some t → ∀ k k', During w (sync env w).2 k → During w (sync env w).2 k' →
      t ≠ 0 → w.os.clk k' < w.os.clk k + t) (h : (sync env w).1 = .ok ()) :
    ∃ t k, w.os.fs.get (env.trash ++ [t]) = none ∧ During w (sync env w).2 k ∧
      InTrash env w.os.fs e.path n (w.os.clk k) t (sync env w).2.os.fs := by
  have hok := wp_ok (wp_sync r) (show sync env w = (.ok (), (sync env w).2) by rw [← h])
  generalize (sync env w).2 = w' at *
  obtain ⟨_, del, new, mod, w1, w2, upd, w3, cp, DL, DR, l, w4, sel, rex, w5, w6, h4, h5, h6⟩ := hok
  have os5 : w5.os = w4.os := by obtain ⟨x, y, rfl⟩ := h5.same; rfl
  have hin : e.path ∈ del.rem ∨ e.path ∈ del.trash := by
    obtain ⟨d', h7, h8⟩ := h4.sc.delRemAll _ hd.1
    rw [← hd.2 d' (h4.sc.delRem d' h7).2.2 h8]
    exact h7
  have htr : e.path ∈ del.trash := (h4.sc.trashIff _).2 ⟨hu, hin, e, he, rfl, hl⟩
  obtain ⟨t, k, h7, h8, h9, h10⟩ := h4.cl.trashed _ htr n hf hlk
    (fun p hp hpd => by
      rcases hpd with hpd | hpd
      · exact hd.2 p (h4.sc.delRem p hp).2.2 hpd
      · exact (h4.sc.delRemTop p hp _ hd.1 hpd).symm)
    (fun p hp => dist p ⟨(h4.sc.delRem p (Or.inr hp)).2.2, h4.sc.delRemTop p (Or.inr hp)⟩)
  rw [h4.clk] at h10
  have keep : ∀ q, env.trash ++ [t] <+: q → ∀ m, w2.os.fs.get q = some m → w6.os.fs.get q = some m := by
    intro q hq m hm
    have sub : env.trash <+: q := (List.prefix_append _ _).trans hq
    have h11 : w3.os.fs.get q = w2.os.fs.get q := by
      refine h4.rb.eff.other _ ?_ ?_
      · intro p hp
        exact ⟨(loc_not_trash r.apart sub).symm, (loc_not_trash r.apart sub).symm⟩
      · intro p hp
        exact ⟨(plain_not_trash (h4.rb.ctx.user p (Or.inr hp)).1.plain sub).symm,
          (plain_not_trash (h4.rb.ctx.cuser p (Or.inr hp)).1.plain sub).symm⟩
    have h12 : w4.os.fs.get q = some m := by
      refine h4.ub.moved.keeps _ ?_ ?_ _ (h11.trans hm)
      · rintro ⟨u, hu⟩
        exact loc_not_trash r.apart sub hu
      · intro p hp
        obtain ⟨_, _, f, hf, hfp⟩ := h4.ub.listed p hp
        exact (plain_not_trash (PlainPath.extend (h4.rs.updLoc f hf).1 hfp).plain sub).symm
    rw [h6.kept.out _ (fun h => by
      obtain ⟨⟨u, hu⟩, _⟩ := h
      exact loc_not_trash r.apart sub hu), os5]
    exact h12
  have k1 := h4.tick
  have k2 := h4.cl.tick
  have k3 := h4.rb.ticks
  have k3' := h4.ub.ticks
  have k4 := h6.tick
  have k5 := h6.ended.tick
  rw [os5] at k4
  have kk : During w w' k := ⟨by omega, by omega⟩
  obtain ⟨⟨n', e1, e2⟩, e3⟩ := h10
  have h13 := keep _ (List.prefix_refl _) _ e1
  have last : ∀ q, env.trash ++ [t] <+: q → ∀ m, w2.os.fs.get q = some m → w'.os.fs.get q = some m := by
    intro q hq m hm
    rw [h6.ended.young _ _ h13 ?_ _ hq ?_]
    · exact keep q hq m hm
    · intro t' k' e4 e5 e6 e7
      right
      rw [h6.clk, os5, h4.up.clk, e2.2.1]
      have := short t' e4 k k' kk ⟨by omega, e7⟩ e5
      omega
    · intro p hp
      exact not_excluded_trash r (h5.rexOwn p hp.1) hq
  refine ⟨t, k, h7, kk, ⟨n', last _ (List.prefix_refl _) _ e1, e2⟩, ?_⟩
  intro u m hu0 hm
  obtain ⟨m', e4, e5⟩ := e3 u m hu0 hm
  exact ⟨m', last _ (List.prefix_append _ _) _ e4, e5⟩

/-! ### Examples -/

def exEnvDays (v : Str) (u : Bool) : Env := { exEnvE with cleanup := cleanupPeriod v, useTrash := u }

/-- In the trash there are the old file `t`, and `u` and `h`. `a` is as it was; `g`, which was kept here, `h`, which was a
link, and the directory `d` with a link were deleted here. -/
def exTrash (fuel : Nat) : World := exWorld exEnvE
  [(exEnvE.trash ++ ["t".toList], .file 30 (-100000) 1), (exEnvE.trash ++ ["u".toList], .file 31 3 1),
    (exEnvE.trash ++ ["h".toList], .file 32 3 1),
    (["l".toList, "a".toList], .file 7 3 1), (["r".toList, "a".toList], .file 7 3 1),
    (["r".toList, "g".toList], .file 17 3 1), (["r".toList, "h".toList], .file 19 3 1),
    (["r".toList, "d".toList], .dir 3 8), (["r".toList, "d".toList, "x".toList], .file 20 3 1)]
  [exRow ["a".toList] false 1 true, exRow ["g".toList] false 1 true, exRow ["h".toList] false 1 false,
    exRow ["d".toList] true 1 false, exRow ["d".toList, "x".toList] false 1 false]
  [exRRow ["a".toList] false, exRRow ["g".toList] false, exRRow ["h".toList] false, exRRow ["d".toList] true,
    exRRow ["d".toList, "x".toList] false] fuel

theorem digits_one : Digits "1".toList := ⟨by decide, by decide⟩

theorem exTrash_ready (v : Str) (u : Bool) (fuel : Nat) :
    SyncReady (exEnvDays v u) (exTrash fuel) := by
  have ap : Apart exEnvE.loc exEnvE.rem := by unfold Apart; decide +kernel
  refine syncReady_of_readyB ?_ (fun _ => List.Perm.refl _) ap (fun _ => ?_) rfl
  · have : readyB (exEnvDays v u) (exTrash fuel) = readyB exEnvE (exTrash 0) := rfl
    rw [this]
    decide +kernel
  · show GoodStamp "19700101-000000".toList
    decide +kernel

/-- With one day, `t` is removed, `u` stays, and the file of `h` comes to the trash beside the one that is there, and `d`
with what was in it. -/
example : (sync (exEnvDays "1".toList true) (exTrash 1000)).1 = .ok () ∧
    (sync (exEnvDays "1".toList true) (exTrash 1000)).2.os.tick = 19 ∧
    (sync (exEnvDays "1".toList true) (exTrash 1000)).2.os.fs.get ((exEnvDays "1".toList true).trash ++ ["t".toList]) = none ∧
    (sync (exEnvDays "1".toList true) (exTrash 1000)).2.os.fs.get ((exEnvDays "1".toList true).trash ++ ["u".toList]) = some (.file 31 3 1) ∧
    (sync (exEnvDays "1".toList true) (exTrash 1000)).2.os.fs.get ((exEnvDays "1".toList true).trash ++ ["h(1)".toList]) =
      some (.file 19 56 1) ∧
    (sync (exEnvDays "1".toList true) (exTrash 1000)).2.os.fs.get ((exEnvDays "1".toList true).trash ++
      ["d".toList, "x".toList]) = some (.file 20 3 1) := by decide +kernel

example : ∃ m, (sync (exEnvDays "-1".toList true) (exTrash 7)).2.os.fs.get ((exEnvDays "-1".toList true).trash ++ ["t".toList]) = some m ∧
    m.data = (Node.file 30 (-100000) 1).data ∧ ((Node.file 30 (-100000) 1).isDir = false → m = .file 30 (-100000) 1) :=
  C99_never (v := "1".toList) (exTrash_ready "-1".toList true 7) rfl (List.prefix_refl _) (by decide +kernel)

theorem exTrash_time {env : Env} {fuel n : Nat} (h : (sync env (exTrash fuel)).2.os.tick = n) {k : Nat}
    (hk : During (exTrash fuel) (sync env (exTrash fuel)).2 k) :
    (50 : Int) ≤ (exTrash fuel).os.clk k ∧ (exTrash fuel).os.clk k ≤ (n : Int) + 50 := by
  have h1 := hk.2
  rw [h] at h1
  have h2 : (exTrash fuel).os.clk k = (k : Int) + 50 := rfl
  omega

example : (sync (exEnvDays "1".toList true) (exTrash 1000)).2.os.fs.get ((exEnvDays "1".toList true).trash ++ ["u".toList]) =
    some (.file 31 3 1) := by
  refine C99_kept_partial (v := "1".toList) (exTrash_ready "1".toList true 1000) rfl digits_one (by decide +kernel) rfl ?_
  intro k hk
  right
  have h1 := (exTrash_time (n := 19) (by decide +kernel) hk).2
  have h2 : digitsValue "1".toList = 1 := by decide
  rw [h2]
  show _ < (3 : Int) + _
  omega

example : ∃ k, During (exTrash 1000) (sync (exEnvDays "1".toList true) (exTrash 1000)).2 k ∧
    ∀ c n, (sync (exEnvDays "1".toList true) (exTrash 1000)).2.os.fs.get ((exEnvDays "1".toList true).trash ++ [c]) = some n →
      n.isLink = false → (exTrash 1000).os.clk k < n.mtime + digitsValue "1".toList * (24 * 60 * 60) :=
  C99_cleaned_partial (exTrash_ready "1".toList true 1000) rfl digits_one (by decide) (by decide +kernel)

/-- What was deleted in `exTrash`. -/
theorem exTrash_deleted {env : Env} (he : env.loc = ["l".toList]) {fuel : Nat} {p : Path} :
    GoneLocally env (exTrash fuel) p →
      p = ["g".toList] ∨ p = ["h".toList] ∨ p = ["d".toList] ∨ p = ["d".toList, "x".toList] := by
  rintro ⟨h1, h2⟩
  have h3 : p ∈ [["a".toList], ["g".toList], ["h".toList], ["d".toList], ["d".toList, "x".toList]] := h1
  simp only [List.mem_cons, List.not_mem_nil, or_false] at h3
  rcases h3 with rfl | h3
  · rw [he] at h2
    exact absurd h2 (by show ¬ (exTrash 0).os.fs.get _ = none; decide +kernel)
  · exact h3

theorem exTrash_top {env : Env} (he : env.loc = ["l".toList]) (fuel : Nat) {p : Path}
    (hp : p ∈ [["g".toList], ["h".toList], ["d".toList]]) : Deleted env (exTrash fuel) p := by
  have h1 : ∀ p ∈ [["g".toList], ["h".toList], ["d".toList]],
      p ∈ [["a".toList], ["g".toList], ["h".toList], ["d".toList], ["d".toList, "x".toList]] ∧
      (exTrash 0).os.fs.get ("l".toList :: p) = none ∧
      ∀ q ∈ [["g".toList], ["h".toList], ["d".toList], ["d".toList, "x".toList]], q <+: p → q = p := by decide +kernel
  obtain ⟨h2, h3, h4⟩ := h1 p hp
  refine ⟨⟨h2, by rw [he]; exact h3⟩, ?_⟩
  intro q hq
  refine h4 q ?_
  simpa using exTrash_deleted he hq

/-- The names in the trash that the deleted things get. -/
theorem exTrash_names {v : Str} {u : Bool} {fuel : Nat} {p : Path} {t : Str} {k0 : Nat}
    (h : TrashTarget (exEnvDays v u) (exTrash fuel).os.fs p t)
    (h0 : (exTrash 0).os.fs.get (exEnvE.trash ++ [trashCand (p.getLastD []) k0]) = none)
    (h1 : ∀ j < k0, (exTrash 0).os.fs.get (exEnvE.trash ++ [trashCand (p.getLastD []) j]) ≠ none) :
    t = trashCand (p.getLastD []) k0 := by
  obtain ⟨k, h3, h4, h5⟩ := h
  rcases Nat.lt_trichotomy k k0 with hk | hk | hk
  · rw [h3] at h4
    exact absurd h4 (h1 k hk)
  · rw [h3, hk]
  · exact absurd h0 (h5 k0 hk)

/-- `d` gets a name in the trash that nothing else gets. -/
theorem exTrash_dist {v : Str} {u : Bool} {p : Path} (hp : Deleted (exEnvDays v u) (exTrash 1000) p) {t : Str}
    (h1 : TrashTarget (exEnvDays v u) (exTrash 1000).os.fs p t)
    (h2 : TrashTarget (exEnvDays v u) (exTrash 1000).os.fs ["d".toList] t) : p = ["d".toList] := by
  have hd : t = "d".toList := exTrash_names (k0 := 0) h2 (by decide +kernel) (by decide +kernel)
  rcases exTrash_deleted rfl hp.1 with rfl | rfl | rfl | rfl
  · have := exTrash_names (k0 := 0) h1 (by decide +kernel) (by decide +kernel)
    rw [hd] at this
    exact absurd this (by decide +kernel)
  · have := exTrash_names (k0 := 1) h1 (by decide +kernel) (by decide +kernel)
    rw [hd] at this
    exact absurd this (by decide +kernel)
  · rfl
  · exact (hp.2 ["d".toList] (exTrash_top rfl 1000 (by simp)).1 (by decide)).symm

theorem exTrash_short {k k' : Nat} (hk : During (exTrash 1000) (sync (exEnvDays "1".toList true) (exTrash 1000)).2 k)
    (hk' : During (exTrash 1000) (sync (exEnvDays "1".toList true) (exTrash 1000)).2 k') :
    (exTrash 1000).os.clk k' < (exTrash 1000).os.clk k + digitsValue "1".toList * (24 * 60 * 60) := by
  have h1 := (exTrash_time (n := 19) (by decide +kernel) hk).1
  have h2 := (exTrash_time (n := 19) (by decide +kernel) hk').2
  have h4 : digitsValue "1".toList = 1 := by decide
  rw [h4]
  omega

/-- The directory `d`, with what is in it. -/
example : ∃ t k, (exTrash 1000).os.fs.get ((exEnvDays "1".toList true).trash ++ [t]) = none ∧
    During (exTrash 1000) (sync (exEnvDays "1".toList true) (exTrash 1000)).2 k ∧
    InTrash (exEnvDays "1".toList true) (exTrash 1000).os.fs ["d".toList] (.dir 3 8) ((exTrash 1000).os.clk k) t
      (sync (exEnvDays "1".toList true) (exTrash 1000)).2.os.fs := by
  refine C99_moved_partial (env := exEnvDays "1".toList true) (exTrash_ready "1".toList true 1000) rfl
    (e := exRow ["d".toList] true 1 false) (by show _ ∈ [_, _, _, _, _]; simp) rfl (exTrash_top rfl 1000 (by simp [exRow]))
    (by decide +kernel) rfl (fun p hp t h1 h2 => exTrash_dist hp h1 h2) ?_ (by decide +kernel)
  intro t ht k k' hk hk' _
  have h3 : cleanupPeriod "1".toList = some t := ht
  rw [cleanupPeriod_digits digits_one] at h3
  cases h3
  exact exTrash_short hk hk'

/-! ### What does not hold -/

/-- C99 for an accepted number of days: nothing that is that old is left by a sync that has succeeded. -/
def C99Days : Prop := ∀ (env : Env) (w : World) (v : Str), SyncReady env w →
  checkValue "TrashCleanupPeriod".toList v = none → Digits v → env.cleanup = cleanupPeriod v → (sync env w).1 = .ok () →
  ∃ k, During w (sync env w).2 k ∧ ∀ c n, (sync env w).2.os.fs.get (env.trash ++ [c]) = some n →
    n.isLink = false → w.os.clk k < n.mtime + digitsValue v * (24 * 60 * 60)

/-- `TrashCleanupPeriod=0` is accepted, and nothing is ever removed from the trash, as if the number was negative: the
period is then zero seconds, and the clean-up is only done if the period is true (zielen/commands/sync.py:134-135). -/
theorem C99_zero_fails : ¬ C99Days := by
  intro h
  obtain ⟨k, h1, h2⟩ := h (exEnvDays "0".toList true) (exTrash 1000) "0".toList (exTrash_ready "0".toList true 1000)
    (by decide +kernel) ⟨by decide, by decide⟩ rfl (by decide +kernel)
  have h3 := h2 "t".toList (.file 30 (-100000) 1) (by decide +kernel) rfl
  have h4 : digitsValue "0".toList = 0 := by decide
  have h5 : (exTrash 1000).os.clk k = (k : Int) + 50 := rfl
  rw [h4, h5] at h3
  have h6 : (Node.file 30 (-100000) 1).mtime = -100000 := rfl
  omega

/-- C99 for an accepted value of `UseTrash` that means yes: the content of a file that was deleted here, where it was a
link, is somewhere after a sync that has succeeded. -/
def C99Yes : Prop := ∀ (env : Env) (w : World) (v : Str), SyncReady env w →
  checkValue "UseTrash".toList v = none → AnyCase v "yes".toList → env.useTrash = decide (convertBool v = some true) →
  ∀ e ∈ w.db, e.data.loc = false → Deleted env w e.path → ∀ c m b, w.os.fs.get (env.rem ++ e.path) = some (.file c m b) →
  (sync env w).1 = .ok () → ∃ q m', (sync env w).2.os.fs.get q = some (.file c m' b)

/-- `UseTrash=Yes` is accepted, and the sync removes the remote file of a deleted link without a copy of it in the
trash: the value is compared with `yes` and `true` in lower case only (zielen/profile.py:260-265). -/
theorem C99_yes_fails : ¬ C99Yes := by
  intro h
  obtain ⟨q, m', h1⟩ := h (exEnvDays "1".toList false) (exTrash 1000) "Yes".toList
    (exTrash_ready "1".toList false 1000) (by decide +kernel) (by unfold AnyCase; decide +kernel) (by decide +kernel)
    (exRow ["h".toList] false 1 false) (by show _ ∈ [_, _, _, _, _]; simp) rfl (exTrash_top rfl 1000 (by simp [exRow])) 19 3 1 (by decide +kernel)
    (by decide +kernel)
  have h2 : ((sync (exEnvDays "1".toList false) (exTrash 1000)).2.os.fs.all fun x =>
      match x.2 with | .file c _ _ => decide (c ≠ 19) | _ => true) = true := by decide +kernel
  generalize (sync (exEnvDays "1".toList false) (exTrash 1000)).2.os.fs = fs at h1 h2
  have h3 : q ≠ [] := by
    rintro rfl
    cases h1
  have h4 := List.all_eq_true.1 h2 _ (FS.mem_of_get h3 h1)
  simp at h4

end Verif
