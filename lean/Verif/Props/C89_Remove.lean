import Verif.Props.C89_DirLinks
import Verif.WorldLemmas
import Verif.Props.C23_RmExcluded
/-!
C89: deletions without links. With paths resolved as the kernel does, the deletions of a command remove exactly what was
named, in the directory that was meant.
-/
namespace Verif
open Prog OSM Call FSTools WM

namespace Deep
variable {p : Path}

theorem same_rmEntry (hp : GoodPath p) : Same (rmEntry p) (Call.rmEntry p) :=
  .bind (.query (fun _ h => lstat_tame h hp)) (fun n => by
    cases h : n.isDir with
    | true => simpa [h] using same_rmdir hp
    | false => simpa [h] using same_remove hp)

theorem under_tame {fs : FS} (h : Tame fs) (hp : GoodPath p) {m : Int} {b : Nat} (hl : fs.lstat p = .ok (.dir m b)) :
    under fs p = fs.below p := by
  have hpe : fs.pathErr p = none := by
    unfold FS.lstat at hl
    cases he : fs.pathErr p with
    | none => rfl
    | some e => rw [he] at hl; cases hl
  have hg : fs.get p = some (.dir m b) := by
    unfold FS.lstat at hl
    rw [hpe] at hl
    dsimp only at hl
    cases hg : fs.get p with
    | none => rw [hg] at hl; cases hl
    | some n => rw [hg] at hl; cases hl; rfl
  unfold under
  rw [stat_tame h hp]
  unfold FS.stat
  rw [FS.follow_nonlink hpe (fun _ _ => h.nolink)]
  simp [hg]

theorem same_rmtree (hp : GoodPath p) : Same (rmtree p) (Call.rmtree p) := by
  intro s hs
  have e0 := lstat_tame hs hp
  unfold rmtree Call.rmtree
  cases hl : s.fs.lstat p with
  | error e =>
    have e1 : OSM.query (fun fs => fs.lstat p) s = (.error e, s) := by unfold OSM.query; dsimp only; rw [hl]
    have e2 : OSM.query (fun fs => lstat fs p) s = (.error e, s) := by unfold OSM.query; dsimp only; rw [e0, hl]
    rw [bind_error e1, bind_error e2]
    exact ⟨rfl, hs⟩
  | ok n =>
    have e1 : OSM.query (fun fs => fs.lstat p) s = (.ok n, s) := by unfold OSM.query; dsimp only; rw [hl]
    have e2 : OSM.query (fun fs => lstat fs p) s = (.ok n, s) := by unfold OSM.query; dsimp only; rw [e0, hl]
    rw [bind_ok e1, bind_ok e2]
    cases n with
    | link t m => exact ⟨rfl, hs⟩
    | file c m b => exact ⟨rfl, hs⟩
    | dir m b =>
      dsimp only
      have e3 : OSM.ask (fun fs => descending ((under fs p).map Prod.fst)) s
          = (.ok (descending ((s.fs.below p).map Prod.fst)), s) := by
        unfold OSM.ask; dsimp only; rw [under_tame hs hp hl]
      have e4 : OSM.ask (fun fs => descending ((FS.below fs p).map Prod.fst)) s
          = (.ok (descending ((s.fs.below p).map Prod.fst)), s) := rfl
      rw [bind_ok e3, bind_ok e4]
      refine (Same.bind (.each (fun e he => same_rmEntry ?_)) (fun _ => same_rmdir hp)) s hs
      obtain ⟨⟨q, n⟩, hq, rfl⟩ := List.mem_map.1 (mem_descending.1 he)
      exact (hs _ (FS.mem_below.1 hq).1).2

theorem same_rmOne {parent : Path} (hd : GoodPath parent) (hp : GoodPath p) :
    Same (rmOne parent p) (Verif.rmOne parent p) := by
  have h := goodPath_append.2 ⟨hd, hp⟩
  refine .tryCatch (same_remove h) (fun e => ?_)
  cases e <;> first
    | exact Or.inl ⟨rfl, rfl⟩
    | exact Or.inr ⟨_, _, rfl, rfl, same_rmtree h⟩
    | exact Or.inr ⟨_, _, rfl, rfl, .pure ()⟩

theorem rmFiles_tame {env : Env} (ho : ∀ l, (env.order l).Perm l) {parent : Path} (hd : GoodPath parent) {ps : List Path}
    (hp : ∀ p ∈ ps, GoodPath p) {w : World} (hs : Tame w.os.fs) : rmFiles env parent ps w = Verif.rmFiles env parent ps w := by
  have h := (Same.each (f' := rmOne parent) (f := Verif.rmOne parent) (l := env.order ps)
    (fun p h => same_rmOne hd (hp p ((ho ps).mem_iff.1 h)))) w.os hs
  unfold rmFiles Verif.rmFiles
  have h1 : sys (Prog.each (rmOne parent) (env.order ps)) w = sys (Prog.each (Verif.rmOne parent) (env.order ps)) w := by
    unfold sys; rw [h.1]
  cases hm : sys (Prog.each (Verif.rmOne parent) (env.order ps)) w with
  | mk r t =>
    cases r with
    | ok a => rw [bind_ok (h1.trans hm), bind_ok hm]
    | error e => rw [bind_error (h1.trans hm), bind_error hm]

end Deep

/-- Without links, a deletion on the remote side, at every crash point: what is not at or below one of the named paths in
the remote directory is as before, whether or not the deletion succeeds; what is there is as before or gone. If it
succeeds, nothing is left there, and neither database has a row at or below a named path, while the other rows stay.
Missing: links to files, which `C89_remove_fails` and the theorems about the flat model cover separately. -/
theorem C89_nolinks_remove_partial {env : Env} {ps : List Path} {w : World} (ho : ∀ l, (env.order l).Perm l)
    (wf : w.os.fs.WF) (hl : ∀ e ∈ w.os.fs, e.2.isLink = false ∧ GoodPath e.1) (hr : GoodPath env.rem)
    (hp : ∀ p ∈ ps, p ≠ [] ∧ GoodPath p) :
    (∀ q, (∀ p ∈ ps, ¬ env.rem ++ p <+: q) → (Deep.rmRemoteFiles env ps w).2.os.fs.get q = w.os.fs.get q) ∧
    (∀ q, (Deep.rmRemoteFiles env ps w).2.os.fs.get q = w.os.fs.get q ∨
      (Deep.rmRemoteFiles env ps w).2.os.fs.get q = none) ∧
    ((Deep.rmRemoteFiles env ps w).1 = .ok () →
      (∀ p ∈ ps, ∀ q, env.rem ++ p <+: q → (Deep.rmRemoteFiles env ps w).2.os.fs.get q = none) ∧
      (∀ q, q ∈ ADB.paths (Deep.rmRemoteFiles env ps w).2.db ↔ q ∈ ADB.paths w.db ∧ ∀ p ∈ ps, ¬ p <+: q) ∧
      (∀ q, q ∈ ADB.paths (Deep.rmRemoteFiles env ps w).2.rdb ↔ q ∈ ADB.paths w.rdb ∧ ∀ p ∈ ps, ¬ p <+: q)) := by
  have e : Deep.rmRemoteFiles env ps w = Verif.rmFiles env env.rem ps w :=
    Deep.rmFiles_tame ho hr (fun p h => (hp p h).2) hl
  have key := wp_rmFiles ho env.rem (fun p h => (hp p h).1) wf
  cases hx : Verif.rmFiles env env.rem ps w with
  | mk r t =>
    rw [e, hx]
    cases r with
    | ok a =>
      obtain ⟨h1, h2, h3⟩ := wp_ok key hx
      refine ⟨fun q hq => h1.keeps q (fun ⟨p, h, h'⟩ => hq p h h'), h1.gone, fun _ => ⟨h2, ?_, ?_⟩⟩
      · intro q
        rw [h3]
        exact mem_rmRows_db
      · intro q
        rw [h3]
        exact mem_rmRows_rdb
    | error er =>
      obtain ⟨h1, _⟩ := wp_error key hx
      exact ⟨fun q hq => h1.keeps q (fun ⟨p, h, h'⟩ => hq p h h'), h1.gone, fun h => by cases h⟩

/-- A directory with a file in it is deleted; the same path in the local directory stays. -/
def exPlainRemote : World :=
  { exWorld exEnvE [] [] [] 1000 with
    os := ⟨[(["l".toList], .dir 1 8), (["l".toList, "d".toList], .dir 1 8),
      (["l".toList, "d".toList, "x".toList], .file 4 4 1), (["r".toList], .dir 1 8), (["r".toList, "d".toList], .dir 1 8),
      (["r".toList, "d".toList, "x".toList], .file 4 4 1)], 1000, 0, fun n => n + 50⟩ }

example : exPlainRemote.os.fs.WF ∧ (∀ e ∈ exPlainRemote.os.fs, e.2.isLink = false ∧ GoodPath e.1) ∧
    GoodPath exEnvE.rem ∧ (∀ p ∈ [["d".toList]], p ≠ [] ∧ GoodPath p) ∧
    (Deep.rmRemoteFiles exEnvE [["d".toList]] exPlainRemote).1 = .ok () ∧
    (Deep.rmRemoteFiles exEnvE [["d".toList]] exPlainRemote).2.os.fs.get ["l".toList, "d".toList, "x".toList]
      = some (.file 4 4 1) :=
  ⟨⟨by decide +kernel, by decide +kernel, by decide +kernel, by decide +kernel⟩, by decide +kernel, by decide +kernel,
   by decide +kernel, by decide +kernel, by decide +kernel⟩

/-! ### Deletions in the local directory -/

namespace Deep

theorem globMatches_tame {fs : FS} (h : Tame fs) (wf : fs.WF) {loc : Path} (hg : GoodPath loc) (hd : fs.isDir loc = true)
    {pats : Patterns} {l : List Path} (hl : globMatches fs loc pats = .ok l) {p : Path} :
    p ∈ l ↔ ExcludedIn fs loc pats p := by
  have hu : under fs loc = fs.below loc := by
    obtain ⟨m, b, hd⟩ := FS.isDir_iff.1 hd
    refine under_tame h hg (m := m) (b := b) ?_
    unfold FS.lstat
    rw [wf.pathErr hd, hd]
  have hlm : linkedMatches fs loc pats = [] := by
    unfold linkedMatches
    rw [List.flatMap_eq_nil_iff]
    rintro ⟨q, n⟩ hq
    rw [hu] at hq
    rw [if_neg]
    rintro ⟨h1, _⟩
    have := (h _ (FS.mem_below.1 hq).1).1
    simp only at this h1
    rw [this] at h1
    cases h1
  unfold globMatches at hl
  split at hl
  · cases hl
  · cases hl
    rw [hlm, List.append_nil, mem_setOf, hu, mem_allMatches_fs wf]

/-- What `exclMatches` returns in a new process. -/
theorem wp_exclMatches {env : Env} {w : World} (hm : w.matches_ = none) (h : Tame w.os.fs) (wf : w.os.fs.WF)
    (hg : GoodPath env.loc) (hd : w.os.fs.isDir env.loc = true) (hx : GoodPath env.excl) {k : Nat} {m : Int} {b : Nat}
    (he : w.os.fs.get env.excl = some (.file k m b)) :
    wp (exclMatches env) (fun l w' => w' = { w with matches_ := some l } ∧
      ∀ p, p ∈ l ↔ ExcludedIn w.os.fs env.loc (env.patsOf k) p) (fun _ w' => w' = w) w := by
  unfold exclMatches
  rw [wp_bind, wp_gets, hm]
  dsimp only
  have hr : readPatterns env w.os.fs env.excl = .ok (env.patsOf k) := by
    unfold readPatterns
    rw [stat_tame h hx]
    unfold FS.stat
    rw [FS.follow_nonlink (wf.pathErr he) (fun _ _ => h.nolink)]
    simp [he]
  rw [wp_bind, wp_sys, wp_query]
  refine ⟨?_, fun e _ => rfl⟩
  intro pats h1
  rw [hr] at h1
  cases h1
  rw [wp_bind, wp_sys, wp_query]
  refine ⟨?_, fun e _ => rfl⟩
  intro l hl
  rw [wp_bind, wp_modify, wp_pure]
  exact ⟨rfl, fun p => globMatches_tame h wf hg hd hl⟩

end Deep

/-- Without links, a deletion on the local side by a new process, at every crash point. What is neither at nor below a
named path that the exclude file does not match is as before, in particular every excluded file whose parents are not
deleted; so is everything outside the local directory. If the deletion succeeds, everything at or below the named paths
that are not excluded is gone, and neither database has a row there, while the other rows stay. Missing: links. -/
theorem C89_nolinks_local_partial {env : Env} {ps : List Path} {w : World} (ho : ∀ l, (env.order l).Perm l)
    (wf : w.os.fs.WF) (hl : ∀ e ∈ w.os.fs, e.2.isLink = false ∧ GoodPath e.1) (hg : GoodPath env.loc)
    (hd : w.os.fs.isDir env.loc = true) (hx : GoodPath env.excl) {k : Nat} {m : Int} {b : Nat}
    (he : w.os.fs.get env.excl = some (.file k m b)) (hm : w.matches_ = none) (hp : ∀ p ∈ ps, p ≠ [] ∧ GoodPath p) :
    (∀ q, (∀ p ∈ ps, env.loc ++ p <+: q → ExcludedIn w.os.fs env.loc (env.patsOf k) p) →
      (Deep.rmLocalFiles env ps w).2.os.fs.get q = w.os.fs.get q) ∧
    (∀ q, (Deep.rmLocalFiles env ps w).2.os.fs.get q = w.os.fs.get q ∨
      (Deep.rmLocalFiles env ps w).2.os.fs.get q = none) ∧
    ((Deep.rmLocalFiles env ps w).1 = .ok () →
      (∀ p ∈ ps, ¬ ExcludedIn w.os.fs env.loc (env.patsOf k) p →
        ∀ q, env.loc ++ p <+: q → (Deep.rmLocalFiles env ps w).2.os.fs.get q = none) ∧
      (∀ q, q ∈ ADB.paths (Deep.rmLocalFiles env ps w).2.db ↔ q ∈ ADB.paths w.db ∧
        ∀ p ∈ ps, p <+: q → ExcludedIn w.os.fs env.loc (env.patsOf k) p) ∧
      (∀ q, q ∈ ADB.paths (Deep.rmLocalFiles env ps w).2.rdb ↔ q ∈ ADB.paths w.rdb ∧
        ∀ p ∈ ps, p <+: q → ExcludedIn w.os.fs env.loc (env.patsOf k) p)) := by
  have key := Deep.wp_exclMatches hm hl wf hg hd hx he
  cases hx : Deep.exclMatches env w with
  | mk r t =>
    cases r with
    | error er =>
      have h1 := wp_error key hx
      subst h1
      have e : Deep.rmLocalFiles env ps t = (.error er, t) := Deep.bind_error hx
      rw [e]
      exact ⟨fun _ _ => rfl, fun _ => Or.inl rfl, fun h => by cases h⟩
    | ok l =>
      obtain ⟨rfl, h1⟩ := wp_ok key hx
      have e : Deep.rmLocalFiles env ps w = Deep.rmFiles env env.loc (ps.filter (fun p => decide (p ∉ l))) _ :=
        Deep.bind_ok hx
      have hmem : ∀ p, p ∈ ps.filter (fun p => decide (p ∉ l)) ↔
          p ∈ ps ∧ ¬ ExcludedIn w.os.fs env.loc (env.patsOf k) p := by
        intro p
        rw [List.mem_filter, decide_eq_true_iff, h1]
      generalize ps.filter (fun p => decide (p ∉ l)) = qs at e hmem
      rw [e.trans (Deep.rmFiles_tame (w := { w with matches_ := some l }) ho hg
        (fun p h => (hp p ((hmem p).1 h).1).2) hl)]
      have key2 := wp_rmFiles (w := { w with matches_ := some l }) ho env.loc
        (fun p h => (hp p ((hmem p).1 h).1).1) wf
      have hrow : ∀ q, (∀ p ∈ qs, ¬ p <+: q) ↔
          ∀ p ∈ ps, p <+: q → ExcludedIn w.os.fs env.loc (env.patsOf k) p := by
        intro q
        constructor
        · intro h p h2 h3
          by_contra h4
          exact h p ((hmem p).2 ⟨h2, h4⟩) h3
        · intro h p h2 h3
          exact ((hmem p).1 h2).2 (h p ((hmem p).1 h2).1 h3)
      cases hy : Verif.rmFiles env env.loc qs { w with matches_ := some l } with
      | mk r t =>
        cases r with
        | ok a =>
          obtain ⟨h2, h3, h4⟩ := wp_ok key2 hy
          refine ⟨fun q hq => h2.keeps q ?_, h2.gone, fun _ => ⟨?_, ?_, ?_⟩⟩
          · rintro ⟨p, h, h'⟩
            exact ((hmem p).1 h).2 (hq p ((hmem p).1 h).1 h')
          · intro p h5 h6
            exact h3 p ((hmem p).2 ⟨h5, h6⟩)
          · intro q
            rw [h4, ← hrow q]
            exact mem_rmRows_db
          · intro q
            rw [h4, ← hrow q]
            exact mem_rmRows_rdb
        | error er =>
          obtain ⟨h2, _⟩ := wp_error key2 hy
          refine ⟨fun q hq => h2.keeps q ?_, h2.gone, fun h => by cases h⟩
          rintro ⟨p, h, h'⟩
          exact ((hmem p).1 h).2 (hq p ((hmem p).1 h).1 h')

/-- Two files are deleted locally, one of which the exclude file matches. -/
def exExclLocal : World :=
  { exWorld exEnvE [] [] [] 1000 with
    os := ⟨(exEnvE.excl, .file 1 1 1) :: [(["l".toList], .dir 1 8), (["l".toList, "e".toList], .file 4 4 1),
      (["l".toList, "y".toList], .file 5 4 1)], 1000, 0, fun n => n + 50⟩ }

example : exExclLocal.os.fs.WF ∧ (∀ e ∈ exExclLocal.os.fs, e.2.isLink = false ∧ GoodPath e.1) ∧
    GoodPath exEnvE.loc ∧ exExclLocal.os.fs.isDir exEnvE.loc = true ∧ GoodPath exEnvE.excl ∧
    exExclLocal.os.fs.get exEnvE.excl = some (.file 1 1 1) ∧ exExclLocal.matches_ = none ∧
    (∀ p ∈ [["e".toList], ["y".toList]], p ≠ [] ∧ GoodPath p) ∧
    (Deep.rmLocalFiles exEnvE [["e".toList], ["y".toList]] exExclLocal).1 = .ok () ∧
    (Deep.rmLocalFiles exEnvE [["e".toList], ["y".toList]] exExclLocal).2.os.fs.get ["l".toList, "e".toList]
      = some (.file 4 4 1) ∧
    (Deep.rmLocalFiles exEnvE [["e".toList], ["y".toList]] exExclLocal).2.os.fs.get ["l".toList, "y".toList] = none :=
  ⟨⟨by decide +kernel, by decide +kernel, by decide +kernel, by decide +kernel⟩, by decide +kernel, by decide +kernel,
   by decide +kernel, by decide +kernel, by decide +kernel, rfl, by decide +kernel, by decide +kernel, by decide +kernel,
   by decide +kernel⟩

end Verif
