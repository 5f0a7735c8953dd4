import Verif.Props.C89_Clear
import Verif.Props.C45_Reset
/-!
C45 and C89: `reset --no-retrieve` with links anywhere. Paths are resolved as the kernel does.
-/
namespace Verif
open Prog OSM Call FSTools WM

namespace Deep

theorem sameR_unlinkOne {env : Env} {fs₀ : FS} {p : Path} (hd : Direct fs₀ (env.loc ++ p)) (hp : GoodPath (env.loc ++ p)) :
    SameR fs₀ (unlinkOne env p) (Verif.unlinkOne env p) :=
  .bind (.query (fun _ h => lstat_direct (Direct.shrink hd h) hp)) (fun n => by
    cases n with
    | file c m b => exact .throw _
    | dir m b => exact .throw _
    | link t m =>
      dsimp only
      split
      · exact sameR_remove hd hp
      · exact .pure ())

theorem sameR_rmExcludeFile {env : Env} {fs₀ : FS} (hd : Direct fs₀ (env.exclDir ++ [env.id]))
    (hp : GoodPath (env.exclDir ++ [env.id])) : SameR fs₀ (rmExcludeFile env) (Verif.rmExcludeFile env) := by
  refine .tryCatch (sameR_remove hd hp) (fun e => ?_)
  by_cases he : e = .notFound
  · rw [if_pos he]
    exact Or.inr ⟨_, _, rfl, rfl, .pure ()⟩
  · rw [if_neg he]
    exact Or.inl ⟨rfl, rfl⟩

/-- The way to an entry of a directory does not go through a link. -/
theorem direct_child {fs : FS} (wf : fs.WF) {p : Path} {c : Str} (hd : fs.isDir p = true) : Direct fs (p ++ [c]) := by
  intro q h1 h2 t m h3
  obtain ⟨m', b', hg⟩ := FS.isDir_iff.1 hd
  rcases List.prefix_concat_iff.1 h1 with h4 | h4
  · exact h2 h4
  · by_cases h5 : q = p
    · subst h5; rw [hg] at h3; cases h3
    · have := wf.isDir_prefix hg q h4 h5
      rw [FS.isDir, h3] at this
      cases this

theorem resetTail_dir {env : Env} {w : World} (wf : w.os.fs.WF) (hm : w.lmemo = []) (hl : w.os.fs.isDir env.loc = true)
    (hx : w.os.fs.isDir env.exclDir = true) (hi : GoodPath [env.id]) : resetTail env w = Verif.resetTail env w := by
  have hs : scanNodes w.os.fs env.loc = Verif.scanNodes w.os.fs env.loc := scanNodes_dir wf hl
  obtain ⟨m, b, _, h2⟩ := stat_dir wf hl
  have hn : Verif.scanNodes w.os.fs env.loc = .ok (w.os.fs.below env.loc) := by
    unfold Verif.scanNodes FSTools.scanTree
    rw [h2]
    simp
  have e1 : Verif.scanLocal env w = (.ok (w.os.fs.below env.loc), { w with lmemo := w.os.fs.below env.loc }) := by
    simp [Verif.scanLocal, bind, pure, gets, sys, OSM.query, WM.modify, hm, hn]
  have e2 : scanLocal env w = (.ok (w.os.fs.below env.loc), { w with lmemo := w.os.fs.below env.loc }) := by
    simp [scanLocal, bind, pure, gets, sys, OSM.query, WM.modify, hm, hs, hn]
  unfold resetTail Verif.resetTail
  rw [bind_ok e1, bind_ok e2]
  have hgx : GoodPath (env.exclDir ++ [env.id]) := by
    obtain ⟨m', b', hg⟩ := FS.isDir_iff.1 hx
    intro c hc
    rcases List.mem_append.1 hc with h | h
    · exact good_of_get wf hg c h
    · exact hi c h
  have h3 : SameR w.os.fs (Prog.each (unlinkOne env) (((w.os.fs.below env.loc).filter (fun e => e.2.isLink)).map Prod.fst))
      (Prog.each (Verif.unlinkOne env) (((w.os.fs.below env.loc).filter (fun e => e.2.isLink)).map Prod.fst)) := by
    refine .each (fun p hp => ?_)
    obtain ⟨e, he, rfl⟩ := List.mem_map.1 hp
    obtain ⟨_, n, hg⟩ := (mem_keys_below wf).1 (List.mem_map_of_mem (f := Prod.fst) (List.mem_filter.1 he).1)
    exact sameR_unlinkOne (direct_of_get wf hg) (good_of_get wf hg)
  have h4 := sameR_rmExcludeFile (env := env) (direct_child wf hx) hgx
  obtain ⟨h5, h6⟩ := h3 w.os (Shrink.refl _ _)
  generalize ((w.os.fs.below env.loc).filter (fun e => e.2.isLink)).map Prod.fst = l at h5 h6 ⊢
  have h7 : sys (Prog.each (unlinkOne env) l) { w with lmemo := w.os.fs.below env.loc }
      = sys (Prog.each (Verif.unlinkOne env) l) { w with lmemo := w.os.fs.below env.loc } := by
    unfold sys; dsimp only; rw [h5]
  cases hm : Prog.each (Verif.unlinkOne env) l w.os with
  | mk r s =>
    rw [hm] at h6
    have h8 : sys (Prog.each (Verif.unlinkOne env) l) { w with lmemo := w.os.fs.below env.loc }
        = (r, { w with lmemo := w.os.fs.below env.loc, os := s }) := by
      unfold sys; dsimp only; rw [hm]
    cases r with
    | error e => rw [bind_error (h7.trans h8), bind_error h8]
    | ok a =>
      rw [bind_ok (h7.trans h8), bind_ok h8]
      unfold sys
      dsimp only
      rw [(h4 s h6).1]

theorem giveUp_dir {env : Env} {keep : Bool} {w : World} (wf : w.os.fs.WF) (hm : w.lmemo = [])
    (hl : w.os.fs.isDir env.loc = true) (hx : w.os.fs.isDir env.exclDir = true) (hi : GoodPath [env.id]) :
    reset env keep true w = Verif.reset env keep true w := by
  obtain ⟨m, b, hg⟩ := FS.isDir_iff.1 hl
  have key := wp_makedirs_dir wf hg
  have e0 := makedirs_dir wf hl
  unfold reset Verif.reset
  cases hk : Call.makedirs env.loc w.os with
  | mk r s =>
    have h1 : sys (Call.makedirs env.loc) w = (r, { w with os := s }) := by unfold sys; rw [hk]
    have h2 : sys (makedirs env.loc) w = (r, { w with os := s }) := by unfold sys; rw [e0, hk]
    cases r with
    | error e => rw [bind_error h1, bind_error h2]
    | ok u =>
      have hs : s.fs = w.os.fs := wp_ok key hk
      rw [bind_ok h1, bind_ok h2]
      have h3 : resetGet env keep true { w with os := s } = (.ok (), { w with os := s }) := rfl
      have h4 : Verif.resetGet env keep true { w with os := s } = (.ok (), { w with os := s }) := rfl
      rw [bind_ok h3, bind_ok h4]
      exact resetTail_dir (w := { w with os := s }) (by dsimp only; rw [hs]; exact wf) hm
        (by dsimp only; rw [hs]; exact hl) (by dsimp only; rw [hs]; exact hx) hi

end Deep

/-- `reset --no-retrieve` with links anywhere, also to directories; at every crash point. Nothing is changed but links in
the local directory and the exclude file of the profile, and those are at most removed: files and directories of both
sides, and whatever the links lead to, are as before. If it succeeds, no link to the remote directory is left. Missing:
a local directory or a directory of exclude files that is reached through a link. -/
theorem C89_giveUp_partial {env : Env} {keep : Bool} (ha : Apart env.loc env.rem) {w : World} (wf : w.os.fs.WF)
    (hm : w.lmemo = []) (hl : w.os.fs.isDir env.loc = true) (hx : w.os.fs.isDir env.exclDir = true)
    (hi : GoodPath [env.id]) :
    (∀ q, q ≠ env.exclDir ++ [env.id] → ((∀ t m, w.os.fs.get q ≠ some (.link t m)) ∨ ∀ p, q ≠ env.loc ++ p) →
      (Deep.reset env keep true w).2.os.fs.get q = w.os.fs.get q) ∧
    (∀ q, (Deep.reset env keep true w).2.os.fs.get q = w.os.fs.get q ∨
      (Deep.reset env keep true w).2.os.fs.get q = none) ∧
    ((Deep.reset env keep true w).1 = .ok () → GoodPath env.rem → ∀ p q m, p ≠ [] → GoodPath q →
      (Deep.reset env keep true w).2.os.fs.get (env.loc ++ p) ≠ some (.link (absStr (env.rem ++ q)) m)) := by
  rw [Deep.giveUp_dir wf hm hl hx hi]
  obtain ⟨m, b, hg⟩ := FS.isDir_iff.1 hl
  have refl : ResetTail env w.os.fs w.os.fs := .of (Unlinked.refl _ _) (Shrink.refl _ _)
  have key : wp (reset env keep true)
      (fun _ w' => ResetTail env w.os.fs w'.os.fs ∧ (GoodPath env.rem → ∀ p q m, p ≠ [] → GoodPath q →
        w'.os.fs.get (env.loc ++ p) ≠ some (.link (absStr (env.rem ++ q)) m)))
      (fun _ w' => ResetTail env w.os.fs w'.os.fs) w := by
    unfold reset
    rw [wp_bind, wp_sys]
    refine wp_mono (wp_makedirs_dir wf hg) ?_ ?_
    · intro _ s hs
      rw [wp_bind]
      show wp (pure () : WM Unit) _ _ _
      rw [wp_pure]
      have h := wp_resetTail (env := env) (w := { w with os := s }) ha (by dsimp only; rw [hs]; exact wf) hm
      dsimp only at h
      rw [hs] at h
      refine wp_mono h ?_ ?_
      · rintro _ w' ⟨h1, _, h2⟩; exact ⟨h1, h2⟩
      · rintro _ w' ⟨h1, _⟩; exact h1
    · rintro e s ⟨hs, _⟩
      dsimp only
      rw [hs]
      exact refl
  have fin : ∀ fs', ResetTail env w.os.fs fs' →
      (∀ q, q ≠ env.exclDir ++ [env.id] → ((∀ t m, w.os.fs.get q ≠ some (.link t m)) ∨ ∀ p, q ≠ env.loc ++ p) →
        fs'.get q = w.os.fs.get q) := by
    rintro fs' h q hq (h1 | h1)
    · cases hn : w.os.fs.get q with
      | none =>
        rcases h.gone q with h2 | h2
        · rw [h2, hn]
        · exact h2
      | some n =>
        refine h.keeps q n hn ?_ hq
        cases n with
        | link t m => exact absurd hn (h1 t m)
        | _ => rfl
    · exact h.out q (by rintro ⟨t, rfl⟩; exact h1 t rfl) hq
  cases hr : reset env keep true w with
  | mk r t =>
    cases r with
    | ok a =>
      obtain ⟨h1, h2⟩ := wp_ok key hr
      exact ⟨fin _ h1, h1.gone, fun _ => h2⟩
    | error e =>
      have h1 := wp_error key hr
      exact ⟨fin _ h1, h1.gone, fun h => by cases h⟩

/-- The local directory has a link to a file of the remote directory, one to the remote directory, and one elsewhere. -/
def exGiveUp : World :=
  exWorld exEnvE [(["l".toList, "a".toList], .link "/r/a".toList 4), (["l".toList, "s".toList], .link "/r".toList 4),
    (["l".toList, "x".toList], .link "/x".toList 4), (["r".toList, "a".toList], .file 4 4 1)] [] [] 1000

example : exGiveUp.os.fs.WF ∧ Apart exEnvE.loc exEnvE.rem ∧ exGiveUp.lmemo = [] ∧
    exGiveUp.os.fs.isDir exEnvE.loc = true ∧ exGiveUp.os.fs.isDir exEnvE.exclDir = true ∧ GoodPath [exEnvE.id] ∧
    GoodPath exEnvE.rem ∧ (Deep.reset exEnvE false true exGiveUp).1 = .ok () ∧
    (Deep.reset exEnvE false true exGiveUp).2.os.fs.get ["l".toList, "a".toList] = none ∧
    (Deep.reset exEnvE false true exGiveUp).2.os.fs.get ["l".toList, "s".toList] = none ∧
    (Deep.reset exEnvE false true exGiveUp).2.os.fs.get ["l".toList, "x".toList] = some (.link "/x".toList 4) ∧
    (Deep.reset exEnvE false true exGiveUp).2.os.fs.get ["r".toList, "a".toList] = some (.file 4 4 1) :=
  ⟨⟨by decide +kernel, by decide +kernel, by decide +kernel, by decide +kernel⟩, by unfold Apart; decide +kernel,
   by decide +kernel, by decide +kernel, by decide +kernel, by decide +kernel, by decide +kernel, by decide +kernel,
   by decide +kernel, by decide +kernel, by decide +kernel, by decide +kernel⟩

end Verif
