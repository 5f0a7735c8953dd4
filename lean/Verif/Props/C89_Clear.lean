import Verif.Props.C89_Trash
import Verif.ResetLemmas
/-!
C45 and C89: the clearing of the remote directory by a reset, with links anywhere. Paths are resolved as the kernel does.
-/
namespace Verif
open Prog OSM Call FSTools WM

namespace Deep

theorem scanNodes_dir {fs : FS} {p : Path} (wf : fs.WF) (hd : fs.isDir p = true) :
    scanNodes fs p = Verif.scanNodes fs p := by
  obtain ⟨m, b, h1, h2⟩ := stat_dir wf hd
  unfold scanNodes Verif.scanNodes under scanTree FSTools.scanTree
  rw [h1, h2]
  simp

theorem clearRemote_dir {env : Env} (ho : ∀ l, (env.order l).Perm l) {w : World} (wf : w.os.fs.WF)
    (hd : w.os.fs.isDir env.rem = true) : clearRemote env w = Verif.clearRemote env w := by
  have e1 : rescanRemote env w = Verif.rescanRemote env w := by
    have h1 : sys (OSM.query (fun fs => scanNodes fs env.rem)) w = sys (OSM.query (fun fs => Verif.scanNodes fs env.rem)) w := by
      unfold sys OSM.query
      dsimp only
      rw [scanNodes_dir wf hd]
    unfold rescanRemote Verif.rescanRemote
    cases hm : sys (OSM.query (fun fs => Verif.scanNodes fs env.rem)) w with
    | mk r t =>
      cases r with
      | ok a => rw [bind_ok (h1.trans hm), bind_ok hm]
      | error e => rw [bind_error (h1.trans hm), bind_error hm]
  have e2 : (Verif.rescanRemote env w).2.os = w.os := by
    refine wp_state (I := fun w' : World => w'.os = w.os) ?_
    unfold Verif.rescanRemote
    rw [wp_bind, wp_sys, wp_query]
    refine ⟨fun l _ => ?_, fun _ _ => rfl⟩
    rw [wp_bind, wp_modify, wp_pure]
  unfold clearRemote Verif.clearRemote
  cases hm : Verif.rescanRemote env w with
  | mk r t =>
    rw [hm] at e2
    cases r with
    | error e => rw [bind_error (e1.trans hm), bind_error hm]
    | ok l =>
      rw [bind_ok (e1.trans hm), bind_ok hm]
      dsimp only at e2
      split
      · have wf' : t.os.fs.WF := by rw [e2]; exact wf
        have hd' : t.os.fs.isDir env.rem = true := by rw [e2]; exact hd
        obtain ⟨es, hes⟩ := scandir_isDir wf' hd'
        have h1 : OSM.query (fun fs => Verif.scandir fs env.rem) t.os = (.ok es, t.os) := by
          unfold OSM.query; dsimp only; rw [hes]
        have h2 : OSM.query (fun fs => scandir fs env.rem) t.os = (.ok es, t.os) := by
          unfold OSM.query; dsimp only; rw [scandir_dir wf' hd', hes]
        have h3 : Prog.each (clearOne env) (env.order es) t.os = Prog.each (Verif.clearOne env) (env.order es) t.os := by
          refine (SameR.each (fs₀ := t.os.fs) (fun e he => ?_) t.os (Shrink.refl _ _)).1
          obtain ⟨h4, n, hn⟩ := ((mem_scandir wf' hes).2.2 e).1 ((ho es).mem_iff.1 he)
          exact sameR_rmtree wf' (direct_of_get wf' hn) (good_of_get wf' hn) (by
            rintro h
            have := congrArg List.length h
            simp [h4] at this)
        unfold sys Prog.tryCatch
        rw [bind_ok h1, bind_ok h2, h3]
      · rfl

end Deep

/-- The clearing of the remote directory by a reset with links anywhere, also to directories; at every crash point.
Nothing outside the remote directory is changed, in particular not what links in it lead to. As long as a regular file or
a link is left that is not in the directory of the program, nothing at all is changed and the reset is not told that the
directory is clear. If the clearing succeeds, nothing is left in the remote directory. Missing: a remote directory that
is reached through a link. -/
theorem C89_clear_partial {env : Env} (ho : ∀ l, (env.order l).Perm l) {w : World} (wf : w.os.fs.WF)
    (hd : w.os.fs.isDir env.rem = true) (hu : w.os.fs.isDir env.util = true) :
    (∀ q, (∀ p, p ≠ [] → q ≠ env.rem ++ p) → (Deep.clearRemote env w).2.os.fs.get q = w.os.fs.get q) ∧
    (∀ p n, p ≠ [] → p.head? ≠ some Env.utilName → w.os.fs.get (env.rem ++ p) = some n → n.isDir = false →
      (Deep.clearRemote env w).2.os.fs = w.os.fs ∧ (Deep.clearRemote env w).1 ≠ .ok ()) ∧
    ((Deep.clearRemote env w).1 = .ok () → ∀ p, p ≠ [] → (Deep.clearRemote env w).2.os.fs.get (env.rem ++ p) = none) := by
  rw [Deep.clearRemote_dir ho wf hd]
  have key := wp_clearRemote ho wf hu
  have hin : ∀ q, (∀ p, p ≠ [] → q ≠ env.rem ++ p) → ¬ (env.rem <+: q ∧ env.rem ≠ q) := by
    rintro q hq ⟨⟨t, rfl⟩, h⟩
    exact hq t (by rintro rfl; simp at h) rfl
  cases hx : clearRemote env w with
  | mk r t =>
    cases r with
    | ok a =>
      obtain ⟨h1, _, _, h2, h3⟩ := wp_ok key hx
      refine ⟨fun q hq => h1.keeps q (hin q hq), ?_, fun _ => h3⟩
      intro p n h4 h5 h6 h7
      rw [h2 p n ⟨h4, h5⟩ h6] at h7
      cases h7
    | error e =>
      obtain ⟨_, h1, _⟩ := wp_error key hx
      refine ⟨?_, ?_, fun h => by cases h⟩
      · intro q hq
        rcases h1 with h1 | ⟨h1, _⟩
        · exact congrArg (fun fs => FS.get fs q) h1
        · exact h1.keeps q (hin q hq)
      · intro p n h4 h5 h6 h7
        refine ⟨?_, by simp⟩
        rcases h1 with h1 | ⟨_, h2⟩
        · exact h1
        · rw [h2 p n ⟨h4, h5⟩ h6] at h7
          cases h7

/-- A link to the user's directory is in the trash of a remote directory that is cleared. -/
def exClearLink : World :=
  exWorld exEnvE [(["l".toList, "x".toList], .file 4 4 1), (["r".toList, "d".toList], .dir 4 8),
    (exEnvE.trash ++ ["s".toList], .link "/l".toList 4)] [] [] 1000

example : exClearLink.os.fs.WF ∧ exClearLink.os.fs.isDir exEnvE.rem = true ∧ exClearLink.os.fs.isDir exEnvE.util = true ∧
    (Deep.clearRemote exEnvE exClearLink).1 = .ok () ∧
    (Deep.clearRemote exEnvE exClearLink).2.os.fs.get ["l".toList, "x".toList] = some (.file 4 4 1) ∧
    (Deep.clearRemote exEnvE exClearLink).2.os.fs.get ["r".toList, "d".toList] = none :=
  ⟨⟨by decide +kernel, by decide +kernel, by decide +kernel, by decide +kernel⟩, by decide +kernel, by decide +kernel,
   by decide +kernel, by decide +kernel, by decide +kernel⟩

/-- With a link that is not in the directory of the program the second part applies. -/
example : (exWorld exEnvE [(["r".toList, "s".toList], .link "/l".toList 4)] [] [] 1000).os.fs.get
    (exEnvE.rem ++ ["s".toList]) = some (.link "/l".toList 4) := by
  decide +kernel

end Verif
