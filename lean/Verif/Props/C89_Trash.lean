import Verif.Props.C89_Direct
/-!
C50 and C89: `empty-trash` with links in the trash. Paths are resolved as the kernel does, and links may lead anywhere.
-/
namespace Verif
open Prog OSM Call FSTools WM

namespace Deep
variable {fs : FS} {p : Path}

/-- The way to an entry does not go through a link. -/
theorem direct_of_get (wf : fs.WF) {n : Node} (hg : fs.get p = some n) : Direct fs p := by
  intro q h1 h2 t m h3
  have := wf.isDir_prefix hg q h1 h2
  rw [FS.isDir, h3] at this
  cases this

theorem good_of_get (wf : fs.WF) {n : Node} (hg : fs.get p = some n) : GoodPath p := by
  by_cases h0 : p = []
  · subst h0; intro c hc; cases hc
  · exact wf.good _ (FS.mem_of_get h0 hg)

theorem stat_dir (wf : fs.WF) (hd : fs.isDir p = true) :
    ∃ m b, stat fs p = .ok (p, .dir m b) ∧ fs.stat p = .ok (p, .dir m b) := by
  obtain ⟨m, b, hg⟩ := FS.isDir_iff.1 hd
  refine ⟨m, b, ?_, FS.stat_nonlink (wf.pathErr hg) hg rfl⟩
  have := step_direct (fs := fs) (fol := true) (k := real fs true 40) p [] (good_of_get wf hg) (by simp [FS.pathErr])
    (by simp [FS.isDir, Node.isDir]) (direct_of_get wf hg) (by intro _ t m; rw [List.nil_append, hg]; simp)
  unfold stat target
  rw [show real fs true 41 [] p = _ from this, List.nil_append, wf.pathErr hg]
  simp [hg]

theorem mkdirOk_dir {s : OS} (wf : s.fs.WF) (hd : s.fs.isDir p = true) : mkdirOk p s = Call.mkdirOk p s := by
  obtain ⟨m, b, h1, h2⟩ := stat_dir wf hd
  obtain ⟨m', b', hg⟩ := FS.isDir_iff.1 hd
  have e1 : mkdir p s = Call.mkdir p s := by
    unfold mkdir Call.mkdir OSM.op
    dsimp only
    rw [at_direct (direct_of_get wf hg) (good_of_get wf hg)
      (fun e he => by rw [wf.pathErr hg] at he; cases he)]
  have e2 : (Call.mkdir p s).2.fs = s.fs := by
    unfold Call.mkdir OSM.op
    cases s.fuel with
    | zero => rfl
    | succ n =>
      dsimp only
      cases hr : s.fs.mkdir p (s.clk s.tick) with
      | ok fs' =>
        have := (FS.create_ok hr).2.1
        rw [hg] at this
        cases this
      | error e => rfl
  unfold mkdirOk Call.mkdirOk Prog.tryCatch
  rw [e1]
  cases hm : Call.mkdir p s with
  | mk r t =>
    rw [hm] at e2
    cases r with
    | ok a => rfl
    | error e =>
      dsimp only at e2 ⊢
      have e3 : unlessDir p e t = Call.unlessDir p e t := by
        have h3 : OSM.ask (fun fs => pathIsDir fs p) t = (.ok true, t) := by
          unfold OSM.ask pathIsDir
          dsimp only
          rw [e2, h1]
          rfl
        have h4 : OSM.ask (fun fs => FS.pathIsDir fs p) t = (.ok true, t) := by
          unfold OSM.ask FS.pathIsDir
          dsimp only
          rw [e2, h2]
          rfl
        unfold unlessDir Call.unlessDir
        rw [bind_ok h3, bind_ok h4]
      rw [e3]

theorem makedirs_dir {s : OS} (wf : s.fs.WF) (hd : s.fs.isDir p = true) : makedirs p s = Call.makedirs p s := by
  unfold makedirs Call.makedirs
  cases hr : p.reverse with
  | nil =>
    have hp : p = [] := by simpa using hr
    subst hp
    exact mkdirOk_dir wf hd
  | cons c r =>
    have hp : p = r.reverse ++ [c] := by rw [← List.reverse_reverse p, hr]; simp
    obtain ⟨m, b, hg⟩ := FS.isDir_iff.1 hd
    have hd' : s.fs.isDir r.reverse = true := wf.isDir_prefix hg _ (by rw [hp]; exact List.prefix_append _ _)
      (by rw [hp]; simp)
    obtain ⟨m, b, h1, h2⟩ := stat_dir wf hd'
    have h3 : OSM.ask (fun fs => pathExists fs r.reverse) s = (.ok true, s) := by
      unfold OSM.ask pathExists
      dsimp only
      rw [h1]
    have h4 : OSM.ask (fun fs => FS.pathExists fs r.reverse) s = (.ok true, s) := by
      unfold OSM.ask FS.pathExists
      dsimp only
      rw [h2]
    unfold makedirsRev Call.makedirsRev
    rw [bind_ok h3, bind_ok h4]
    simp only [if_true]
    rw [show (c :: r).reverse = p by rw [hp]; simp]
    exact mkdirOk_dir wf hd

theorem scandir_dir (wf : fs.WF) (hd : fs.isDir p = true) : scandir fs p = Verif.scandir fs p := by
  obtain ⟨m, b, h1, h2⟩ := stat_dir wf hd
  unfold scandir Verif.scandir scanTree FSTools.scanTree
  rw [h1, h2]
  simp

theorem emptyTrash_dir {env : Env} (ho : ∀ l, (env.order l).Perm l) {s : OS} (wf : s.fs.WF)
    (hl : s.fs.isDir env.loc = true) (ht : s.fs.isDir env.trash = true) : emptyTrash env s = Verif.emptyTrash env s := by
  obtain ⟨m, b, hg⟩ := FS.isDir_iff.1 hl
  have key := wp_makedirs_dir wf hg
  have e0 := makedirs_dir wf hl
  unfold emptyTrash Verif.emptyTrash
  cases hm : Call.makedirs env.loc s with
  | mk r t =>
    rw [hm] at e0
    cases r with
    | error e => rw [bind_error hm, bind_error e0]
    | ok u =>
      rw [bind_ok hm, bind_ok e0]
      have hs : t.fs = s.fs := wp_ok key hm
      obtain ⟨es, hes⟩ := scandir_isDir (hs ▸ wf) (hs ▸ ht)
      have h1 : OSM.query (fun fs => Verif.scandir fs env.trash) t = (.ok es, t) := by
        unfold OSM.query; dsimp only; rw [hes]
      have h2 : OSM.query (fun fs => scandir fs env.trash) t = (.ok es, t) := by
        unfold OSM.query; dsimp only; rw [scandir_dir (hs ▸ wf) (hs ▸ ht), hes]
      rw [bind_ok h1, bind_ok h2]
      refine (SameR.each (fs₀ := t.fs) (f' := emptyOne env) (f := Verif.emptyOne env) (fun e he => ?_) t
        (Shrink.refl _ _)).1
      obtain ⟨h3, n, hn⟩ := ((mem_scandir (hs ▸ wf) hes).2.2 e).1 ((ho es).mem_iff.1 he)
      exact sameR_rmOne (hs ▸ wf) (direct_of_get (hs ▸ wf) hn) (good_of_get (hs ▸ wf) hn) (by
        rintro h
        have := congrArg List.length h
        simp [h3] at this)

end Deep

/-- `empty-trash` with links anywhere, also to directories in the trash or elsewhere; at every crash point. However it
ends, what is not in the trash is as before, in particular the files to which links in the trash lead. If it succeeds,
nothing is left in the trash; and it fails only if it is killed. Missing: a local directory or a trash directory that is
missing or reached through a link. -/
theorem C89_emptyTrash_partial {env : Env} (ho : ∀ l, (env.order l).Perm l) {s : OS} (wf : s.fs.WF)
    (hl : s.fs.isDir env.loc = true) (ht : s.fs.isDir env.trash = true) :
    (∀ q, (∀ p, p ≠ [] → q ≠ env.trash ++ p) → (Deep.emptyTrash env s).2.fs.get q = s.fs.get q) ∧
    ((Deep.emptyTrash env s).1 = .ok () → ∀ p, p ≠ [] → (Deep.emptyTrash env s).2.fs.get (env.trash ++ p) = none) ∧
    (∀ e, (Deep.emptyTrash env s).1 = .error e → e = .killed) := by
  obtain ⟨m, b, hg⟩ := FS.isDir_iff.1 hl
  have hgl := Deep.good_of_get wf hg
  rw [Deep.emptyTrash_dir ho wf hl ht]
  have key := wp_emptyTrash env ho hgl wf
  have hr := C50_rest_unchanged ho hgl wf
  refine ⟨?_, ?_, ?_⟩
  · intro q hq
    cases hn : s.fs.get q with
    | some n => exact hr.1 q n hn hq
    | none =>
      by_contra h
      obtain ⟨h1, _⟩ := hr.2 q hn h
      by_cases h2 : q = env.loc
      · rw [h2, hg] at hn; cases hn
      · have := wf.isDir_prefix hg q h1 h2
        rw [FS.isDir, hn] at this
        cases this
  · intro h
    cases hx : emptyTrash env s with
    | mk r t =>
      rw [hx] at h
      cases h
      exact C50_empties ho hgl wf hx
  · intro e h
    cases hx : emptyTrash env s with
    | mk r t =>
      rw [hx] at h
      cases h
      rcases (wp_error key hx).2 with h | h | h
      · exact h
      · rw [hl] at h; cases h
      · rw [ht] at h; cases h

/-- A link to the user's directory is in the trash. -/
def exTrashLink : OS :=
  ⟨exBase exEnvE ++ [(["l".toList, "x".toList], .file 4 4 1), (exEnvE.trash ++ ["s".toList], .link "/l".toList 4)], 1000, 0,
    fun n => n + 50⟩

example : exTrashLink.fs.WF ∧ exTrashLink.fs.isDir exEnvE.loc = true ∧ exTrashLink.fs.isDir exEnvE.trash = true ∧
    (Deep.emptyTrash exEnvE exTrashLink).1 = .ok () ∧
    (Deep.emptyTrash exEnvE exTrashLink).2.fs.get ["l".toList, "x".toList] = some (.file 4 4 1) :=
  ⟨⟨by decide +kernel, by decide +kernel, by decide +kernel, by decide +kernel⟩, by decide +kernel, by decide +kernel,
   by decide +kernel, by decide +kernel⟩

end Verif
