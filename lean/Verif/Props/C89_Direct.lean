import Verif.Props.C89_Remove
/-!
C89: deletions with links. Paths are resolved as the kernel does, and there may be links anywhere, also to directories; but
the way to what is deleted does not go through one.
-/
namespace Verif
open Prog OSM Call FSTools WM

/-- The way to `p` does not go through a link. -/
def Direct (fs : FS) (p : Path) : Prop := ∀ q, q <+: p → q ≠ p → ∀ t m, fs.get q ≠ some (.link t m)

namespace Deep

theorem step_direct {fs : FS} {fol : Bool} {k : Path → List Str → Except Err Path} (r : Path) :
    ∀ b, GoodPath r → fs.pathErr b = none → (r ≠ [] → fs.isDir b = true) → Direct fs (b ++ r) →
      (fol = true → ∀ t m, fs.get (b ++ r) ≠ some (.link t m)) →
      step fs fol k b r = match fs.pathErr (b ++ r) with
        | some e => .error e
        | none => .ok (b ++ r) := by
  induction r with
  | nil =>
    intro b _ hb _ _ _
    simp [step, hb]
  | cons c r ih =>
    intro b hr hb hd hn hf
    have hc := hr c List.mem_cons_self
    have hd := hd (by simp)
    have hbc : fs.pathErr (b ++ [c]) = none := by
      rw [FS.pathErr_none_iff] at hb ⊢
      intro q hq hne
      by_cases hqb : q = b
      · rw [hqb]; exact hd
      · refine hb q ?_ hqb
        rcases List.prefix_concat_iff.1 hq with h1 | h1
        · exact absurd h1 hne
        · exact h1
    unfold step
    rw [if_neg (fun h1 => h1.elim hc.1 hc.2.2.1), if_neg hc.2.2.2]
    have happ : b ++ c :: r = (b ++ [c]) ++ r := by simp
    cases hg : fs.get (b ++ [c]) with
    | none =>
      dsimp only
      by_cases h0 : r = []
      · subst h0; rw [if_pos rfl, hbc]
      · rw [if_neg h0, happ, pathErr_extend h0 hbc (by simp [FS.isDir, hg]), hg]
    | some x =>
      cases x with
      | file c' m' b' =>
        dsimp only
        by_cases h0 : r = []
        · subst h0; rw [if_pos rfl, hbc]
        · rw [if_neg h0, happ, pathErr_extend h0 hbc (by simp [FS.isDir, hg, Node.isDir]), hg]
      | dir m' b' =>
        dsimp only
        rw [happ] at hn hf ⊢
        exact ih (b ++ [c]) (fun x hx => hr x (List.mem_cons_of_mem _ hx)) hbc
          (fun _ => by simp [FS.isDir, hg, Node.isDir]) hn hf
      | link t m =>
        dsimp only
        by_cases h0 : r = []
        · subst h0
          cases fol with
          | true => exact absurd hg (hf rfl t m)
          | false => rw [if_pos ⟨rfl, rfl⟩, hbc]
        · exact absurd hg (hn _ (by rw [happ]; exact List.prefix_append _ _) (by
            rw [happ]
            intro h
            exact h0 (List.append_right_eq_self.1 h.symm)) t m)

theorem at_direct {α : Type} {fs : FS} {p : Path} (h : Direct fs p) (hp : GoodPath p) {f : Path → Except Err α}
    (hf : ∀ e, fs.pathErr p = some e → f p = .error e) : at_ fs p f = f p := by
  unfold at_ place
  have := step_direct (fs := fs) (fol := false) (k := real fs false 40) p [] hp (by simp [FS.pathErr])
    (by simp [FS.isDir, Node.isDir]) h (by simp)
  rw [show real fs false 41 [] p = _ from this, List.nil_append]
  cases he : fs.pathErr p with
  | none => rfl
  | some e => rw [hf e he]

theorem lstat_direct {fs : FS} {p : Path} (h : Direct fs p) (hp : GoodPath p) : lstat fs p = fs.lstat p :=
  at_direct h hp (fun e he => by unfold FS.lstat; rw [he])

theorem lstat_ok {fs : FS} {p : Path} {n : Node} (hl : fs.lstat p = .ok n) : fs.pathErr p = none ∧ fs.get p = some n := by
  unfold FS.lstat at hl
  cases he : fs.pathErr p with
  | some e => rw [he] at hl; cases hl
  | none =>
    rw [he] at hl
    dsimp only at hl
    cases hg : fs.get p with
    | none => rw [hg] at hl; cases hl
    | some n => rw [hg] at hl; cases hl; exact ⟨rfl, rfl⟩

theorem under_direct {fs : FS} {p : Path} (h : Direct fs p) (hp : GoodPath p) {m : Int} {b : Nat}
    (hl : fs.lstat p = .ok (.dir m b)) : under fs p = fs.below p := by
  obtain ⟨hpe, hg⟩ := lstat_ok hl
  have := step_direct (fs := fs) (fol := true) (k := real fs true 40) p [] hp (by simp [FS.pathErr])
    (by simp [FS.isDir, Node.isDir]) h (by intro _ t m; rw [List.nil_append, hg]; simp)
  unfold under stat target
  rw [show real fs true 41 [] p = _ from this, List.nil_append, hpe]
  simp [hg]

/-! ### Programs that only remove -/

/-- Two programs that do the same in every state from which only some entries of `fs₀` are gone. -/
def SameR (fs₀ : FS) {α : Type} (m' m : OSM α) : Prop :=
  ∀ s, Shrink (fun _ => True) fs₀ s.fs → m' s = m s ∧ Shrink (fun _ => True) fs₀ (m s).2.fs

variable {fs₀ : FS}

theorem SameR.pure {α : Type} (a : α) : SameR fs₀ (pure a : OSM α) (pure a) := fun _ h => ⟨rfl, h⟩

theorem SameR.throw {α : Type} (e : Err) : SameR fs₀ (Prog.throw e : OSM α) (Prog.throw e) := fun _ h => ⟨rfl, h⟩

theorem SameR.bind {α β : Type} {m' m : OSM α} {f' f : α → OSM β} (h : SameR fs₀ m' m)
    (hf : ∀ a, SameR fs₀ (f' a) (f a)) : SameR fs₀ (m' >>= f') (m >>= f) := by
  intro s hs
  obtain ⟨h1, h2⟩ := h s hs
  cases hm : m s with
  | mk r t =>
    rw [hm] at h1 h2
    cases r with
    | ok a =>
      rw [bind_ok hm, bind_ok h1]
      exact hf a t h2
    | error e =>
      rw [bind_error hm, bind_error h1]
      exact ⟨rfl, h2⟩

theorem SameR.tryCatch {α : Type} {m' m : OSM α} {k' k : Err → Option (OSM α)} (h : SameR fs₀ m' m)
    (hk : ∀ e, (k' e = none ∧ k e = none) ∨ ∃ a' a, k' e = some a' ∧ k e = some a ∧ SameR fs₀ a' a) :
    SameR fs₀ (Prog.tryCatch m' k') (Prog.tryCatch m k) := by
  intro s hs
  obtain ⟨h1, h2⟩ := h s hs
  unfold Prog.tryCatch
  rw [h1]
  cases hm : m s with
  | mk r t =>
    rw [hm] at h2
    cases r with
    | ok a => exact ⟨rfl, h2⟩
    | error e =>
      dsimp only
      by_cases he : e = .killed
      · rw [if_pos he, if_pos he]; exact ⟨rfl, h2⟩
      · rw [if_neg he, if_neg he]
        rcases hk e with ⟨h3, h4⟩ | ⟨a', a, h3, h4, h5⟩
        · rw [h3, h4]; exact ⟨rfl, h2⟩
        · rw [h3, h4]; exact h5 t h2

theorem SameR.query {α : Type} {f' f : FS → Except Err α} (h : ∀ fs, Shrink (fun _ => True) fs₀ fs → f' fs = f fs) :
    SameR fs₀ (OSM.query f') (OSM.query f) := by
  intro s hs
  unfold OSM.query
  rw [h _ hs]
  exact ⟨rfl, hs⟩

theorem SameR.op {f' f : FS → Int → Except Err FS} (h : ∀ fs t, Shrink (fun _ => True) fs₀ fs → f' fs t = f fs t)
    (hf : ∀ fs t fs', f fs t = .ok fs' → Shrink (fun _ => True) fs fs') : SameR fs₀ (OSM.op f') (OSM.op f) := by
  intro s hs
  unfold OSM.op
  rw [h _ _ hs]
  refine ⟨rfl, ?_⟩
  cases s.fuel with
  | zero => exact hs
  | succ n =>
    dsimp only
    cases hr : f s.fs (s.clk s.tick) with
    | ok fs => exact hs.trans (hf _ _ _ hr)
    | error e => exact hs

theorem SameR.each {γ : Type} {f' f : γ → OSM Unit} {l : List γ} (h : ∀ x ∈ l, SameR fs₀ (f' x) (f x)) :
    SameR fs₀ (Prog.each f' l) (Prog.each f l) := by
  induction l with
  | nil => exact .pure ()
  | cons x l ih =>
    exact (h x List.mem_cons_self).bind (fun _ => ih (fun y hy => h y (List.mem_cons_of_mem _ hy)))

theorem Direct.shrink {fs : FS} {p : Path} (h : Direct fs₀ p) (hs : Shrink (fun _ => True) fs₀ fs) : Direct fs p :=
  fun q h1 h2 t m h3 => h q h1 h2 t m (hs.some h3)

variable {p : Path}

theorem sameR_remove (hd : Direct fs₀ p) (hp : GoodPath p) : SameR fs₀ (remove p) (Call.remove p) := by
  refine .op (fun fs _ h => at_direct (Direct.shrink hd h) hp (fun e he => by unfold FS.remove FS.lstat; rw [he])) ?_
  intro fs _ fs' hr
  exact (remove_shrink hr).1.mono (fun _ _ => trivial)

theorem sameR_rmdir (hd : Direct fs₀ p) (hp : GoodPath p) (h0 : p ≠ []) : SameR fs₀ (rmdir p) (Call.rmdir p) := by
  refine .op (fun fs _ h => at_direct (Direct.shrink hd h) hp (fun e he => by unfold FS.rmdir FS.lstat; rw [he])) ?_
  intro fs _ fs' hr
  exact (rmdir_shrink h0 hr).1.mono (fun _ _ => trivial)

theorem sameR_rmEntry (hd : Direct fs₀ p) (hp : GoodPath p) (h0 : p ≠ []) : SameR fs₀ (rmEntry p) (Call.rmEntry p) :=
  .bind (.query (fun _ h => lstat_direct (Direct.shrink hd h) hp)) (fun n => by
    cases h : n.isDir with
    | true => simpa [h] using sameR_rmdir hd hp h0
    | false => simpa [h] using sameR_remove hd hp)

theorem sameR_rmtree (wf : fs₀.WF) (hd : Direct fs₀ p) (hp : GoodPath p) (h0 : p ≠ []) :
    SameR fs₀ (rmtree p) (Call.rmtree p) := by
  intro s hs
  have hd' := Direct.shrink hd hs
  have e0 := lstat_direct hd' hp
  unfold rmtree Call.rmtree
  cases hl : s.fs.lstat p with
  | error e =>
    have e1 : OSM.query (fun fs => fs.lstat p) s = (.error e, s) := by unfold OSM.query; dsimp only; rw [hl]
    have e2 : OSM.query (fun fs => lstat fs p) s = (.error e, s) := by unfold OSM.query; dsimp only; rw [e0, hl]
    rw [bind_error e1, bind_error e2]
    exact ⟨rfl, hs⟩
  | ok n =>
    have e1 : OSM.query (fun fs => fs.lstat p) s = (.ok n, s) := by unfold OSM.query; dsimp only; rw [hl]
    have e2 : OSM.query (fun fs => lstat fs p) s = (.ok n, s) := by unfold OSM.query; dsimp only; rw [e0, hl]
    rw [bind_ok e1, bind_ok e2]
    cases n with
    | link t m => exact ⟨rfl, hs⟩
    | file c m b => exact ⟨rfl, hs⟩
    | dir m b =>
      dsimp only
      have e3 : OSM.ask (fun fs => descending ((under fs p).map Prod.fst)) s
          = (.ok (descending ((s.fs.below p).map Prod.fst)), s) := by
        unfold OSM.ask; dsimp only; rw [under_direct hd' hp hl]
      have e4 : OSM.ask (fun fs => descending ((FS.below fs p).map Prod.fst)) s
          = (.ok (descending ((s.fs.below p).map Prod.fst)), s) := rfl
      rw [bind_ok e3, bind_ok e4]
      refine (SameR.bind (.each (fun e he => ?_)) (fun _ => sameR_rmdir hd hp h0)) s hs
      obtain ⟨_, n, hn⟩ := (mem_keys_below (hs.wf wf)).1 (mem_descending.1 he)
      have hn := hs.some hn
      have hne : p ++ e ≠ [] := by simp [h0]
      refine sameR_rmEntry ?_ (wf.good _ (FS.mem_of_get hne hn)) hne
      intro q h1 h2 t m h3
      have := wf.isDir_prefix hn q h1 h2
      rw [FS.isDir, h3] at this
      cases this

theorem sameR_rmOne (wf : fs₀.WF) {parent : Path} (hd : Direct fs₀ (parent ++ p)) (hp : GoodPath (parent ++ p))
    (h0 : parent ++ p ≠ []) : SameR fs₀ (rmOne parent p) (Verif.rmOne parent p) := by
  refine .tryCatch (sameR_remove hd hp) (fun e => ?_)
  cases e <;> first
    | exact Or.inl ⟨rfl, rfl⟩
    | exact Or.inr ⟨_, _, rfl, rfl, sameR_rmtree wf hd hp h0⟩
    | exact Or.inr ⟨_, _, rfl, rfl, .pure ()⟩

theorem rmFiles_direct {env : Env} (ho : ∀ l, (env.order l).Perm l) {parent : Path} {ps : List Path} {w : World}
    (wf : w.os.fs.WF) (hp : ∀ p ∈ ps, p ≠ [] ∧ GoodPath (parent ++ p) ∧ Direct w.os.fs (parent ++ p)) :
    rmFiles env parent ps w = Verif.rmFiles env parent ps w := by
  have h := (SameR.each (f' := rmOne parent) (f := Verif.rmOne parent) (l := env.order ps)
    (fun p h => by
      have := hp p ((ho ps).mem_iff.1 h)
      exact sameR_rmOne wf this.2.2 this.2.1 (by simp [this.1]))) w.os (Shrink.refl _ _)
  unfold rmFiles Verif.rmFiles
  have h1 : sys (Prog.each (rmOne parent) (env.order ps)) w = sys (Prog.each (Verif.rmOne parent) (env.order ps)) w := by
    unfold sys; rw [h.1]
  cases hm : sys (Prog.each (Verif.rmOne parent) (env.order ps)) w with
  | mk r t =>
    cases r with
    | ok a => rw [bind_ok (h1.trans hm), bind_ok hm]
    | error e => rw [bind_error (h1.trans hm), bind_error hm]

end Deep

/-- A deletion in the remote directory with links anywhere, also to directories, if the way to none of the named paths
goes through a link; at every crash point. What is not at or below a named path in the remote directory is as before; so
are the files to which links at or below the named paths lead, unless they are there themselves. If the deletion
succeeds, nothing is left at or below the named paths, and neither database has a row there, while the other rows stay.
Missing: paths that go through a link, for which `C89_remove_fails` shows what happens. -/
theorem C89_direct_partial {env : Env} {ps : List Path} {w : World} (ho : ∀ l, (env.order l).Perm l)
    (wf : w.os.fs.WF) (hp : ∀ p ∈ ps, p ≠ [] ∧ GoodPath (env.rem ++ p) ∧ Direct w.os.fs (env.rem ++ p)) :
    (∀ q, (∀ p ∈ ps, ¬ env.rem ++ p <+: q) → (Deep.rmRemoteFiles env ps w).2.os.fs.get q = w.os.fs.get q) ∧
    (∀ q, (Deep.rmRemoteFiles env ps w).2.os.fs.get q = w.os.fs.get q ∨
      (Deep.rmRemoteFiles env ps w).2.os.fs.get q = none) ∧
    ((Deep.rmRemoteFiles env ps w).1 = .ok () →
      (∀ p ∈ ps, ∀ q, env.rem ++ p <+: q → (Deep.rmRemoteFiles env ps w).2.os.fs.get q = none) ∧
      (∀ q, q ∈ ADB.paths (Deep.rmRemoteFiles env ps w).2.db ↔ q ∈ ADB.paths w.db ∧ ∀ p ∈ ps, ¬ p <+: q) ∧
      (∀ q, q ∈ ADB.paths (Deep.rmRemoteFiles env ps w).2.rdb ↔ q ∈ ADB.paths w.rdb ∧ ∀ p ∈ ps, ¬ p <+: q)) := by
  have e : Deep.rmRemoteFiles env ps w = Verif.rmFiles env env.rem ps w := Deep.rmFiles_direct ho wf hp
  have key := wp_rmFiles ho env.rem (fun p h => (hp p h).1) wf
  cases hx : Verif.rmFiles env env.rem ps w with
  | mk r t =>
    rw [e, hx]
    cases r with
    | ok a =>
      obtain ⟨h1, h2, h3⟩ := wp_ok key hx
      refine ⟨fun q hq => h1.keeps q (fun ⟨p, h, h'⟩ => hq p h h'), h1.gone, fun _ => ⟨h2, ?_, ?_⟩⟩
      · intro q
        rw [h3]
        exact mem_rmRows_db
      · intro q
        rw [h3]
        exact mem_rmRows_rdb
    | error er =>
      obtain ⟨h1, _⟩ := wp_error key hx
      exact ⟨fun q hq => h1.keeps q (fun ⟨p, h, h'⟩ => hq p h h'), h1.gone, fun h => by cases h⟩

theorem Deep.wp_exclMatches_os {env : Env} {w : World} :
    wp (Deep.exclMatches env) (fun _ w' => w'.os = w.os) (fun _ w' => w'.os = w.os) w := by
  unfold Deep.exclMatches
  rw [wp_bind, wp_gets]
  split
  · rw [wp_pure]
  · rw [wp_bind, wp_sys, wp_query]
    refine ⟨fun pats _ => ?_, fun _ _ => rfl⟩
    rw [wp_bind, wp_sys, wp_query]
    refine ⟨fun l _ => ?_, fun _ _ => rfl⟩
    rw [wp_bind, wp_modify, wp_pure]

/-- A deletion in the local directory under the same condition, whatever the exclude file is and whether or not the
deletion succeeds: only what is at or below a named path in the local directory goes, and nothing is changed. -/
theorem C89_direct_local_partial {env : Env} {ps : List Path} {w : World} (ho : ∀ l, (env.order l).Perm l)
    (wf : w.os.fs.WF) (hp : ∀ p ∈ ps, p ≠ [] ∧ GoodPath (env.loc ++ p) ∧ Direct w.os.fs (env.loc ++ p)) :
    (∀ q, (∀ p ∈ ps, ¬ env.loc ++ p <+: q) → (Deep.rmLocalFiles env ps w).2.os.fs.get q = w.os.fs.get q) ∧
    (∀ q, (Deep.rmLocalFiles env ps w).2.os.fs.get q = w.os.fs.get q ∨
      (Deep.rmLocalFiles env ps w).2.os.fs.get q = none) := by
  have key := Deep.wp_exclMatches_os (env := env) (w := w)
  cases hx : Deep.exclMatches env w with
  | mk r t =>
    cases r with
    | error er =>
      have h1 := wp_error key hx
      have e : Deep.rmLocalFiles env ps w = (.error er, t) := Deep.bind_error hx
      rw [e]
      dsimp only
      rw [h1]
      exact ⟨fun _ _ => rfl, fun _ => Or.inl rfl⟩
    | ok l =>
      have h1 := wp_ok key hx
      have e : Deep.rmLocalFiles env ps w = Deep.rmFiles env env.loc (ps.filter (fun p => decide (p ∉ l))) t :=
        Deep.bind_ok hx
      have hm : ∀ p ∈ ps.filter (fun p => decide (p ∉ l)), p ∈ ps := fun p h => (List.mem_filter.1 h).1
      generalize ps.filter (fun p => decide (p ∉ l)) = qs at e hm
      rw [e.trans (Deep.rmFiles_direct ho (by rw [h1]; exact wf) (fun p h => by rw [h1]; exact hp p (hm p h)))]
      have key2 := wp_rmFiles (w := t) ho env.loc (fun p h => (hp p (hm p h)).1) (by rw [h1]; exact wf)
      rw [← h1]
      cases hy : Verif.rmFiles env env.loc qs t with
      | mk r u =>
        cases r with
        | ok a =>
          obtain ⟨h2, _⟩ := wp_ok key2 hy
          exact ⟨fun q hq => h2.keeps q (fun ⟨p, h, h'⟩ => hq p (hm p h) h'), h2.gone⟩
        | error er =>
          obtain ⟨h2, _⟩ := wp_error key2 hy
          exact ⟨fun q hq => h2.keeps q (fun ⟨p, h, h'⟩ => hq p (hm p h) h'), h2.gone⟩

/-- The remote directory `d` with a link to the directory `o` elsewhere is deleted; `o` and what is in it stay. -/
def exLinkInside : World :=
  { exWorld exEnvE [] [] [] 1000 with
    os := ⟨[(["o".toList], .dir 1 8), (["o".toList, "x".toList], .file 4 4 1), (["r".toList], .dir 1 8),
      (["r".toList, "d".toList], .dir 1 8), (["r".toList, "d".toList, "s".toList], .link "/o".toList 4)], 1000, 0,
      fun n => n + 50⟩ }

theorem exLinkInside_direct : Direct exLinkInside.os.fs (exEnvE.rem ++ ["d".toList]) := by
  intro q h1 h2 t m
  rw [show exEnvE.rem ++ ["d".toList] = ["r".toList, "d".toList] from rfl] at h1 h2
  have h : q = [] ∨ q = ["r".toList] ∨ q = ["r".toList, "d".toList] := by
    rcases List.prefix_cons_iff.1 h1 with h | ⟨x, h, h'⟩
    · exact Or.inl h
    · rcases List.prefix_cons_iff.1 h' with h' | ⟨y, h', h''⟩
      · exact Or.inr (Or.inl (by rw [h, h']))
      · exact Or.inr (Or.inr (by rw [h, h', List.prefix_nil.1 h'']))
  rcases h with rfl | rfl | rfl
  · simp
  · rw [show exLinkInside.os.fs.get ["r".toList] = some (.dir 1 8) by decide +kernel]; simp
  · exact absurd rfl h2

example : exLinkInside.os.fs.WF ∧ GoodPath (exEnvE.rem ++ ["d".toList]) ∧
    Direct exLinkInside.os.fs (exEnvE.rem ++ ["d".toList]) ∧
    (Deep.rmRemoteFiles exEnvE [["d".toList]] exLinkInside).1 = .ok () ∧
    (Deep.rmRemoteFiles exEnvE [["d".toList]] exLinkInside).2.os.fs.get ["o".toList, "x".toList] = some (.file 4 4 1) :=
  ⟨⟨by decide +kernel, by decide +kernel, by decide +kernel, by decide +kernel⟩, by decide +kernel, exLinkInside_direct,
   by decide +kernel, by decide +kernel⟩

/-- The same in the local directory. -/
def exLinkLocal : World :=
  { exWorld exEnvE [] [] [] 1000 with
    os := ⟨[(["x".toList], .file 1 1 1), (["o".toList], .dir 1 8), (["o".toList, "x".toList], .file 4 4 1),
      (["l".toList], .dir 1 8), (["l".toList, "s".toList], .link "/o".toList 4)], 1000, 0, fun n => n + 50⟩ }

theorem exLinkLocal_direct : Direct exLinkLocal.os.fs (exEnvE.loc ++ ["s".toList]) := by
  intro q h1 h2 t m
  rw [show exEnvE.loc ++ ["s".toList] = ["l".toList, "s".toList] from rfl] at h1 h2
  have h : q = [] ∨ q = ["l".toList] ∨ q = ["l".toList, "s".toList] := by
    rcases List.prefix_cons_iff.1 h1 with h | ⟨x, h, h'⟩
    · exact Or.inl h
    · rcases List.prefix_cons_iff.1 h' with h' | ⟨y, h', h''⟩
      · exact Or.inr (Or.inl (by rw [h, h']))
      · exact Or.inr (Or.inr (by rw [h, h', List.prefix_nil.1 h'']))
  rcases h with rfl | rfl | rfl
  · simp
  · rw [show exLinkLocal.os.fs.get ["l".toList] = some (.dir 1 8) by decide +kernel]; simp
  · exact absurd rfl h2

example : exLinkLocal.os.fs.WF ∧ GoodPath (exEnvE.loc ++ ["s".toList]) ∧
    Direct exLinkLocal.os.fs (exEnvE.loc ++ ["s".toList]) ∧
    (Deep.rmLocalFiles exEnvE [["s".toList]] exLinkLocal).1 = .ok () ∧
    (Deep.rmLocalFiles exEnvE [["s".toList]] exLinkLocal).2.os.fs.get ["l".toList, "s".toList] = none ∧
    (Deep.rmLocalFiles exEnvE [["s".toList]] exLinkLocal).2.os.fs.get ["o".toList, "x".toList] = some (.file 4 4 1) :=
  ⟨⟨by decide +kernel, by decide +kernel, by decide +kernel, by decide +kernel⟩, by decide +kernel, exLinkLocal_direct,
   by decide +kernel, by decide +kernel, by decide +kernel⟩

end Verif
