import Verif.SyncAgree
/-
What a sync does not lose, wherever it ends.
-/
namespace Verif
open Prog OSM Call FSTools WM

section
variable {env : Env} {fs fs' : FS} {cp : Path → Path} {DL DR : Path → Prop}

theorem ConflictEff.loc_keep (ap : Apart env.loc env.rem) (c : ConflictCtx env fs cp DL DR)
    (h : ConflictEff env cp DL DR fs fs') {p : Path} {n : Node} (hn : fs.get (env.loc ++ p) = some n) :
    (fs'.get (env.loc ++ p) = some n ∧ ¬ DL p) ∨ (DL p ∧ fs'.get (env.loc ++ cp p) = some n) := by
  by_cases hp : DL p
  · exact Or.inr ⟨hp, (h.loc p hp).1.trans hn⟩
  · refine Or.inl ⟨(h.other _ ?_ ?_).trans hn, hp⟩
    · intro x hx
      refine ⟨fun e => hp (List.append_cancel_left e ▸ hx), fun e => ?_⟩
      rw [e, (c.free x (Or.inl hx)).1] at hn; cases hn
    · intro x _; exact ⟨ap.ne _ _, ap.ne _ _⟩

theorem ConflictEff.rem_keep (ap : Apart env.loc env.rem) (c : ConflictCtx env fs cp DL DR)
    (h : ConflictEff env cp DL DR fs fs') {p : Path} {n : Node} (hn : fs.get (env.rem ++ p) = some n) :
    (fs'.get (env.rem ++ p) = some n ∧ ¬ DR p) ∨ (DR p ∧ fs'.get (env.rem ++ cp p) = some n) := by
  by_cases hp : DR p
  · exact Or.inr ⟨hp, (h.rem p hp).1.trans hn⟩
  · refine Or.inl ⟨(h.other _ ?_ ?_).trans hn, hp⟩
    · intro x _; exact ⟨ap.symm.ne _ _, ap.symm.ne _ _⟩
    · intro x hx
      refine ⟨fun e => hp (List.append_cancel_left e ▸ hx), fun e => ?_⟩
      rw [e, (c.free x (Or.inr hx)).2] at hn; cases hn

theorem Moving.loc_eq {f0 : FS} {L : List Path} (h : Moving env.loc env.rem false f0 L fs) (q : Path) :
    fs.get (env.loc ++ q) = f0.get (env.loc ++ q) := by
  rcases h.src q with h1 | ⟨h1, _⟩
  · exact h1
  · cases h1

theorem Moving.rem_keep (ap : Apart env.loc env.rem) {f0 : FS} {L : List Path}
    (h : Moving env.loc env.rem false f0 L fs) {q : Path} (hq : q ∉ L) {n : Node}
    (hn : f0.get (env.rem ++ q) = some n) : fs.get (env.rem ++ q) = some n := by
  refine h.keeps _ ?_ ?_ n hn
  · rintro ⟨t, e⟩; exact ap.ne _ _ e
  · intro p hp e
    exact hq (List.append_cancel_left e ▸ hp)

/-- A file of the remote directory is still there after the update of the local directory, or it is in the local
directory. -/
theorem LocalPart.rem_keep {w w4 : World} {sel rex : List Path} {w5 : World} (r : SyncReady env w)
    (T : Selects env w w4 sel rex w5) (h : LocalPart env sel rex w5 fs') {p : Path} (hu : UserPath p) {n : Node}
    (hd : n.isDir = false) (hn : w4.os.fs.get (env.rem ++ p) = some n) :
    fs'.get (env.rem ++ p) = some n ∨ fs'.get (env.loc ++ p) = some n := by
  have fs5 : w5.os.fs = w4.os.fs := by obtain ⟨x, y, h⟩ := T.same; rw [h]
  have out : ∀ {f}, UpdKept env w5 (setOf sel) f → f.get (env.rem ++ p) = some n := by
    intro f hf
    rw [hf.out, fs5]; exact hn
    rintro ⟨⟨t, e⟩, _⟩
    exact r.apart.ne t p e
  rcases h with h | ⟨w6, h1, h2, h3⟩
  · exact Or.inl (out h)
  · by_cases hq : ∃ q, ToDrop env w6 rex q ∧ q <+: p
    · obtain ⟨q, ⟨hq, _⟩, hqp⟩ := hq
      right
      have := h2.copied p n ⟨⟨n, by rw [fs5]; exact hn⟩, hu.1, q, mem_setOf.2 (T.rexSel q hq), hqp⟩
        (by rw [fs5]; exact hn) hd
      rw [h3.keeps _ ?_]
      · exact this
      · rintro (⟨x, _, t, e⟩ | h)
        · rw [List.append_assoc] at e
          exact r.apart.symm.ne _ _ e
        · exact loc_not_trash r.apart h rfl
    · left
      rw [h3.keeps _ ?_]
      · exact out h1
      · rintro (⟨x, hx, h⟩ | h)
        · exact hq ⟨x, hx, (List.prefix_append_right_inj _).1 h⟩
        · exact plain_not_trash hu.plain h rfl

/-- What happens to a file of the local directory when that is updated. -/
theorem LocalPart.loc_cases {w w4 : World} {sel rex : List Path} {w5 : World} (r : SyncReady env w)
    (T : Selects env w w4 sel rex w5) (h : LocalPart env sel rex w5 fs') {p : Path} {n : Node}
    (hn : w4.os.fs.get (env.loc ++ p) = some n) :
    fs'.get (env.loc ++ p) = some n ∨ (StalePath env w5 (setOf sel) p ∧ n.isLink = false) ∨
      ∃ m, w4.os.fs.get (env.rem ++ p) = some m := by
  have fs5 : w5.os.fs = w4.os.fs := by obtain ⟨x, y, h⟩ := T.same; rw [h]
  have cases6 : ∀ {f}, UpdKept env w5 (setOf sel) f → f.get (env.loc ++ p) = some n ∨
      (StalePath env w5 (setOf sel) p ∧ n.isLink = false) ∨ ∃ m, w4.os.fs.get (env.rem ++ p) = some m := by
    intro f hf
    rcases hf.loc p n (by rw [fs5]; exact hn) with h1 | h1 | ⟨⟨h1, _⟩, _⟩
    · exact Or.inl h1
    · exact Or.inr (Or.inl h1)
    · rw [fs5] at h1; exact Or.inr (Or.inr h1)
  rcases h with h | ⟨w6, h1, h2, h3⟩
  · exact cases6 h
  · refine (cases6 h1).imp (fun h => ?_) id
    rw [h3.keeps _ ?_]
    · exact h
    · rintro (⟨x, _, t, e⟩ | h)
      · rw [List.append_assoc] at e
        exact r.apart.symm.ne _ _ e
      · exact loc_not_trash r.apart h rfl

end

section
variable {env : Env} {w w1 w2 w3 w4 : World} {del : DeletedPaths} {new mod upd : UpdatedPaths}
  {cp : Path → Path} {DL DR : Path → Prop} {l : List Path}

theorem Scanned.mem_loc (sc : Scanned env w del new mod w1) {p : Path} :
    p ∈ mod.loc ++ new.loc ↔ ChangedLocally env w p := by
  constructor
  · intro h; exact sc.loc p (List.mem_append.1 h)
  · rintro ⟨h1, n, h2, h3, ⟨h4, h5⟩ | ⟨h4, h5, h6⟩⟩
    · exact List.mem_append_right _ ((sc.newLocIff p).2 ⟨h1, n, h2, h4, h3, h5⟩)
    · exact List.mem_append_left _ ((sc.modLocIff p).2 ⟨h1, n, h2, h5, h6, h4, h3⟩)

theorem Scanned.mem_rem (sc : Scanned env w del new mod w1) {p : Path} :
    p ∈ mod.rem ++ new.rem ↔ ChangedRemotely env w p := by
  constructor
  · intro h
    rcases List.mem_append.1 h with h | h
    · rcases (sc.modRemIff p).1 h with ⟨h1, n, h2, h3, h4, h5⟩ | h1
      · exact Or.inl ⟨h1, n, h2, Or.inr ⟨h3, h4⟩⟩
      · exact Or.inr h1
    · obtain ⟨h1, ⟨n, h2⟩, h3⟩ := (sc.newRemIff p).1 h
      exact Or.inl ⟨h1, n, h2, Or.inl h3⟩
  · rintro (⟨h1, n, h2, h3⟩ | h1)
    · by_cases hdb : p ∈ ADB.paths w.db
      · obtain ⟨h4, h5⟩ := h3.resolve_left (fun h => h hdb)
        exact List.mem_append_left _ ((sc.modRemIff p).2 (Or.inl ⟨h1, n, h2, h4, h5, hdb⟩))
      · exact List.mem_append_right _ ((sc.newRemIff p).2 ⟨h1, ⟨n, h2⟩, hdb⟩)
    · exact List.mem_append_left _ ((sc.modRemIff p).2 (Or.inr h1))

/-- After the deletions. -/
theorem Cleared.part (r : SyncReady env w) (sc : Scanned env w del new mod w1) (cl : Cleared env w del w1 w2) :
    ClearPart env w w2.os.fs := by
  obtain ⟨A, B, c, hA, hB, _, _, hx⟩ := cl.clearing
  exact ClearPart.of r sc.start (fun d hd => ⟨(hA d hd).2, hx d hd⟩) (fun d hd => (hB d hd).2) c.keptL c.keptR

theorem Cleared.name (clk : w1.os.clk = w.os.clk) (tick : w.os.tick ≤ w1.os.tick) (cl : Cleared env w del w1 w2)
    (p : Path) : ConflictName env w p (conflictPath (env.stamp (w2.os.clk w2.os.tick)) p) :=
  ⟨w2.os.tick, Nat.le_trans tick cl.tick, by rw [cl.clk, clk]⟩

theorem ClearPart.loc_file {fs' : FS} (h : ClearPart env w fs') (r : SyncReady env w) {p : Path} {n : Node}
    (hp : p ≠ []) (hn : w.os.fs.get (env.loc ++ p) = some n) (hd : n.isDir = false)
    (hdel : ∀ d, GoneRemotely env w d → ¬ OwnExcludes env w.os.fs d → ¬ d <+: p) :
    fs'.get (env.loc ++ p) = some n := by
  obtain ⟨n', h1, _, h2⟩ := h.loc p (r.local_user hp hn).plain hdel n hn
  rw [h1, h2 hd]

theorem ClearPart.rem_file {fs' : FS} (h : ClearPart env w fs') {p : Path} {n : Node}
    (hu : UserPath p) (hn : w.os.fs.get (env.rem ++ p) = some n) (hd : n.isDir = false)
    (hdel : ∀ d, GoneLocally env w d → ¬ d <+: p) :
    fs'.get (env.rem ++ p) = some n := by
  obtain ⟨n', h1, _, h2⟩ := h.rem p hu.plain hdel n hn
  rw [h1, h2 hd]

/-- A local file that has been uploaded. -/
theorem Steps.uploaded (S : Steps env w del new mod w1 w2 upd w3 cp DL DR l w4) {f p : Path} {n : Node}
    (hf : f ∈ upd.loc) (hfp : f <+: p) (hn : w3.os.fs.get (env.loc ++ p) = some n) (hd : n.isDir = false) :
    w4.os.fs.get (env.rem ++ p) = some n := by
  have hp0 : p ≠ [] := by
    rintro rfl
    exact ((S.rb.loc f).1 hf).1 (List.prefix_nil.1 hfp)
  have hl : p ∈ l := by
    rcases S.ub.all p ⟨⟨n, hn⟩, hp0, f, hf, hfp⟩ with h | h
    · exact h
    · rw [isDir_iff_false hn, hd] at h; cases h
  have hc := S.ub.moved.copied p hl n hn
  unfold Copied at hc
  cases n with
  | dir a b => cases hd
  | file c a b => exact hc
  | link c a => exact hc

/-- Where a local file is that is not overwritten. -/
theorem sync_keeps_local (r : SyncReady env w) {fs' : FS} (h : SyncAt env w fs') {p : Path} {n : Node} (hp : p ≠ [])
    (hn : w.os.fs.get (env.loc ++ p) = some n) (hd : n.isDir = false)
    (hdel : ∀ d, GoneRemotely env w d → ¬ OwnExcludes env w.os.fs d → ¬ d <+: p) :
    HasVersion env w fs' env.loc p n ∨ HasVersion env w fs' env.rem p n ∨
      (¬ ChangedLocally env w p ∧ ∃ b, w.os.fs.get (env.rem ++ p) = some b ∧ b ≠ n) := by
  have hu := r.local_user hp hn
  have after3 : ∀ {del new mod w1 w2 upd w3 cp DL DR}, Steps3 env w del new mod w1 w2 upd w3 cp DL DR →
      (w3.os.fs.get (env.loc ++ p) = some n ∧ ¬ DL p) ∨ (DL p ∧ w3.os.fs.get (env.loc ++ cp p) = some n) := by
    intro del new mod w1 w2 upd w3 cp DL DR S
    exact S.rb.eff.loc_keep r.apart S.rb.ctx ((S.cl.part r S.sc).loc_file r hp hn hd hdel)
  have name3 : ∀ {del new mod w1 w2 upd w3 cp DL DR}, Steps3 env w del new mod w1 w2 upd w3 cp DL DR →
      ConflictName env w p (cp p) := by
    intro del new mod w1 w2 upd w3 cp DL DR S
    rw [S.rb.name]; exact S.cl.name S.clk S.tick p
  cases h with
  | scan h => exact Or.inl (Or.inl ((h _ (loc_ne_slot' r.apart p)).trans hn))
  | clear h => exact Or.inl (Or.inl (h.loc_file r hp hn hd hdel))
  | resolve sc clk tick cl h =>
    left
    obtain ⟨DL, DR, _, _, ctx, eff⟩ := h
    rcases eff.loc_keep r.apart ctx ((cl.part r sc).loc_file r hp hn hd hdel) with ⟨h1, _⟩ | ⟨_, h1⟩
    · exact Or.inl h1
    · exact Or.inr ⟨_, cl.name clk tick p, h1⟩
  | upload S h =>
    left
    obtain ⟨l, h, _⟩ := h
    rcases after3 S with ⟨h1, _⟩ | ⟨_, h1⟩
    · exact Or.inl ((h.loc_eq _).trans h1)
    · exact Or.inr ⟨_, name3 S, (h.loc_eq _).trans h1⟩
  | select S h =>
    left
    subst h
    rcases after3 S.toSteps3 with ⟨h1, _⟩ | ⟨_, h1⟩
    · exact Or.inl ((S.ub.moved.loc_eq _).trans h1)
    · exact Or.inr ⟨_, name3 S.toSteps3, (S.ub.moved.loc_eq _).trans h1⟩
  | @update del new mod w1 w2 upd w3 cp DL DR l w4 sel rex w5 S T h =>
    rcases after3 S.toSteps3 with ⟨h1, hDL⟩ | ⟨hDL, h1⟩
    swap
    · -- it has got a conflict name
      have hcu := (S.rb.ctx.cuser p (Or.inl hDL)).1
      have h4 := S.uploaded ((S.rb.loc _).2 ⟨hcu.1, Or.inr ⟨p, hDL, rfl⟩⟩) (List.prefix_refl _) h1 hd
      rcases h.rem_keep r T hcu hd h4 with h5 | h5
      · exact Or.inr (Or.inl (Or.inr ⟨_, name3 S.toSteps3, h5⟩))
      · exact Or.inl (Or.inr ⟨_, name3 S.toSteps3, h5⟩)
    · have up : ∀ {b}, w4.os.fs.get (env.rem ++ p) = some b → b = n → HasVersion env w fs' env.loc p n ∨
          HasVersion env w fs' env.rem p n := by
        rintro b h4 rfl
        rcases h.rem_keep r T hu hd h4 with h5 | h5
        · exact Or.inr (Or.inl h5)
        · exact Or.inl (Or.inl h5)
      by_cases hup : ∃ f ∈ upd.loc, f <+: p
      · obtain ⟨f, hf, hfp⟩ := hup
        exact (up (S.uploaded hf hfp h1 hd) rfl).imp id Or.inl
      · have nchg : ¬ ChangedLocally env w p := by
          intro hc
          exact hup ⟨p, (S.rb.loc p).2 ⟨hp, Or.inl ⟨S.sc.mem_loc.2 hc, hDL⟩⟩, List.prefix_refl _⟩
        have npl : p ∉ l := by
          intro hl
          obtain ⟨_, _, h2⟩ := S.ub.listed p hl
          exact hup h2
        obtain ⟨A, B, c, hA, hB, _⟩ := S.cl.clearing
        have less2 : Less env w.os.fs w2.os.fs := (S.sc.start.less r).trans c.less
        have h2 := (S.cl.part r S.sc).loc_file r hp hn hd hdel
        rcases Option.eq_none_or_eq_some (w.os.fs.get (env.rem ++ p)) with hr | ⟨b, hr⟩
        · left
          rcases h.loc_cases r T ((S.ub.moved.loc_eq _).trans h1) with h5 | ⟨h5, h6⟩ | ⟨m, h5⟩
          · exact Or.inl h5
          · exfalso
            have hex : ¬ OwnExcludes env w.os.fs p := by
              obtain ⟨ex, h7, h8⟩ := S.up.ex
              have m5 : w5.matches_ = w4.matches_ := by obtain ⟨x, y, e⟩ := T.same; rw [e]
              intro h9
              exact h5.2.1 (Or.inl ⟨ex, by rw [m5]; exact h7, (h8 p).2 h9⟩)
            by_cases hdb : p ∈ ADB.paths w.db
            · exact hdel p ⟨hdb, hr⟩ hex (List.prefix_refl _)
            · refine nchg ⟨hp, n, hn, ?_, Or.inl ⟨hdb, hex⟩⟩
              rintro ⟨t, m, rfl, _⟩
              cases h6
          · exfalso
            rcases S.rem_cases r h5 with ⟨m3, h6⟩ | ⟨f, hf, _, h6 | h6 | h6⟩
            · rcases S.rb.eff.rem_some r.apart h6 with ⟨h7, _⟩ | ⟨x, hx, rfl, _⟩
              · obtain ⟨k, h8, _⟩ := less2.2 p hu.plain _ h7
                rw [hr] at h8; cases h8
              · rw [(S.rb.ctx.free x (Or.inr hx)).1] at h2; cases h2
            · exact npl h6.2
            · rw [isDir_iff_false h1, hd] at h6; cases h6.2
            · exact hup ⟨f, hf, h6.1⟩
        · by_cases hbn : b = n
          · subst hbn
            have h2r := (S.cl.part r S.sc).rem_file hu hr hd (fun d hd' hdp => by
              rw [gone_below r.wf hd'.2 hdp] at hn; cases hn)
            rcases S.rb.eff.rem_keep r.apart S.rb.ctx h2r with ⟨h3, _⟩ | ⟨h3, _⟩
            · exact (up (S.ub.moved.toMoving.rem_keep r.apart npl h3) rfl).imp id Or.inl
            · exact absurd (S.sc.mem_loc.1 (S.rb.mem p (Or.inr h3)).1) nchg
          · exact Or.inr (Or.inr ⟨nchg, b, hr, hbn⟩)

/-- Where a remote file is that is not overwritten. -/
theorem sync_keeps_remote (r : SyncReady env w) {fs' : FS} (h : SyncAt env w fs') {p : Path} {n : Node}
    (hu : UserPath p) (hn : w.os.fs.get (env.rem ++ p) = some n) (hd : n.isDir = false)
    (hdel : ∀ d, GoneLocally env w d → ¬ d <+: p) :
    HasVersion env w fs' env.rem p n ∨ HasVersion env w fs' env.loc p n ∨
      ∃ f a, ChangedLocally env w f ∧ f <+: p ∧ w.os.fs.get (env.loc ++ p) = some a ∧
        ¬ (ChangedLocally env w p ∧ ChangedRemotely env w p ∧ a.mtime ≠ n.mtime) := by
  have after2 : ∀ {del new mod w1 w2}, Scanned env w del new mod w1 → Cleared env w del w1 w2 →
      w2.os.fs.get (env.rem ++ p) = some n :=
    fun sc cl => (cl.part r sc).rem_file hu hn hd hdel
  have after3 : ∀ {del new mod w1 w2 upd w3 cp DL DR}, Steps3 env w del new mod w1 w2 upd w3 cp DL DR →
      (w3.os.fs.get (env.rem ++ p) = some n ∧ ¬ DR p) ∨ (DR p ∧ w3.os.fs.get (env.rem ++ cp p) = some n) :=
    fun S => S.rb.eff.rem_keep r.apart S.rb.ctx (after2 S.sc S.cl)
  have name3 : ∀ {del new mod w1 w2 upd w3 cp DL DR}, Steps3 env w del new mod w1 w2 upd w3 cp DL DR →
      ConflictName env w p (cp p) := by
    intro del new mod w1 w2 upd w3 cp DL DR S
    rw [S.rb.name]; exact S.cl.name S.clk S.tick p
  -- it is uploaded only if the local file has been changed and there is no conflict
  have over : ∀ {del new mod w1 w2 upd w3 cp DL DR}, Steps3 env w del new mod w1 w2 upd w3 cp DL DR → ¬ DR p →
      Listed w3.os.fs env.loc (some upd.loc) p →
      ∃ f a, ChangedLocally env w f ∧ f <+: p ∧ w.os.fs.get (env.loc ++ p) = some a ∧
        ¬ (ChangedLocally env w p ∧ ChangedRemotely env w p ∧ a.mtime ≠ n.mtime) := by
    intro del new mod w1 w2 upd w3 cp DL DR S hDR hl
    obtain ⟨⟨a', ha'⟩, _, f, hf, hfp⟩ := hl
    obtain ⟨A, B, c, hA, hB, _⟩ := S.cl.clearing
    have less2 : Less env w.os.fs w2.os.fs := (S.sc.start.less r).trans c.less
    have h2 := after2 S.sc S.cl
    obtain ⟨h2a, hDL⟩ : w2.os.fs.get (env.loc ++ p) = some a' ∧ ¬ DL p := by
      rcases S.rb.eff.loc_some r.apart ha' with h | ⟨x, hx, rfl, _⟩
      · exact h
      · rw [(S.rb.ctx.free x (Or.inl hx)).2] at h2; cases h2
    obtain ⟨a, ha, hk, he⟩ := less2.1 p hu.plain a' h2a
    have had : a.isDir = false := by rw [r.tidy.kind p hu.plain a n ha hn]; exact hd
    have haa : a = a' := he (hk.symm.trans had)
    subst haa
    refine ⟨f, a, ?_, hfp, ha, ?_⟩
    · obtain ⟨_, ⟨h3, _⟩ | ⟨x, hx, rfl⟩⟩ := (S.rb.loc f).1 hf
      · exact S.sc.mem_loc.1 h3
      · rw [gone_below c.wf (S.rb.ctx.free x (Or.inl hx)).2 hfp] at h2; cases h2
    · rintro ⟨k1, k2, k3⟩
      have m1 := S.sc.mem_loc.2 k1
      have m2 := S.sc.mem_rem.2 k2
      have m3 : ¬ DirRow w2.db p := not_dirRow c.fit_db h2a had
      rcases Int.lt_or_gt_of_ne k3 with h4 | h4
      · exact hDL ((S.rb.dl p).2 ⟨m1, m2, m3, a, n, h2a, h2, h4⟩)
      · exact hDR ((S.rb.dr p).2 ⟨m1, m2, m3, n, a, h2, h2a, h4⟩)
  have conf : ∀ {del new mod w1 w2 upd w3 cp DL DR}, Steps3 env w del new mod w1 w2 upd w3 cp DL DR → DR p →
      ¬ Listed w3.os.fs env.loc (some upd.loc) (cp p) := by
    intro del new mod w1 w2 upd w3 cp DL DR S hDR hl
    obtain ⟨⟨a', ha'⟩, _⟩ := hl
    rcases S.rb.eff.loc_some r.apart ha' with ⟨h, _⟩ | ⟨x, hx, e, _⟩
    · rw [(S.rb.ctx.free p (Or.inr hDR)).1] at h; cases h
    · have := S.rb.ctx.inj p x (Or.inr hDR) (Or.inl hx) e
      subst this
      exact S.rb.ctx.disj p hx hDR
  -- after the remote directory has been updated
  have after4 : ∀ {del new mod w1 w2 upd w3 cp DL DR l fs}, Steps3 env w del new mod w1 w2 upd w3 cp DL DR →
      Moving env.loc env.rem false w3.os.fs l fs → (∀ p ∈ l, Listed w3.os.fs env.loc (some upd.loc) p) →
      (∃ q, UserPath q ∧ fs.get (env.rem ++ q) = some n ∧ (q = p ∨ ConflictName env w p q)) ∨
        ∃ f a, ChangedLocally env w f ∧ f <+: p ∧ w.os.fs.get (env.loc ++ p) = some a ∧
        ¬ (ChangedLocally env w p ∧ ChangedRemotely env w p ∧ a.mtime ≠ n.mtime) := by
    intro del new mod w1 w2 upd w3 cp DL DR l fs S hm hl
    rcases after3 S with ⟨h1, hDR⟩ | ⟨hDR, h1⟩
    · by_cases hpl : p ∈ l
      · exact Or.inr (over S hDR (hl p hpl))
      · exact Or.inl ⟨p, hu, hm.rem_keep r.apart hpl h1, Or.inl rfl⟩
    · exact Or.inl ⟨cp p, (S.rb.ctx.cuser p (Or.inr hDR)).1,
        hm.rem_keep r.apart (fun hpl => conf S hDR (hl _ hpl)) h1, Or.inr (name3 S)⟩
  have toHolds : ∀ {root q : Path}, fs'.get (root ++ q) = some n → (q = p ∨ ConflictName env w p q) →
      HasVersion env w fs' root p n := by
    rintro root q h1 (rfl | h2)
    · exact Or.inl h1
    · exact Or.inr ⟨q, h2, h1⟩
  cases h with
  | scan h => exact Or.inl (Or.inl ((h _ (plain_ne_slot hu.plain)).trans hn))
  | clear h => exact Or.inl (Or.inl (h.rem_file hu hn hd hdel))
  | resolve sc clk tick cl h =>
    left
    obtain ⟨DL, DR, _, _, ctx, eff⟩ := h
    rcases eff.rem_keep r.apart ctx (after2 sc cl) with ⟨h1, _⟩ | ⟨_, h1⟩
    · exact Or.inl h1
    · exact Or.inr ⟨_, cl.name clk tick p, h1⟩
  | upload S h =>
    obtain ⟨l, h, hl⟩ := h
    rcases after4 S h hl with ⟨q, _, h1, h2⟩ | h1
    · exact Or.inl (toHolds h1 h2)
    · exact Or.inr (Or.inr h1)
  | select S h =>
    subst h
    rcases after4 S.toSteps3 S.ub.moved.toMoving S.ub.listed with ⟨q, _, h1, h2⟩ | h1
    · exact Or.inl (toHolds h1 h2)
    · exact Or.inr (Or.inr h1)
  | update S T h =>
    rcases after4 S.toSteps3 S.ub.moved.toMoving S.ub.listed with ⟨q, hq, h1, h2⟩ | h1
    · rcases h.rem_keep r T hq hd h1 with h3 | h3
      · exact Or.inl (toHolds h3 h2)
      · exact Or.inr (Or.inl (toHolds h3 h2))
    · exact Or.inr (Or.inr h1)

end

end Verif
