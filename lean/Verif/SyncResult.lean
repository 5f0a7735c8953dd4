import Verif.SyncLoss
/-
What a successful sync does with local changes and with deletions.
-/
namespace Verif
open Prog OSM Call FSTools WM

section
variable {env : Env} {w w1 w2 w3 w4 : World} {del : DeletedPaths} {new mod upd : UpdatedPaths}
  {cp : Path → Path} {DL DR : Path → Prop} {l : List Path}

theorem LocalDone.loc_eq {sel rex : List Path} {w5 w6 w' : World} (r : SyncReady env w)
    (D : LocalDone env sel rex w5 w6 w') (p : Path) :
    w'.os.fs.get (env.loc ++ p) = w6.os.fs.get (env.loc ++ p) := by
  refine D.ended.keeps.keeps _ ?_
  rintro (⟨q, _, t, e⟩ | h)
  · rw [List.append_assoc] at e
    exact r.apart.symm.ne _ _ e
  · exact loc_not_trash r.apart h rfl

theorem LocalDone.rem_gone {sel rex : List Path} {w5 w6 w' : World} (r : SyncReady env w)
    (T : Selects env w w4 sel rex w5) (D : LocalDone env sel rex w5 w6 w') {p : Path}
    (h : w4.os.fs.get (env.rem ++ p) = none) : w'.os.fs.get (env.rem ++ p) = none := by
  have fs5 : w5.os.fs = w4.os.fs := by obtain ⟨x, y, h⟩ := T.same; rw [h]
  have h6 : w6.os.fs.get (env.rem ++ p) = none := by
    rw [D.kept.out, fs5]; exact h
    rintro ⟨⟨t, e⟩, _⟩
    exact r.apart.ne t p e
  rcases D.ended.keeps.gone (env.rem ++ p) with h7 | h7
  · rw [h7, h6]
  · exact h7

/-- What is not excluded stays in the remote directory. -/
theorem LocalDone.rem_eq {sel rex : List Path} {w5 w6 w' : World} (r : SyncReady env w)
    (T : Selects env w w4 sel rex w5) (D : LocalDone env sel rex w5 w6 w') {p : Path} (hu : UserPath p)
    (h : ∀ q, OwnExcludes env w.os.fs q → ¬ q <+: p) :
    w'.os.fs.get (env.rem ++ p) = w4.os.fs.get (env.rem ++ p) := by
  have fs5 : w5.os.fs = w4.os.fs := by obtain ⟨x, y, h⟩ := T.same; rw [h]
  have h6 : w6.os.fs.get (env.rem ++ p) = w4.os.fs.get (env.rem ++ p) := by
    rw [D.kept.out, fs5]
    rintro ⟨⟨t, e⟩, _⟩
    exact r.apart.ne t p e
  rw [← h6]
  refine D.ended.keeps.keeps _ ?_
  rintro (⟨q, ⟨h1, _⟩, h2⟩ | h1)
  · exact h q (T.rexOwn q h1) ((List.prefix_append_right_inj _).1 h2)
  · exact plain_not_trash hu.plain h1 rfl

/-- A conflict name is a path that is in neither directory when the sync starts. -/
theorem Steps3.cp_free (S : Steps3 env w del new mod w1 w2 upd w3 cp DL DR) (r : SyncReady env w) {x : Path}
    (hx : DL x ∨ DR x) : w.os.fs.get (env.loc ++ cp x) = none ∧ w.os.fs.get (env.rem ++ cp x) = none := by
  obtain ⟨k, hk, e⟩ := S.cl.name S.clk S.tick x
  have hc := S.rb.name
  subst hc
  rw [e]
  exact r.free k x hk (S.rb.ctx.user x hx).1 (S.rb.ctx.user x hx).2

theorem Steps3.cp_name (S : Steps3 env w del new mod w1 w2 upd w3 cp DL DR) (x : Path) :
    ConflictName env w x (cp x) := by
  rw [S.rb.name]; exact S.cl.name S.clk S.tick x

/-- What is above a conflict name is above the path. -/
theorem Steps3.cp_above (S : Steps3 env w del new mod w1 w2 upd w3 cp DL DR) {x q : Path}
    (hx : DL x ∨ DR x) (h : q <+: cp x) (hne : q ≠ cp x) : q <+: x := by
  have he := List.dropLast_concat_getLast (S.rb.ctx.cuser x hx).1.1
  rw [← he] at h
  rcases List.prefix_concat_iff.1 h with h4 | h4
  · rw [he] at h4; exact absurd h4 hne
  · rw [S.rb.ctx.parent x hx] at h4
    exact h4.trans (List.dropLast_prefix _)

/-- Nothing above the conflict name of a path that is not excluded is excluded. -/
theorem Steps3.cp_excl (S : Steps3 env w del new mod w1 w2 upd w3 cp DL DR) (r : SyncReady env w) {x : Path}
    (hx : DL x ∨ DR x) {n : Node} (hn : w.os.fs.get (env.loc ++ x) = some n) (he : ¬ OwnExcludes env w.os.fs x)
    (q : Path) (hq : OwnExcludes env w.os.fs q) : ¬ q <+: cp x := by
  intro h
  by_cases hne : q = cp x
  · subst hne
    obtain ⟨_, n, h1⟩ := ownExcludes_exists hq
    rw [(S.cp_free r hx).1] at h1; cases h1
  · exact he (ownExcludes_below hq (S.cp_above hx h hne) ⟨n, hn⟩)

/-- A local file that has been changed is not removed by a sync that gets to the update of the local directory. -/
theorem Steps.loc_kept (S : Steps env w del new mod w1 w2 upd w3 cp DL DR l w4) (r : SyncReady env w) {p : Path} {n : Node}
    (hc : ChangedLocally env w p) (hn : w.os.fs.get (env.loc ++ p) = some n) (hd : n.isDir = false) :
    w2.os.fs.get (env.loc ++ p) = some n := by
  obtain ⟨A, B, c, hA, hB, _⟩ := S.cl.clearing
  by_cases hdel : ∃ d ∈ A, d <+: p
  · exfalso
    obtain ⟨d, h1, h2⟩ := hdel
    have h3 := c.goneL d h1 p h2
    have hDL : ¬ DL p := by
      intro h
      obtain ⟨a, _, h4, _⟩ := S.rb.ctx.both p (Or.inl h)
      rw [h3] at h4; cases h4
    obtain ⟨m, h4⟩ := S.ub.found p ((S.rb.loc p).2 ⟨hc.1, Or.inl ⟨S.sc.mem_loc.2 hc, hDL⟩⟩)
    rcases S.rb.eff.loc_some r.apart h4 with ⟨h5, _⟩ | ⟨x, hx, rfl, _⟩
    · rw [h3] at h5; cases h5
    · rw [(S.cp_free r (Or.inl hx)).1] at hn; cases hn
  · obtain ⟨n', h1, _, h2⟩ := c.keptL p (r.local_user hc.1 hn).plain (fun d h1 h2 => hdel ⟨d, h1, h2⟩) n
      (by rw [S.sc.start.loc r]; exact hn)
    rw [h1, h2 hd]

/-- Where a changed local file is after a successful sync. -/
theorem upload_of_done {w' : World} (r : SyncReady env w) (h : SyncDone env w w') {p : Path} {n : Node}
    (hc : ChangedLocally env w p) (hn : w.os.fs.get (env.loc ++ p) = some n) (hd : n.isDir = false)
    (he : ¬ OwnExcludes env w.os.fs p) :
    (¬ ChangedRemotely env w p → w'.os.fs.get (env.rem ++ p) = some n) ∧
    (ChangedRemotely env w p → ∃ b, w.os.fs.get (env.rem ++ p) = some b ∧
      (b.mtime ≤ n.mtime → w'.os.fs.get (env.rem ++ p) = some n) ∧
      (b.mtime < n.mtime → ∃ q, ConflictName env w p q ∧ w'.os.fs.get (env.rem ++ q) = some b) ∧
      (n.mtime < b.mtime → w'.os.fs.get (env.rem ++ p) = some b ∧
        ∃ q, ConflictName env w p q ∧ w'.os.fs.get (env.rem ++ q) = some n)) := by
  obtain ⟨del, new, mod, w1, w2, upd, w3, cp, DL, DR, l, w4, sel, rex, w5, w6, S, T, D⟩ := h
  have hu := r.local_user hc.1 hn
  have h2 := S.loc_kept r hc hn hd
  have hL := S.sc.mem_loc.2 hc
  have rem_p : w'.os.fs.get (env.rem ++ p) = w4.os.fs.get (env.rem ++ p) :=
    D.rem_eq r T hu (fun q hq hqp => he (ownExcludes_below hq hqp ⟨n, hn⟩))
  have rem_cp : DL p ∨ DR p → w'.os.fs.get (env.rem ++ cp p) = w4.os.fs.get (env.rem ++ cp p) := fun hx =>
    D.rem_eq r T (S.rb.ctx.cuser p hx).1 (S.cp_excl r hx hn he)
  have up : ¬ DL p → w'.os.fs.get (env.rem ++ p) = some n := by
    intro hDL
    rw [rem_p]
    refine S.uploaded ((S.rb.loc p).2 ⟨hc.1, Or.inl ⟨hL, hDL⟩⟩) (List.prefix_refl _) ?_ hd
    rcases S.rb.eff.loc_keep r.apart S.rb.ctx h2 with ⟨h3, _⟩ | ⟨h3, _⟩
    · exact h3
    · exact absurd h3 hDL
  refine ⟨fun hr => up (fun h => hr (S.sc.mem_rem.1 (S.rb.mem p (Or.inl h)).2)), fun hr => ?_⟩
  obtain ⟨A, B, c, hA, hB, _⟩ := S.cl.clearing
  have less2 : Less env w.os.fs w2.os.fs := (S.sc.start.less r).trans c.less
  have hR := S.sc.mem_rem.2 hr
  have hrow : ¬ DirRow w2.db p := not_dirRow c.fit_db h2 hd
  obtain ⟨a, b, ha, hb⟩ := S.rb.found p hL hR hrow
  rw [h2] at ha; cases ha
  obtain ⟨b0, hb0, hk, hke⟩ := less2.2 p hu.plain b hb
  have hbd : b0.isDir = false := by rw [← r.tidy.kind p hu.plain n b0 hn hb0]; exact hd
  have hbb : b0 = b := hke (hk.symm.trans hbd)
  subst hbb
  refine ⟨b0, hb0, ?_, ?_, ?_⟩
  · intro hle
    refine up (fun h => ?_)
    obtain ⟨_, _, _, a, b', h3, h4, h5⟩ := (S.rb.dl p).1 h
    rw [h2] at h3; cases h3
    rw [hb] at h4; cases h4
    omega
  · intro hlt
    have hDR : DR p := (S.rb.dr p).2 ⟨hL, hR, hrow, b0, n, hb, h2, hlt⟩
    refine ⟨cp p, S.cp_name p, ?_⟩
    rw [rem_cp (Or.inr hDR)]
    refine S.ub.moved.toMoving.rem_keep r.apart ?_ ((S.rb.eff.rem p hDR).1.trans hb)
    intro hl
    obtain ⟨⟨a', ha'⟩, _⟩ := S.ub.listed _ hl
    rcases S.rb.eff.loc_some r.apart ha' with ⟨h, _⟩ | ⟨x, hx, e, _⟩
    · rw [(S.rb.ctx.free p (Or.inr hDR)).1] at h; cases h
    · have := S.rb.ctx.inj p x (Or.inr hDR) (Or.inl hx) e
      subst this
      exact S.rb.ctx.disj p hx hDR
  · intro hlt
    have hDL : DL p := (S.rb.dl p).2 ⟨hL, hR, hrow, n, b0, h2, hb, hlt⟩
    refine ⟨?_, cp p, S.cp_name p, ?_⟩
    · rw [rem_p]
      refine S.ub.moved.toMoving.rem_keep r.apart ?_ ?_
      · intro hl
        obtain ⟨⟨a', ha'⟩, _⟩ := S.ub.listed _ hl
        rw [(S.rb.eff.loc p hDL).2] at ha'; cases ha'
      · rcases S.rb.eff.rem_keep r.apart S.rb.ctx hb with ⟨h, _⟩ | ⟨h, _⟩
        · exact h
        · exact absurd h (S.rb.ctx.disj p hDL)
    · rw [rem_cp (Or.inl hDL)]
      exact S.uploaded ((S.rb.loc _).2 ⟨(S.rb.ctx.cuser p (Or.inl hDL)).1.1, Or.inr ⟨p, hDL, rfl⟩⟩)
        (List.prefix_refl _) ((S.rb.eff.loc p hDL).1.trans h2) hd

/-- A new local directory is in the remote directory after a successful sync. -/
theorem upload_dir_of_done {w' : World} (r : SyncReady env w) (h : SyncDone env w w') {p : Path}
    (hc : ChangedLocally env w p) (hd : w.os.fs.isDir (env.loc ++ p) = true) (he : ¬ OwnExcludes env w.os.fs p) :
    w'.os.fs.isDir (env.rem ++ p) = true := by
  obtain ⟨del, new, mod, w1, w2, upd, w3, cp, DL, DR, l, w4, sel, rex, w5, w6, S, T, D⟩ := h
  obtain ⟨m, b, hn⟩ := FS.isDir_iff.1 hd
  have hu := r.local_user hc.1 hn
  obtain ⟨A, B, c, hA, hB, _⟩ := S.cl.clearing
  have less2 : Less env w.os.fs w2.os.fs := (S.sc.start.less r).trans c.less
  have hDL : ¬ DL p := by
    intro h
    obtain ⟨a, _, h1, _, h2, _⟩ := S.rb.ctx.both p (Or.inl h)
    obtain ⟨a0, h3, h4, _⟩ := less2.1 p hu.plain a h1
    rw [hn] at h3; cases h3
    rw [h2] at h4; cases h4
  have hup : p ∈ upd.loc := (S.rb.loc p).2 ⟨hc.1, Or.inl ⟨S.sc.mem_loc.2 hc, hDL⟩⟩
  obtain ⟨a, ha⟩ := S.ub.found p hup
  have had : a.isDir = true := by
    rcases S.rb.eff.loc_some r.apart ha with ⟨h1, _⟩ | ⟨x, hx, rfl, _⟩
    · obtain ⟨a0, h3, h4, _⟩ := less2.1 p hu.plain a h1
      rw [hn] at h3; cases h3
      rw [← h4]; rfl
    · rw [(S.cp_free r (Or.inl hx)).1] at hn; cases hn
  obtain ⟨k, hk⟩ := T.found p ((S.ub.db p).2 (Or.inr (Or.inl hup))) ((S.ub.rdb p).2 (Or.inr (Or.inl hup)))
  have hkd : k.isDir = true := by
    rw [← S.up.tidy.kind p hu.plain a k ((S.ub.moved.loc_eq p).trans ha) hk]; exact had
  have := D.rem_eq r T hu (fun q hq hqp => he (ownExcludes_below hq hqp ⟨_, hn⟩))
  rw [FS.isDir_congr this]
  unfold FS.isDir
  rw [hk]; exact hkd

/-- What was deleted on one side, and what is below it, is in neither directory and in no database after a successful
sync. -/
theorem gone_of_done {w' : World} (r : SyncReady env w) (h : SyncDone env w w') {d q : Path}
    (hd : GoneLocally env w d ∨ (GoneRemotely env w d ∧ ¬ OwnExcludes env w.os.fs d)) (hq : d <+: q) :
    w'.os.fs.get (env.loc ++ q) = none ∧ w'.os.fs.get (env.rem ++ q) = none ∧
    q ∉ ADB.paths w'.db ∧ q ∉ ADB.paths w'.rdb := by
  obtain ⟨del, new, mod, w1, w2, upd, w3, cp, DL, DR, l, w4, sel, rex, w5, w6, S, T, D⟩ := h
  obtain ⟨x, y, hw5⟩ := T.same
  have fs5 : w5.os.fs = w4.os.fs := by rw [hw5]
  have rdb5 : w5.rdb = w4.rdb := by rw [hw5]
  have db5 : w5.db = w4.db := by rw [hw5]
  obtain ⟨A, B, c, hA, hB, hA', hB', _⟩ := S.cl.clearing
  have less2 : Less env w.os.fs w2.os.fs := (S.sc.start.less r).trans c.less
  have hdb : d ∈ ADB.paths w.db := by rcases hd with h | ⟨h, _⟩ <;> exact h.1
  have hxp : ∀ {x}, d <+: x → PlainPath x := by
    intro x hx
    obtain ⟨b, hb⟩ := r.db.path hdb
    exact (PlainPath.extend hb.user hx).plain
  -- after the deletions
  have gone2 : ∀ x, d <+: x → w2.os.fs.get (env.loc ++ x) = none ∧ w2.os.fs.get (env.rem ++ x) = none ∧
      x ∉ ADB.paths w2.db ∧ x ∉ ADB.paths w2.rdb := by
    intro x hx
    have rows : ∀ d' ∈ A ++ B, d' <+: d → x ∉ ADB.paths w2.db ∧ x ∉ ADB.paths w2.rdb := fun d' h1 h2 =>
      ⟨fun h => ((c.db x).1 h).2 d' h1 (h2.trans hx), fun h => ((c.rdb x).1 h).2 d' h1 (h2.trans hx)⟩
    have noloc : w.os.fs.get (env.loc ++ d) = none → w2.os.fs.get (env.loc ++ x) = none := by
      intro h
      rcases Option.eq_none_or_eq_some (w2.os.fs.get (env.loc ++ x)) with h3 | ⟨n, h3⟩
      · exact h3
      · obtain ⟨n0, h4, _⟩ := less2.1 x (hxp hx) n h3
        rw [gone_below r.wf h hx] at h4; cases h4
    have norem : w.os.fs.get (env.rem ++ d) = none → w2.os.fs.get (env.rem ++ x) = none := by
      intro h
      rcases Option.eq_none_or_eq_some (w2.os.fs.get (env.rem ++ x)) with h3 | ⟨n, h3⟩
      · exact h3
      · obtain ⟨n0, h4, _⟩ := less2.2 x (hxp hx) n h3
        rw [gone_below r.wf h hx] at h4; cases h4
    by_cases hl : w.os.fs.get (env.loc ++ d) = none
    · obtain ⟨d', h1, h2⟩ := S.sc.delRemAll d ⟨hdb, hl⟩
      exact ⟨noloc hl, c.goneR d' (hB' d' h1) x (h2.trans hx), rows d' (List.mem_append_right _ (hB' d' h1)) h2⟩
    · rcases hd with h | ⟨h, he⟩
      · exact absurd h.2 hl
      · obtain ⟨d', h1, h2⟩ := S.sc.delLocAll d h
        have h6 : d' ∈ A := hA' d' h1 (fun h => he (ownExcludes_below h h2 (by
          rcases Option.eq_none_or_eq_some (w.os.fs.get (env.loc ++ d)) with h3 | h3
          · exact absurd h3 hl
          · exact h3)))
        exact ⟨c.goneL d' h6 x (h2.trans hx), norem h.2, rows d' (List.mem_append_left _ h6) h2⟩
  -- no conflict name is below it
  have nocp : ∀ x, DL x ∨ DR x → ¬ d <+: cp x := by
    intro x hx hdx
    obtain ⟨a, b, h4, _⟩ := S.rb.ctx.both x hx
    by_cases hne : d = cp x
    · obtain ⟨k, hk, e⟩ := S.cp_name x
      refine r.free_db k x hk (S.rb.ctx.user x hx).1 (S.rb.ctx.user x hx).2 d (Or.inl hdb) ?_
      rw [← e, hne]; exact List.prefix_refl _
    · rw [(gone2 x (S.cp_above hx hdx hne)).1] at h4; cases h4
  have loc3 : ∀ x n, d <+: x → w3.os.fs.get (env.loc ++ x) ≠ some n := by
    intro x n hx hn
    rcases S.rb.eff.loc_some r.apart hn with ⟨h4, _⟩ | ⟨y, hy, rfl, _⟩
    · rw [(gone2 x hx).1] at h4; cases h4
    · exact nocp y (Or.inl hy) hx
  have rem4 : ∀ x n, d <+: x → w4.os.fs.get (env.rem ++ x) ≠ some n := by
    intro x n hx h4
    rcases S.rem_cases r h4 with ⟨m, h5⟩ | ⟨_, _, ⟨m, h5⟩, _⟩
    · rcases S.rb.eff.rem_some r.apart h5 with ⟨h6, _⟩ | ⟨y, hy, rfl, _⟩
      · rw [(gone2 x hx).2.1] at h6; cases h6
      · exact nocp y (Or.inr hy) hx
    · exact loc3 x m hx h5
  have rows4 : ∀ x, d <+: x → x ∉ ADB.paths w4.db ∧ x ∉ ADB.paths w4.rdb := by
    intro x hx
    have hupd : ¬ (x ∈ upd.loc ∨ x ∈ upd.rem) := by
      intro h
      obtain ⟨n, h1⟩ := T.found x ((S.ub.db x).2 (Or.inr h)) ((S.ub.rdb x).2 (Or.inr h))
      exact rem4 x n hx h1
    refine ⟨fun h => ?_, fun h => ?_⟩
    · rcases (S.ub.db x).1 h with h | h
      · rcases S.rb.db_only x h with h | ⟨y, hy, rfl⟩
        · exact (gone2 x hx).2.2.1 h
        · exact nocp y hy hx
      · exact hupd h
    · rcases (S.ub.rdb x).1 h with h | h
      · rcases (S.rb.rdb x).1 h with h | ⟨y, hy, rfl⟩
        · exact (gone2 x hx).2.2.2 h
        · exact nocp y hy hx
      · exact hupd h
  refine ⟨?_, ?_, ?_, ?_⟩
  · rw [D.loc_eq r]
    rcases Option.eq_none_or_eq_some (w6.os.fs.get (env.loc ++ q)) with h3 | ⟨n, h3⟩
    · exact h3
    · exfalso
      rcases D.done.made q n h3 with ⟨m, h4⟩ | h4 | ⟨z, ⟨⟨m, h4⟩, _⟩, h5⟩
      · rw [fs5, S.ub.moved.loc_eq] at h4
        exact loc3 q m hq h4
      · rw [rdb5] at h4
        exact (rows4 q hq).2 h4
      · rw [fs5] at h4
        exact rem4 z m (hq.trans h5) h4
  · refine D.rem_gone r T ?_
    rcases Option.eq_none_or_eq_some (w4.os.fs.get (env.rem ++ q)) with h3 | ⟨n, h3⟩
    · exact h3
    · exact absurd h3 (rem4 q n hq)
  · intro h
    have h1 := ((D.ended.db q).1 h).1
    obtain ⟨ps, h2, _⟩ := D.db
    rw [h2, paths_markLocal, db5] at h1
    exact (rows4 q hq).1 h1
  · intro h
    have h1 := ((D.ended.rdb q).1 h).1
    rw [D.rdb, rdb5] at h1
    exact (rows4 q hq).2 h1

end
end Verif
