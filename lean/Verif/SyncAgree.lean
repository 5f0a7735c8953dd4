import Verif.SyncUpdate
import Verif.Spec.Agree
import Verif.MarkLocal
/-
What a successful sync leaves behind: the databases, the remote directory and the local directory agree.
-/
namespace Verif
open Prog OSM Call FSTools WM

/-- What is assumed in addition to `SyncReady`: what the databases know and what the remote directory has differ only
where something has been deleted or added, every directory above a known path is known, and nothing that is excluded
or an unsafe link is below something that is new. -/
structure Calm (env : Env) (w : World) : Prop where
  closed : ∀ p ∈ ADB.paths w.db, ∀ q, q <+: p → q ≠ [] → q ∈ ADB.paths w.db
  known : ∀ p ∈ ADB.paths w.db, p ∈ ADB.paths w.rdb ∨
    (w.os.fs.get (env.rem ++ p) = none ∧ ¬ OwnExcludes env w.os.fs p)
  remote : ∀ p ∈ ADB.paths w.rdb, p ∈ ADB.paths w.db ∨ ∃ n, w.os.fs.get (env.rem ++ p) = some n
  below : ∀ f, ChangedLocally env w f → ∀ q n, f <+: q → f ≠ q → w.os.fs.get (env.loc ++ q) = some n →
    ¬ OwnExcludes env w.os.fs q ∧ ¬ UnsafeLink env.loc q n

theorem ownExcludes_below {env : Env} {fs : FS} {p q : Path} (h : OwnExcludes env fs p) (hp : p <+: q)
    (hq : ∃ n, fs.get (env.loc ++ q) = some n) : OwnExcludes env fs q := by
  obtain ⟨a, k, m, b, h1, h2, h3, x, h4, h5, h6⟩ := h
  refine ⟨a, k, m, b, h1, ?_, hq, x, h4, h5.trans hp, h6⟩
  rintro rfl
  exact h2 (List.prefix_nil.1 hp)

section
variable {env : Env} {w w1 w2 w3 w4 : World} {del : DeletedPaths} {new mod upd : UpdatedPaths}
  {cp : Path → Path} {DL DR : Path → Prop} {l : List Path}

theorem Steps.db_known (S : Steps env w del new mod w1 w2 upd w3 cp DL DR l w4) (r : SyncReady env w) {p : Path}
    (hu : UserPath p) (h1 : p ∈ ADB.paths w1.db)
    (h : (∃ n, w2.os.fs.get (env.loc ++ p) = some n) ∨ ∃ n, w2.os.fs.get (env.rem ++ p) = some n) :
    p ∈ ADB.paths w2.db := by
  obtain ⟨A, B, c, hA, hB, _, _⟩ := S.cl.clearing
  have less : Less env w.os.fs w2.os.fs := (S.sc.start.less r).trans c.less
  refine (c.db p).2 ⟨h1, ?_⟩
  intro d hd hdp
  rcases List.mem_append.1 hd with hd | hd
  · rcases h with ⟨n, h⟩ | ⟨n, h⟩
    · rw [c.goneL d hd p hdp] at h; cases h
    · obtain ⟨n', h2, _⟩ := less.2 p hu.plain n h
      rw [gone_below r.wf (hA d hd).2.2 hdp] at h2; cases h2
  · rcases h with ⟨n, h⟩ | ⟨n, h⟩
    · obtain ⟨n', h2, _⟩ := less.1 p hu.plain n h
      rw [gone_below r.wf (hB d hd).2.2 hdp] at h2; cases h2
    · rw [c.goneR d hd p hdp] at h; cases h

/-- After the deletions the databases know the same paths. -/
theorem Steps.same2 (S : Steps env w del new mod w1 w2 upd w3 cp DL DR l w4) (c : Calm env w) (p : Path) :
    p ∈ ADB.paths w2.db ↔ p ∈ ADB.paths w2.rdb := by
  obtain ⟨A, B, k, hA, hB, hA', hB', _⟩ := S.cl.clearing
  rw [k.db, k.rdb, S.sc.dbIff, S.sc.rdbIff]
  constructor
  · rintro ⟨h | h, h2⟩
    · rcases c.known p h with h3 | ⟨h3, h4⟩
      · exact ⟨Or.inl h3, h2⟩
      · exfalso
        rcases Option.eq_none_or_eq_some (w.os.fs.get (env.loc ++ p)) with h5 | h5
        · obtain ⟨d, h6, h7⟩ := S.sc.delRemAll p ⟨h, h5⟩
          exact h2 d (List.mem_append_right _ (hB' d h6)) h7
        · obtain ⟨d, h6, h7⟩ := S.sc.delLocAll p ⟨h, h3⟩
          refine h2 d (List.mem_append_left _ (hA' d h6 ?_)) h7
          intro h8
          exact h4 (ownExcludes_below h8 h7 h5)
    · exact ⟨Or.inr h, h2⟩
  · rintro ⟨h | h, h2⟩
    · refine ⟨?_, h2⟩
      by_cases h3 : p ∈ ADB.paths w.db
      · exact Or.inl h3
      · have h4 := (c.remote p h).resolve_left h3
        refine Or.inr (Or.inr ((S.sc.newRemIff p).2 ⟨?_, h4, h3⟩))
        obtain ⟨d, hd⟩ := S.sc.rdb.path ((S.sc.rdbIff p).2 (Or.inl h))
        exact hd.user
    · exact ⟨Or.inr h, h2⟩

/-- After the remote directory has been updated the databases know the same paths. -/
theorem Steps.same4 (S : Steps env w del new mod w1 w2 upd w3 cp DL DR l w4) (c : Calm env w) (p : Path) :
    p ∈ ADB.paths w4.db ↔ p ∈ ADB.paths w4.rdb := by
  rw [S.ub.db, S.ub.rdb, S.rb.rdb]
  constructor
  · rintro (h | h)
    · rcases S.rb.db_only p h with h1 | h1
      · exact Or.inl (Or.inl ((S.same2 c p).1 h1))
      · exact Or.inl (Or.inr h1)
    · exact Or.inr h
  · rintro ((h | ⟨x, h1 | h1, h2⟩) | h)
    · have h2 := (S.same2 c p).2 h
      by_cases h3 : ∀ x, DL x ∨ DR x → ¬ x <+: p
      · exact Or.inl (S.rb.db_keep p h2 h3)
      · obtain ⟨x, h4, h5⟩ : ∃ x, (DL x ∨ DR x) ∧ x <+: p := by
          apply Classical.byContradiction
          intro hc
          exact h3 (fun x h4 h5 => hc ⟨x, h4, h5⟩)
        obtain ⟨A, B, k, _⟩ := S.cl.clearing
        have hx : x = p := by
          apply Classical.byContradiction
          intro hne
          obtain ⟨d, f⟩ := k.fit_db.path h2
          obtain ⟨a, b, k1, _, k3, _⟩ := S.rb.ctx.both x h4
          have := f.aboveL x a h5 hne k1
          rw [k3] at this; cases this
        subst hx
        obtain ⟨m1, m2⟩ := S.rb.mem x h4
        have hne := (S.rb.ctx.user x h4).1.1
        right
        rcases h4 with h4 | h4
        · exact Or.inr ((S.rb.rem x).2 ⟨hne, Or.inl ⟨m2, fun h => S.rb.ctx.disj x h4 h⟩⟩)
        · exact Or.inl ((S.rb.loc x).2 ⟨hne, Or.inl ⟨m1, fun h => S.rb.ctx.disj x h h4⟩⟩)
    · refine Or.inr (Or.inl ((S.rb.loc p).2 ⟨?_, Or.inr ⟨x, h1, h2⟩⟩))
      rw [h2]; exact (S.rb.ctx.cuser x (Or.inl h1)).1.1
    · refine Or.inr (Or.inr ((S.rb.rem p).2 ⟨?_, Or.inr ⟨x, h1, h2⟩⟩))
      rw [h2]; exact (S.rb.ctx.cuser x (Or.inr h1)).1.1
    · exact Or.inr h

theorem Steps.chg (S : Steps env w del new mod w1 w2 upd w3 cp DL DR l w4) {f : Path} (h : f ∈ mod.loc ++ new.loc) :
    ChangedLocally env w f := S.sc.loc f (List.mem_append.1 h)

/-- Nothing is below a conflict name. -/
theorem Steps.copy_leaf (S : Steps env w del new mod w1 w2 upd w3 cp DL DR l w4) (r : SyncReady env w) {x q : Path}
    (hx : DL x) {n : Node} (hn : w3.os.fs.get (env.loc ++ q) = some n) (h : cp x <+: q) : cp x = q := by
  apply Classical.byContradiction
  intro hne
  obtain ⟨a, b, h1⟩ := FS.isDir_iff.1 (S.rs.wf.isDir_prefix hn (env.loc ++ cp x) ((List.prefix_append_right_inj _).2 h)
    (fun e => hne (List.append_cancel_left e)))
  obtain ⟨A, B, k, _⟩ := S.cl.clearing
  have := (S.rb.ctx.fits' r.apart k.wf S.rb.eff (Or.inl hx)).loc _ h1
  cases this

/-- What has been uploaded is known. -/
theorem Steps.uploaded_known (S : Steps env w del new mod w1 w2 upd w3 cp DL DR l w4) (r : SyncReady env w)
    (c : Calm env w) {f p : Path} {n : Node} (hf : f ∈ upd.loc) (hn : w3.os.fs.get (env.loc ++ p) = some n)
    (h : f <+: p ∨ (p <+: f ∧ p ≠ [])) : p ∈ ADB.paths w4.db := by
  obtain ⟨A, B, k, _⟩ := S.cl.clearing
  have less : Less env w.os.fs w2.os.fs := (S.sc.start.less r).trans k.less
  have hp0 : p ≠ [] := by
    rcases h with h | h
    · rintro rfl
      exact ((S.rb.loc f).1 hf).1 (List.prefix_nil.1 h)
    · exact h.2
  have copy : ∀ x, DL x → p = cp x → p ∈ ADB.paths w4.db := by
    rintro x hx rfl
    exact (S.ub.db _).2 (Or.inr (Or.inl ((S.rb.loc _).2 ⟨hp0, Or.inr ⟨x, hx, rfl⟩⟩)))
  have four : p ∈ ADB.paths w2.db → p ∈ ADB.paths w4.db := by
    intro h2
    rw [S.same4 c, S.ub.rdb, S.rb.rdb]
    exact Or.inl (Or.inl ((S.same2 c p).1 h2))
  rcases S.rb.eff.loc_some r.apart hn with ⟨h1, h2⟩ | ⟨x, h1, h2, _⟩
  swap
  · exact copy x h1 h2
  have hu : UserPath p := by
    rcases h with h | h
    · exact PlainPath.extend (S.rs.updLoc f hf).1 h
    · exact PlainPath.user ((S.rs.updLoc f hf).1.plain.prefix h.1) h.2
  obtain ⟨n', h3, h4, h5⟩ := less.1 p hu.plain n h1
  by_cases hdb : p ∈ ADB.paths w.db
  · exact four (S.db_known r hu ((S.sc.dbIff p).2 (Or.inl hdb)) (Or.inl ⟨n, h1⟩))
  suffices hnew : p ∈ new.loc from
    four (S.db_known r hu ((S.sc.dbIff p).2 (Or.inr (Or.inl hnew))) (Or.inl ⟨n, h1⟩))
  -- it is new
  have notmod : ∀ f, f ∈ mod.loc ++ new.loc → f ∉ ADB.paths w.db → f ∈ new.loc := by
    intro f hf hfd
    rcases List.mem_append.1 hf with hf | hf
    · obtain ⟨_, _, _, h6⟩ := S.sc.modLoc f hf
      exact absurd h6 hfd
    · exact hf
  obtain ⟨_, ⟨hfL, _⟩ | ⟨x, hx, rfl⟩⟩ := (S.rb.loc f).1 hf
  · rcases h with h | ⟨h, _⟩
    · by_cases hfp : f = p
      · subst hfp; exact notmod f hfL hdb
      · obtain ⟨h6, h7⟩ := c.below f (S.chg hfL) p n' h hfp h3
        exact (S.sc.newLocIff p).2 ⟨hp0, n', h3, hdb, h7, h6⟩
    · by_cases hfp : f = p
      · subst hfp; exact notmod f hfL hdb
      · have hfnew := notmod f hfL (fun h8 => hdb (c.closed f h8 p h hp0))
        obtain ⟨_, m, h9, _, _, h10⟩ := (S.sc.newLocIff f).1 hfnew
        have hd := r.wf.isDir_prefix h9 (env.loc ++ p) ((List.prefix_append_right_inj _).2 h)
          (fun e => hfp (List.append_cancel_left e).symm)
        rw [isDir_iff_false h3] at hd
        refine (S.sc.newLocIff p).2 ⟨hp0, n', h3, hdb, ?_, fun h11 => h10 (ownExcludes_below h11 h ⟨m, h9⟩)⟩
        rintro ⟨t, mm, rfl, _⟩
        cases hd
  · rcases h with h | ⟨h, _⟩
    · have := S.copy_leaf r hx hn h
      rw [← this, (S.rb.ctx.free x (Or.inl hx)).1] at h1; cases h1
    · by_cases hfp : p = cp x
      · rw [hfp, (S.rb.ctx.free x (Or.inl hx)).1] at h1; cases h1
      · -- a directory above the conflict name is above the file
        have h6 : p <+: x ∧ p ≠ x := by
          have h0 := (S.rb.ctx.cuser x (Or.inl hx)).1.1
          have he := List.dropLast_concat_getLast h0
          have h7 : p <+: (cp x).dropLast := by
            rw [← he] at h
            rcases List.prefix_concat_iff.1 h with h8 | h8
            · rw [he] at h8; exact absurd h8 hfp
            · exact h8
          rw [S.rb.ctx.parent x (Or.inl hx)] at h7
          refine ⟨h7.trans (List.dropLast_prefix _), ?_⟩
          rintro rfl
          have := h7.length_le
          have := List.length_pos_iff.2 hp0
          simp at *
          omega
        have hxL := (S.rb.mem x (Or.inl hx)).1
        have hxnew := notmod x hxL (fun h8 => hdb (c.closed x h8 p h6.1 hp0))
        obtain ⟨_, m, h9, _, _, h10⟩ := (S.sc.newLocIff x).1 hxnew
        have hd := r.wf.isDir_prefix h9 (env.loc ++ p) ((List.prefix_append_right_inj _).2 h6.1)
          (fun e => h6.2 (List.append_cancel_left e))
        rw [isDir_iff_false h3] at hd
        refine (S.sc.newLocIff p).2 ⟨hp0, n', h3, hdb, ?_, fun h11 => h10 (ownExcludes_below h11 h6.1 ⟨m, h9⟩)⟩
        rintro ⟨t, mm, rfl, _⟩
        cases hd

/-- What is in the remote directory after the update was there before, or has been uploaded, or is a directory above
something that has been uploaded. -/
theorem Steps.rem_cases (S : Steps env w del new mod w1 w2 upd w3 cp DL DR l w4) (r : SyncReady env w) {p : Path}
    {n : Node} (hn : w4.os.fs.get (env.rem ++ p) = some n) :
    (∃ m, w3.os.fs.get (env.rem ++ p) = some m) ∨ ∃ f ∈ upd.loc, (∃ m, w3.os.fs.get (env.loc ++ p) = some m) ∧
      ((f <+: p ∧ p ∈ l) ∨ (p <+: f ∧ w3.os.fs.isDir (env.loc ++ p) = true) ∨
        (f <+: p ∧ w3.os.fs.isDir (env.loc ++ p) = true)) := by
  have hs : ¬ env.loc <+: env.rem ++ p := by
    rintro ⟨t, e⟩
    exact r.apart.ne t p e
  rcases Option.eq_none_or_eq_some (w3.os.fs.get (env.rem ++ p)) with h1 | h1
  swap
  · exact Or.inl h1
  right
  by_cases hpl : p ∈ l
  · obtain ⟨hm, _, f, hf, hfp⟩ := S.ub.listed p hpl
    exact ⟨f, hf, hm, Or.inl ⟨hfp, hpl⟩⟩
  · have hne : ∀ q ∈ l, env.rem ++ p ≠ env.rem ++ q := by
      intro q hq e
      rw [List.append_cancel_left_eq] at e
      exact hpl (e ▸ hq)
    rcases S.ub.moved.new _ hs hne h1 with h2 | ⟨h2, q, hq, h3⟩
    · rw [hn] at h2; cases h2
    · rw [List.prefix_append_right_inj] at h3
      have hpq : p ≠ q := fun e => hpl (e ▸ hq)
      obtain ⟨⟨m, hm⟩, _, f, hf, hfq⟩ := S.ub.listed q hq
      have hd := S.rs.wf.isDir_prefix hm (env.loc ++ p) ((List.prefix_append_right_inj _).2 h3)
        (fun e => hpq (List.append_cancel_left e))
      obtain ⟨a, b, h4⟩ := FS.isDir_iff.1 hd
      refine ⟨f, hf, ⟨_, h4⟩, Or.inr ?_⟩
      rcases List.prefix_or_prefix_of_prefix h3 hfq with h5 | h5
      · exact Or.inl ⟨h5, hd⟩
      · exact Or.inr ⟨h5, hd⟩

/-- After the update everything in the remote directory is known. -/
theorem Steps.cover4 (S : Steps env w del new mod w1 w2 upd w3 cp DL DR l w4) (r : SyncReady env w)
    (c : Calm env w) {p : Path} {n : Node} (hu : UserPath p) (hn : w4.os.fs.get (env.rem ++ p) = some n) :
    p ∈ ADB.paths w4.db := by
  rcases S.rem_cases r hn with ⟨m, hm⟩ | ⟨f, hf, ⟨m, hm⟩, h⟩
  · rw [S.same4 c, S.ub.rdb, S.rb.rdb]
    rcases S.rb.eff.rem_some r.apart hm with ⟨h1, _⟩ | ⟨x, h1, h2, _⟩
    · refine Or.inl (Or.inl ((S.same2 c p).1 (S.db_known r hu ?_ (Or.inr ⟨m, h1⟩))))
      obtain ⟨A, B, k, _⟩ := S.cl.clearing
      have less : Less env w.os.fs w2.os.fs := (S.sc.start.less r).trans k.less
      obtain ⟨n', h3, _⟩ := less.2 p hu.plain m h1
      rw [S.sc.dbIff]
      by_cases hdb : p ∈ ADB.paths w.db
      · exact Or.inl hdb
      · exact Or.inr (Or.inr ((S.sc.newRemIff p).2 ⟨hu, ⟨n', h3⟩, hdb⟩))
    · exact Or.inl (Or.inr ⟨x, Or.inr h1, h2⟩)
  · refine S.uploaded_known r c hf hm ?_
    rcases h with h | h | h
    · exact Or.inl h.1
    · exact Or.inr ⟨h.1, hu.1⟩
    · exact Or.inl h.1

/-- A file that has got a conflict name has been uploaded, and so has everything that is listed. -/
theorem Steps.copied (S : Steps env w del new mod w1 w2 upd w3 cp DL DR l w4) {f p : Path} (hf : f ∈ upd.loc)
    (hfp : f <+: p) {n0 n : Node} (h0 : w4.os.fs.get (env.loc ++ p) = some n0) (hd : n0.isDir = false)
    (hn : w4.os.fs.get (env.rem ++ p) = some n) : n0 = n := by
  rw [S.ub.moved.loc_eq] at h0
  have hp0 : p ≠ [] := by
    rintro rfl
    exact ((S.rb.loc f).1 hf).1 (List.prefix_nil.1 hfp)
  have hl : p ∈ l := by
    rcases S.ub.all p ⟨⟨n0, h0⟩, hp0, f, hf, hfp⟩ with h | h
    · exact h
    · rw [isDir_iff_false h0, hd] at h; cases h
  have hc := S.ub.moved.copied p hl n0 h0
  unfold Copied at hc
  cases n0 with
  | dir a b => cases hd
  | file c a b => dsimp only at hc; rw [hn] at hc; cases hc; rfl
  | link c a => dsimp only at hc; rw [hn] at hc; cases hc; rfl

variable {sel rex : List Path} {w5 w6 w' : World}

/-- A local file at a known path that is not selected, not excluded and not the copy of a conflict is stale. -/
theorem Steps.stale_plain (S : Steps env w del new mod w1 w2 upd w3 cp DL DR l w4)
    (T : Selects env w w4 sel rex w5) {p : Path} {n0 n1 n2 : Node} (hp : p ∈ ADB.paths w4.db)
    (h0 : w4.os.fs.get (env.loc ++ p) = some n0) (hd : n0.isDir = false)
    (h1 : w1.os.fs.get (env.loc ++ p) = some n1) (h2 : w2.os.fs.get (env.loc ++ p) = some n2)
    (hex : ¬ OwnExcludes env w.os.fs p) (hnsel : ∀ f ∈ setOf sel, ¬ f <+: p) : StalePath env w5 (setOf sel) p := by
  obtain ⟨x, y, hw5⟩ := T.same
  have db5 : w5.db = w4.db := by rw [hw5]
  have m5 : w5.matches_ = w4.matches_ := by rw [hw5]
  obtain ⟨d, hfit⟩ := S.up.db.path hp
  have hu := hfit.user
  obtain ⟨A, B, k, _⟩ := S.cl.clearing
  -- the local scan shows it
  have seen : p ∈ Scan.keys w5.lmemo := by
    have key : ∀ {fs : FS} {n : Node}, fs.WF → fs.get (env.loc ++ p) = some n → p ∈ Scan.keys (fs.below env.loc) := by
      intro fs n wf h
      unfold Scan.keys
      rw [mem_keys_below wf]; exact ⟨hu.1, n, h⟩
    rcases T.lmemo with h | h
    · rw [h, S.ub.lmemo]
      rcases S.rb.lmemo with h | ⟨_, h⟩
      · rw [h, k.lmemo, S.sc.lmemo]; exact key S.sc.start.wf h1
      · rw [h]; exact key k.wf h2
    · rw [h]; exact key S.up.wf h0
  refine ⟨Or.inl ⟨?_, seen⟩, ?_, by rw [db5]; exact hp, ?_, ?_⟩
  · intro h
    rw [h] at seen; cases seen
  · rintro (⟨ex, h4, h5⟩ | ⟨h4, _⟩)
    · obtain ⟨ex', h6, h7⟩ := S.up.ex
      rw [m5, h6] at h4; cases h4
      exact hex ((h7 p).1 h5)
    · obtain ⟨ex', h6, h7⟩ := S.up.ex
      rw [m5, h6] at h4; cases h4
  · rintro ⟨f, hf, hfp⟩; exact hnsel f hf hfp
  · rintro ⟨q, hq, hpq, f, hf, hfq⟩
    rw [db5] at hq
    by_cases he : p = q
    · subst he; exact hnsel f hf hfq
    · obtain ⟨d', hq'⟩ := S.up.db.path hq
      have := hq'.aboveL p n0 hpq he h0
      rw [hd] at this; cases this

/-- A local file at a known path that is not selected is stale, or it is the same as the remote one. -/
theorem Steps.stale (S : Steps env w del new mod w1 w2 upd w3 cp DL DR l w4) (r : SyncReady env w)
    (T : Selects env w w4 sel rex w5) {p : Path} {n0 n : Node} (hp : p ∈ ADB.paths w4.db)
    (h0 : w4.os.fs.get (env.loc ++ p) = some n0) (hd : n0.isDir = false)
    (hn : w4.os.fs.get (env.rem ++ p) = some n) (hl : ¬ Listed w5.os.fs env.rem (some (setOf sel)) p) :
    n0 = n ∨ StalePath env w5 (setOf sel) p := by
  obtain ⟨x, y, hw5⟩ := T.same
  have fs5 : w5.os.fs = w4.os.fs := by rw [hw5]
  obtain ⟨d, hfit⟩ := S.up.db.path hp
  have hu := hfit.user
  have hnsel : ∀ f ∈ setOf sel, ¬ f <+: p := by
    intro f hf hfp
    exact hl ⟨⟨n, by rw [fs5]; exact hn⟩, hu.1, f, hf, hfp⟩
  have h3 := h0
  rw [S.ub.moved.loc_eq] at h3
  rcases S.rb.eff.loc_some r.apart h3 with ⟨h2, _⟩ | ⟨z, hz, rfl, _⟩
  swap
  · exact Or.inl (S.copied ((S.rb.loc _).2 ⟨hu.1, Or.inr ⟨z, hz, rfl⟩⟩) (List.prefix_refl _) h0 hd hn)
  obtain ⟨A, B, k, _⟩ := S.cl.clearing
  have less : Less env w1.os.fs w2.os.fs := k.less
  obtain ⟨n1, h1, _⟩ := less.1 p hu.plain n0 h2
  by_cases hex : OwnExcludes env w.os.fs p
  · rcases S.rem_cases r hn with ⟨m, hm⟩ | ⟨f, hf, _, h | h | h⟩
    · rcases S.rb.eff.rem_some r.apart hm with ⟨h4, _⟩ | ⟨z, hz, rfl, _⟩
      · exfalso
        obtain ⟨m1, h5, _⟩ := less.2 p hu.plain m h4
        have key : ∀ {fs : FS} {n : Node}, fs.WF → fs.get (env.rem ++ p) = some n →
            p ∈ Scan.keys (Scan.user (fs.below env.rem)) := by
          intro fs n wf h
          unfold Scan.keys
          exact List.mem_map.2 ⟨(p, n), (mem_user_below wf).2 ⟨h, hu⟩, rfl⟩
        refine hnsel p (mem_setOf.2 (T.rexSel p (T.rexAll p hex ?_ (key S.up.wf hn)))) (List.prefix_refl _)
        rw [S.ub.rmemo]
        rcases S.rb.rmemo with h | h
        · rw [h, k.rmemo, S.sc.rmemo]; exact key S.sc.start.wf h5
        · rw [h]; exact key k.wf h4
      · rw [(S.rb.ctx.free z (Or.inr hz)).1] at h2; cases h2
    · exact Or.inl (S.copied hf h.1 h0 hd hn)
    · rw [isDir_iff_false h3, hd] at h; cases h.2
    · rw [isDir_iff_false h3, hd] at h; cases h.2
  · exact Or.inr (S.stale_plain T hp h0 hd h1 h2 hex hnsel)

end

/-- What a successful sync leaves behind agrees. -/
theorem agree_of_done {env : Env} {w w' : World} (r : SyncReady env w) (c : Calm env w) (h : SyncDone env w w') :
    Agree env w' := by
  obtain ⟨del, new, mod, w1, w2, upd, w3, cp, DL, DR, l, w4, sel, rex, w5, w6, S, T, D⟩ := h
  obtain ⟨x, y, hw5⟩ := T.same
  have fs5 : w5.os.fs = w4.os.fs := by rw [hw5]
  have db5 : w5.db = w4.db := by rw [hw5]
  have rdb5 : w5.rdb = w4.rdb := by rw [hw5]
  have db6 : ∀ p, p ∈ ADB.paths w6.db ↔ p ∈ ADB.paths w4.db := by
    intro p
    obtain ⟨ps, h, _⟩ := D.db
    rw [h, paths_markLocal, db5]
  have rdb6 : w6.rdb = w4.rdb := D.rdb.trans rdb5
  have rem6 : ∀ p, w6.os.fs.get (env.rem ++ p) = w4.os.fs.get (env.rem ++ p) := by
    intro p
    rw [D.kept.out, fs5]
    rintro ⟨⟨t, e⟩, _⟩
    exact r.apart.ne t p e
  have trashL : ∀ p, ¬ env.trash <+: env.loc ++ p := fun p h => loc_not_trash r.apart h rfl
  have trashR : ∀ p, UserPath p → ¬ env.trash <+: env.rem ++ p := fun p hp h => plain_not_trash hp.plain h rfl
  have locE : ∀ p, w'.os.fs.get (env.loc ++ p) = w6.os.fs.get (env.loc ++ p) := by
    intro p
    refine D.ended.keeps.keeps _ ?_
    rintro (⟨q, _, t, e⟩ | h)
    · rw [List.append_assoc] at e
      exact r.apart.symm.ne _ _ e
    · exact trashL p h
  have remE : ∀ p, UserPath p → (∀ q, ToDrop env w6 rex q → ¬ q <+: p) →
      w'.os.fs.get (env.rem ++ p) = w4.os.fs.get (env.rem ++ p) := by
    intro p hu h
    rw [← rem6]
    refine D.ended.keeps.keeps _ ?_
    rintro (⟨q, h1, h2⟩ | h1)
    · exact h q h1 ((List.prefix_append_right_inj _).1 h2)
    · exact trashR p hu h1
  have remN : ∀ p n, UserPath p → w'.os.fs.get (env.rem ++ p) = some n →
      (∀ q, ToDrop env w6 rex q → ¬ q <+: p) ∧ w4.os.fs.get (env.rem ++ p) = some n := by
    intro p n hu hn
    have h1 : ∀ q, ToDrop env w6 rex q → ¬ q <+: p := by
      intro q hq hqp
      rw [D.ended.gone q hq _ ((List.prefix_append_right_inj _).2 hqp)] at hn; cases hn
    exact ⟨h1, (remE p hu h1).symm.trans hn⟩
  refine ⟨?_, ?_, ?_, ?_, D.ended.dbSaved, D.ended.rdbSaved, D.ended.lastSaved⟩
  · intro p
    rw [D.ended.db, D.ended.rdb, db6, rdb6, S.same4 c]
  · intro p hp
    rw [D.ended.rdb, rdb6] at hp
    obtain ⟨d, hd⟩ := S.up.rdb.path hp.1
    exact hd.user
  · intro p hu
    rw [D.ended.rdb, rdb6]
    constructor
    · rintro ⟨h1, h2⟩
      rw [remE p hu h2]
      exact T.found p ((S.same4 c p).2 h1) h1
    · rintro ⟨n, hn⟩
      obtain ⟨h1, h2⟩ := remN p n hu hn
      exact ⟨(S.same4 c p).1 (S.cover4 r c hu h2), h1⟩
  · intro p n hu hn
    obtain ⟨_, h2⟩ := remN p n hu hn
    have hdb := S.cover4 r c hu h2
    have hrdb := (S.same4 c p).1 hdb
    obtain ⟨e, he, hep⟩ := List.mem_map.1 hrdb
    have hfit := S.up.rdb e he
    rw [hep] at hfit
    have hed := hfit.rem n h2
    have he5 : e ∈ w5.rdb := by rw [rdb5]; exact he
    refine ⟨?_, ?_⟩
    · intro hdir
      have := D.done.dirs e he5 (hed.symm.trans hdir) (by
        intro k hk
        rw [hep, fs5] at hk
        rw [hfit.loc k hk, ← hed]; exact hdir)
      rw [FS.isDir_congr (locE p), ← hep]; exact this
    · intro hdir
      rw [locE]
      by_cases hl : Listed w5.os.fs env.rem (some (setOf sel)) p
      · exact Or.inl (D.done.copied p n hl (by rw [fs5]; exact h2) hdir)
      · rcases D.done.files e he5 (hed.symm.trans hdir) (by rw [hep]; exact hl) with ⟨k, h3, h4⟩ | ⟨m, h3⟩
        · rw [hep] at h3 h4
          have h3' := h3
          rw [fs5] at h3'
          have hkd : k.isDir = false := by rw [hfit.loc k h3', ← hed]; exact hdir
          rcases S.stale r T hdb h3' hkd h2 hl with h5 | h5
          · exact Or.inl (h5 ▸ h4)
          · cases k with
            | dir a b => cases hkd
            | file a b d => exact absurd h4 (D.done.freed p a b d h5 h3 hl)
            | link t m => exact Or.inr ⟨t, m, h4, S.up.tidy.llink p hu.plain t m n h3' h2⟩
        · rw [hep] at h3
          refine Or.inr ⟨_, m, h3, Or.inl ?_⟩
          exact FS.linkDest_abs (S.up.wf.goodPath h2) _

end Verif
