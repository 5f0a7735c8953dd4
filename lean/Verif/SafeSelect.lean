import Verif.SafeUpload
/-
In an orderly state a selection can be made.
-/
namespace Verif
open Prog OSM Call FSTools WM

section
variable {env : Env} {w w1 w2 w3 w4 : World} {del : DeletedPaths} {new mod upd : UpdatedPaths}
  {cp : Path → Path} {DL DR : Path → Prop} {l : List Path}

/-- What is in the remote directory stays there when it is updated. -/
theorem Steps.rem34 (S : Steps env w del new mod w1 w2 upd w3 cp DL DR l w4) (r : SyncReady env w) {p : Path} {n : Node}
    (h : w3.os.fs.get (env.rem ++ p) = some n) : ∃ n', w4.os.fs.get (env.rem ++ p) = some n' := by
  by_cases hp : p ∈ l
  · obtain ⟨k, hk⟩ := (S.ub.listed p hp).1
    exact (S.ub.moved.copied p hp k hk).isSome
  · refine ⟨n, S.ub.moved.keeps _ ?_ ?_ n h⟩
    · rintro ⟨t, e⟩
      exact r.apart.ne _ _ e
    · intro q hq e
      rw [List.append_cancel_left_eq] at e
      exact hp (e ▸ hq)

theorem Steps.rem24 (S : Steps env w del new mod w1 w2 upd w3 cp DL DR l w4) (r : SyncReady env w) {p : Path} {n : Node}
    (h : w2.os.fs.get (env.rem ++ p) = some n) (hd : ¬ DR p) : ∃ n', w4.os.fs.get (env.rem ++ p) = some n' :=
  S.rem34 r (S.toSteps3.rem23 r h hd)

theorem Steps.copy4 (S : Steps env w del new mod w1 w2 upd w3 cp DL DR l w4) (r : SyncReady env w) {x : Path}
    (h : DR x) : ∃ n', w4.os.fs.get (env.rem ++ cp x) = some n' := by
  obtain ⟨_, b, _, h1, _⟩ := S.rb.ctx.both x (Or.inr h)
  exact S.rem34 r ((S.rb.eff.rem x h).1.trans h1)

/-- What was to be uploaded is in the remote directory. -/
theorem Steps.up4 (S : Steps env w del new mod w1 w2 upd w3 cp DL DR l w4) (r : SyncReady env w) (o : Orderly env w)
    {f : Path} (hf : f ∈ upd.loc) : ∃ n, w4.os.fs.get (env.rem ++ f) = some n := by
  have hch := S.sc.changedL ((S.toSteps3.upd_loc r o).1 hf)
  obtain ⟨n3, h3⟩ := S.ub.found f hf
  have inl : ∀ q, q ∈ l → ∃ n, w4.os.fs.get (env.rem ++ q) = some n := by
    intro q hq
    obtain ⟨k, hk⟩ := (S.ub.listed q hq).1
    exact (S.ub.moved.copied q hq k hk).isSome
  rcases S.ub.all f ⟨⟨n3, h3⟩, hch.1, f, hf, List.prefix_refl _⟩ with h | h
  · exact inl f h
  obtain ⟨hf0, n, hn, _, hkind⟩ := id hch
  have hu := r.local_user hf0 hn
  have hd3 : n3.isDir = true := by rw [← isDir_iff_false h3]; exact h
  have h2 := h3
  rw [S.toSteps3.loc3 r o] at h2
  obtain ⟨_, n', h4, h5, _⟩ := S.cl.loc_old r S.sc hf0 h2
  rw [hn] at h4; cases h4
  have hnd : n.isDir = true := by rw [h5]; exact hd3
  have hnew : f ∉ ADB.paths w.db := by
    rcases hkind with h6 | h6
    · exact h6.1
    · rw [hnd] at h6; exact absurd h6.2.1 (by simp)
  rcases o.filled f hch (by rw [isDir_iff_false hn]; exact hnd) with ⟨k, hk⟩ | ⟨q, k, hq, hk, hkd⟩
  · obtain ⟨k', h6, _⟩ := S.cl.rem_kept S.sc hu hk (fun d h1 h2 => by
      rw [gone_below r.wf h1.2 h2] at hn; cases hn)
    refine S.rem24 r h6 ?_
    intro hdr
    obtain ⟨a, b, k1, _, k3, _⟩ := S.rb.ctx.both f (Or.inr hdr)
    rw [h2] at k1; cases k1
    rw [hd3] at k3; cases k3
  · obtain ⟨k', h6, h7, _⟩ := S.toSteps3.found3 r o hch hq hk (fun d h1 h2 _ _ => hnew (o.closed d h1 f h2 hf0))
    have hq0 : q ≠ [] := by rintro rfl; exact hf0 (List.prefix_nil.1 hq)
    have hql : q ∈ l := by
      rcases S.ub.all q ⟨⟨k', h6⟩, hq0, f, hf, hq⟩ with h8 | h8
      · exact h8
      · rw [isDir_iff_false h6, h7, hkd] at h8; cases h8
    obtain ⟨m, hm⟩ := inl q hql
    by_cases he : f = q
    · exact ⟨m, by rw [he]; exact hm⟩
    · obtain ⟨a, b, h9⟩ := FS.isDir_iff.1 (S.up.wf.isDir_prefix hm (env.rem ++ f) ((List.prefix_append_right_inj _).2 hq)
        (fun e => he (List.append_cancel_left e)))
      exact ⟨_, h9⟩

/-- Everything that is known is in the remote directory. -/
theorem Steps.exist4 (S : Steps env w del new mod w1 w2 upd w3 cp DL DR l w4) (r : SyncReady env w) (o : Orderly env w)
    {p : Path} (hp : p ∈ ADB.paths w4.db) : ∃ n, w4.os.fs.get (env.rem ++ p) = some n := by
  have dr : ∀ n, w2.os.fs.get (env.rem ++ p) = some n → ∃ n', w4.os.fs.get (env.rem ++ p) = some n' := by
    intro n h
    by_cases hd : DR p
    · exact S.up4 r o ((S.toSteps3.upd_loc r o).2 (S.rb.mem p (Or.inr hd)).1)
    · exact S.rem24 r h hd
  rcases (S.ub.db p).1 hp with h | h | h
  · rcases S.rb.db_only p h with h1 | ⟨x, h1 | h1, rfl⟩
    · obtain ⟨A, B, c, hA, hB, hA', hB', _⟩ := S.cl.clearing
      obtain ⟨h2, h3⟩ := (c.db p).1 h1
      have fromW : ∀ n, w.os.fs.get (env.rem ++ p) = some n → UserPath p →
          ∃ n', w4.os.fs.get (env.rem ++ p) = some n' := by
        intro n hn hu
        obtain ⟨n', h4, _⟩ := c.keptR p hu.plain (fun d hd => h3 d (List.mem_append_right _ hd)) n
          (by rw [S.sc.start.rem hu.plain]; exact hn)
        exact dr n' h4
      have hu : UserPath p := (c.fit_db.path h1).choose_spec.user
      rcases (S.sc.dbIff p).1 h2 with h4 | h4 | h4
      · rcases Option.eq_none_or_eq_some (w.os.fs.get (env.rem ++ p)) with h5 | ⟨n, h5⟩
        · exfalso
          obtain ⟨d, h6, h7⟩ := S.sc.delLocAll p ⟨h4, h5⟩
          exact h3 d (List.mem_append_left _ (hA' d h6 (o.kept d (S.sc.delLoc d h6).2.2))) h7
        · exact fromW n h5 hu
      · exact S.up4 r o ((S.toSteps3.upd_loc r o).2 (List.mem_append_right _ h4))
      · obtain ⟨_, ⟨n, hn⟩, _⟩ := (S.sc.newRemIff p).1 h4
        exact fromW n hn hu
    · exact absurd h1 (S.toSteps3.no_dl r o x)
    · exact S.copy4 r h1
  · exact S.up4 r o h
  · obtain ⟨_, ⟨h1, h2⟩ | ⟨x, h1, rfl⟩⟩ := (S.rb.rem p).1 h
    · have hch := S.sc.changedR h1
      obtain ⟨⟨n, h3⟩, h4⟩ := o.fetched p hch
      obtain ⟨d, hfit⟩ := S.up.db.path hp
      obtain ⟨n', h5, _⟩ := S.cl.rem_kept S.sc hfit.user h3 h4
      exact S.rem24 r h5 h2
    · exact S.copy4 r h1

/-- The remote directory has no links after it has been updated. -/
theorem Steps.plain4 (S : Steps env w del new mod w1 w2 upd w3 cp DL DR l w4) (r : SyncReady env w) (o : Orderly env w)
    {p : Path} {n : Node} (hu : UserPath p) (h : w4.os.fs.get (env.rem ++ p) = some n) : n.isLink = false := by
  have hs : ¬ env.loc <+: env.rem ++ p := by rintro ⟨t, e⟩; exact r.apart.ne _ _ e
  by_cases hp : p ∈ l
  · have hl := S.ub.listed p hp
    obtain ⟨k, hk⟩ := hl.1
    have hc := S.ub.moved.copied p hp k hk
    cases k with
    | link t m => exact absurd hk (S.toSteps3.no_link r o hl t m)
    | file c a b =>
      have : w4.os.fs.get (env.rem ++ p) = some (.file c a b) := hc
      rw [h] at this; cases this; rfl
    | dir a b =>
      obtain ⟨a', b', h1⟩ := FS.isDir_iff.1 (hc : w4.os.fs.isDir (env.rem ++ p) = true)
      rw [h] at h1; cases h1; rfl
  · have hne : ∀ q ∈ l, env.rem ++ p ≠ env.rem ++ q := by
      intro q hq e
      rw [List.append_cancel_left_eq] at e
      exact hp (e ▸ hq)
    rcases Option.eq_none_or_eq_some (w3.os.fs.get (env.rem ++ p)) with h1 | ⟨m, h1⟩
    · rcases S.ub.moved.new _ hs hne h1 with h2 | ⟨h2, _⟩
      · rw [h] at h2; cases h2
      · obtain ⟨a', b', h3⟩ := FS.isDir_iff.1 h2
        rw [h] at h3; cases h3; rfl
    · have := S.ub.moved.keeps _ hs hne m h1
      rw [h] at this; cases this
      exact S.toSteps3.plain3 r o hu h1

/-- Local links lead somewhere after the remote directory has been updated. -/
theorem Steps.leads4 (S : Steps env w del new mod w1 w2 upd w3 cp DL DR l w4) (r : SyncReady env w) (o : Orderly env w)
    {p : Path} {t : Str} {m : Int} (hp : p ≠ []) (h : w4.os.fs.get (env.loc ++ p) = some (.link t m)) :
    UserPath p ∧ t = absStr (env.rem ++ p) ∧ ∃ n, w4.os.fs.get (env.rem ++ p) = some n := by
  rw [S.ub.moved.loc_eq] at h
  obtain ⟨hu, h1, h2⟩ := S.toSteps3.own3 r o hp h
  refine ⟨hu, h2, ?_⟩
  rcases Option.eq_none_or_eq_some (w.os.fs.get (env.rem ++ p)) with h3 | ⟨n, h3⟩
  · exfalso
    rcases o.leads p t m hp h1 with ⟨n, h4⟩ | ⟨h4, _⟩
    · rw [h3] at h4; cases h4
    · obtain ⟨A, B, c, hA, hB, hA', hB', _⟩ := S.cl.clearing
      obtain ⟨d, h6, h7⟩ := S.sc.delLocAll p ⟨h4, h3⟩
      have := c.goneL d (hA' d h6 (o.kept d (S.sc.delLoc d h6).2.2)) p h7
      rw [S.toSteps3.loc3 r o, this] at h
      cases h
  · obtain ⟨n', h4, _⟩ := S.cl.rem_kept S.sc hu h3 (fun d k1 k2 => by
      rw [gone_below r.wf k1.2 k2] at h1; cases h1)
    refine S.rem24 r h4 ?_
    intro hd
    obtain ⟨_, k, h5, h6, _⟩ := S.sc.changedL (S.rb.mem p (Or.inr hd)).1
    rw [h1] at h5; cases h5
    exact h6 (by rw [h2]; exact unsafeLink_abs _ _ _ _)

/-- What the local scan shows at the end has been there at the start, or it is a new scan. -/
theorem Steps.seen4 (S : Steps env w del new mod w1 w2 upd w3 cp DL DR l w4) (r : SyncReady env w) {p : Path} {n : Node}
    (hp : p ≠ []) (h : w.os.fs.get (env.loc ++ p) = some n) : w4.lmemo = w1.os.fs.below env.loc := by
  obtain ⟨A, B, c, _⟩ := S.cl.clearing
  have h1 : w2.lmemo = w1.os.fs.below env.loc := by rw [c.lmemo, S.sc.lmemo]
  rw [S.ub.lmemo]
  rcases S.rb.lmemo with h2 | ⟨h2, _⟩
  · rw [h2, h1]
  · exfalso
    have : p ∈ (w1.os.fs.below env.loc).map Prod.fst :=
      (mem_keys_below S.sc.start.wf).2 ⟨hp, n, by rw [S.sc.start.loc r]; exact h⟩
    rw [← h1, h2] at this
    cases this

end

/-! ### The selection -/

theorem mapM_some_of {α β : Type} {f : α → Option β} {l : List α} (h : ∀ a ∈ l, ∃ b, f a = some b) :
    ∃ r, l.mapM f = some r := by
  induction l with
  | nil => exact ⟨[], rfl⟩
  | cons x l ih =>
    obtain ⟨b, hb⟩ := h x (by simp)
    obtain ⟨r, hr⟩ := ih (fun a ha => h a (by simp [ha]))
    exact ⟨b :: r, mapM_cons_some.2 ⟨b, r, hb, hr, rfl⟩⟩

theorem excludedSize_some {l : Scan} {ex : List Path} (h : ∀ p ∈ ex, ∃ n, l.find p = some n) :
    ∃ k, excludedSize l ex = some k := by
  unfold excludedSize
  obtain ⟨r, hr⟩ := mapM_some_of (f := fun p => (l.find p).map (fun n => n.blocks * 512)) (l := ex)
    (fun p hp => by obtain ⟨n, hn⟩ := h p hp; exact ⟨_, by rw [hn]; rfl⟩)
  rw [hr]
  exact ⟨_, rfl⟩

theorem prioritizeDirs_some {e : SelEnv} {limit : Int} (h : ∀ x ∈ e.rem, ∃ s, e.stat x.path = some s) :
    ∃ d, prioritizeDirs e limit = some d := by
  have size : ∀ p, ∃ k, dirSize e p = some k := by
    intro p
    unfold dirSize
    obtain ⟨r, hr⟩ := mapM_some_of (f := fun x : Entry Int => (e.stat x.path).map (fun s => s.2 * 512))
      (l := ADB.rows e.rem p) (fun x hx => by
        obtain ⟨s, hs⟩ := h x (List.mem_filter.1 hx).1
        exact ⟨_, by rw [hs]; rfl⟩)
    rw [hr]
    exact ⟨_, rfl⟩
  unfold prioritizeDirs
  have : ∃ cs, dirCands e = some cs := by
    unfold dirCands
    refine mapM_some_of (fun x _ => ?_)
    obtain ⟨k, hk⟩ := size x.path
    rw [hk]
    exact ⟨_, rfl⟩
  obtain ⟨cs, hcs⟩ := this
  rw [hcs]
  exact ⟨_, rfl⟩

theorem prioritizeFiles_some {e : SelEnv} {limit : Int} {x : List Path}
    (h : ∀ y ∈ e.loc, y.directory = false → ∃ b, e.stat y.path = some (false, b)) :
    ∃ d, prioritizeFiles e limit x = some d := by
  unfold prioritizeFiles
  have : ∃ cs, fileCands e x = some cs := by
    unfold fileCands
    refine mapM_some_of (fun y hy => ?_)
    obtain ⟨h1, h2⟩ := List.mem_filter.1 hy
    obtain ⟨b, hb⟩ := h y h1 (by
      rw [Bool.and_eq_true] at h2
      simpa using h2.1)
    rw [hb]
    exact ⟨_, rfl⟩
  obtain ⟨cs, hcs⟩ := this
  rw [hcs]
  exact ⟨_, rfl⟩

section
variable {env : Env} {w w1 w2 w3 w4 : World} {del : DeletedPaths} {new mod upd : UpdatedPaths}
  {cp : Path → Path} {DL DR : Path → Prop} {l : List Path}

theorem safe_syncSelect (r : SyncReady env w) (o : Orderly env w)
    (S : Steps env w del new mod w1 w2 upd w3 cp DL DR l w4) : Safe (syncSelect env) w4 := by
  obtain ⟨ex, hex, hexm⟩ := S.up.ex
  have hld : w4.os.fs.isDir env.loc = true := by rw [S.up.frame.isDir r.loc_fixed]; exact r.loc_dir
  have hrd : w4.os.fs.isDir env.rem = true := by
    rw [S.up.frame.isDir r.rem_fixed]; exact S.sc.start.rem_dir'
  have exl : ∀ p ∈ ex, w4.lmemo = w1.os.fs.below env.loc ∧ ∃ n, Scan.find (w1.os.fs.below env.loc) p = some n := by
    intro p hp
    obtain ⟨h1, n, h2⟩ := ownExcludes_exists ((hexm p).1 hp)
    refine ⟨S.seen4 r h1 h2, n, ?_⟩
    rw [find_below S.sc.start.wf h1, S.sc.start.loc r]
    exact h2
  unfold syncSelect
  refine Safe.matches hex ?_
  have stat : ∀ p ∈ ADB.paths w4.db, ∃ n, Scan.find (Scan.user (w4.os.fs.below env.rem)) p = some n ∧
      w4.os.fs.get (env.rem ++ p) = some n := by
    intro p hp
    obtain ⟨n, hn⟩ := S.exist4 r o hp
    obtain ⟨d, hd⟩ := S.up.db.path hp
    exact ⟨n, by rw [find_user hd.user, find_below S.up.wf hd.user.1]; exact hn, hn⟩
  have step2 : ∀ (rr : Scan) (wa : World), wa.os.fs = w4.os.fs → wa.db = w4.db → wa.rdb = w4.rdb → wa.lmemo = w4.lmemo →
      Safe (scanLocal env >>= fun l => get? .key (excludedSize l ex) >>= fun exSize => rescanRemote env >>= fun r' =>
        gets World.db >>= fun db => gets World.rdb >>= fun rdb =>
        get? .key (prioritizeDirs (selEnv env db rdb r') (env.storageLimit - exSize)) >>= fun dirs =>
        get? .key (prioritizeFiles (selEnv env db rdb r') dirs.1 dirs.2) >>= fun files =>
        pure (dirs.2 ++ files.2 ++ ex.filter (fun p => decide (p ∈ rr.keys)),
          ex.filter (fun p => decide (p ∈ rr.keys)))) wa := by
    intro rr wa h1 h2 h3 h4
    have step3 : ∀ (sl : Scan) (wb : World), wb.os.fs = w4.os.fs → wb.db = w4.db → wb.rdb = w4.rdb →
        (∀ p ∈ ex, ∃ n, sl.find p = some n) →
        Safe (get? .key (excludedSize sl ex) >>= fun exSize => rescanRemote env >>= fun r' =>
          gets World.db >>= fun db => gets World.rdb >>= fun rdb =>
          get? .key (prioritizeDirs (selEnv env db rdb r') (env.storageLimit - exSize)) >>= fun dirs =>
          get? .key (prioritizeFiles (selEnv env db rdb r') dirs.1 dirs.2) >>= fun files =>
          pure (dirs.2 ++ files.2 ++ ex.filter (fun p => decide (p ∈ rr.keys)),
            ex.filter (fun p => decide (p ∈ rr.keys)))) wb := by
      intro sl wb k1 k2 k3 k4
      refine Safe.bind (safe_get? (excludedSize_some k4)) (Q := fun _ w' => w' = wb) (E := fun _ _ => True)
        (by rw [wp_get?]; exact ⟨fun _ _ => rfl, fun _ => trivial⟩) ?_
      rintro exSize _ rfl
      refine Safe.rescanRemote (by rw [k1]; exact S.up.wf) (by rw [k1]; exact hrd) ?_
      rw [k1]
      unfold Safe
      rw [wp_bind, wp_gets, wp_bind, wp_gets]
      dsimp only
      rw [k2, k3]
      refine Safe.bind (safe_get? (prioritizeDirs_some ?_)) (Q := fun _ _ => True) (E := fun _ _ => True)
        (wp_anyway _ _) ?_
      · intro x hx
        obtain ⟨n, hn, _⟩ := stat x.path ((S.same4 o.toCalm _).2 (List.mem_map_of_mem hx))
        refine ⟨(n.isDir, n.blocks), ?_⟩
        show (Scan.find (Scan.user (w4.os.fs.below env.rem)) x.path).map (fun n => (n.isDir, n.blocks)) = _
        rw [hn]; rfl
      intro dirs _ _
      refine Safe.bind (safe_get? (prioritizeFiles_some ?_)) (Q := fun _ _ => True) (E := fun _ _ => True)
        (wp_anyway _ _) (fun _ _ _ => Safe.pure _)
      · intro y hy hd
        obtain ⟨n, hn, hg⟩ := stat y.path (List.mem_map_of_mem hy)
        refine ⟨n.blocks, ?_⟩
        show (Scan.find (Scan.user (w4.os.fs.below env.rem)) y.path).map (fun n => (n.isDir, n.blocks)) = _
        rw [hn, ← hd, ← (S.up.db y hy).rem n hg]; rfl
    refine Safe.scanLocal (by rw [h1]; exact S.up.wf) (by rw [h1]; exact hld) ?_ ?_
    · intro _
      refine step3 _ _ h1 h2 h3 ?_
      intro p hp
      obtain ⟨k1, k2⟩ := exl p hp
      rw [h4, k1]; exact k2
    · intro h0
      refine step3 _ _ h1 h2 h3 ?_
      intro p hp
      obtain ⟨k1, n, k2⟩ := exl p hp
      rw [← k1, ← h4, h0] at k2
      cases k2
  refine Safe.scanRemote S.up.wf hrd (fun _ => step2 _ _ rfl rfl rfl rfl) (fun _ => step2 _ _ rfl rfl rfl rfl)

end

end Verif
