import Verif.SafeUpdate
import Verif.SyncResult
import Verif.SyncAgree
/-
In an orderly state a sync raises nothing.
-/
namespace Verif
open Prog OSM Call FSTools WM

section
variable {env : Env} {w w1 w2 w3 w4 : World} {del : DeletedPaths} {new mod upd : UpdatedPaths}
  {cp : Path → Path} {DL DR : Path → Prop} {l : List Path}

theorem user_keys {fs : FS} (wf : fs.WF) {env : Env} {p : Path} (h : p ∈ Scan.keys (Scan.user (fs.below env.rem))) :
    UserPath p ∧ ∃ n, fs.get (env.rem ++ p) = some n := by
  obtain ⟨⟨q, n⟩, h1, rfl⟩ := List.mem_map.1 h
  obtain ⟨h2, h3⟩ := (mem_user_below wf).1 h1
  exact ⟨h3, n, h2⟩

/-! ### What has been selected -/

section
variable {sel rex : List Path} {w5 : World}

theorem Selects.fs5 (hs : Selects env w w4 sel rex w5) : w5.os.fs = w4.os.fs := by
  obtain ⟨x, y, rfl⟩ := hs.same; rfl

theorem Selects.db5 (hs : Selects env w w4 sel rex w5) : w5.db = w4.db := by
  obtain ⟨x, y, rfl⟩ := hs.same; rfl

theorem Selects.rdb5 (hs : Selects env w w4 sel rex w5) : w5.rdb = w4.rdb := by
  obtain ⟨x, y, rfl⟩ := hs.same; rfl

theorem Selects.selFit (hs : Selects env w w4 sel rex w5) (r : SyncReady env w) (h : Uploaded env w w4) {p : Path}
    (hp : p ∈ sel) : ∃ d, Fits env w4.os.fs p d := by
  rcases hs.known p hp with h1 | h1
  · exact h.db.path h1
  · obtain ⟨h2, n, h3⟩ := ownExcludes_exists (hs.rexOwn p h1)
    exact ⟨_, h.keeps p _ (r.tidy.fits r.wf (r.local_user h2 h3) ⟨n, Or.inl h3, rfl⟩) (Or.inl ⟨n, h3⟩)⟩

theorem Selects.selUser (hs : Selects env w w4 sel rex w5) (r : SyncReady env w) (h : Uploaded env w w4) {p : Path}
    (hp : Listed w5.os.fs env.rem (some (setOf sel)) p) : UserPath p := by
  obtain ⟨_, _, f, hf, hfp⟩ := hp
  rw [mem_setOf] at hf
  obtain ⟨d, hd⟩ := hs.selFit r h hf
  exact PlainPath.extend hd.user hfp

theorem Selects.ready (hs : Selects env w w4 sel rex w5) (r : SyncReady env w)
    (hrd : w.os.fs.isDir env.rem = true) (h : Uploaded env w w4) : UpdReady env w5 (setOf sel) := by
  refine ⟨by rw [hs.fs5]; exact h.wf, r.apart, r.order, ?_, ?_, ?_, ?_, by rw [hs.rdb5]; exact h.nodup, ?_, ?_⟩
  · rw [hs.fs5, h.frame.isDir r.loc_fixed]; exact r.loc_dir
  · rw [hs.fs5, h.frame.isDir r.rem_fixed]; exact hrd
  · intro f hf
    rw [mem_setOf] at hf
    obtain ⟨d, hd⟩ := hs.selFit r h hf
    rw [hs.fs5]; exact hd.aboveR
  · intro p hp
    rw [hs.db5] at hp
    obtain ⟨d, hd⟩ := h.db.path hp
    exact hd.user.1
  · intro e he
    rw [hs.rdb5] at he
    have hf := h.rdb e he
    exact ⟨hf.user.1, hf.good, by rw [hs.fs5]; exact hf.rem⟩
  · intro p hp q hq
    have hu := hs.selUser r h hp
    obtain ⟨⟨n, hn⟩, _⟩ := hp
    rw [hs.fs5] at hn ⊢
    obtain ⟨n', hn'⟩ : ∃ n', w4.os.fs.get (env.rem ++ q) = some n' := by
      by_cases he : q = p
      · exact ⟨n, by rw [he]; exact hn⟩
      · obtain ⟨a, b, h4⟩ := FS.isDir_iff.1 (h.wf.isDir_prefix hn (env.rem ++ q)
          ((List.prefix_append_right_inj _).2 hq) (fun e => he (List.append_cancel_left e)))
        exact ⟨_, h4⟩
    exact h.tidy.clean_down (hu.plain.prefix hq) hn'

end

/-! ### The state before the local directory is updated -/

/-- A known path that was in the local directory still is. -/
theorem Steps.known_loc4 (S : Steps env w del new mod w1 w2 upd w3 cp DL DR l w4) (r : SyncReady env w)
    (o : Orderly env w) {p : Path} {n : Node} (hp : p ∈ ADB.paths w4.db) (h : w.os.fs.get (env.loc ++ p) = some n) :
    ∃ n', w4.os.fs.get (env.loc ++ p) = some n' := by
  have hu : UserPath p := (S.up.db.path hp).choose_spec.user
  rw [S.ub.moved.loc_eq, S.toSteps3.loc3 r o]
  obtain ⟨A, B, c, hA, hB, hA', hB', hAx⟩ := S.cl.clearing
  by_cases hd : ∀ d ∈ A, ¬ d <+: p
  · obtain ⟨n', h1, _⟩ := c.keptL p hu.plain hd n (by rw [S.sc.start.loc r]; exact h)
    exact ⟨n', h1⟩
  exfalso
  obtain ⟨d, hd⟩ := Classical.not_forall.1 hd
  obtain ⟨hdA, hdp⟩ := Classical.not_imp.1 hd
  have hdp := Classical.not_not.1 hdp
  have cpx : ∀ x, DL x ∨ DR x → p ≠ cp x := by
    intro x hx e
    rw [e, (S.toSteps3.cp_free r hx).1] at h
    cases h
  rcases (S.ub.db p).1 hp with h1 | h1 | h1
  · rcases S.rb.db_only p h1 with h2 | ⟨x, h2, h3⟩
    · exact ((c.db p).1 h2).2 d (List.mem_append_left _ hdA) hdp
    · exact cpx x h2 h3
  · exact o.edited p d (S.sc.changedL ((S.toSteps3.upd_loc r o).1 h1)) (hA d hdA).2 hdp
  · obtain ⟨_, ⟨h2, _⟩ | ⟨x, h2, h3⟩⟩ := (S.rb.rem p).1 h1
    · obtain ⟨⟨k, hk⟩, _⟩ := o.fetched p (S.sc.changedR h2)
      rw [gone_below r.wf (hA d hdA).2.2 hdp] at hk; cases hk
    · exact cpx x (Or.inr h2) h3

theorem Steps.updSafe (S : Steps env w del new mod w1 w2 upd w3 cp DL DR l w4) (r : SyncReady env w)
    (o : Orderly env w) {sel rex : List Path} {w5 : World} (hs : Selects env w w4 sel rex w5) :
    UpdSafe env w5 (setOf sel) := by
  have f5 := hs.fs5
  obtain ⟨A, B, c, hA, hB, hA', hB', hAx⟩ := S.cl.clearing
  have hlm2 : w2.lmemo = w1.os.fs.below env.loc := by rw [c.lmemo, S.sc.lmemo]
  have hlm : w5.lmemo = w1.os.fs.below env.loc ∨ w5.lmemo = w2.os.fs.below env.loc ∨
      w5.lmemo = w4.os.fs.below env.loc := by
    rcases hs.lmemo with h1 | h1
    · rw [h1, S.ub.lmemo]
      rcases S.rb.lmemo with h2 | ⟨_, h2⟩
      · rw [h2]; exact Or.inl hlm2
      · exact Or.inr (Or.inl h2)
    · exact Or.inr (Or.inr h1)
  have rowDir : ∀ q, UserPath q → w4.os.fs.isDir (env.rem ++ q) = true → ∃ d ∈ w4.rdb, d.path = q ∧ d.directory = true := by
    intro q hu hq
    obtain ⟨a, b, h1⟩ := FS.isDir_iff.1 hq
    have h2 := (S.same4 o.toCalm q).1 (S.cover4 r o.toCalm hu h1)
    obtain ⟨d, h3, h4⟩ := List.mem_map.1 h2
    refine ⟨d, h3, h4, ?_⟩
    rw [← (S.up.rdb d h3).rem _ (by rw [h4]; exact h1)]
    rfl
  have kinds : ∀ q, PlainPath q → w4.os.fs.isDir (env.rem ++ q) = true →
      w4.os.fs.get (env.loc ++ q) = none ∨ w4.os.fs.isDir (env.loc ++ q) = true := by
    intro q hq hd
    obtain ⟨a, b, h1⟩ := FS.isDir_iff.1 hd
    rcases Option.eq_none_or_eq_some (w4.os.fs.get (env.loc ++ q)) with h2 | ⟨k, h2⟩
    · exact Or.inl h2
    · right
      rw [isDir_iff_false h2, S.up.tidy.kind q hq _ _ h2 h1]; rfl
  refine ⟨hs.ready r S.sc.start.rem_dir' S.up, ?_, ?_, ?_, ?_, ?_, ?_, ?_, ?_⟩
  · obtain ⟨ex, hex, _⟩ := S.up.ex
    obtain ⟨x, y, rfl⟩ := hs.same
    exact ⟨ex, hex⟩
  · rintro p ⟨h1, _, h2, _⟩
    rw [f5]
    rw [hs.db5] at h2
    rcases h1 with ⟨_, h1⟩ | ⟨_, _, n, h1⟩
    · rcases hlm with h3 | h3 | h3
      · rw [h3] at h1
        obtain ⟨_, n, h4⟩ := (mem_keys_below S.sc.start.wf).1 h1
        rw [S.sc.start.loc r] at h4
        exact S.known_loc4 r o h2 h4
      · rw [h3] at h1
        obtain ⟨_, n, h4⟩ := (mem_keys_below c.wf).1 h1
        rw [S.ub.moved.loc_eq, S.toSteps3.loc3 r o]
        exact ⟨n, h4⟩
      · rw [h3] at h1
        exact ((mem_keys_below S.up.wf).1 h1).2
    · rw [f5] at h1; exact ⟨n, h1⟩
  · rcases hlm with h3 | h3 | h3 <;> rw [h3]
    · exact nodup_keys_below S.sc.start.wf _
    · exact nodup_keys_below c.wf _
    · exact nodup_keys_below S.up.wf _
  · intro f hf
    rw [mem_setOf] at hf
    rw [f5]
    rcases hs.known f hf with h1 | h1
    · exact S.exist4 r o h1
    have dr : ∀ n, w2.os.fs.get (env.rem ++ f) = some n → ∃ n', w4.os.fs.get (env.rem ++ f) = some n' := by
      intro n h
      by_cases hd : DR f
      · exact S.up4 r o ((S.toSteps3.upd_loc r o).2 (S.rb.mem f (Or.inr hd)).1)
      · exact S.rem24 r h hd
    rcases hs.rexSeen f h1 with h2 | h2
    · rw [S.ub.rmemo] at h2
      rcases S.rb.rmemo with h3 | h3
      · rw [h3, c.rmemo, S.sc.rmemo] at h2
        obtain ⟨hu, n, hn⟩ := user_keys S.sc.start.wf h2
        rw [S.sc.start.rem hu.plain] at hn
        obtain ⟨_, k, hk⟩ := ownExcludes_exists (hs.rexOwn f h1)
        obtain ⟨n', h4, _⟩ := S.cl.rem_kept S.sc hu hn (fun d k1 k2 => by
          rw [gone_below r.wf k1.2 k2] at hk; cases hk)
        exact dr n' h4
      · rw [h3] at h2
        obtain ⟨_, n, hn⟩ := user_keys c.wf h2
        exact dr n hn
    · exact (user_keys S.up.wf h2).2
  · intro p hp s hps t m h
    have hu := hs.selUser r S.up hp
    rw [f5] at h
    have := S.plain4 r o (PlainPath.extend hu hps) h
    cases this
  · intro p hp q hq hd
    have hu := hs.selUser r S.up hp
    rw [f5] at hd ⊢
    exact kinds q (hu.plain.prefix hq) hd
  · intro p t m hp h
    rw [f5] at h
    exact (S.leads4 r o hp h).2.1
  · intro e he q hq hne hq0
    rw [hs.rdb5] at he ⊢
    rw [f5]
    have hm : e.path ∈ ADB.paths w4.rdb := List.mem_map_of_mem he
    have hf := S.up.rdb e he
    obtain ⟨n, hn⟩ := S.exist4 r o ((S.same4 o.toCalm _).2 hm)
    have hd := S.up.wf.isDir_prefix hn (env.rem ++ q) ((List.prefix_append_right_inj _).2 hq)
      (fun e => hne (List.append_cancel_left e))
    have hpl : PlainPath q := hf.user.plain.prefix hq
    exact ⟨rowDir q ⟨hq0, hpl⟩ hd, kinds q hpl hd⟩

/-! ### The utility directory -/

theorem util_ne_loc (ap : Apart env.loc env.rem) (p q : Path) : env.util ++ q ≠ env.loc ++ p := by
  unfold Env.util
  rw [List.append_assoc]
  exact (ap.ne _ _).symm

theorem Steps.util4 (S : Steps env w del new mod w1 w2 upd w3 cp DL DR l w4) (r : SyncReady env w) (q : Path) :
    w4.os.fs.get (env.util ++ q) = w2.os.fs.get (env.util ++ q) := by
  have ne : ∀ p, UserPath p → env.util ++ q ≠ env.rem ++ p := by
    intro p hp e
    exact hp.not_prefix env (q := q) (by rw [e]; exact List.prefix_refl _)
  have hs : ¬ env.loc <+: env.util ++ q := by
    rintro ⟨t, e⟩
    exact util_ne_loc r.apart _ _ e.symm
  have hl : ∀ p ∈ l, UserPath p := by
    intro p hp
    obtain ⟨_, _, f, hf, hfp⟩ := S.ub.listed p hp
    exact PlainPath.extend (S.rs.updLoc f hf).1 hfp
  have h1 : w4.os.fs.get (env.util ++ q) = w3.os.fs.get (env.util ++ q) := by
    have hne : ∀ p ∈ l, env.util ++ q ≠ env.rem ++ p := fun p hp => ne p (hl p hp)
    rcases Option.eq_none_or_eq_some (w3.os.fs.get (env.util ++ q)) with h2 | ⟨n, h2⟩
    · rw [h2]
      rcases S.ub.moved.new _ hs hne h2 with h3 | ⟨_, p, hp, h3⟩
      · exact h3
      · exact absurd h3 ((hl p hp).apart env).2
    · rw [h2]; exact S.ub.moved.keeps _ hs hne n h2
  rw [h1]
  refine S.rb.eff.other _ (fun x _ => ⟨util_ne_loc r.apart _ _, util_ne_loc r.apart _ _⟩) ?_
  intro x hx
  exact ⟨ne _ (S.rb.ctx.user x (Or.inr hx)).1, ne _ (S.rb.ctx.cuser x (Or.inr hx)).1⟩

/-! ### The excluded files -/

theorem excludedLoop_some {fs : FS} {cs : List Path} (h : ∀ c ∈ cs, ∃ l, clientMatches env fs c = .ok l) :
    ∀ ps, ∃ l, excludedLoop env fs cs ps = .ok l := by
  have inner : ∀ (p : Path) (ds : List Path), (∀ c ∈ ds, c ∈ cs) → ∃ b, allExclude env fs p ds = .ok b := by
    intro p ds
    induction ds with
    | nil => intro _; exact ⟨true, rfl⟩
    | cons c ds ih =>
      intro hd
      obtain ⟨l, hl⟩ := h c (hd c (by simp))
      unfold allExclude
      rw [hl]
      dsimp only
      split
      · exact ih (fun x hx => hd x (by simp [hx]))
      · exact ⟨false, rfl⟩
  intro ps
  induction ps with
  | nil => exact ⟨[], rfl⟩
  | cons p ps ih =>
    obtain ⟨b, hb⟩ := inner p cs (fun _ h => h)
    obtain ⟨l, hl⟩ := ih
    unfold excludedLoop
    rw [hb]
    dsimp only
    rw [hl]
    exact ⟨_, rfl⟩

theorem checkExcluded_ok {fs : FS} (wf : fs.WF) (hu : UtilOk env fs) (ps : List Path)
    (hf : ∀ pats, Followable fs env.loc pats) : ∃ l, checkExcluded env ps fs = .ok l := by
  unfold checkExcluded
  cases hes : scandir fs env.exclDir with
  | error e => exact absurd (hes.symm.trans (scandir_ok wf hu.excl)) (by simp)
  | ok es =>
    dsimp only
    refine excludedLoop_some ?_ _
    intro c hc
    obtain ⟨e, he, rfl⟩ := List.mem_map.1 hc
    obtain ⟨_, _, hmem⟩ := mem_scandir wf hes
    obtain ⟨h1, n, h2⟩ := (hmem e).1 he
    obtain ⟨d, rfl⟩ := List.length_eq_one_iff.1 h1
    obtain ⟨k, m, b, rfl⟩ := hu.pats d n h2
    unfold clientMatches readPatterns
    rw [stat_file wf h2]
    exact ⟨_, globMatches_of wf (hf _)⟩

/-- Local links lead somewhere after the local directory has been updated. -/
theorem Steps.leads6 (S : Steps env w del new mod w1 w2 upd w3 cp DL DR l w4) (r : SyncReady env w)
    (o : Orderly env w) {sel rex : List Path} {w5 : World} {fs6 : FS} (hs : Selects env w w4 sel rex w5)
    (hk : UpdKept env w5 (setOf sel) fs6) (hd : UpdDone env w5 (setOf sel) fs6) {p : Path} {t : Str} {m : Int}
    (hp : p ≠ []) (h : fs6.get (env.loc ++ p) = some (.link t m)) :
    UserPath p ∧ t = absStr (env.rem ++ p) ∧ ∃ n, w4.os.fs.get (env.rem ++ p) = some n ∧ n.isLink = false := by
  have f5 := hs.fs5
  by_cases hm : p ∈ ADB.paths w4.rdb
  · have hdb := (S.same4 o.toCalm p).2 hm
    have hu : UserPath p := (S.up.db.path hdb).choose_spec.user
    obtain ⟨n, hn⟩ := S.exist4 r o hdb
    refine ⟨hu, ?_, n, hn, S.plain4 r o hu hn⟩
    obtain ⟨e, he, rfl⟩ := List.mem_map.1 hm
    have hfit := S.up.rdb e he
    have he5 : e ∈ w5.rdb := by rw [hs.rdb5]; exact he
    cases hed : e.directory with
    | true =>
      have := hd.dirs e he5 hed (fun k h1 => by rw [f5] at h1; rw [hfit.loc k h1, hed])
      rw [isDir_iff_false h] at this; cases this
    | false =>
      by_cases hL : Listed w5.os.fs env.rem (some (setOf sel)) e.path
      · have hnd : n.isDir = false := by rw [hfit.rem n hn, hed]
        have h1 := hd.copied e.path n hL (by rw [f5]; exact hn) hnd
        rw [h] at h1; cases h1
        have := S.plain4 r o hu hn
        cases this
      · rcases hd.files e he5 hed hL with ⟨k, h1, h2⟩ | ⟨m', h1⟩
        · rw [h] at h2; cases h2
          rw [f5] at h1
          exact (S.leads4 r o hp h1).2.1
        · rw [h] at h1; cases h1; rfl
  · exfalso
    have none4 : UserPath p → ∀ n, w4.os.fs.get (env.rem ++ p) ≠ some n :=
      fun hu n hn => hm ((S.same4 o.toCalm p).1 (S.cover4 r o.toCalm hu hn))
    rcases hd.made p _ h with ⟨n, h1⟩ | h1 | ⟨q, h1, h2⟩
    · rcases hk.loc p n h1 with h2 | ⟨h2, _⟩ | ⟨h2, _⟩
      · rw [h] at h2; cases h2
        rw [f5] at h1
        obtain ⟨hu, _, k, h3⟩ := S.leads4 r o hp h1
        exact none4 hu k h3
      · have := h2.2.2.1
        rw [hs.db5] at this
        exact hm ((S.same4 o.toCalm p).1 this)
      · obtain ⟨k, h3⟩ := h2.1
        rw [f5] at h3
        exact none4 (hs.selUser r S.up h2) k h3
    · rw [hs.rdb5] at h1; exact hm h1
    · have huq := hs.selUser r S.up h1
      have hu : UserPath p := ⟨hp, huq.plain.prefix h2⟩
      obtain ⟨k, h3⟩ := h1.1
      rw [f5] at h3
      by_cases he : p = q
      · exact none4 hu k (by rw [he]; exact h3)
      · obtain ⟨a, b, h4⟩ := FS.isDir_iff.1 (S.up.wf.isDir_prefix h3 (env.rem ++ p)
          ((List.prefix_append_right_inj _).2 h2) (fun e => he (List.append_cancel_left e)))
        exact none4 hu _ h4

/-- The update of the local directory and what follows it. -/
theorem safe_syncLocal (r : SyncReady env w) (o : Orderly env w)
    (S : Steps env w del new mod w1 w2 upd w3 cp DL DR l w4) (hU : UtilOk env w4.os.fs) {sel rex : List Path}
    {w5 : World} (hs : Selects env w w4 sel rex w5) :
    wp (syncLocal env sel rex) (fun _ w' => Tended env w'.os.fs) (fun e _ => e = .killed) w5 := by
  have f5 := hs.fs5
  unfold syncLocal
  rw [wp_bind]
  refine wp_mono ((safe_updateLocal (S.updSafe r o hs)).and (wp_updateLocal (hs.ready r S.sc.start.rem_dir' S.up))) ?_
    (fun _ _ h => h)
  rintro _ w6 ⟨hk, hd, _⟩
  have out : ∀ q, w6.os.fs.get (env.rem ++ q) = w4.os.fs.get (env.rem ++ q) := by
    intro q
    rw [← f5]
    refine hk.out _ ?_
    rintro ⟨⟨t, e⟩, _⟩
    exact r.apart.ne _ _ e
  have outU : ∀ q, w6.os.fs.get (env.util ++ q) = w4.os.fs.get (env.util ++ q) := by
    intro q; unfold Env.util; rw [List.append_assoc]; exact out _
  have hU6 : UtilOk env w6.os.fs := hU.congr (fun q _ => outU q)
  have rexUser : ∀ p ∈ rex, UserPath p := by
    intro p hp
    obtain ⟨d, hf⟩ := hs.selFit r S.up (hs.rexSel p hp)
    exact hf.user
  have follow : ∀ pats, Followable w6.os.fs env.loc pats := by
    intro pats p n hp hn _
    left
    refine stat_own hk.wf hn ?_ ?_
    · rintro t m rfl
      exact (S.leads6 r o hs hk hd hp hn).2.1
    · intro hl
      cases n with
      | link t m =>
        rw [out]
        exact (S.leads6 r o hs hk hd hp hn).2.2
      | file k m b => cases hl
      | dir m b => cases hl
  have s6 : Safe (rmExcludedFiles env rex) w6 := by
    unfold rmExcludedFiles
    refine Safe.bindSys (Q := fun a s' => s' = w6.os ∧ checkExcluded env rex w6.os.fs = .ok a) (E := fun _ _ => True)
      (safe_query (checkExcluded_ok hk.wf hU6 rex follow)) ?_ ?_
    · rw [wp_query]
      exact ⟨fun es h => ⟨rfl, h⟩, fun _ _ => trivial⟩
    rintro lx s6 ⟨rfl, hlx⟩
    have hin : ∀ p ∈ lx, p ∈ rex := fun p hp => ((checkExcluded_fs r.order hk.wf hlx).1 hp).1
    unfold Safe
    rw [wp_bind, wp_gets]
    unfold rmRemoteFiles
    refine safe_rmFiles r.order hk.wf ?_ ?_ ?_
    · have := out []
      rw [List.append_nil] at this
      rw [FS.isDir_congr this, S.up.frame.isDir r.rem_fixed]; exact S.sc.start.rem_dir'
    · intro p hp
      exact (rexUser p (hin p (List.mem_filter.1 hp).1)).1
    · intro p hp
      obtain ⟨d, hf⟩ := hs.selFit r S.up (hs.rexSel p (hin p (List.mem_filter.1 hp).1))
      intro q n hq hne hn
      show n.isDir = true
      have hn' : w6.os.fs.get (env.rem ++ q) = some n := hn
      rw [out] at hn'
      exact hf.aboveR q n hq hne hn'
  rw [wp_bind]
  refine wp_mono (s6.and (wp_rmExcludedFiles r.order (fun p hp => (rexUser p hp).1) hk.wf)) ?_ (fun _ _ h => h)
  rintro _ w7 ⟨h7, _⟩
  have wf7 := h7.wf hk.wf
  have hU7 : UtilOk env w7.os.fs := by
    refine hU6.congr (fun q _ => h7.keeps _ ?_)
    rintro ⟨p, h1, h2⟩
    exact (rexUser p h1.1).not_prefix env h2
  have loc7 : ∀ p, w7.os.fs.get (env.loc ++ p) = w6.os.fs.get (env.loc ++ p) := by
    intro p
    refine h7.keeps _ ?_
    rintro ⟨q, _, t, e⟩
    rw [List.append_assoc] at e
    exact r.apart.symm.ne _ _ e
  have own7 : ∀ p t m, p ≠ [] → w7.os.fs.get (env.loc ++ p) = some (.link t m) →
      t = absStr (env.rem ++ p) ∧ ∃ n, w7.os.fs.get (env.rem ++ p) = some n := by
    intro p t m hp h
    rw [loc7] at h
    obtain ⟨_, h1, n, h2, h3⟩ := S.leads6 r o hs hk hd hp h
    refine ⟨h1, n, ?_⟩
    rw [← out] at h2
    rw [h7.keeps]
    · exact h2
    rintro ⟨q, h4, h5⟩
    rw [List.prefix_append_right_inj] at h5
    rw [out] at h2
    have hL : Listed w5.os.fs env.rem (some (setOf sel)) p := by
      refine ⟨⟨n, by rw [f5]; exact h2⟩, hp, q, ?_, h5⟩
      rw [mem_setOf]; exact hs.rexSel q h4.1
    have hu := hs.selUser r S.up hL
    cases hnd : n.isDir with
    | false =>
      have := hd.copied p n hL (by rw [f5]; exact h2) hnd
      rw [h] at this; cases this
      cases h3
    | true =>
      have hm := (S.same4 o.toCalm p).1 (S.cover4 r o.toCalm hu h2)
      obtain ⟨e, he, rfl⟩ := List.mem_map.1 hm
      have hfit := S.up.rdb e he
      have hed : e.directory = true := by rw [← hfit.rem n h2]; exact hnd
      have := hd.dirs e (by rw [hs.rdb5]; exact he) hed (fun k h1 => by rw [f5] at h1; rw [hfit.loc k h1, hed])
      rw [isDir_iff_false h] at this; cases this
  have plain7 : ∀ p n, UserPath p → w7.os.fs.get (env.rem ++ p) = some n → n.isLink = false := by
    intro p n hu h
    have := h7.some h
    rw [out] at this
    exact S.plain4 r o hu this
  have save : ∀ w8, Tended env w8.os.fs → wp syncSave (fun _ w' => Tended env w'.os.fs) (fun e _ => e = .killed) w8 := by
    intro w8 h8
    unfold syncSave writeRemote writeProfile
    rw [wp_bind]
    apply wp_save rfl
    rw [wp_bind, wp_sys, wp_time, wp_bind, wp_modify, wp_bind]
    apply wp_save rfl
    apply wp_save rfl
    exact h8
  have locDir7 : w7.os.fs.isDir env.loc = true := by
    have := loc7 []
    rw [List.append_nil] at this
    rw [FS.isDir_congr this, FS.isDir_congr (hk.out env.loc (fun h => h.2 rfl)), f5, S.up.frame.isDir r.loc_fixed]
    exact r.loc_dir
  have noUtil7 : w7.os.fs.get (env.loc ++ [Env.utilName]) = none := by
    rw [loc7]
    rcases Option.eq_none_or_eq_some (w6.os.fs.get (env.loc ++ [Env.utilName])) with h | ⟨n, h⟩
    · exact h
    exfalso
    have nu : ¬ UserPath [Env.utilName] := by intro h; exact absurd h (by decide)
    rcases hd.made _ n h with ⟨n0, h5⟩ | h5 | ⟨q, h5, h6⟩
    · rw [f5, S.ub.moved.loc_eq, S.toSteps3.loc3 r o] at h5
      obtain ⟨A, B, k, _⟩ := S.cl.clearing
      obtain ⟨n1, h1⟩ := k.locOld _ n0 h5
      rw [S.sc.start.loc r, r.no_util] at h1; cases h1
    · rw [hs.rdb5] at h5
      exact nu (S.up.rdb.path h5).choose_spec.user
    · exact nu (PlainPath.user ((hs.selUser r S.up h5).plain.prefix h6) (by simp))
  have t7 : Tended env w7.os.fs := ⟨locDir7, noUtil7, hU7.excl, hU7.pats, hU7.trash, hU7.links, plain7, own7⟩
  rw [wp_bind]
  unfold syncCleanup
  cases hcl : env.cleanup with
  | none => dsimp only; rw [wp_pure]; exact save _ t7
  | some t =>
    dsimp only
    split
    · rw [wp_pure]; exact save _ t7
    · rw [wp_sys]
      refine wp_mono (wp_cleanupTrash env r.order t wf7) ?_ ?_
      · rintro _ s' ⟨h1, _⟩
        have kept : ∀ q, (∀ c, ¬ env.trash ++ [c] <+: q) → s'.fs.get q = w7.os.fs.get q := by
          intro q hq
          refine h1.keeps q ?_
          rintro ⟨c, n, _, _, _, h2⟩
          exact hq c h2
        have excl8 : ∀ q, s'.fs.get (env.exclDir ++ q) = w7.os.fs.get (env.exclDir ++ q) := by
          intro q
          refine kept _ (fun c h2 => ?_)
          have := (List.prefix_append _ _).trans h2
          unfold Env.exclDir Env.trash at this
          rw [List.append_assoc, List.prefix_append_right_inj] at this
          simp at this
        have loc8 : ∀ q, s'.fs.get (env.loc ++ q) = w7.os.fs.get (env.loc ++ q) := by
          intro q
          exact kept _ (fun c h2 => loc_not_trash r.apart ((List.prefix_append _ _).trans h2) rfl)
        have rem8 : ∀ q, PlainPath q → s'.fs.get (env.rem ++ q) = w7.os.fs.get (env.rem ++ q) := by
          intro q hq
          exact kept _ (fun c h2 => plain_not_trash hq ((List.prefix_append _ _).trans h2) rfl)
        refine save _ ⟨?_, ?_, ?_, ?_, ?_, ?_, ?_, ?_⟩
        · have := loc8 []
          rw [List.append_nil] at this
          show s'.fs.isDir env.loc = true
          rw [FS.isDir_congr this]; exact t7.loc_dir
        · exact (loc8 _).trans t7.no_util
        · have := excl8 []
          rw [List.append_nil] at this
          show s'.fs.isDir env.exclDir = true
          rw [FS.isDir_congr this]; exact t7.exclDir
        · intro c n hn
          exact t7.clients c n (by rw [← excl8]; exact hn)
        · have := kept env.trash (fun c h2 => by
            have := h2.length_le
            rw [List.length_append] at this
            simp at this)
          show s'.fs.isDir env.trash = true
          rw [FS.isDir_congr this]; exact t7.trash
        · intro hc c n hn
          exact t7.tidyTrash hc c n (h1.some hn)
        · intro p n hu hn
          exact t7.plain p n hu (h1.some hn)
        · intro p t m hp h
          have h' : w7.os.fs.get (env.loc ++ p) = some (.link t m) := by rw [← loc8]; exact h
          obtain ⟨h2, n, h3⟩ := t7.own p t m hp h'
          refine ⟨h2, n, ?_⟩
          show s'.fs.get (env.rem ++ p) = some n
          rw [loc7] at h'
          rw [rem8 p (S.leads6 r o hs hk hd hp h').1.plain]
          exact h3
      · rintro e s' ⟨_, h1 | h1 | ⟨c, t', m, h1⟩⟩
        · exact h1
        · rw [hU7.trash] at h1; cases h1
        · have := hU7.links (by rw [hcl]; simp) c _ h1
          cases this

/-- In an orderly state a sync raises nothing, and leaves the directories of the program in order. -/
theorem tended_sync (r : SyncReady env w) (o : Orderly env w) :
    wp (sync env) (fun _ w' => Tended env w'.os.fs) (fun e _ => e = .killed) w := by
  unfold sync
  refine Safe.bindW (safe_syncScan r o) (wp_and (wp_syncScan r) (SteadyW.syncScan env w)) ?_
  rintro ⟨del, new, mod⟩ w1 ⟨sc, hclk, htick⟩
  dsimp only at sc ⊢
  have tail : ∀ w2 upd w3 cp DL DR l w4, Steps env w del new mod w1 w2 upd w3 cp DL DR l w4 → UtilOk env w2.os.fs →
      wp (syncSelect env >>= fun x => syncLocal env x.1 x.2) (fun _ w' => Tended env w'.os.fs) (fun e _ => e = .killed) w4 := by
    intro w2 upd w3 cp DL DR l w4 S hU
    have hU4 : UtilOk env w4.os.fs := hU.congr (fun q _ => S.util4 r q)
    refine Safe.bindW (safe_syncSelect r o S) (Q := fun a w5 => Selects env w w4 a.1 a.2 w5) (E := fun _ _ => True)
      (wp_syncSelect S.up (fun _ _ h => h) (fun _ _ _ => trivial)) ?_
    intro a w5 hs
    exact safe_syncLocal r o S hU4 hs
  have step1 := safe_clear r o sc
  have step1' := wp_clear (k := (pure () : WM Unit)) (Q := fun _ w2 => Cleared env w del w1 w2) (E := fun _ _ => True)
    r sc (fun _ h => h) (fun _ _ _ _ => trivial)
  have both : wp (rmLocalFiles env del.loc >>= fun _ => rmRemoteFiles env del.rem >>= fun _ =>
      trashFiles env del.trash) (fun _ w2 => UtilOk env w2.os.fs ∧ Cleared env w del w1 w2) (fun e _ => e = .killed) w1 := by
    refine wp_mono (wp_and step1 (Q' := fun _ w2 => Cleared env w del w1 w2) (E' := fun _ _ => True) ?_)
      (fun _ _ h => h) (fun _ _ h => h.1)
    simp only [wp_bind, wp_pure] at step1' ⊢
    exact step1'
  have fin : wp (rmLocalFiles env del.loc >>= fun _ => rmRemoteFiles env del.rem >>= fun _ =>
      trashFiles env del.trash) (fun _ w2 => wp (handleConflicts env (mod.loc ++ new.loc) (mod.rem ++ new.rem) >>=
        fun upd => (inflateNew env upd.loc [] >>= fun _ => addRemote (setOf (upd.loc ++ upd.rem)) [] >>= fun _ =>
        addLocal (setOf (upd.loc ++ upd.rem)) [] true >>= fun _ => updateRemote env upd.loc) >>= fun _ =>
        (syncSelect env >>= fun x => syncLocal env x.1 x.2)) (fun _ w' => Tended env w'.os.fs) (fun e _ => e = .killed) w2)
      (fun e _ => e = .killed) w1 := by
    refine wp_mono both ?_ (fun _ _ h => h)
    rintro _ w2 ⟨hU, cl⟩
    refine Safe.bindW (safe_resolve r o sc hclk htick cl)
      (Q := fun upd w3 => ∃ cp DL DR, Steps3 env w del new mod w1 w2 upd w3 cp DL DR) (E := fun _ _ => True) ?_ ?_
    · have := wp_resolve (k := fun u => (pure u : WM UpdatedPaths))
        (Q := fun upd w3 => ∃ cp DL DR, Steps3 env w del new mod w1 w2 upd w3 cp DL DR)
        (E := fun _ _ => True) r sc hclk htick cl
        (fun upd w3 cp DL DR rs rb => ⟨cp, DL, DR, sc, hclk, htick, cl, rs, rb⟩) (fun _ _ _ _ _ => trivial)
      rw [wp_bind] at this
      exact this
    · rintro upd w3 ⟨cp, DL, DR, S3⟩
      refine Safe.bindW (safe_upload r o S3)
        (Q := fun _ w4 => ∃ l, Steps env w del new mod w1 w2 upd w3 cp DL DR l w4) (E := fun _ _ => True) ?_ ?_
      · have := wp_upload (k := (pure () : WM Unit))
          (Q := fun _ w4 => ∃ l, Steps env w del new mod w1 w2 upd w3 cp DL DR l w4)
          (E := fun _ _ => True) r sc.start.rem_dir' S3.rs (fun w4 l up ub => ⟨l, S3, up, ub⟩) (fun _ _ _ _ => trivial)
        rw [wp_bind] at this
        exact this
      · rintro _ w4 ⟨l, S⟩
        exact tail w2 upd w3 cp DL DR l w4 S hU
  unfold syncRemote
  simp only [wp_bind] at fin ⊢
  exact fin

theorem safe_sync (r : SyncReady env w) (o : Orderly env w) : Safe (sync env) w := Safe.of (tended_sync r o)

end

end Verif
