import Verif.SafeClear
import Verif.Props.C44_Init
/-
In an orderly state the conflicts can be handled and the remote directory can be updated.
-/
namespace Verif
open Prog OSM Call FSTools WM

section
variable {env : Env} {w w1 w2 w3 w4 : World} {del : DeletedPaths} {new mod upd : UpdatedPaths}
  {cp : Path → Path} {DL DR : Path → Prop} {l : List Path}

theorem Scanned.changedR (sc : Scanned env w del new mod w1) {f : Path} (h : f ∈ mod.rem ++ new.rem) :
    ChangedRemotely env w f := by
  rcases List.mem_append.1 h with h | h
  · rcases (sc.modRemIff f).1 h with ⟨h1, n, h2, h3, h4, _⟩ | h1
    · exact Or.inl ⟨h1, n, h2, Or.inr ⟨h3, h4⟩⟩
    · exact Or.inr h1
  · obtain ⟨h1, ⟨n, h2⟩, h3⟩ := (sc.newRemIff f).1 h
    exact Or.inl ⟨h1, n, h2, Or.inl h3⟩

theorem Scanned.changedL (sc : Scanned env w del new mod w1) {f : Path} (h : f ∈ mod.loc ++ new.loc) :
    ChangedLocally env w f := sc.loc f (List.mem_append.1 h)

theorem safe_resolve (r : SyncReady env w) (o : Orderly env w) (sc : Scanned env w del new mod w1)
    (hclk : w1.os.clk = w.os.clk) (htick : w.os.tick ≤ w1.os.tick) (cl : Cleared env w del w1 w2) :
    Safe (handleConflicts env (mod.loc ++ new.loc) (mod.rem ++ new.rem)) w2 := by
  have h := wp_resolve (k := fun u => (pure u : WM UpdatedPaths)) (Q := fun _ _ => True)
    (E := fun e _ => e = .killed) r sc hclk htick cl (fun _ _ _ _ _ _ _ => trivial) ?_
  · rw [wp_bind] at h
    exact wp_mono h (fun _ _ _ => trivial) (fun _ _ h => h)
  · intro e w' _ _ h
    refine h (fun p _ hp => (o.fetched p (sc.changedR hp)).1) ?_ ?_
    · rw [cl.frame.isDir r.loc_fixed]; exact r.loc_dir
    · rw [cl.frame.isDir r.rem_fixed]; exact sc.start.rem_dir'

/-- What is in the local directory after the deletions was there before. -/
theorem Cleared.loc_old (cl : Cleared env w del w1 w2) (r : SyncReady env w) (sc : Scanned env w del new mod w1)
    {p : Path} {n : Node} (hp : p ≠ []) (h : w2.os.fs.get (env.loc ++ p) = some n) :
    UserPath p ∧ ∃ n', w.os.fs.get (env.loc ++ p) = some n' ∧ n'.isDir = n.isDir ∧ (n.isDir = false → n' = n) := by
  obtain ⟨A, B, c, _⟩ := cl.clearing
  obtain ⟨k, hk⟩ := c.locOld p n h
  rw [sc.start.loc r] at hk
  have hu := r.local_user hp hk
  exact ⟨hu, ((sc.start.less r).trans c.less).1 p hu.plain n h⟩

theorem Cleared.rem_old (cl : Cleared env w del w1 w2) (r : SyncReady env w) (sc : Scanned env w del new mod w1)
    {p : Path} {n : Node} (hp : UserPath p) (h : w2.os.fs.get (env.rem ++ p) = some n) :
    ∃ n', w.os.fs.get (env.rem ++ p) = some n' ∧ n'.isDir = n.isDir ∧ (n.isDir = false → n' = n) := by
  obtain ⟨A, B, c, _⟩ := cl.clearing
  exact ((sc.start.less r).trans c.less).2 p hp.plain n h

/-- What is in the local directory and not below something that was deleted remotely is kept. -/
theorem Cleared.loc_kept (cl : Cleared env w del w1 w2) (r : SyncReady env w) (sc : Scanned env w del new mod w1)
    {p : Path} {n : Node} (hp : UserPath p) (h : w.os.fs.get (env.loc ++ p) = some n)
    (hd : ∀ d, GoneRemotely env w d → ¬ OwnExcludes env w.os.fs d → ¬ d <+: p) :
    ∃ n', w2.os.fs.get (env.loc ++ p) = some n' ∧ n'.isDir = n.isDir ∧ (n.isDir = false → n' = n) := by
  obtain ⟨A, B, c, hA, _, _, _, hA'⟩ := cl.clearing
  exact c.keptL p hp.plain (fun d h1 => hd d (hA d h1).2 (hA' d h1)) n (by rw [sc.start.loc r]; exact h)

theorem Cleared.rem_kept (cl : Cleared env w del w1 w2) (sc : Scanned env w del new mod w1)
    {p : Path} {n : Node} (hp : UserPath p) (h : w.os.fs.get (env.rem ++ p) = some n)
    (hd : ∀ d, GoneLocally env w d → ¬ d <+: p) :
    ∃ n', w2.os.fs.get (env.rem ++ p) = some n' ∧ n'.isDir = n.isDir ∧ (n.isDir = false → n' = n) := by
  obtain ⟨A, B, c, _, hB, _⟩ := cl.clearing
  exact c.keptR p hp.plain (fun d h1 => hd d (hB d h1).2) n (by rw [sc.start.rem hp.plain]; exact h)

theorem Steps3.no_dl (S : Steps3 env w del new mod w1 w2 upd w3 cp DL DR) (r : SyncReady env w) (o : Orderly env w)
    (p : Path) : ¬ DL p := by
  intro hp
  obtain ⟨h1, h2, _, a, b, h3, h4, h5⟩ := (S.rb.dl p).1 hp
  obtain ⟨a', b', h6, h7, h8, h9⟩ := S.rb.ctx.both p (Or.inl hp)
  rw [h3] at h6; cases h6
  rw [h4] at h7; cases h7
  have hu := (S.rb.ctx.user p (Or.inl hp)).1
  obtain ⟨_, n, k1, _, k2⟩ := S.cl.loc_old r S.sc hu.1 h3
  obtain ⟨m, k3, _, k4⟩ := S.cl.rem_old r S.sc hu h4
  rw [k2 h8] at k1
  rw [k4 h9] at k3
  exact o.newer p a b (S.sc.changedL h1) (S.sc.changedR h2) k1 k3 h8 h5

theorem Steps3.loc3 (S : Steps3 env w del new mod w1 w2 upd w3 cp DL DR) (r : SyncReady env w) (o : Orderly env w)
    (p : Path) : w3.os.fs.get (env.loc ++ p) = w2.os.fs.get (env.loc ++ p) :=
  S.rb.eff.other _ (fun x hx => absurd hx (S.no_dl r o x)) (fun x _ => ⟨r.apart.ne _ _, r.apart.ne _ _⟩)

theorem Steps3.rem23 (S : Steps3 env w del new mod w1 w2 upd w3 cp DL DR) (r : SyncReady env w) {p : Path} {n : Node}
    (h : w2.os.fs.get (env.rem ++ p) = some n) (hd : ¬ DR p) : w3.os.fs.get (env.rem ++ p) = some n := by
  rw [S.rb.eff.other _ (fun x _ => ⟨(r.apart.ne _ _).symm, (r.apart.ne _ _).symm⟩) ?_]
  · exact h
  · intro x hx
    refine ⟨?_, ?_⟩
    · intro e
      rw [List.append_cancel_left_eq] at e
      exact hd (e ▸ hx)
    · intro e
      rw [e, (S.rb.ctx.free x (Or.inr hx)).2] at h
      cases h

/-- The remote directory has no links after the conflicts have been handled. -/
theorem Steps3.plain3 (S : Steps3 env w del new mod w1 w2 upd w3 cp DL DR) (r : SyncReady env w) (o : Orderly env w)
    {p : Path} {n : Node} (hu : UserPath p) (h : w3.os.fs.get (env.rem ++ p) = some n) : n.isLink = false := by
  have key : ∀ q, UserPath q → w2.os.fs.get (env.rem ++ q) = some n → n.isLink = false := by
    intro q hq h2
    obtain ⟨m, h3, h4, h5⟩ := S.cl.rem_old r S.sc hq h2
    cases hd : n.isDir with
    | true => cases n <;> simp_all [Node.isDir, Node.isLink]
    | false => rw [h5 hd] at h3; exact o.plain q n hq h3
  rcases S.rb.eff.rem_some r.apart h with ⟨h1, _⟩ | ⟨x, h1, _, h3⟩
  · exact key p hu h1
  · exact key x (S.rb.ctx.user x (Or.inr h1)).1 h3

/-- Links of the local directory are those that the program has made. -/
theorem Steps3.own3 (S : Steps3 env w del new mod w1 w2 upd w3 cp DL DR) (r : SyncReady env w) (o : Orderly env w)
    {p : Path} {t : Str} {m : Int} (hp : p ≠ []) (h : w3.os.fs.get (env.loc ++ p) = some (.link t m)) :
    UserPath p ∧ w.os.fs.get (env.loc ++ p) = some (.link t m) ∧ t = absStr (env.rem ++ p) := by
  rw [S.loc3 r o] at h
  obtain ⟨hu, n, h1, _, h2⟩ := S.cl.loc_old r S.sc hp h
  rw [h2 rfl] at h1
  exact ⟨hu, h1, o.own p t m hp h1⟩

/-- What is to be uploaded was changed locally. -/
theorem Steps3.upd_loc (S : Steps3 env w del new mod w1 w2 upd w3 cp DL DR) (r : SyncReady env w) (o : Orderly env w)
    {f : Path} : f ∈ upd.loc ↔ f ∈ mod.loc ++ new.loc := by
  rw [S.rb.loc]
  constructor
  · rintro ⟨_, ⟨h, _⟩ | ⟨x, hx, _⟩⟩
    · exact h
    · exact absurd hx (S.no_dl r o x)
  · intro h
    exact ⟨(S.sc.changedL h).1, Or.inl ⟨h, S.no_dl r o f⟩⟩

theorem Steps3.found3 (S : Steps3 env w del new mod w1 w2 upd w3 cp DL DR) (r : SyncReady env w) (o : Orderly env w)
    {f q : Path} {n : Node} (hf : ChangedLocally env w f) (hq : f <+: q) (h : w.os.fs.get (env.loc ++ q) = some n)
    (hd : ∀ d ∈ ADB.paths w.db, f <+: d → d <+: q → f ≠ d → False) :
    ∃ n', w3.os.fs.get (env.loc ++ q) = some n' ∧ n'.isDir = n.isDir ∧ (n.isDir = false → n' = n) := by
  rw [S.loc3 r o]
  have hq0 : q ≠ [] := by rintro rfl; exact hf.1 (List.prefix_nil.1 hq)
  refine S.cl.loc_kept r S.sc (r.local_user hq0 h) h ?_
  intro d h1 h2 h3
  rcases List.prefix_or_prefix_of_prefix h3 hq with h4 | h4
  · exact o.edited f d hf h1 h4
  · by_cases he : f = d
    · exact o.edited f d hf h1 (he ▸ List.prefix_refl _)
    · exact hd d h1.1 h4 h3 he

theorem Steps3.no_link (S : Steps3 env w del new mod w1 w2 upd w3 cp DL DR) (r : SyncReady env w) (o : Orderly env w)
    {p : Path} (hp : Listed w3.os.fs env.loc (some upd.loc) p) (t : Str) (m : Int) :
    w3.os.fs.get (env.loc ++ p) ≠ some (.link t m) := by
  intro h
  obtain ⟨_, hp0, f, hf, hfp⟩ := hp
  obtain ⟨_, h1, h2⟩ := S.own3 r o hp0 h
  have hun : UnsafeLink env.loc p (.link t m) := by rw [h2]; exact unsafeLink_abs _ _ _ _
  have hc := S.sc.changedL ((S.upd_loc r o).1 hf)
  by_cases he : f = p
  · subst he
    obtain ⟨_, n, h3, h4, _⟩ := hc
    rw [h1] at h3; cases h3
    exact h4 hun
  · exact (o.below f hc p _ hfp he h1).2 hun

theorem safe_upload (r : SyncReady env w) (o : Orderly env w)
    (S : Steps3 env w del new mod w1 w2 upd w3 cp DL DR) :
    Safe (inflateNew env upd.loc [] >>= fun _ => addRemote (setOf (upd.loc ++ upd.rem)) [] >>= fun _ =>
      addLocal (setOf (upd.loc ++ upd.rem)) [] true >>= fun _ => updateRemote env upd.loc) w3 := by
  have hrd := S.sc.start.rem_dir'
  refine Safe.bind (safe_inflateNew ?_) (Q := fun _ w' => w'.os = w3.os) (E := fun _ _ => True)
    (wp_inflateNew (fun _ _ => rfl) (fun _ => trivial)) ?_
  · intro hi
    obtain ⟨e, he, hed, hch, ⟨n, hn⟩, k, hk⟩ := o.inflate hi
    have hfit := r.db e he
    have noA : ∀ d, GoneRemotely env w d → ¬ OwnExcludes env w.os.fs d → ¬ d <+: e.path := by
      intro d h1 _ h2
      rw [gone_below r.wf h1.2 h2] at hk; cases hk
    obtain ⟨n', h2, h3, h4⟩ := S.cl.loc_kept r S.sc hfit.user hn noA
    have hnd : n.isDir = false := by rw [hfit.loc n hn]; exact hed
    have hm : e.path ∈ ADB.paths w3.db := by
      refine S.rb.db_keep _ ?_ ?_
      · obtain ⟨A, B, c, hA, hB, _⟩ := S.cl.clearing
        refine (c.db _).2 ⟨S.sc.mono _ (List.mem_map_of_mem he), ?_⟩
        intro d hd hp
        rcases List.mem_append.1 hd with hd | hd
        · rw [gone_below r.wf (hA d hd).2.2 hp] at hk; cases hk
        · rw [gone_below r.wf (hB d hd).2.2 hp] at hn; cases hn
      · intro p hp hpe
        have hL := S.sc.changedL (S.rb.mem p hp).1
        by_cases heq : p = e.path
        · rw [heq] at hL; exact hch hL
        · obtain ⟨A, B, c, _⟩ := S.cl.clearing
          obtain ⟨a, b, k1, _, k3, _⟩ := S.rb.ctx.both p hp
          have := c.wf.isDir_prefix h2 (env.loc ++ p) ((List.prefix_append_right_inj _).2 hpe)
            (fun e => heq (List.append_cancel_left e))
          rw [isDir_iff_false k1, k3] at this; cases this
    obtain ⟨e', h5, h6⟩ := List.mem_map.1 hm
    refine ⟨e', h5, ?_⟩
    rw [← (S.rs.db e' h5).loc n' (by rw [h6, S.loc3 r o]; exact h2), h3]
    exact hnd
  intro _ wa ha
  refine Safe.bind safe_addRemote (Q := fun _ w' => w'.os.fs = w3.os.fs) (E := fun _ _ => True)
    (wp_addRemote (fun _ => by show wa.os.fs = _; rw [ha])) ?_
  intro _ wb hb
  refine Safe.bind safe_addLocal (Q := fun _ w' => w'.os.fs = w3.os.fs) (E := fun _ _ => True)
    (wp_addLocal.2 hb) ?_
  intro _ wc hc
  unfold updateRemote
  refine Safe.then (Safe.sys (safe_orRemote ?_)) (fun _ w' => ?_)
  swap
  · unfold Safe
    rw [wp_bind, wp_sys, wp_time, wp_modify]
    trivial
  refine safe_transferTree r.apart (by rw [hc]; exact S.rs.wf) ?_ ?_ ?_ ?_ ?_ ?_ ?_
  all_goals rw [hc]
  · rw [S.rs.frame.isDir r.loc_fixed]; exact r.loc_dir
  · rw [S.rs.frame.isDir r.rem_fixed]; exact hrd
  · intro f hf
    have hch := S.sc.changedL ((S.upd_loc r o).1 hf)
    obtain ⟨_, n, h1, _⟩ := id hch
    obtain ⟨n', h2, _⟩ := S.found3 r o hch (List.prefix_refl f) h1 (fun d _ h3 h4 h5 =>
      h5 (h3.eq_of_length (Nat.le_antisymm h3.length_le h4.length_le)))
    exact ⟨n', h2⟩
  · rintro p ⟨⟨n, hn⟩, _, f, hf, hfp⟩ q hq
    have hp : PlainPath p := (PlainPath.extend (S.rs.updLoc f hf).1 hfp).plain
    obtain ⟨n', hn'⟩ : ∃ n', w3.os.fs.get (env.loc ++ q) = some n' := by
      by_cases he : q = p
      · exact ⟨n, by rw [he]; exact hn⟩
      · obtain ⟨a, b, h4⟩ := FS.isDir_iff.1 (S.rs.wf.isDir_prefix hn (env.loc ++ q)
          ((List.prefix_append_right_inj _).2 hq) (fun e => he (List.append_cancel_left e)))
        exact ⟨_, h4⟩
    exact S.rs.tidy.clean_up (hp.prefix hq) hn'
  · intro p hp; exact S.no_link r o hp
  · rintro p ⟨_, _, f, hf, hfp⟩ q hq hd
    have hp : PlainPath p := (PlainPath.extend (S.rs.updLoc f hf).1 hfp).plain
    rcases Option.eq_none_or_eq_some (w3.os.fs.get (env.rem ++ q)) with h1 | ⟨n, h1⟩
    · exact Or.inl h1
    · right
      obtain ⟨a, b, h2⟩ := FS.isDir_iff.1 hd
      rw [isDir_iff_false h1, ← S.rs.tidy.kind q (hp.prefix hq) _ _ h2 h1]
      rfl
  · rintro p ⟨_, _, f, hf, hfp⟩ t m h
    have := S.plain3 r o (PlainPath.extend (S.rs.updLoc f hf).1 (hfp.trans (List.prefix_append _ _))) h
    cases this

end

end Verif
