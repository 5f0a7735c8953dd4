import Verif.SafeTree
import Verif.Spec.Orderly
/-
The first step of a sync raises nothing.
-/
namespace Verif
open Prog OSM Call FSTools WM

theorem safe_get? {α : Type} {e : Err} {o : Option α} {w : World} (h : ∃ a, o = some a) : Safe (get? e o) w := by
  obtain ⟨a, rfl⟩ := h
  trivial

theorem maxPriority_some {a : ALocal} (h : ∃ e ∈ a, e.directory = false) : ∃ x, ALocal.maxPriority a = some x := by
  obtain ⟨e, he, hd⟩ := h
  unfold ALocal.maxPriority
  cases hm : (((a.filter (fun e => !e.directory)).map (fun e => e.data.priority)).max?) with
  | some x => exact ⟨x, rfl⟩
  | none =>
    rw [List.max?_eq_none_iff, List.map_eq_nil_iff, List.filter_eq_nil_iff] at hm
    exact absurd (by rw [hd]; rfl) (hm e he)

theorem safe_inflateNew {env : Env} {files dirs : List Path} {w : World}
    (h : env.inflate = true → ∃ e ∈ w.db, e.directory = false) : Safe (inflateNew env files dirs) w := by
  unfold inflateNew
  split
  · rename_i hi
    obtain ⟨x, hx⟩ := maxPriority_some (h hi)
    unfold addInflated Safe
    rw [wp_bind, wp_gets, wp_bind, wp_get?]
    refine ⟨fun _ _ => trivial, fun hn => ?_⟩
    unfold ALocal.addInflated at hn
    rw [hx] at hn
    cases hn
  · trivial

theorem safe_addRemote {files dirs : List Path} {w : World} : Safe (addRemote files dirs) w :=
  wp_addRemote (fun _ => trivial)

theorem safe_addLocal {files dirs : List Path} {l : Bool} {w : World} : Safe (addLocal files dirs l) w := trivial

/-- Everything at a local path can be followed if links are those that the program has made. -/
theorem stat_own {env : Env} {fs : FS} (wf : fs.WF) {p : Path} {n : Node}
    (hn : fs.get (env.loc ++ p) = some n)
    (ho : ∀ t m, n = .link t m → t = absStr (env.rem ++ p))
    (hx : n.isLink = true → ∃ k, fs.get (env.rem ++ p) = some k ∧ k.isLink = false) :
    ∃ r, fs.stat (env.loc ++ p) = .ok r := by
  cases hl : n.isLink with
  | false => exact ⟨_, FS.stat_nonlink (wf.pathErr hn) hn hl⟩
  | true =>
    cases n with
    | link t m =>
      obtain ⟨k, h1, h2⟩ := hx rfl
      have := ho t m rfl
      subst this
      have hg : GoodPath (env.rem ++ p) := wf.goodPath h1
      refine ⟨(env.rem ++ p, k), ?_⟩
      unfold FS.stat
      rw [FS.follow_link (wf.pathErr hn) hn, FS.linkDest_abs hg]
      have hnl : ∀ t m, fs.get (env.rem ++ p) ≠ some (.link t m) := by
        intro t m e
        rw [h1] at e; cases e; cases h2
      rw [FS.follow_nonlink (wf.pathErr h1) hnl]
      dsimp only
      rw [h1]
    | _ => cases hl

/-! ### With a continuation -/

section
variable {α β : Type} {env : Env} {w : World}

theorem Safe.bindSys {m : OSM α} {f : α → WM β} (hm : Safe m w.os) {Q : α → OS → Prop} {E : Err → OS → Prop}
    (h' : wp m Q E w.os) (hf : ∀ a s', Q a s' → Safe (f a) { w with os := s' }) : Safe (WM.sys m >>= f) w := by
  refine wp_bind.2 (wp_sys.2 ?_)
  exact wp_mono (hm.and h') (fun a s' h => hf a s' h) (fun _ _ h => h)

theorem Safe.scanLocal {k : Scan → WM β} (wf : w.os.fs.WF) (h : w.os.fs.isDir env.loc = true)
    (hm : w.lmemo ≠ [] → Safe (k w.lmemo) w)
    (hs : w.lmemo = [] → Safe (k (w.os.fs.below env.loc)) { w with lmemo := w.os.fs.below env.loc }) :
    Safe (Verif.scanLocal env >>= k) w :=
  Safe.bind (safe_scanLocal wf h) (Q := fun a w' => Safe (k a) w') (E := fun _ _ => True)
    (wp_scanLocal hm hs (fun _ => trivial)) (fun _ _ h => h)

theorem Safe.scanRemote {k : Scan → WM β} (wf : w.os.fs.WF) (h : w.os.fs.isDir env.rem = true)
    (hm : w.rmemo ≠ [] → Safe (k w.rmemo.user) w)
    (hs : w.rmemo = [] → Safe (k (Scan.user (w.os.fs.below env.rem))) { w with rmemo := w.os.fs.below env.rem }) :
    Safe (Verif.scanRemote env >>= k) w :=
  Safe.bind (safe_scanRemote wf h) (Q := fun a w' => Safe (k a) w') (E := fun _ _ => True)
    (wp_scanRemote hm hs (fun _ => trivial)) (fun _ _ h => h)

theorem Safe.rescanRemote {k : Scan → WM β} (wf : w.os.fs.WF) (h : w.os.fs.isDir env.rem = true)
    (hs : Safe (k (Scan.user (w.os.fs.below env.rem))) { w with rmemo := w.os.fs.below env.rem }) :
    Safe (Verif.rescanRemote env >>= k) w :=
  Safe.bind (safe_rescanRemote wf h) (Q := fun a w' => Safe (k a) w') (E := fun _ _ => True)
    (wp_rescanRemote hs (fun _ => trivial)) (fun _ _ h => h)

theorem Safe.matches {k : List Path → WM β} {l : List Path} (h : w.matches_ = some l) (hk : Safe (k l) w) :
    Safe (exclMatches env >>= k) w := by
  unfold Safe
  rw [wp_bind]
  unfold exclMatches
  rw [wp_bind, wp_gets, h]
  exact hk

end

section
variable {env : Env} {w : World}

theorem SyncStart.rem_plain {fs : FS} (st : SyncStart env w fs) {p : Path} (hu : UserPath p) :
    fs.get (env.rem ++ p) = w.os.fs.get (env.rem ++ p) := st.rem hu.plain

theorem safe_syncScan (r : SyncReady env w) (o : Orderly env w) : Safe (syncScan env) w := by
  obtain ⟨lm, lb, hlg⟩ := FS.isDir_iff.1 r.loc_dir
  obtain ⟨xc, xm, xb, hx⟩ := r.excl
  unfold syncScan
  refine Safe.bindSys (safe_makedirs r.wf r.loc_dir) (wp_makedirs_dir r.wf hlg) ?_
  intro _ s0 h0
  have wf0 : s0.fs.WF := by rw [h0]; exact r.wf
  refine Safe.bindSys (safe_addExcludeFile wf0 (by rw [h0]; exact o.exclDir) (by rw [h0]; exact r.slot)
    ⟨xc, xm, xb, by rw [h0]; exact hx⟩ r.excl_slot)
    (wp_addExcludeFile wf0 r.slot_good (by rw [h0]; exact r.slot)) ?_
  rintro _ s1 ⟨h1, wf1, _, _, _, _, _, _, hs1⟩
  have st : SyncStart env w s1.fs := ⟨by rw [← h0]; exact h1, wf1, slot_util_dir wf1 hs1, _, _, _, hs1⟩
  clear h1 hs1 h0
  dsimp only
  have hld : s1.fs.isDir env.loc = true := by
    have := st.loc r []
    rw [List.append_nil] at this
    rw [FS.isDir_congr this]; exact r.loc_dir
  refine Safe.scanLocal wf1 hld (fun h => absurd r.lmemo h) (fun _ => ?_)
  refine Safe.scanRemote wf1 st.rem_dir (fun h => absurd r.rmemo h) (fun _ => ?_)
  dsimp only
  have hx1 : s1.fs.get env.excl = some (.file xc xm xb) := by rw [st.only _ r.excl_slot]; exact hx
  refine Safe.bind (safe_exclMatches wf1 hx1 ?_) (Q := fun _ w' => w'.db = w.db ∧ w'.rdb = w.rdb)
    (E := fun _ _ => True) ?_ ?_
  · intro p n hp hn hm
    rw [st.loc r] at hn
    left
    refine stat_own wf1 (by rw [st.loc r]; exact hn) ?_ ?_
    · rintro t m rfl; exact o.own p t m hp hn
    · intro hl
      have hu := r.local_user hp hn
      rw [st.rem_plain hu]
      cases n with
      | link t m =>
        rcases o.leads p t m hp hn with ⟨k, hk⟩ | ⟨_, hno⟩
        · exact ⟨k, hk, o.plain p k hu hk⟩
        · refine absurd ?_ hno
          refine ⟨env.excl, xc, xm, xb, stat_file r.wf hx, hp, ⟨_, hn⟩, p, hp, List.prefix_refl _, ?_⟩
          obtain ⟨g, h1, h2⟩ := List.any_eq_true.1 hm
          exact ⟨g, h1, h2⟩
      | _ => cases hl
  · refine wp_exclMatches (fun l h => ⟨rfl, rfl⟩) (fun _ _ _ _ _ _ => ⟨rfl, rfl⟩) (fun _ => trivial)
  rintro ex w2 ⟨hdb, hrdb⟩
  unfold Safe
  rw [wp_bind, wp_gets, wp_bind, wp_gets, wp_bind, wp_gets]
  refine Safe.bind (safe_get? ?_) (Q := fun _ w' => w' = w2) (E := fun _ _ => True) ?_ ?_
  · rw [hdb, hrdb]
    refine computeDeleted_some (fun p hp hk => o.rows p ⟨hp, ?_⟩)
    rcases Option.eq_none_or_eq_some (w.os.fs.get (env.loc ++ p)) with h | ⟨n, h⟩
    · exact h
    · refine absurd ?_ hk
      unfold Scan.keys
      rw [mem_keys_below wf1, st.loc r]
      obtain ⟨d, hd⟩ := r.db.path hp
      exact ⟨hd.user.1, n, h⟩
  · rw [wp_get?]; exact ⟨fun _ _ => rfl, fun _ => trivial⟩
  rintro del w3 rfl
  refine Safe.then (safe_inflateNew ?_) (fun _ w' => ?_)
  · intro hi
    obtain ⟨e, h1, h2, _⟩ := o.inflate hi
    exact ⟨e, by rw [hdb]; exact h1, h2⟩
  refine Safe.then safe_addRemote (fun _ w' => ?_)
  exact Safe.then safe_addLocal (fun _ w' => Safe.pure _)

end

end Verif
