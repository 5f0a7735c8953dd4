import Verif.SafeScan
import Verif.Props.C44_Init
/-
When an initialisation from local files raises nothing.
-/
namespace Verif
open Prog OSM Call FSTools WM

/-! ### Linking over files -/

theorem safe_linkOne_over {src dest : Path} {dirs : List Path} {p : Path} {s : OS} (hpe : s.fs.pathErr (dest ++ p) = none)
    (hp0 : dest ++ p ≠ []) (hnd : p ∉ dirs → s.fs.isDir (dest ++ p) = false) :
    Safe (linkOne src dest dirs true p) s := by
  have key : ∀ {n : Node} {e : Err}, s.fs.create (dest ++ p) n = .error e →
      e = .exists_ ∧ ∃ x, s.fs.get (dest ++ p) = some x := by
    intro n e h
    rcases Option.eq_none_or_eq_some (s.fs.get (dest ++ p)) with h1 | ⟨x, h1⟩
    · rw [FS.create_isSome hpe h1] at h; cases h
    · unfold FS.create at h
      rw [FS.lstat_ok_iff.2 ⟨hpe, h1⟩] at h
      cases h; exact ⟨rfl, x, h1⟩
  unfold linkOne Safe
  split
  · unfold linkDir
    rw [wp_tryCatch, wp_bind]
    refine wp_op (by simp) (fun _ _ => trivial) (fun e he => ?_)
    obtain ⟨rfl, _⟩ := key he
    rw [if_neg (by decide), if_pos rfl]
    trivial
  · rename_i hd
    unfold linkNew
    rw [wp_tryCatch, wp_bind]
    refine wp_op (by simp) (fun _ _ => trivial) (fun e he => ?_)
    obtain ⟨rfl, x, hx⟩ := key he
    rw [if_neg (by decide), if_pos rfl]
    show wp (linkOver src dest true p) _ _ _
    unfold linkOver
    rw [if_pos rfl, wp_bind]
    have hxd : x.isDir = false := by rw [← isDir_iff_false hx]; exact hnd hd
    have hr : s.fs.remove (dest ++ p) = .ok (s.fs.rm (dest ++ p)) := by
      unfold FS.remove
      rw [FS.lstat_ok_iff.2 ⟨hpe, hx⟩]
      cases x with
      | dir m b => cases hxd
      | _ => rfl
    refine wp_op rfl ?_ ?_
    · intro f1 h1
      have h1 : s.fs.remove (dest ++ p) = .ok f1 := h1
      rw [hr] at h1
      cases h1
      unfold linkNew
      rw [wp_bind]
      refine wp_op rfl (fun _ _ => trivial) (fun e he => ?_)
      have hpe' : (s.fs.rm (dest ++ p)).pathErr (dest ++ p) = none := by
        rw [← hpe]
        exact (FS.pathErr_congr (fun q _ hne => (FS.get_rm_ne _ hne).symm)).symm
      have := he.symm.trans (FS.create_isSome hpe' (FS.get_rm_self _ hp0))
      cases this
    · intro e h1
      have h1 : s.fs.remove (dest ++ p) = .error e := h1
      rw [hr] at h1; cases h1

theorem safe_linkLoop_over {src dest : Path} {dirs : List Path} (hgd : GoodPath dest) : ∀ {ps : List Path} {s : OS},
    s.fs.WF → s.fs.isDir dest = true → (∀ p ∈ ps, p ≠ [] ∧ GoodPath p) →
    ps.Pairwise (fun a b => a.length ≤ b.length) →
    (∀ p ∈ ps, ∀ q, q <+: p → q ≠ p → q ≠ [] → s.fs.isDir (dest ++ q) = true ∨
      (q ∈ ps ∧ q ∈ dirs ∧ s.fs.get (dest ++ q) = none)) →
    (∀ p ∈ ps, p ∉ dirs → s.fs.isDir (dest ++ p) = false) →
    Safe (linkLoop src dest dirs true ps) s
  | [], s, _, _, _, _, _, _ => by rw [linkLoop]; trivial
  | p :: ps, s, wf, hd, hg, hs, hq, hnd => by
    rw [List.pairwise_cons] at hs
    have hp := hg p (by simp)
    have hpd : s.fs.isDir (dest ++ p).dropLast = true := by
      rw [List.dropLast_append_of_ne_nil hp.1]
      by_cases h0 : p.dropLast = []
      · rw [h0, List.append_nil]; exact hd
      · rcases hq p (by simp) p.dropLast (List.dropLast_prefix _) (FS.dropLast_proper hp.1).2 h0 with h1 | ⟨h1, _⟩
        · exact h1
        · exfalso
          have hl : p.dropLast.length < p.length := by
            have := List.length_pos_iff.2 hp.1
            simp; omega
          rcases List.mem_cons.1 h1 with h2 | h2
          · rw [h2] at hl; omega
          · have := hs.1 _ h2
            omega
    have hpe : s.fs.pathErr (dest ++ p) = none := pathErr_of_parent wf (by simp [hp.1]) hpd
    have hgp : GoodPath (dest ++ p) := goodPath_append.2 ⟨hgd, hp.2⟩
    have hp0 : dest ++ p ≠ [] := by simp [hp.1]
    rw [linkLoop]
    refine Safe.bind (safe_linkOne_over hpe hp0 (hnd p (by simp))) (wp_linkOne src dest dirs true p s) ?_
    intro o s1 h1
    refine Safe.then ?_ (fun _ _ => Safe.pure _)
    generalize he : s1.fs = f1 at h1
    have next : f1.WF ∧ (∀ q, s.fs.isDir q = true → f1.isDir q = true) ∧
        (∀ q, q ≠ dest ++ p → f1.get q = s.fs.get q) ∧
        (p ∈ dirs → s.fs.get (dest ++ p) = none → f1.isDir (dest ++ p) = true) ∧
        (p ∉ dirs → f1.isDir (dest ++ p) = false) := by
      cases h1 with
      | make now h2 h3 =>
        refine ⟨?_, ?_, fun q hq => FS.get_set_ne _ hq _, ?_, ?_⟩
        · exact wf.create hgp (FS.create_isSome h3 h2)
        · intro q hn
          obtain ⟨m, b, hn⟩ := FS.isDir_iff.1 hn
          refine FS.isDir_iff.2 ⟨m, b, ?_⟩
          rw [FS.get_set_ne _ (fun e => by rw [e, h2] at hn; cases hn)]
          exact hn
        · intro hpd _
          unfold linkNode
          rw [if_pos hpd]
          exact FS.isDir_iff.2 ⟨_, _, FS.get_set_self _ hp0 _⟩
        · intro hpd
          rw [isDir_iff_false (FS.get_set_self _ hp0 _)]
          unfold linkNode
          rw [if_neg hpd]
          rfl
      | keep n h2 h3 =>
        refine ⟨wf, fun _ h => h, fun _ _ => rfl, fun _ h => (by rw [h2] at h; cases h), fun h => ?_⟩
        rcases h3 with h3 | h3
        · exact absurd h3 h
        · cases h3
      | replace n now h2 h3 h4 h5 h6 =>
        have sp : Spot s.fs (dest ++ p) := Spot.of_get wf h4 h5
        refine ⟨(sp.rm.set rfl).wf, ?_, ?_, fun h => absurd h h3, ?_⟩
        · intro q hn
          have hne : q ≠ dest ++ p := by
            rintro rfl
            rw [isDir_iff_false h4, h5] at hn; cases hn
          rw [FS.isDir_congr ((FS.get_set_ne _ hne _).trans (FS.get_rm_ne _ hne))]
          exact hn
        · intro q hne
          exact (FS.get_set_ne _ hne _).trans (FS.get_rm_ne _ hne)
        · intro _
          rw [isDir_iff_false (FS.get_set_self _ hp0 _)]
          rfl
    obtain ⟨wf1, kdir, other, made, leaf⟩ := next
    refine safe_linkLoop_over hgd (by rw [he]; exact wf1) (by rw [he]; exact kdir _ hd) (fun x hx => hg x (by simp [hx]))
      hs.2 ?_ ?_
    · intro x hx q hqx hne h0
      rw [he]
      rcases hq x (by simp [hx]) q hqx hne h0 with h2 | ⟨h2, h3, h4⟩
      · exact Or.inl (kdir _ h2)
      · by_cases hqp : q = p
        · subst hqp; exact Or.inl (made h3 h4)
        · refine Or.inr ⟨(List.mem_cons.1 h2).resolve_left hqp, h3, ?_⟩
          rw [other _ (fun e => hqp (List.append_cancel_left e))]
          exact h4
    · intro x hx hxd
      rw [he]
      by_cases hxp : x = p
      · subst hxp; exact leaf hxd
      · rw [FS.isDir_congr (other _ (fun e => hxp (List.append_cancel_left e)))]
        exact hnd x (by simp [hx]) hxd

/-- `symlink_tree` that overwrites raises nothing if what is above a listed path is a directory in the destination or a
listed directory that is missing there, and no directory is where a link is to be made. -/
theorem safe_symlinkTree_over {src dest : Path} {files dirs : List Path} {s : OS} (wf : s.fs.WF)
    (hd : s.fs.isDir dest = true) (hg : ∀ p, p ∈ dirs ∨ p ∈ files → p ≠ [] ∧ GoodPath p)
    (hq : ∀ p, p ∈ dirs ∨ p ∈ files → ∀ q, q <+: p → q ≠ p → q ≠ [] → s.fs.isDir (dest ++ q) = true ∨
      (q ∈ dirs ∧ s.fs.get (dest ++ q) = none))
    (hnd : ∀ p ∈ files, p ∉ dirs → s.fs.isDir (dest ++ p) = false) :
    Safe (symlinkTree src dest files dirs true) s := by
  obtain ⟨m, b, hgd⟩ := FS.isDir_iff.1 hd
  unfold symlinkTree
  refine Safe.bind (safe_makedirs wf hd) (wp_makedirs_dir wf hgd) ?_
  intro _ s1 h1
  refine safe_linkLoop_over (wf.goodPath hgd) (by rw [h1]; exact wf) (by rw [h1]; exact hd) ?_ (sortDepth_sorted _) ?_ ?_
  · intro p hp
    rw [mem_sortDepth, mem_foldl_setAdd] at hp
    exact hg p hp
  · intro p hp q h2 h3 h4
    rw [mem_sortDepth, mem_foldl_setAdd] at hp
    rw [mem_sortDepth, mem_foldl_setAdd, h1]
    rcases hq p hp q h2 h3 h4 with h5 | ⟨h5, h6⟩
    · exact Or.inl h5
    · exact Or.inr ⟨Or.inl h5, h5, h6⟩
  · intro p hp hpd
    rw [mem_sortDepth, mem_foldl_setAdd] at hp
    rw [h1]
    exact hnd p (hp.resolve_left hpd) hpd

/-! ### What is assumed -/

/-- The state of both directories in which an initialisation raises nothing. `k` is the content of the exclude file.
Links in the local directory are excluded or unsafe, and a pattern matches a link itself only if the link is one that an
earlier attempt has made. There are no links in the remote directory, and what is a directory on one side is one on the
other. -/
structure InitTidy (env : Env) (k : Nat) (fs : FS) : Prop where
  wf : fs.WF
  excl : ∃ m b, fs.get env.excl = some (.file k m b)
  way_excl : WayTo fs env.exclDir
  way_trash : WayTo fs env.trash
  link : ∀ p t m, p ≠ [] → fs.get (env.loc ++ p) = some (.link t m) →
    ((∃ q, q ≠ [] ∧ q <+: p ∧ (env.patsOf k).any (fun g => g q) = true) ∨ UnsafeLink env.loc p (.link t m)) ∧
    ((env.patsOf k).any (fun g => g p) = false ∨
      (UserPath p ∧ t = absStr (env.rem ++ p) ∧ ∃ n, fs.get (env.rem ++ p) = some n))
  plain : ∀ p t m, UserPath p → fs.get (env.rem ++ p) ≠ some (.link t m)
  kind : ∀ p n x, UserPath p → fs.get (env.rem ++ p) = some n → fs.get (env.loc ++ p) = some x → n.isDir = x.isDir

section
variable {env : Env} {k : Nat} {fs fs' : FS}

theorem InitTidy.next (h : InitTidy env k fs) (wf : fs'.WF) (hx : ∀ n, fs.get env.excl = some n → fs'.get env.excl = some n)
    (w1 : WayTo fs' env.exclDir) (w2 : WayTo fs' env.trash)
    (hl : ∀ p, fs'.get (env.loc ++ p) = fs.get (env.loc ++ p) ∨ (UserPath p ∧ ∃ n, fs'.get (env.rem ++ p) = some n ∧
      ((n.isDir = false ∧ (fs'.get (env.loc ++ p) = none ∨
        ∃ m, fs'.get (env.loc ++ p) = some (.link (absStr (env.rem ++ p)) m))) ∨
      (n.isDir = true ∧ fs'.isDir (env.loc ++ p) = true))))
    (plain : ∀ p t m, UserPath p → fs'.get (env.rem ++ p) ≠ some (.link t m))
    (kind : ∀ p n x, UserPath p → fs'.get (env.rem ++ p) = some n → fs.get (env.loc ++ p) = some x → n.isDir = x.isDir)
    (own : ∀ p n, UserPath p → fs.get (env.rem ++ p) = some n → (∃ t m, fs.get (env.loc ++ p) = some (.link t m)) →
      ∃ n', fs'.get (env.rem ++ p) = some n') : InitTidy env k fs' where
  wf := wf
  excl := by
    obtain ⟨m, b, h1⟩ := h.excl
    exact ⟨m, b, hx _ h1⟩
  way_excl := w1
  way_trash := w2
  plain := plain
  link := by
    intro p t m h0 hp
    rcases hl p with h1 | ⟨hu, n, h1, h2⟩
    · rw [h1] at hp
      obtain ⟨h2, h3⟩ := h.link p t m h0 hp
      refine ⟨h2, h3.imp id ?_⟩
      rintro ⟨hu, h4, n, h5⟩
      exact ⟨hu, h4, own p n hu h5 ⟨t, m, hp⟩⟩
    · rcases h2 with ⟨_, h2 | ⟨m', h2⟩⟩ | ⟨_, h2⟩
      · rw [hp] at h2; cases h2
      · rw [hp] at h2
        cases h2
        exact ⟨Or.inr (unsafeLink_abs _ _ _ _), Or.inr ⟨hu, rfl, n, h1⟩⟩
      · rw [isDir_iff_false hp] at h2; cases h2
  kind := by
    intro p n x hu h1 h2
    rcases hl p with h3 | ⟨_, n', h3, h4⟩
    · rw [h3] at h2
      exact kind p n x hu h1 h2
    · rw [h1] at h3
      cases h3
      rcases h4 with ⟨h5, h4 | ⟨m', h4⟩⟩ | ⟨h5, h4⟩
      · rw [h2] at h4; cases h4
      · rw [h2] at h4; cases h4; exact h5
      · rw [isDir_iff_false h2] at h4
        rw [h4, h5]

theorem InitTidy.clean (h : InitTidy env k fs) {p : Path} (hu : UserPath p) {x : Node} (hx : fs.get (env.loc ++ p) = some x) :
    Clean fs (env.loc ++ p) (env.rem ++ p) := by
  unfold Clean
  cases hn : fs.get (env.rem ++ p) with
  | none => trivial
  | some n =>
    cases n with
    | file c m b => trivial
    | dir m b =>
      dsimp only
      rw [isDir_iff_false hx, ← h.kind p _ x hu hn hx]; rfl
    | link t m => exact absurd hn (h.plain p t m hu)

theorem UserPath.prefix {p q : Path} (h : UserPath p) (hq : q <+: p) (h0 : q ≠ []) : UserPath q := by
  obtain ⟨t, rfl⟩ := hq
  refine ⟨h0, ?_⟩
  cases q with
  | nil => exact absurd rfl h0
  | cons a q => exact h.2

/-- Where something is in the local directory, there are only directories on the way to its remote path. -/
theorem InitTidy.way (h : InitTidy env k fs) (hr : fs.isDir env.rem = true) {p : Path} (hu : UserPath p) {x : Node}
    (hx : fs.get (env.loc ++ p) = some x) : WayTo fs (env.rem ++ p.dropLast) := by
  obtain ⟨rm, rb, hrg⟩ := FS.isDir_iff.1 hr
  intro q hq
  rcases List.prefix_or_prefix_of_prefix hq (List.prefix_append env.rem p.dropLast) with h1 | ⟨q', rfl⟩
  · right
    by_cases he : q = env.rem
    · rw [he]; exact hr
    · exact h.wf.isDir_prefix hrg q h1 he
  · rw [List.prefix_append_right_inj] at hq
    by_cases h0 : q' = []
    · right; rw [h0, List.append_nil]; exact hr
    have hqp := hq.trans (List.dropLast_prefix _)
    have hd : fs.isDir (env.loc ++ q') = true := by
      refine h.wf.isDir_prefix hx _ ((List.prefix_append_right_inj _).2 hqp) ?_
      intro e
      have h2 := hq.length_le
      rw [List.append_cancel_left e] at h2
      have := List.length_pos_iff.2 hu.1
      simp at h2
      omega
    obtain ⟨m, b, hd⟩ := FS.isDir_iff.1 hd
    cases hn : fs.get (env.rem ++ q') with
    | none => exact Or.inl rfl
    | some n =>
      right
      rw [isDir_iff_false hn, h.kind q' n _ (hu.prefix hqp h0) hn hd]; rfl

/-! ### The transfer -/

/-- What holds while files are transferred. -/
structure Sending (env : Env) (k : Nat) (f0 fs : FS) : Prop where
  tidy : InitTidy env k fs
  dir : fs.isDir env.exclDir = true
  loc : ∀ p, fs.get (env.loc ++ p) = f0.get (env.loc ++ p)
  slot : fs.get (env.exclDir ++ [env.id]) = f0.get (env.exclDir ++ [env.id])

theorem exclDir_eq (env : Env) : env.exclDir = env.rem ++ [Env.utilName, "exclude".toList] := by
  unfold Env.exclDir Env.util; rw [List.append_assoc]; rfl

theorem trash_eq (env : Env) : env.trash = env.rem ++ [Env.utilName, "Trash".toList] := by
  unfold Env.trash Env.util; rw [List.append_assoc]; rfl

theorem Sending.rem_dir {f0 : FS} (h : Sending env k f0 fs) : fs.isDir env.rem = true := by
  obtain ⟨m, b, hd⟩ := FS.isDir_iff.1 h.dir
  refine h.tidy.wf.isDir_prefix hd _ (by rw [exclDir_eq]; exact List.prefix_append _ _) ?_
  rw [exclDir_eq]
  intro e
  have := congrArg List.length e
  simp at this

variable {f0 : FS} (ha : Apart env.loc env.rem) (hxr : ¬ env.rem <+: env.excl)
include ha

/-- Directories have been made on the way to a remote path. -/
theorem Sending.grow (h : Sending env k f0 fs) {p : Path} (hu : UserPath p) {x : Node}
    (hx : f0.get (env.loc ++ p) = some x) (hg : GoodPath (env.rem ++ p))
    (hgr : Grow (fun q => q ≠ [] ∧ q <+: (env.rem ++ p).dropLast) fs fs') : Sending env k f0 fs' := by
  have hdl : (env.rem ++ p).dropLast = env.rem ++ p.dropLast := List.dropLast_append_of_ne_nil hu.1
  have hloc : ∀ q, fs'.get (env.loc ++ q) = fs.get (env.loc ++ q) := by
    intro q
    apply hgr.get_eq
    rintro ⟨_, h1⟩
    exact ha.not_prefix q p (h1.trans (List.dropLast_prefix _))
  have hwf : fs'.WF := by
    refine hgr.wf ?_ h.tidy.wf
    rintro q ⟨_, h1⟩
    exact goodPath_of_prefix hg (h1.trans (List.dropLast_prefix _))
  refine ⟨h.tidy.next hwf (fun n hn => hgr.keeps _ _ hn) (h.tidy.way_excl.grow hgr) (h.tidy.way_trash.grow hgr)
    (fun q => Or.inl (hloc q)) ?_ ?_ (fun q n _ hn _ => ⟨n, hgr.keeps _ _ hn⟩), ?_, fun q => (hloc q).trans (h.loc q),
    ?_⟩
  · intro q t m hq hn
    rcases Option.eq_none_or_eq_some (fs.get (env.rem ++ q)) with h1 | ⟨y, h1⟩
    · rcases hgr.new _ h1 with h2 | ⟨_, h2⟩
      · rw [hn] at h2; cases h2
      · rw [isDir_iff_false hn] at h2; cases h2
    · have := hgr.keeps _ _ h1
      rw [hn] at this
      cases this
      exact h.tidy.plain q t m hq h1
  · intro q n y hq hn hy
    rcases Option.eq_none_or_eq_some (fs.get (env.rem ++ q)) with h1 | ⟨z, h1⟩
    · rcases hgr.new _ h1 with h2 | ⟨⟨_, h3⟩, h2⟩
      · rw [hn] at h2; cases h2
      · rw [isDir_iff_false hn] at h2
        rw [hdl, List.prefix_append_right_inj] at h3
        have hd : fs.isDir (env.loc ++ q) = true := by
          rw [← h.loc p] at hx
          refine h.tidy.wf.isDir_prefix hx _ ((List.prefix_append_right_inj _).2 (h3.trans (List.dropLast_prefix _))) ?_
          intro e
          have h4 := h3.length_le
          rw [List.append_cancel_left e] at h4
          have := List.length_pos_iff.2 hu.1
          simp at h4
          omega
        rw [isDir_iff_false hy] at hd
        rw [h2, hd]
    · have := hgr.keeps _ _ h1
      rw [hn] at this
      cases this
      exact h.tidy.kind q _ y hq h1 hy
  · obtain ⟨m, b, h1⟩ := FS.isDir_iff.1 h.dir
    exact FS.isDir_iff.2 ⟨m, b, hgr.keeps _ _ h1⟩
  · rw [← h.slot]
    apply hgr.get_eq
    rintro ⟨_, h1⟩
    refine (hu.apart env (q := ["exclude".toList] ++ [env.id])).2 ?_
    have h2 := h1.trans (List.dropLast_prefix _)
    unfold Env.exclDir at h2
    rw [List.append_assoc] at h2
    exact h2

include hxr

/-- One remote path has been written. -/
theorem Sending.only (h : Sending env k f0 fs) {p : Path} (hu : UserPath p) {x : Node}
    (hx : f0.get (env.loc ++ p) = some x) (hnl : x.isLink = false) (wf : fs'.WF) (ho : OnlyAt (env.rem ++ p) fs fs')
    (hy : ∀ y, fs'.get (env.rem ++ p) = some y → y.isLink = false ∧ y.isDir = x.isDir) : Sending env k f0 fs' := by
  have hloc : ∀ q, fs'.get (env.loc ++ q) = fs.get (env.loc ++ q) := fun q => ho _ (ha.ne q p)
  have hutil : ∀ q r, q <+: env.util ++ r → fs'.get q = fs.get q := by
    intro q r hq
    apply ho
    rintro rfl
    exact hu.not_prefix env hq
  have hway : ∀ r, WayTo fs (env.util ++ r) → WayTo fs' (env.util ++ r) := by
    intro r hw q hq
    rw [hutil q r hq, FS.isDir_congr (hutil q r hq)]
    exact hw q hq
  refine ⟨h.tidy.next wf ?_ (hway _ h.tidy.way_excl) (hway _ h.tidy.way_trash) (fun q => Or.inl (hloc q)) ?_ ?_ ?_, ?_,
    fun q => (hloc q).trans (h.loc q), ?_⟩
  · intro n hn
    rw [ho]
    · exact hn
    · intro e
      exact hxr (by rw [e]; exact List.prefix_append _ _)
  · intro q t m hq hn
    by_cases e : q = p
    · subst e
      have := (hy _ hn).1
      cases this
    · rw [ho _ (fun e' => e (List.append_cancel_left e'))] at hn
      exact h.tidy.plain q t m hq hn
  · intro q n z hq hn hz
    by_cases e : q = p
    · subst e
      rw [h.loc, hx] at hz
      cases hz
      exact (hy _ hn).2
    · rw [ho _ (fun e' => e (List.append_cancel_left e'))] at hn
      exact h.tidy.kind q n z hq hn hz
  · rintro q n hq hn ⟨t, m, hl⟩
    refine ⟨n, ?_⟩
    rw [ho]
    · exact hn
    · intro e
      rw [List.append_cancel_left e, h.loc, hx] at hl
      cases hl
      cases hnl
  · rw [FS.isDir_congr (hutil env.exclDir ["exclude".toList] (List.prefix_refl _))]
    exact h.dir
  · rw [← h.slot]
    refine hutil _ (["exclude".toList] ++ [env.id]) ?_
    unfold Env.exclDir
    rw [List.append_assoc]
    exact List.prefix_refl _

/-- One round of the transfer raises nothing, and what is assumed stays true at every point. -/
theorem wp_transferOne_tidy {p : Path} {s : OS} (h : Sending env k f0 s.fs) (hgr : GoodPath env.rem) (hu : UserPath p)
    {n : Node} (hn : f0.get (env.loc ++ p) = some n) (hnl : n.isLink = false) :
    wp (transferOne env.loc env.rem false p) (fun _ s' => Sending env k f0 s'.fs)
      (fun e s' => e = .killed ∧ Sending env k f0 s'.fs) s := by
  have hns : s.fs.get (env.loc ++ p) = some n := by rw [h.loc]; exact hn
  have hdl : (env.rem ++ p).dropLast = env.rem ++ p.dropLast := List.dropLast_append_of_ne_nil hu.1
  have hgp : GoodPath (env.rem ++ p) := goodPath_append.2 ⟨hgr, (goodPath_append.1 (h.tidy.wf.goodPath hns)).2⟩
  have hgdl : GoodPath (env.rem ++ p).dropLast := goodPath_of_prefix hgp (List.dropLast_prefix _)
  have hway : WayTo s.fs (env.rem ++ p).dropLast := by rw [hdl]; exact h.tidy.way h.rem_dir hu hns
  have hp0 : env.rem ++ p ≠ [] := by simp [hu.1]
  unfold transferOne
  rw [wp_bind]
  refine wp_mono (wp_and (safe_makedirs_way h.tidy.wf hgdl hway) (wp_makedirs _ s)) ?_
    (fun _ s1 h1 => ⟨h1.1, h.grow ha hu hn hgp h1.2⟩)
  rintro _ s1 ⟨-, hg1, hpd⟩
  have h1 := h.grow ha hu hn hgp hg1
  have hn1 : s1.fs.get (env.loc ++ p) = some n := by rw [h1.loc]; exact hn
  have hpar : s1.fs.isDir (env.rem ++ p).dropLast = true := by
    refine (hway.grow hg1).isDir ?_
    rcases Option.eq_none_or_eq_some (s1.fs.get (env.rem ++ p).dropLast) with h3 | h3
    · obtain ⟨e, he⟩ := FS.stat_none h3
      unfold FS.pathIsDir at hpd
      rw [he] at hpd; cases hpd
    · exact h3
  have hcl := h1.tidy.clean hu hn1
  have hfin : ∀ s2 : OS, Sending env k f0 s2.fs →
      wp (if false = true then rmSrc (env.loc ++ p) else pure ()) (fun _ s' => Sending env k f0 s'.fs)
        (fun e s' => e = .killed ∧ Sending env k f0 s'.fs) s2 := by
    intro s2 h2
    rw [if_neg (by simp), wp_pure]
    exact h2
  rw [wp_bind]
  have hnd : ∀ y, s1.fs.get (env.rem ++ p) = some y → y.isLink = false ∧ y.isDir = n.isDir := by
    intro y hy
    refine ⟨?_, h1.tidy.kind p y n hu hy hn1⟩
    cases y with
    | link t m => exact absurd hy (h1.tidy.plain p t m hu)
    | _ => rfl
  cases n with
  | link t m => cases hnl
  | file c m b =>
    have hsp : Spot s1.fs (env.rem ++ p) := by
      refine ⟨h1.tidy.wf, hp0, hgp, hpar, ?_⟩
      cases hy : s1.fs.get (env.rem ++ p) with
      | none => unfold FS.isDir; rw [hy]; rfl
      | some y => rw [isDir_iff_false hy, (hnd y hy).2]; rfl
    refine wp_mono (wp_and (safe_copyEntry_file hsp hn1 (ha.ne p p) hcl)
      (wp_copyEntry_nondir hsp hn1 rfl (ha.ne p p) hcl)) ?_ ?_
    · rintro _ s2 ⟨-, h2, h3, h4⟩
      refine hfin s2 (h1.only ha hxr hu hn rfl h2.wf h3 ?_)
      intro y hy
      rw [h4] at hy; cases hy; exact ⟨rfl, rfl⟩
    · rintro e s2 ⟨he, h2, h3⟩
      refine ⟨he, h1.only ha hxr hu hn rfl h2.wf h3.only ?_⟩
      intro y hy
      rcases h3.kind with h4 | h4 | ⟨c', m', b', h4⟩ | ⟨h4, _⟩
      · rw [h4] at hy; exact hnd y hy
      · rw [h4] at hy; cases hy
      · rw [h4] at hy; cases hy; exact ⟨rfl, rfl⟩
      · cases h4
  | dir m b =>
    have hdd : s1.fs.get (env.rem ++ p) = none ∨ s1.fs.isDir (env.rem ++ p) = true := by
      cases hy : s1.fs.get (env.rem ++ p) with
      | none => exact Or.inl rfl
      | some y => right; rw [isDir_iff_false hy, (hnd y hy).2]; rfl
    have hback : ∀ n, s1.fs.stat ((env.rem ++ p) ++ [(env.loc ++ p).getLastD []]) ≠ .ok (env.loc ++ p, n) := by
      intro x hst
      rw [List.append_assoc] at hst
      generalize hqe : p ++ [(env.loc ++ p).getLastD []] = q at hst
      have huq : UserPath q := by
        rw [← hqe]
        refine ⟨by simp, ?_⟩
        cases p with
        | nil => exact absurd rfl hu.1
        | cons a p => exact hu.2
      cases hy : s1.fs.get (env.rem ++ q) with
      | none =>
        obtain ⟨e, he⟩ := FS.stat_none hy
        rw [he] at hst; cases hst
      | some y =>
        have hyl : y.isLink = false := by
          cases y with
          | link t m => exact absurd hy (h1.tidy.plain q t m huq)
          | _ => rfl
        rw [FS.stat_nonlink (h1.tidy.wf.pathErr hy) hy hyl] at hst
        simp only [Except.ok.injEq, Prod.mk.injEq] at hst
        exact ha.ne p q hst.1.symm
    have hl : ∀ t m, s1.fs.get (env.rem ++ p) ≠ some (.link t m) := fun t m => h1.tidy.plain p t m hu
    have made : ∀ {f : FS}, OnlyMakes (env.rem ++ p) s1.fs f → ∀ y, f.get (env.rem ++ p) = some y →
        y.isLink = false ∧ y.isDir = true := by
      intro f hm y hy
      rcases hdd with h2 | h2
      · rcases hm.2 h2 with h3 | h3
        · rw [hy] at h3; cases h3
        · rw [isDir_iff_false hy] at h3
          cases y with
          | dir => exact ⟨rfl, rfl⟩
          | _ => cases h3
      · obtain ⟨m', b', h2⟩ := FS.isDir_iff.1 h2
        rw [hm.1 _ h2] at hy
        cases hy
        exact ⟨rfl, rfl⟩
    refine wp_mono (wp_and (safe_copyEntry_dir h1.tidy.wf hgp hp0 hpar hn1 hdd (ha.ne p p) hback)
      (wp_copyEntry_dir h1.tidy.wf hgp hp0 hpar hn1 hl)) ?_ ?_
    · rintro _ s2 ⟨-, h2, h3, -, h4⟩
      exact hfin s2 (h1.only ha hxr hu hn rfl h2 h3 (made h4))
    · rintro e s2 ⟨he, h2, h3, h4⟩
      exact ⟨he, h1.only ha hxr hu hn rfl h2 h3 (made h4)⟩

theorem wp_transferAll_tidy {s : OS} {exclude : List Path} (h : Sending env k s.fs s.fs) (hgr : GoodPath env.rem)
    (hld : s.fs.isDir env.loc = true)
    (hin : ∀ p n, p ≠ [] → s.fs.get (env.loc ++ p) = some n → p ∉ exclude → UserPath p ∧ n.isLink = false) :
    wp (transferTree env.loc env.rem none exclude false) (fun _ s' => Sending env k s.fs s'.fs)
      (fun e s' => e = .killed ∧ Sending env k s.fs s'.fs) s := by
  obtain ⟨m, b, hlg⟩ := FS.isDir_iff.1 hld
  have hst := FS.stat_nonlink (h.tidy.wf.pathErr hlg) hlg rfl
  have hpe : s.fs.pathExists env.loc = true := by
    unfold FS.pathExists
    rw [hst]
  unfold transferTree
  rw [wp_bind, wp_ask, hpe, if_pos rfl, wp_bind, wp_query]
  have hlp : listPaths s.fs env.loc none = .ok ((s.fs.below env.loc).map Prod.fst) := by
    show scanTree s.fs env.loc = _
    unfold scanTree
    rw [hst]
    simp
  refine ⟨?_, fun e he => by rw [hlp] at he; cases he⟩
  intro ps hps
  rw [hlp] at hps
  cases hps
  refine wp_each' (fun s' : OS => Sending env k s.fs s'.fs) ?_ h
  intro p hp s' hs'
  rw [mem_descending, List.mem_filter, mem_keys_below h.tidy.wf] at hp
  obtain ⟨⟨h0, n, hn⟩, hx⟩ := hp
  obtain ⟨hu, hnl⟩ := hin p n h0 hn (by simpa using hx)
  exact wp_transferOne_tidy ha hxr hs' hgr hu hn hnl

end

/-! ### Making the links -/

/-- `_setup_dir` raises nothing if what is a directory on one side is one on the other. -/
theorem safe_setupDir {env : Env} {w : World} {un : List Path} (wf : w.os.fs.WF) (hld : w.os.fs.isDir env.loc = true)
    (hrd : w.os.fs.isDir env.rem = true) (hm : w.rmemo = [] ∨ w.rmemo = w.os.fs.below env.rem) (hdb : w.db = [])
    (hk : ∀ p n x, UserPath p → w.os.fs.get (env.rem ++ p) = some n → w.os.fs.get (env.loc ++ p) = some x →
      n.isDir = x.isDir) : Safe (setupDir env un) w := by
  unfold setupDir
  have key : ∀ memo, Safe (do
      let r := Scan.user (w.os.fs.below env.rem)
      let files := r.nonDirs.keys.filter (fun p => decide (p ∉ un))
      addLocal files r.dirs.keys false
      addRemote files r.dirs.keys
      let db ← gets World.db
      let _ ← sys (symlinkTree env.rem env.loc (ADB.paths (ALocal.getPaths db [] (some false) none))
        (ADB.paths (ALocal.getPaths db [] (some true) none)) true)
      pure ()) { w with rmemo := memo } := by
    intro memo
    dsimp only
    generalize hr : Scan.user (w.os.fs.below env.rem) = r
    have hmem : ∀ p n, (p, n) ∈ r ↔ w.os.fs.get (env.rem ++ p) = some n ∧ UserPath p := by
      intro p n; rw [← hr]; exact mem_user_below wf
    generalize hf : r.nonDirs.keys.filter (fun p => decide (p ∉ un)) = files
    have hfm : ∀ p, p ∈ files → (∃ n, w.os.fs.get (env.rem ++ p) = some n ∧ n.isDir = false) ∧ UserPath p := by
      intro p
      rw [← hf, List.mem_filter, mem_nonDirs_keys]
      simp only [hmem]
      rintro ⟨⟨n, ⟨h1, h2⟩, h3⟩, h4⟩
      exact ⟨⟨n, h1, h3⟩, h2⟩
    have hdm : ∀ p, p ∈ r.dirs.keys ↔ (∃ n, w.os.fs.get (env.rem ++ p) = some n ∧ n.isDir = true) ∧ UserPath p := by
      intro p
      rw [mem_dirs_keys]
      simp only [hmem]
      constructor
      · rintro ⟨n, ⟨h1, h2⟩, h3⟩; exact ⟨⟨n, h1, h3⟩, h2⟩
      · rintro ⟨⟨n, h1, h3⟩, h2⟩; exact ⟨n, ⟨h1, h2⟩, h3⟩
    have hex : ∀ p, p ∈ (batchOf files r.dirs.keys).map Prod.fst → UserPath p ∧ ∃ n, w.os.fs.get (env.rem ++ p) = some n := by
      intro p hp
      rcases map_fst_batchOf.1 hp with h | h
      · obtain ⟨⟨n, h1, _⟩, h2⟩ := hfm p h; exact ⟨h2, n, h1⟩
      · obtain ⟨⟨n, h1, _⟩, h2⟩ := (hdm p).1 h; exact ⟨h2, n, h1⟩
    unfold Safe addLocal addRemote
    rw [wp_bind, wp_modify, wp_bind, wp_bind, wp_sys, wp_time, wp_modify, wp_bind, wp_gets]
    dsimp only
    rw [hdb]
    generalize hrows : ALocal.addPaths [] (batchOf files r.dirs.keys) 0 false = rows
    have htyped : ∀ e ∈ rows, e.directory = w.os.fs.isDir (env.rem ++ e.path) := by
      rw [← hrows]
      refine typed_addPaths (τ := fun p => w.os.fs.isDir (env.rem ++ p)) (by simp) ?_ ?_
      · intro e he
        rcases mem_batchOf.1 he with ⟨h1, h2⟩ | ⟨h1, h2⟩
        · obtain ⟨⟨n, h3, h4⟩, _⟩ := hfm _ h1
          rw [h2, isDir_iff_false h3, h4]
        · obtain ⟨⟨n, h3, h4⟩, _⟩ := (hdm _).1 h1
          rw [h2, isDir_iff_false h3, h4]
      · intro p hp h0
        obtain ⟨hu, n, hn⟩ := hex p hp
        have := wf.parent hn (by simp [hu.1])
        rwa [List.dropLast_append_of_ne_nil hu.1] at this
    have hpaths : ∀ p, p ∈ ADB.paths rows ↔ p ∈ files ∨ p ∈ r.dirs.keys := by
      intro p
      rw [← hrows, mem_paths_addPaths, map_fst_batchOf]
      simp [ADB.paths]
    have hrow : ∀ p, p ∈ ADB.paths rows → UserPath p ∧ ∃ n, w.os.fs.get (env.rem ++ p) = some n := by
      intro p hp
      exact hex p (map_fst_batchOf.2 ((hpaths p).1 hp))
    have hin : ∀ p d, p ∈ ADB.paths (ALocal.getPaths rows [] (some d) none) →
        UserPath p ∧ ∃ n, w.os.fs.get (env.rem ++ p) = some n ∧ n.isDir = d := by
      intro p d hp
      obtain ⟨e, he, h1, h2⟩ := mem_getPaths_dir.1 hp
      obtain ⟨hu, n, hn⟩ := hrow p (List.mem_map.2 ⟨e, he, h1⟩)
      refine ⟨hu, n, hn, ?_⟩
      rw [← isDir_iff_false hn, ← h1, ← htyped e he, h2]
    have hdirs : ∀ p, UserPath p → w.os.fs.isDir (env.rem ++ p) = true →
        p ∈ ADB.paths (ALocal.getPaths rows [] (some true) none) := by
      intro p hu hd
      obtain ⟨m, b, hn⟩ := FS.isDir_iff.1 hd
      have hpr : p ∈ ADB.paths rows := (hpaths p).2 (Or.inr ((hdm p).2 ⟨⟨_, hn, rfl⟩, hu⟩))
      obtain ⟨e, he1, he2⟩ := List.mem_map.1 hpr
      exact mem_getPaths_dir.2 ⟨e, he1, he2, by rw [htyped e he1, he2]; exact hd⟩
    have hall : ∀ p, p ∈ ADB.paths (ALocal.getPaths rows [] (some true) none) ∨
        p ∈ ADB.paths (ALocal.getPaths rows [] (some false) none) →
        UserPath p ∧ ∃ n, w.os.fs.get (env.rem ++ p) = some n := by
      intro p hp
      rcases hp with h | h
      · obtain ⟨h1, n, h2, _⟩ := hin p _ h; exact ⟨h1, n, h2⟩
      · obtain ⟨h1, n, h2, _⟩ := hin p _ h; exact ⟨h1, n, h2⟩
    rw [wp_bind, wp_sys]
    refine wp_mono (safe_symlinkTree_over wf hld ?_ ?_ ?_) (fun _ _ _ => trivial) (fun _ _ h => h)
    · intro p hp
      obtain ⟨h1, n, h2⟩ := hall p hp
      exact ⟨h1.1, (goodPath_append.1 (wf.goodPath h2)).2⟩
    · intro p hp q hq hne h0
      obtain ⟨hu, n, hn⟩ := hall p hp
      have huq := hu.prefix hq h0
      have hqd : w.os.fs.isDir (env.rem ++ q) = true :=
        wf.isDir_prefix hn _ ((List.prefix_append_right_inj _).2 hq) (fun e => hne (List.append_cancel_left e))
      obtain ⟨m, b, hqg⟩ := FS.isDir_iff.1 hqd
      cases hx : w.os.fs.get (env.loc ++ q) with
      | none => exact Or.inr ⟨hdirs q huq hqd, rfl⟩
      | some x =>
        left
        rw [isDir_iff_false hx, ← hk q _ x huq hqg hx]; rfl
    · intro p hp _
      obtain ⟨hu, n, hn, hnd⟩ := hin p _ hp
      cases hx : w.os.fs.get (env.loc ++ p) with
      | none => unfold FS.isDir; rw [hx]; rfl
      | some x => rw [isDir_iff_false hx, ← hk p n x hu hn hx, hnd]
  refine Safe.scanRemote wf hrd ?_ ?_
  · intro h
    rcases hm with h1 | h1
    · exact absurd h1 h
    · have := key w.rmemo
      rw [h1]
      exact this
  · intro _
    exact key _

section
variable {env : Env} {k : Nat} {w : World}

theorem InitTidy.grow {fs fs' : FS} (h : InitTidy env k fs) (ha : Apart env.loc env.rem) (hg : GoodPath env.rem)
    (hgr : Grow (InitDirs env) fs fs') : InitTidy env k fs' := by
  have hwf : fs'.WF := by
    refine hgr.wf ?_ h.wf
    rintro q ⟨_, h1 | h1⟩
    · exact goodPath_of_prefix (goodPath_exclDir hg) h1
    · exact goodPath_of_prefix (goodPath_trash hg) h1
  have hr : ∀ p, UserPath p → fs'.get (env.rem ++ p) = fs.get (env.rem ++ p) :=
    fun p hu => hgr.get_eq (InitDirs.not_user hu)
  refine h.next hwf (fun n hn => hgr.keeps _ _ hn) (h.way_excl.grow hgr) (h.way_trash.grow hgr)
    (fun q => Or.inl (hgr.get_eq (InitDirs.not_loc ha q))) ?_ ?_ (fun q n _ hn _ => ⟨n, hgr.keeps _ _ hn⟩)
  · intro p t m hu
    rw [hr p hu]
    exact h.plain p t m hu
  · intro p n x hu
    rw [hr p hu]
    exact h.kind p n x hu

theorem InitTidy.setup {fs fs' : FS} (h : InitTidy env k fs) (ha : Apart env.loc env.rem) (hxl : ¬ env.loc <+: env.excl)
    (hf : SetupFrame env fs fs') : InitTidy env k fs' := by
  have hout : ∀ q, ¬ env.loc <+: q → fs'.get q = fs.get q := by
    intro q hq
    apply hf.other
    rintro p _ rfl
    exact absurd (List.prefix_append _ _) hq
  have hrem : ∀ q, fs'.get (env.rem ++ q) = fs.get (env.rem ++ q) := by
    intro q
    apply hout
    rintro ⟨t, ht⟩
    exact ha.ne t q ht
  have hway : ∀ r, WayTo fs (env.rem ++ r) → WayTo fs' (env.rem ++ r) := by
    intro r hw q hq
    have : fs'.get q = fs.get q := by
      apply hout
      intro h1
      have := ha.not_prefix [] r
      rw [List.append_nil] at this
      exact this (h1.trans hq)
    rw [this, FS.isDir_congr this]
    exact hw q hq
  have w1 := h.way_excl
  have w2 := h.way_trash
  rw [exclDir_eq] at w1
  rw [trash_eq] at w2
  refine h.next hf.wf (fun n hn => by rw [hout _ hxl]; exact hn) (by rw [exclDir_eq]; exact hway _ w1)
    (by rw [trash_eq]; exact hway _ w2) ?_ ?_ ?_ (fun q n _ hn _ => ⟨n, by rw [hrem]; exact hn⟩)
  · intro p
    rw [hrem p]
    by_cases hu : UserPath p
    · rcases Option.eq_none_or_eq_some (fs.get (env.rem ++ p)) with h1 | ⟨n, h1⟩
      · left
        apply hf.other
        intro p' _ he
        rw [← List.append_cancel_left he]
        exact h1
      · rcases hf.at_ p n hu h1 with h2 | h2 | h2
        · exact Or.inl h2
        · exact Or.inr ⟨hu, n, h1, Or.inl h2⟩
        · exact Or.inr ⟨hu, n, h1, Or.inr ⟨h2.1, h2.2.2⟩⟩
    · left
      apply hf.other
      intro p' hu' he
      rw [← List.append_cancel_left he] at hu'
      exact absurd hu' hu
  · intro p t m hu
    rw [hrem]
    exact h.plain p t m hu
  · intro p n x hu
    rw [hrem]
    exact h.kind p n x hu

theorem InitTidy.slot {fs fs' : FS} (h : InitTidy env k fs) (ha : Apart env.loc env.rem) (hxr : ¬ env.rem <+: env.excl)
    (hs : SlotOnly env fs fs') : InitTidy env k fs' := by
  have hloc : ∀ p, fs'.get (env.loc ++ p) = fs.get (env.loc ++ p) := by
    intro p
    apply hs.only
    rw [exclDir_eq, List.append_assoc]
    exact ha.ne _ _
  have hrem : ∀ p, UserPath p → fs'.get (env.rem ++ p) = fs.get (env.rem ++ p) := by
    intro p hu
    apply hs.only
    intro he
    refine (hu.not_prefix env (q := ["exclude".toList] ++ [env.id])) ?_
    rw [he]
    unfold Env.exclDir
    rw [List.append_assoc]
    exact List.prefix_refl _
  have hway : ∀ r, r.length < (env.exclDir ++ [env.id]).length → WayTo fs r → WayTo fs' r := by
    intro r hr hw q hq
    have : fs'.get q = fs.get q := by
      apply hs.only
      rintro rfl
      have := hq.length_le
      omega
    rw [this, FS.isDir_congr this]
    exact hw q hq
  refine h.next hs.wf ?_ (hway _ (by simp) h.way_excl) (hway _ (by rw [exclDir_eq, trash_eq]; simp) h.way_trash)
    (fun p => Or.inl (hloc p)) ?_ ?_ (fun p n hu hn _ => ⟨n, by rw [hrem p hu]; exact hn⟩)
  · intro n hn
    rw [hs.only]
    · exact hn
    · intro e
      apply hxr
      rw [e, exclDir_eq, List.append_assoc]
      exact List.prefix_append _ _
  · intro p t m hu
    rw [hrem p hu]
    exact h.plain p t m hu
  · intro p n x hu
    rw [hrem p hu]
    exact h.kind p n x hu

theorem safe_initTail {s : World} (wf : s.os.fs.WF) (hd : s.os.fs.isDir env.exclDir = true)
    (hslot : ∀ n, s.os.fs.get (env.exclDir ++ [env.id]) = some n → ∃ c m b, n = .file c m b)
    (hx : ∃ c m b, s.os.fs.get env.excl = some (.file c m b)) (hne : env.excl ≠ env.exclDir ++ [env.id]) :
    Safe (initTail env) s := by
  unfold initTail
  refine Safe.then (Safe.sys (safe_addExcludeFile wf hd hslot hx hne)) (fun _ s1 => ?_)
  refine Safe.then safe_save (fun _ s2 => ?_)
  refine Safe.then (m := sys time) trivial (fun _ s3 => ?_)
  refine Safe.then (m := modify _) trivial (fun _ s4 => ?_)
  exact Safe.then safe_save (fun _ s5 => safe_save)

theorem wayTo_made {s s' : OS} {p : Path} (hw : WayTo s.fs p) (hg : Grow (fun q => q ≠ [] ∧ q <+: p) s.fs s'.fs)
    (hd : s'.fs.pathIsDir p = true) : s'.fs.isDir p = true := by
  refine (hw.grow hg).isDir ?_
  rcases Option.eq_none_or_eq_some (s'.fs.get p) with h3 | h3
  · obtain ⟨e, he⟩ := FS.stat_none h3
    unfold FS.pathIsDir at hd
    rw [he] at hd; cases hd
  · exact h3

/-- An initialisation from local files raises nothing, and what is assumed stays true at every point. -/
theorem wp_init_tidy (h : InitReady env w) (hxl : ¬ env.loc <+: env.excl) (hxr : ¬ env.rem <+: env.excl)
    (ht : InitTidy env k w.os.fs) :
    wp (init env false) (fun _ w' => InitTidy env k w'.os.fs) (fun e w' => e = .killed ∧ InitTidy env k w'.os.fs) w := by
  obtain ⟨lm, lb, hlg⟩ := FS.isDir_iff.1 h.loc_dir
  have hgl : GoodPath env.loc := h.wf.goodPath hlg
  have hge := goodPath_exclDir h.rem_good
  have hgt := goodPath_trash h.rem_good
  have hd1 : ∀ q, q ≠ [] ∧ q <+: env.exclDir → InitDirs env q := fun q hq => ⟨hq.1, Or.inl hq.2⟩
  have hd2 : ∀ q, q ≠ [] ∧ q <+: env.trash → InitDirs env q := fun q hq => ⟨hq.1, Or.inr hq.2⟩
  unfold init
  rw [wp_bind, wp_sys]
  refine wp_mono (wp_and (safe_makedirs h.wf h.loc_dir) (wp_makedirs_dir h.wf hlg)) ?_ ?_
  swap
  · rintro e s ⟨h1, h2, _⟩
    refine ⟨h1, ?_⟩
    show InitTidy env k s.fs
    rw [h2]; exact ht
  rintro _ s0 ⟨-, hs0⟩
  have ht0 : InitTidy env k s0.fs := by rw [hs0]; exact ht
  rw [wp_bind, wp_sys]
  refine wp_mono (wp_and (safe_makedirs_way ht0.wf hge ht0.way_excl) (wp_makedirs _ _)) ?_
    (fun e s1 h1 => ⟨h1.1, ht0.grow h.apart h.rem_good (h1.2.mono hd1)⟩)
  rintro _ s1 ⟨-, hg1, hp1⟩
  have ht1 := ht0.grow h.apart h.rem_good (hg1.mono hd1)
  have hx1 := wayTo_made ht0.way_excl hg1 hp1
  rw [wp_bind, wp_sys]
  refine wp_mono (wp_and (safe_makedirs_way ht1.wf hgt ht1.way_trash) (wp_makedirs _ _)) ?_
    (fun e s2 h2 => ⟨h2.1, ht1.grow h.apart h.rem_good (h2.2.mono hd2)⟩)
  rintro _ s2 ⟨-, hg2, hp2⟩
  have ht2 := ht1.grow h.apart h.rem_good (hg2.mono hd2)
  have hx2 : s2.fs.isDir env.exclDir = true := by
    obtain ⟨m, b, h1⟩ := FS.isDir_iff.1 hx1
    exact FS.isDir_iff.2 ⟨m, b, hg2.keeps _ _ h1⟩
  have hgall : Grow (InitDirs env) w.os.fs s2.fs := by
    rw [← hs0]
    exact (hg1.mono hd1).trans (hg2.mono hd2)
  have hloc2 : ∀ p, s2.fs.get (env.loc ++ p) = w.os.fs.get (env.loc ++ p) :=
    fun p => hgall.get_eq (InitDirs.not_loc h.apart p)
  have hld2 : s2.fs.isDir env.loc = true := FS.isDir_iff.2 ⟨lm, lb, hgall.keeps _ _ hlg⟩
  obtain ⟨em, eb, hexg⟩ := ht2.excl
  have hstat2 : s2.fs.stat env.excl = .ok (env.excl, .file k em eb) := FS.stat_nonlink (ht2.wf.pathErr hexg) hexg rfl
  rw [if_neg (by simp)]
  show wp (setupFromLocal env >>= fun _ => initTail env) _ _ _
  rw [wp_bind]
  unfold setupFromLocal
  rw [wp_bind]
  refine wp_mono (wp_and (safe_scanLocal ht2.wf hld2) (wp_scanLocal (E := fun _ w' => InitTidy env k w'.os.fs)
    (Q := fun l w' => l = s2.fs.below env.loc ∧ w' = { w with os := s2, lmemo := s2.fs.below env.loc })
    (fun hm => absurd h.lmemo hm) (fun _ => ⟨rfl, rfl⟩) (fun _ => ht2))) ?_ (fun _ _ h => h)
  rintro _ _ ⟨-, rfl, rfl⟩
  rw [wp_bind]
  have hfol : Followable s2.fs env.loc (env.patsOf k) := by
    intro p n h0 hn hpat
    left
    cases n with
    | file c m b => exact ⟨_, FS.stat_nonlink (ht2.wf.pathErr hn) hn rfl⟩
    | dir m b => exact ⟨_, FS.stat_nonlink (ht2.wf.pathErr hn) hn rfl⟩
    | link t m =>
      rcases (ht2.link p t m h0 hn).2 with h1 | ⟨hu, rfl, n, h1⟩
      · rw [hpat] at h1; cases h1
      · refine stat_own ht2.wf hn (fun t' m' e => by cases e; rfl) (fun _ => ⟨n, h1, ?_⟩)
        cases n with
        | link t m => exact absurd h1 (ht2.plain p t m hu)
        | _ => rfl
  refine wp_mono (wp_and (safe_exclMatches (w := { w with os := s2, lmemo := s2.fs.below env.loc }) ht2.wf hexg hfol)
    (wp_exclMatches (E := fun _ w' => InitTidy env k w'.os.fs)
    (Q := fun l w' => l = allMatches (env.patsOf k) ((s2.fs.below env.loc).map Prod.fst) ∧
      w' = { w with os := s2, lmemo := s2.fs.below env.loc, matches_ := some l })
    ?_ ?_ (fun _ => ht2))) ?_ (fun _ _ h => h)
  · intro l hl
    have : (none : Option (List Path)) = some l := h.fresh.symm.trans hl
    cases this
  · intro _ q k' m b hst
    dsimp only at hst ⊢
    rw [hstat2] at hst
    cases hst
    exact ⟨rfl, rfl⟩
  rintro ex _ ⟨-, hex, rfl⟩
  rw [wp_bind, wp_sys]
  dsimp only
  have hsend : Sending env k s2.fs s2.fs := ⟨ht2, hx2, fun _ => rfl, rfl⟩
  apply wp_orRemote
  refine wp_mono (wp_transferAll_tidy h.apart hxr hsend h.rem_good hld2 ?_) ?_ ?_
  · intro p n h0 hn hx
    refine ⟨h.userPath h0 (by rw [← hloc2]; exact hn), ?_⟩
    cases n with
    | link t m =>
      exfalso
      apply hx
      rw [List.mem_append]
      rcases (ht2.link p t m h0 hn).1 with ⟨q, h1, h2, h3⟩ | h1
      · left
        rw [hex, mem_allMatches_fs ht2.wf]
        obtain ⟨g, hg, h4⟩ := List.any_eq_true.1 h3
        exact ⟨h0, ⟨_, hn⟩, q, h1, h2, g, hg, h4⟩
      · right
        rw [mem_unsafeLinks ht2.wf hgl]
        exact ⟨h0, _, hn, h1⟩
    | _ => rfl
  swap
  · rintro e s3 ⟨rfl, h1⟩
    exact ⟨⟨rfl, h1.tidy⟩, fun h => by cases h⟩
  intro _ s3 h3
  have hld3 : s3.fs.isDir env.loc = true := by
    have := h3.loc []
    rw [List.append_nil] at this
    rw [FS.isDir_congr this]; exact hld2
  refine wp_mono (wp_and (safe_setupDir (w := { w with
      os := s3, lmemo := s2.fs.below env.loc, matches_ := some ex }) h3.tidy.wf hld3 h3.rem_dir (Or.inl h.rmemo) h.rows
      h3.tidy.kind) (wp_setupDir (w := { w with
      os := s3, lmemo := s2.fs.below env.loc, matches_ := some ex }) h3.tidy.wf hld3 (Or.inl h.rmemo) h.rows)) ?_
    (fun e w' h1 => ⟨h1.1, h3.tidy.setup h.apart hxl h1.2.1⟩)
  rintro _ w4 ⟨-, hf, -, -⟩
  have ht4 := h3.tidy.setup h.apart hxl hf
  have hout : ∀ q, env.rem <+: q → w4.os.fs.get q = s3.fs.get q := by
    rintro _ ⟨t, rfl⟩
    apply hf.other
    intro p _ he
    exact absurd he.symm (h.apart.ne _ _)
  have hx4 : w4.os.fs.isDir env.exclDir = true := by
    rw [FS.isDir_congr (hout _ (by rw [exclDir_eq]; exact List.prefix_append _ _))]
    exact h3.dir
  have hsl4 : ∀ n, w4.os.fs.get (env.exclDir ++ [env.id]) = some n → ∃ c m b, n = .file c m b := by
    intro n hn
    rw [hout _ (by rw [exclDir_eq, List.append_assoc]; exact List.prefix_append _ _), h3.slot,
      hgall.get_eq InitDirs.not_slot] at hn
    exact h.slot n hn
  have hne : env.excl ≠ env.exclDir ++ [env.id] := by
    intro e
    apply hxr
    rw [e, exclDir_eq, List.append_assoc]
    exact List.prefix_append _ _
  obtain ⟨m4, b4, hex4⟩ := ht4.excl
  refine wp_mono (wp_and (safe_initTail ht4.wf hx4 hsl4 ⟨_, _, _, hex4⟩ hne)
    (wp_initTail ht4.wf (goodPath_append.2 ⟨hge, h.id_good⟩) hsl4)) ?_ ?_
  · rintro _ w5 ⟨-, h5, -⟩
    exact ht4.slot h.apart hxr h5
  · rintro e w5 ⟨he, h5, -⟩
    exact ⟨he, ht4.slot h.apart hxr h5⟩

end

end Verif
