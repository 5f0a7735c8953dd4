import Verif.FSTools
import Verif.CallLemmas
/-
What copying one entry does to the file system.
-/
namespace Verif
open Prog OSM Call FSTools

/-- A path in a directory at which there is no directory. -/
structure Spot (fs : FS) (p : Path) : Prop where
  wf : fs.WF
  ne : p ≠ []
  good : GoodPath p
  parent : fs.isDir p.dropLast = true
  nodir : fs.isDir p = false

/-- Only `p` has changed. -/
def OnlyAt (p : Path) (fs fs' : FS) : Prop := ∀ q, q ≠ p → fs'.get q = fs.get q

theorem OnlyAt.refl (p : Path) (fs : FS) : OnlyAt p fs fs := fun _ _ => rfl

theorem OnlyAt.trans {p : Path} {a b c : FS} (h1 : OnlyAt p a b) (h2 : OnlyAt p b c) : OnlyAt p a c :=
  fun q hq => (h2 q hq).trans (h1 q hq)

theorem OnlyAt.set (p : Path) (fs : FS) (n : Node) : OnlyAt p fs (fs.set p n) :=
  fun _ hq => FS.get_set_ne fs hq n

theorem OnlyAt.rm (p : Path) (fs : FS) : OnlyAt p fs (fs.rm p) := fun _ hq => FS.get_rm_ne fs hq

/-- Only `p` has changed, to something that an interrupted copy of `n` can leave. -/
structure Part (n : Node) (p : Path) (fs fs' : FS) : Prop where
  only : OnlyAt p fs fs'
  kind : fs'.get p = fs.get p ∨ fs'.get p = none ∨ (∃ c m b, fs'.get p = some (.file c m b)) ∨
    (n.isLink = true ∧ ∃ t m, fs'.get p = some (.link t m))

theorem Part.refl (n : Node) (p : Path) (fs : FS) : Part n p fs fs := ⟨OnlyAt.refl _ _, Or.inl rfl⟩

theorem Part.trans {n : Node} {p : Path} {a b c : FS} (h1 : Part n p a b) (h2 : Part n p b c) : Part n p a c := by
  refine ⟨h1.only.trans h2.only, ?_⟩
  rcases h2.kind with h | h
  · rw [h]; exact h1.kind
  · exact Or.inr h

theorem Part.of_file {n : Node} {p : Path} {a b : FS} (h : OnlyAt p a b) {c : Nat} {m : Int} {k : Nat}
    (hg : b.get p = some (.file c m k)) : Part n p a b := ⟨h, Or.inr (Or.inr (Or.inl ⟨_, _, _, hg⟩))⟩

theorem Part.of_none {n : Node} {p : Path} {a b : FS} (h : OnlyAt p a b) (hg : b.get p = none) : Part n p a b :=
  ⟨h, Or.inr (Or.inl hg)⟩

theorem Part.of_link {n : Node} {p : Path} {a b : FS} (h : OnlyAt p a b) (hn : n.isLink = true) {t : Str} {m : Int}
    (hg : b.get p = some (.link t m)) : Part n p a b := ⟨h, Or.inr (Or.inr (Or.inr ⟨hn, _, _, hg⟩))⟩

theorem Spot.pathErr {fs : FS} {p : Path} (h : Spot fs p) : fs.pathErr p = none := by
  rw [FS.pathErr_none_iff]
  intro q hq hne
  by_cases he : q = p.dropLast
  · subst he; exact h.parent
  · obtain ⟨m, b, hg⟩ := FS.isDir_iff.1 h.parent
    exact h.wf.isDir_prefix hg q (FS.prefix_dropLast hq hne) he

theorem Spot.set {fs : FS} {p : Path} (h : Spot fs p) {n : Node} (hn : n.isDir = false) :
    Spot (fs.set p n) p := by
  refine ⟨h.wf.set h.ne h.good h.parent (Or.inr fun q hq hne => h.wf.none_below h.nodir hq hne), h.ne,
    h.good, ?_, ?_⟩
  · rw [FS.isDir_congr (FS.get_set_ne fs (FS.dropLast_proper h.ne).2 n)]; exact h.parent
  · unfold FS.isDir; rw [FS.get_set_self fs h.ne]; simpa using hn

theorem Spot.rm {fs : FS} {p : Path} (h : Spot fs p) : Spot (fs.rm p) p := by
  refine ⟨h.wf.rm (fun q hq hne => h.wf.none_below h.nodir hq hne), h.ne, h.good, ?_, ?_⟩
  · rw [FS.isDir_congr (FS.get_rm_ne fs (FS.dropLast_proper h.ne).2)]; exact h.parent
  · unfold FS.isDir; rw [FS.get_rm_self fs h.ne]; rfl

theorem Spot.of_get {fs : FS} (w : fs.WF) {p : Path} {n : Node} (h : fs.get p = some n)
    (hn : n.isDir = false) : Spot fs p := by
  have hp : p ≠ [] := by rintro rfl; simp at h; subst h; simp [Node.isDir] at hn
  exact ⟨w, hp, w.goodPath h, w.parent h hp, by unfold FS.isDir; rw [h]; simpa using hn⟩

namespace Call

/-- The file has been copied, or the copy was interrupted and only `dst` has changed. -/
theorem wp_copyFile (c : Nat) (m : Int) (b : Nat) {dst : Path} {s : OS} (h : Spot s.fs dst)
    (hl : ∀ t m, s.fs.get dst ≠ some (.link t m)) :
    wp (copyFile c m b dst)
      (fun _ s' => Spot s'.fs dst ∧ OnlyAt dst s.fs s'.fs ∧ s'.fs.get dst = some (.file c m b))
      (fun e s' => e = .killed ∧ Spot s'.fs dst ∧ Part (.file c m b) dst s.fs s'.fs) s := by
  unfold copyFile
  rw [wp_bind, wp_query]
  have hf : s.fs.follow 40 dst = .ok dst := FS.follow_nonlink h.pathErr hl 39
  refine ⟨?_, fun e he => by rw [hf] at he; cases he⟩
  intro q hq
  rw [hf] at hq
  cases hq
  rw [wp_bind]
  have k1 : (match s.fs.get dst with
      | some (.dir ..) => Except.error Err.isDir
      | some (.link ..) => .error .loop
      | _ => .ok (s.fs.set dst (.file 0 (s.clk s.tick) 0))) =
        .ok (s.fs.set dst (.file 0 (s.clk s.tick) 0)) := by
    cases hg : s.fs.get dst with
    | none => rfl
    | some n =>
      cases n with
      | file => rfl
      | dir m b =>
        have := h.nodir
        rw [FS.isDir_iff.2 ⟨_, _, hg⟩] at this; cases this
      | link t m => exact absurd hg (hl t m)
  apply wp_op
  · exact ⟨rfl, h, Part.refl _ _ _⟩
  · intro f1 h1
    have e1 : f1 = s.fs.set dst (.file 0 (s.clk s.tick) 0) := by
      have := h1.symm.trans k1
      cases this; rfl
    have s1 : Spot f1 dst := by rw [e1]; exact h.set rfl
    have o1 : OnlyAt dst s.fs f1 := by rw [e1]; exact OnlyAt.set _ _ _
    have g1 : f1.get dst = some (.file 0 (s.clk s.tick) 0) := by rw [e1]; exact FS.get_set_self _ h.ne _
    rw [wp_bind]
    apply wp_op
    · exact ⟨rfl, s1, Part.of_file o1 g1⟩
    · intro f2 h2
      have e2 : ∃ now, f2 = f1.set dst (.file c now b) := by
        change (match f1.get dst with | some n => _ | none => _) = _ at h2
        rw [g1] at h2
        cases h2; exact ⟨_, rfl⟩
      obtain ⟨now, e2⟩ := e2
      have s2 : Spot f2 dst := by rw [e2]; exact s1.set rfl
      have o2 : OnlyAt dst s.fs f2 := by rw [e2]; exact o1.trans (OnlyAt.set _ _ _)
      have g2 : f2.get dst = some (.file c now b) := by rw [e2]; exact FS.get_set_self _ h.ne _
      apply wp_op
      · exact ⟨rfl, s2, Part.of_file o2 g2⟩
      · intro f3 h3
        have e3 : f3 = f2.set dst (.file c m b) := by
          change (match f2.get dst with | some n => _ | none => _) = _ at h3
          rw [g2] at h3
          dsimp only at h3
          cases h3
          rfl
        refine ⟨?_, ?_, ?_⟩
        · show Spot f3 dst; rw [e3]; exact s2.set rfl
        · show OnlyAt dst s.fs f3; rw [e3]; exact o2.trans (OnlyAt.set _ _ _)
        · show f3.get dst = _; rw [e3]; exact FS.get_set_self _ h.ne _
      · intro e he
        exfalso
        change (match f2.get dst with | some n => _ | none => _) = _ at he
        rw [g2] at he
        cases he
    · intro e he
      exfalso
      change (match f1.get dst with | some n => _ | none => _) = _ at he
      rw [g1] at he
      cases he
  · intro e he
    have := he.symm.trans k1
    cases this

/-- The same for a link. -/
theorem wp_copyLink (t : Str) (m : Int) {dst : Path} {s : OS} (h : Spot s.fs dst) :
    wp (copyLink t m dst)
      (fun _ s' => Spot s'.fs dst ∧ OnlyAt dst s.fs s'.fs ∧ s'.fs.get dst = some (.link t m))
      (fun e s' => Spot s'.fs dst ∧ Part (.link t m) dst s.fs s'.fs ∧
        (e = .killed ∨ (e = .exists_ ∧ s'.fs = s.fs ∧ ∃ n, s.fs.get dst = some n))) s := by
  unfold copyLink
  rw [wp_bind]
  apply wp_op
  · exact ⟨h, Part.refl _ _ _, Or.inl rfl⟩
  · intro f1 h1
    obtain ⟨_, h0, e1⟩ := FS.create_ok h1
    have s1 : Spot f1 dst := by rw [e1]; exact h.set rfl
    have o1 : OnlyAt dst s.fs f1 := by rw [e1]; exact OnlyAt.set _ _ _
    have key : (match f1.get dst with
        | some n => Except.ok (f1.set dst (n.touch m))
        | none => Except.error Err.notFound) = .ok (f1.set dst (.link t m)) := by
      rw [e1, FS.get_set_self _ h.ne]; rfl
    apply wp_op
    · exact ⟨s1, Part.of_link o1 rfl (by rw [e1]; exact FS.get_set_self _ h.ne _), Or.inl rfl⟩
    · intro f2 h2
      have e2 : f2 = f1.set dst (.link t m) := by
        have := h2.symm.trans key
        cases this; rfl
      refine ⟨?_, ?_, ?_⟩
      · show Spot f2 dst; rw [e2]; exact s1.set rfl
      · show OnlyAt dst s.fs f2; rw [e2]; exact o1.trans (OnlyAt.set _ _ _)
      · show f2.get dst = _; rw [e2]; exact FS.get_set_self _ h.ne _
    · intro e he
      have := he.symm.trans key
      cases this
  · intro e he
    refine ⟨h, Part.refl _ _ _, Or.inr ?_⟩
    cases hg : s.fs.get dst with
    | none =>
      have := he.symm.trans (FS.create_isSome h.pathErr hg)
      cases this
    | some n =>
      have h1 : s.fs.symlink t dst (s.clk s.tick) = .error .exists_ := by
        unfold FS.symlink FS.create
        rw [FS.lstat_ok_iff.2 ⟨h.pathErr, hg⟩]
      have := he.symm.trans h1
      cases this
      exact ⟨rfl, rfl, n, rfl⟩

end Call

/-! ### One entry of `transfer_tree` -/

/-- The destination of a copy is as expected: missing, a file, a directory if the source is one, or,
if the source is no directory, a link: to the source, or any link if the source is a link too. -/
def Clean (fs : FS) (src dst : Path) : Prop :=
  match fs.get dst with
  | none => True
  | some (.file ..) => True
  | some (.dir ..) => fs.isDir src = true
  | some (.link t _) => fs.isDir src = false ∧
      (FS.linkDest dst t = src ∨ ∃ t' m', fs.get src = some (.link t' m'))

/-- Nothing is in the way if nothing is there. -/
theorem clean_of_none {fs : FS} {src dst : Path} (h : fs.get dst = none) : Clean fs src dst := by
  unfold Clean; rw [h]; trivial

theorem Clean.congr {fs fs' : FS} {src dst : Path} (h : Clean fs src dst) (hs : fs'.get src = fs.get src)
    (hd : fs'.get dst = fs.get dst) : Clean fs' src dst := by
  unfold Clean at h ⊢
  rw [hd, hs, FS.isDir_congr hs]
  exact h

/-- `src` has been copied to `dst`. -/
def Copied (n : Node) (fs' : FS) (dst : Path) : Prop :=
  match n with
  | .dir .. => fs'.isDir dst = true
  | n => fs'.get dst = some n

/-- `stat` of something that is neither a directory nor a link. -/
theorem Spot.stat {fs : FS} {dst : Path} (w : Spot fs dst) (hl : ∀ t m, fs.get dst ≠ some (.link t m))
    {q : Path} {n : Node} (h : fs.stat dst = .ok (q, n)) : q = dst ∧ n.isDir = false := by
  cases hg : fs.get dst with
  | none => obtain ⟨e, he⟩ := FS.stat_none hg; rw [he] at h; cases h
  | some n' =>
    have hnl : n'.isLink = false := by
      cases n' with
      | link t m => exact absurd hg (hl t m)
      | _ => rfl
    rw [FS.stat_nonlink w.pathErr hg hnl] at h
    cases h
    refine ⟨rfl, ?_⟩
    have := w.nodir
    unfold FS.isDir at this
    rw [hg] at this
    simpa using this

theorem Spot.pathIsDir {fs : FS} {dst : Path} (w : Spot fs dst) (hl : ∀ t m, fs.get dst ≠ some (.link t m)) :
    fs.pathIsDir dst = false := by
  unfold FS.pathIsDir
  split
  · rename_i q n h; exact (w.stat hl h).2
  · rfl

theorem wp_copy2_file {src dst : Path} {s : OS} {c : Nat} {m : Int} {b : Nat} (w : Spot s.fs dst)
    (hs : s.fs.get src = some (.file c m b)) (hne : src ≠ dst)
    (hl : ∀ t m, s.fs.get dst ≠ some (.link t m)) :
    wp (copy2 src dst)
      (fun _ s' => Spot s'.fs dst ∧ OnlyAt dst s.fs s'.fs ∧ s'.fs.get dst = some (.file c m b))
      (fun e s' => e = .killed ∧ Spot s'.fs dst ∧ Part (.file c m b) dst s.fs s'.fs) s := by
  have hstat : s.fs.stat src = .ok (src, .file c m b) := FS.stat_nonlink (w.wf.pathErr hs) hs rfl
  have hsame : sameFile s.fs src dst = false := by
    unfold sameFile
    rw [hstat]
    cases h : s.fs.stat dst with
    | error e => rfl
    | ok r =>
      obtain ⟨q, n⟩ := r
      have := (w.stat hl h).1
      subst this
      simpa using hne
  unfold copy2
  rw [wp_bind, wp_ask, w.pathIsDir hl]
  simp only [Bool.false_eq_true, if_false]
  unfold copyTo
  rw [wp_bind, wp_ask, hsame]
  simp only [Bool.false_eq_true, if_false]
  rw [wp_bind, wp_ask, hstat, w.wf.lstat_iff.2 hs]
  exact wp_copyFile c m b w hl

/-- Copying a link to a place that is not a directory. -/
theorem wp_copy2_link {src dst : Path} {s : OS} {t : Str} {m : Int} (w : Spot s.fs dst)
    (hs : s.fs.get src = some (.link t m)) :
    wp (copy2 src dst)
      (fun _ s' => Spot s'.fs dst ∧ OnlyAt dst s.fs s'.fs ∧ s'.fs.get dst = some (.link t m))
      (fun e s' => Spot s'.fs dst ∧ Part (.link t m) dst s.fs s'.fs ∧
        (e = .killed ∨ s'.fs = s.fs ∧ ((e = .exists_ ∨ e = .sameFile) ∧ (∃ n, s.fs.get dst = some n) ∨
          e = .notDir))) s := by
  unfold copy2
  rw [wp_bind, wp_ask]
  split
  · rename_i hb
    -- `dst` leads to a directory, so it is a link
    have hl : ∃ t' m', s.fs.get dst = some (.link t' m') := by
      apply Classical.byContradiction
      intro hno
      rw [w.pathIsDir (fun t' m' h => hno ⟨t', m', h⟩)] at hb
      cases hb
    obtain ⟨t', m', hl⟩ := hl
    have hpe : ∀ c, s.fs.pathErr (dst ++ [c]) = some .notDir := by
      intro c
      unfold FS.pathErr
      have h1 : (List.range (dst ++ [c]).length).map (dst ++ [c]).take =
          (List.range dst.length).map dst.take ++ [dst] := by
        rw [List.length_append, List.length_singleton, List.range_succ, List.map_append]
        congr 1
        · apply List.map_congr_left
          intro k hk
          rw [List.mem_range] at hk
          rw [List.take_append_of_le_length (by omega)]
        · simp
      rw [h1, List.findSome?_append]
      have h2 := w.pathErr
      unfold FS.pathErr at h2
      rw [h2]
      simp [hl]
    have hst : ∀ c, s.fs.stat (dst ++ [c]) = .error .notDir := by
      intro c
      unfold FS.stat
      rw [FS.follow]
      simp [hpe c]
    unfold copyTo
    have hsame : sameFile s.fs src (dst ++ [src.getLastD []]) = false := by
      unfold sameFile
      rw [hst]
      split
      · rename_i h; cases h
      · rfl
    rw [wp_bind, wp_ask, hsame]
    simp only [Bool.false_eq_true, if_false]
    rw [wp_bind, wp_ask, w.wf.lstat_iff.2 hs]
    unfold copyLink
    rw [wp_bind]
    have key : s.fs.symlink t (dst ++ [src.getLastD []]) (s.clk s.tick) = .error .notDir := by
      unfold FS.symlink FS.create FS.lstat
      rw [hpe]
    apply wp_op
    · exact ⟨w, Part.refl _ _ _, Or.inl rfl⟩
    · intro fs' h
      have := h.symm.trans key
      cases this
    · intro e he
      have := he.symm.trans key
      cases this
      exact ⟨w, Part.refl _ _ _, Or.inr ⟨rfl, Or.inr rfl⟩⟩
  · rename_i hb
    unfold copyTo
    rw [wp_bind, wp_ask]
    split
    · rename_i hsame
      rw [wp_throw]
      refine ⟨w, Part.refl _ _ _, Or.inr ⟨rfl, Or.inl ⟨Or.inr rfl, ?_⟩⟩⟩
      cases hg : s.fs.get dst with
      | some n => exact ⟨n, rfl⟩
      | none =>
        exfalso
        obtain ⟨e, he⟩ := FS.stat_none hg
        unfold sameFile at hsame
        rw [he] at hsame
        split at hsame
        · rename_i h; cases h
        · cases hsame
    · rw [wp_bind, wp_ask, w.wf.lstat_iff.2 hs]
      refine wp_mono (wp_copyLink t m w) (fun _ _ h => h) ?_
      rintro e s' ⟨h1, h2, h3⟩
      refine ⟨h1, h2, h3.imp id ?_⟩
      rintro ⟨rfl, h4, h5⟩
      exact ⟨h4, Or.inl ⟨Or.inl rfl, h5⟩⟩

/-! ### `copyEntry` -/

/-- Removing `dst` and copying again, for a source that is no directory. -/
theorem wp_recopy {src dst : Path} {s : OS} {n : Node} (w : Spot s.fs dst)
    (hs : s.fs.get src = some n) (hn : n.isDir = false) (hne : src ≠ dst) :
    wp (do remove dst; copy2 src dst)
      (fun _ s' => Spot s'.fs dst ∧ OnlyAt dst s.fs s'.fs ∧ s'.fs.get dst = some n)
      (fun _ s' => Spot s'.fs dst ∧ Part n dst s.fs s'.fs) s := by
  rw [wp_bind]
  apply wp_op
  · exact ⟨w, Part.refl _ _ _⟩
  · intro f1 h1
    obtain ⟨_, _, _, _, e1⟩ := FS.remove_ok h1
    have s1 : Spot f1 dst := by rw [e1]; exact w.rm
    have o1 : OnlyAt dst s.fs f1 := by rw [e1]; exact OnlyAt.rm _ _
    have g1 : f1.get dst = none := by rw [e1]; exact FS.get_rm_self _ w.ne
    have hs1 : f1.get src = some n := by rw [o1 src hne]; exact hs
    cases n with
    | dir m b => cases hn
    | file c m b =>
      refine wp_mono (wp_copy2_file (s := OSM.OS.next s f1) s1 hs1 hne (fun t m h => by
        change f1.get dst = _ at h; rw [g1] at h; cases h)) ?_ ?_
      · rintro _ s' ⟨h2, h3, h4⟩
        exact ⟨h2, o1.trans h3, h4⟩
      · rintro _ s' ⟨_, h2, h3⟩
        exact ⟨h2, (Part.of_none o1 g1).trans h3⟩
    | link t m =>
      refine wp_mono (wp_copy2_link (s := OSM.OS.next s f1) s1 hs1) ?_ ?_
      · rintro _ s' ⟨h2, h3, h4⟩
        exact ⟨h2, o1.trans h3, h4⟩
      · rintro _ s' ⟨h2, h3, _⟩
        exact ⟨h2, (Part.of_none o1 g1).trans h3⟩
  · intro e _
    exact ⟨w, Part.refl _ _ _⟩

theorem wp_copyEntry_nondir {src dst : Path} {s : OS} {n : Node} (w : Spot s.fs dst)
    (hs : s.fs.get src = some n) (hn : n.isDir = false) (hne : src ≠ dst) (hc : Clean s.fs src dst) :
    wp (copyEntry src dst)
      (fun _ s' => Spot s'.fs dst ∧ OnlyAt dst s.fs s'.fs ∧ s'.fs.get dst = some n)
      (fun _ s' => Spot s'.fs dst ∧ Part n dst s.fs s'.fs) s := by
  unfold copyEntry
  rw [wp_tryCatch]
  cases n with
  | dir m b => cases hn
  | link t m =>
    refine wp_mono (wp_copy2_link w hs) (fun _ _ h => h) ?_
    rintro e s1 ⟨h1, h2, h3⟩
    split
    · exact ⟨h1, h2⟩
    · rename_i hk
      rcases h3 with h3 | ⟨he, h3⟩
      · exact absurd h3 hk
      · rcases h3 with ⟨h3, _⟩ | h3
        · have hre : copyFailed src dst e = some (do remove dst; copy2 src dst) := by
            rcases h3 with rfl | rfl <;> rfl
          rw [hre]
          dsimp only
          refine wp_mono (wp_recopy h1 (by rw [he]; exact hs) rfl hne) ?_ ?_
          · rintro _ s' ⟨h4, h5, h6⟩; exact ⟨h4, h2.only.trans h5, h6⟩
          · rintro _ s' ⟨h4, h5⟩; exact ⟨h4, h2.trans h5⟩
        · subst h3
          exact ⟨h1, h2⟩
  | file c m b =>
    by_cases hl : ∃ t m, s.fs.get dst = some (.link t m)
    · obtain ⟨t, m', hl⟩ := hl
      unfold Clean at hc
      rw [hl] at hc
      dsimp only at hc
      have hto : FS.linkDest dst t = src := by
        rcases hc.2 with h | ⟨_, _, h⟩
        · exact h
        · rw [hs] at h; cases h
      have hst : s.fs.stat dst = .ok (src, .file c m b) :=
        FS.stat_link w.pathErr hl hto (w.wf.pathErr hs) hs rfl
      have hss : s.fs.stat src = .ok (src, .file c m b) := FS.stat_nonlink (w.wf.pathErr hs) hs rfl
      have hisd : s.fs.pathIsDir dst = false := by unfold FS.pathIsDir; rw [hst]; rfl
      have hsame : sameFile s.fs src dst = true := by unfold sameFile; rw [hst, hss]; simp
      unfold copy2
      rw [wp_bind, wp_ask, hisd]
      simp only [Bool.false_eq_true, if_false]
      unfold copyTo
      rw [wp_bind, wp_ask, hsame]
      simp only [if_true]
      rw [wp_throw, if_neg (by decide)]
      exact wp_recopy w hs rfl hne
    · refine wp_mono (wp_copy2_file w hs hne (fun t m h => hl ⟨t, m, h⟩)) (fun _ _ h => h) ?_
      rintro e s1 ⟨rfl, h1, h2⟩
      rw [if_pos rfl]
      exact ⟨h1, h2⟩

/-- A missing `p` may have become a directory. -/
def OnlyMakes (p : Path) (fs fs' : FS) : Prop :=
  (∀ n, fs.get p = some n → fs'.get p = some n) ∧ (fs.get p = none → fs'.get p = none ∨ fs'.isDir p = true)

theorem OnlyMakes.refl (p : Path) (fs : FS) : OnlyMakes p fs fs := ⟨fun _ h => h, Or.inl⟩

/-- Copying a directory only makes `dst`. -/
theorem wp_copyEntry_dir {src dst : Path} {s : OS} {m : Int} {b : Nat} (w : s.fs.WF)
    (hg : GoodPath dst) (hne : dst ≠ []) (hpar : s.fs.isDir dst.dropLast = true)
    (hs : s.fs.get src = some (.dir m b)) (hl : ∀ t m, s.fs.get dst ≠ some (.link t m)) :
    wp (copyEntry src dst)
      (fun _ s' => s'.fs.WF ∧ OnlyAt dst s.fs s'.fs ∧ s'.fs.isDir dst = true ∧
        OnlyMakes dst s.fs s'.fs)
      (fun _ s' => s'.fs.WF ∧ OnlyAt dst s.fs s'.fs ∧
        OnlyMakes dst s.fs s'.fs) s := by
  have hss : s.fs.stat src = .ok (src, .dir m b) := FS.stat_nonlink (w.pathErr hs) hs rfl
  have hpe : s.fs.pathErr dst = none := by
    rw [FS.pathErr_none_iff]
    intro q hq hq'
    by_cases he : q = dst.dropLast
    · subst he; exact hpar
    · obtain ⟨m, b, hg⟩ := FS.isDir_iff.1 hpar
      exact w.isDir_prefix hg q (FS.prefix_dropLast hq hq') he
  -- making the directory
  have hmk : ∀ s1 : OS, s1.fs = s.fs → wp (makedirs dst)
      (fun _ s' => s'.fs.WF ∧ OnlyAt dst s.fs s'.fs ∧ s'.fs.isDir dst = true ∧
        OnlyMakes dst s.fs s'.fs)
      (fun _ s' => s'.fs.WF ∧ OnlyAt dst s.fs s'.fs ∧
        OnlyMakes dst s.fs s'.fs) s1 := by
    intro s1 h1
    have only : ∀ fs' : FS, Grow (fun q => q ≠ [] ∧ q <+: dst) s1.fs fs' →
        fs'.WF ∧ OnlyAt dst s.fs fs' ∧ OnlyMakes dst s.fs fs' := by
      intro fs' hgr
      rw [h1] at hgr
      refine ⟨hgr.wf ?_ w, ?_, fun n h => hgr.keeps _ _ h, fun h => (hgr.new _ h).imp id And.right⟩
      · rintro q ⟨_, t, rfl⟩
        exact (goodPath_append.1 hg).1
      · intro q hq
        cases hgq : s.fs.get q with
        | some n => exact hgr.keeps _ _ hgq
        | none =>
          rcases hgr.new q hgq with h | ⟨⟨_, h⟩, _⟩
          · exact h
          · exfalso
            have := FS.pathErr_none_iff.1 hpe q h hq
            obtain ⟨m, b, h'⟩ := FS.isDir_iff.1 this
            rw [hgq] at h'; cases h'
    refine wp_mono (wp_makedirs dst s1) ?_ ?_
    · rintro _ s' ⟨hgr, hd⟩
      obtain ⟨o1, o2, o3⟩ := only s'.fs hgr
      refine ⟨o1, o2, ?_, o3⟩
      rw [h1] at hgr
      have hnl : ∀ t m, s'.fs.get dst ≠ some (.link t m) := by
        intro t m h
        cases hgd : s.fs.get dst with
        | some n =>
          rw [o3.1 n hgd] at h; cases h
          exact hl _ _ hgd
        | none =>
          rcases hgr.new dst hgd with h' | ⟨_, h'⟩
          · rw [h'] at h; cases h
          · obtain ⟨m, b, h''⟩ := FS.isDir_iff.1 h'
            rw [h''] at h; cases h
      unfold FS.pathIsDir at hd
      split at hd
      · rename_i q n hst
        have h2 := FS.stat_ok hst
        have hq : q = dst := by
          unfold FS.stat at hst
          cases hf : s'.fs.follow 40 dst with
          | error e => simp [hf] at hst
          | ok r =>
            rw [hf] at hst
            dsimp only at hst
            have hpe' : s'.fs.pathErr dst = none := by
              cases hx : s'.fs.pathErr dst with
              | none => rfl
              | some e => rw [FS.follow] at hf; simp [hx] at hf
            rw [FS.follow_nonlink hpe' hnl] at hf
            cases hf
            cases hg2 : s'.fs.get dst with
            | none => simp [hg2] at hst
            | some n' => simp [hg2] at hst; exact hst.1.symm
        subst hq
        unfold FS.isDir
        rw [h2.1]
        exact hd
      · cases hd
    · rintro _ s' hgr
      exact only s'.fs hgr
  unfold copyEntry
  rw [wp_tryCatch]
  have hcopy : ∀ (d : Path) (Q : Unit → OS → Prop) (E : Err → OS → Prop),
      (sameFile s.fs src d = true → s.fs.isDir dst = true) →
      (∀ e, e = .isDir ∨ e = .sameFile ∧ s.fs.isDir dst = true → E e s) →
      wp (copyTo src d) Q E s := by
    intro d Q E hd hE
    unfold copyTo
    rw [wp_bind, wp_ask]
    split
    · rename_i hsame
      rw [wp_throw]
      exact hE _ (Or.inr ⟨rfl, hd hsame⟩)
    · rw [wp_bind, wp_ask, hss, w.lstat_iff.2 hs]
      dsimp only
      rw [wp_throw]
      exact hE _ (Or.inl rfl)
  have hbad : wp (do remove dst; copy2 src dst)
      (fun _ s' => s'.fs.WF ∧ OnlyAt dst s.fs s'.fs ∧ s'.fs.isDir dst = true ∧
        OnlyMakes dst s.fs s'.fs)
      (fun _ s' => s'.fs.WF ∧ OnlyAt dst s.fs s'.fs ∧
        OnlyMakes dst s.fs s'.fs) s ∨ ¬ s.fs.isDir dst = true := by
    by_cases hd : s.fs.isDir dst = true
    · left
      rw [wp_bind]
      apply wp_op
      · exact ⟨w, OnlyAt.refl _ _, OnlyMakes.refl _ _⟩
      · intro fs' h
        exfalso
        obtain ⟨n, _, h2, h3, _⟩ := FS.remove_ok h
        obtain ⟨m, b, h4⟩ := FS.isDir_iff.1 hd
        rw [h2] at h4; cases h4; cases h3
      · intro e _
        exact ⟨w, OnlyAt.refl _ _, OnlyMakes.refl _ _⟩
    · exact Or.inr hd
  unfold copy2
  rw [wp_bind, wp_ask]
  split
  · rename_i hb
    refine hcopy _ _ _ ?_ (by
      rintro e (rfl | ⟨rfl, hd⟩)
      · rw [if_neg (by decide)]
        exact hmk s rfl
      · rw [if_neg (by decide)]
        exact hbad.resolve_right (fun h => h hd))
    intro _
    apply Classical.byContradiction
    intro hnd
    have hsp : Spot s.fs dst := ⟨w, hne, hg, hpar, by simpa using hnd⟩
    rw [hsp.pathIsDir hl] at hb
    cases hb
  · rename_i hb
    refine hcopy _ _ _ ?_ (by
      rintro e (rfl | ⟨rfl, hd⟩)
      · rw [if_neg (by decide)]
        exact hmk s rfl
      · rw [if_neg (by decide)]
        exact hbad.resolve_right (fun h => h hd))
    intro hsame
    exfalso
    apply hb
    unfold sameFile at hsame
    rw [hss] at hsame
    unfold FS.pathIsDir
    cases hst : s.fs.stat dst with
    | error e => rw [hst] at hsame; cases hsame
    | ok r =>
      obtain ⟨q, n⟩ := r
      rw [hst] at hsame
      dsimp only at hsame ⊢
      have : src = q := by simpa using hsame
      subst this
      have := (FS.stat_ok hst).1
      rw [hs] at this
      cases this
      rfl

/-- Copying one entry to a clean destination changes nothing but the destination, and a success leaves a
copy there. -/
theorem wp_copyEntry {src dst : Path} {s : OS} {n : Node} (w : s.fs.WF)
    (hg : GoodPath dst) (hne0 : dst ≠ []) (hpar : s.fs.isDir dst.dropLast = true)
    (hs : s.fs.get src = some n) (hne : src ≠ dst) (hc : Clean s.fs src dst) :
    wp (copyEntry src dst)
      (fun _ s' => s'.fs.WF ∧ OnlyAt dst s.fs s'.fs ∧ Copied n s'.fs dst ∧
        (s.fs.isDir dst = true → s'.fs.get dst = s.fs.get dst))
      (fun _ s' => s'.fs.WF ∧ OnlyAt dst s.fs s'.fs ∧
        (s.fs.isDir dst = true → s'.fs.get dst = s.fs.get dst) ∧ Clean s'.fs src dst) s := by
  have hdk : ∀ s' : OS, (∀ n, s.fs.get dst = some n → s'.fs.get dst = some n) →
      s.fs.isDir dst = true → s'.fs.get dst = s.fs.get dst := by
    intro s' h hd
    obtain ⟨m, b, h'⟩ := FS.isDir_iff.1 hd
    rw [h', h _ h']
  by_cases hd : n.isDir = true
  · cases n with
    | dir m b =>
      have hl : ∀ t m, s.fs.get dst ≠ some (.link t m) := by
        intro t m' h
        unfold Clean at hc
        rw [h] at hc
        have := hc.1
        rw [FS.isDir_iff.2 ⟨_, _, hs⟩] at this
        cases this
      refine wp_mono (wp_copyEntry_dir w hg hne0 hpar hs hl) ?_ ?_
      · rintro _ s' ⟨h1, h2, h3, h4⟩
        exact ⟨h1, h2, h3, hdk s' h4.1⟩
      · rintro _ s' ⟨h1, h2, h4⟩
        refine ⟨h1, h2, hdk s' h4.1, ?_⟩
        have hsd : s'.fs.isDir src = true := by rw [FS.isDir_congr (h2 src hne)]; exact FS.isDir_iff.2 ⟨_, _, hs⟩
        rcases Option.eq_none_or_eq_some (s.fs.get dst) with h5 | ⟨x, h5⟩
        · rcases h4.2 h5 with h6 | h6
          · unfold Clean; rw [h6]; trivial
          · obtain ⟨m', b', h6⟩ := FS.isDir_iff.1 h6
            unfold Clean; rw [h6]; exact hsd
        · unfold Clean at hc ⊢
          rw [h4.1 x h5, FS.isDir_congr (h2 src hne), h2 src hne]
          rw [h5] at hc
          exact hc
    | _ => cases hd
  · have hd' : n.isDir = false := by simpa using hd
    have hsp : Spot s.fs dst := by
      refine ⟨w, hne0, hg, hpar, ?_⟩
      unfold Clean at hc
      unfold FS.isDir
      cases hgd : s.fs.get dst with
      | none => rfl
      | some x =>
        rw [hgd] at hc
        cases x with
        | dir m b =>
          dsimp only at hc
          obtain ⟨m', b', h'⟩ := FS.isDir_iff.1 hc
          rw [hs] at h'; cases h'; cases hd'
        | _ => rfl
    refine wp_mono (wp_copyEntry_nondir hsp hs hd' hne hc) ?_ ?_
    · rintro _ s' ⟨h1, h2, h3⟩
      refine ⟨h1.wf, h2, ?_, fun h => by rw [hsp.nodir] at h; cases h⟩
      unfold Copied
      cases n with
      | dir m b => cases hd'
      | _ => exact h3
    · rintro _ s' ⟨h1, h2⟩
      refine ⟨h1.wf, h2.only, (fun h => by rw [hsp.nodir] at h; cases h), ?_⟩
      have hsame := h2.only src hne
      unfold Clean at hc ⊢
      rcases h2.kind with h3 | h3 | ⟨_, _, _, h3⟩ | ⟨h3, _, _, h4⟩
      · rw [h3, FS.isDir_congr hsame, hsame]; exact hc
      · rw [h3]; trivial
      · rw [h3]; trivial
      · rw [h4]
        dsimp only
        rw [FS.isDir_congr hsame, hsame]
        cases n with
        | link t m => exact ⟨by unfold FS.isDir; rw [hs]; rfl, Or.inr ⟨_, _, hs⟩⟩
        | _ => cases h3

end Verif
