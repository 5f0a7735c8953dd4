import Verif.SafeScan
import Verif.SyncClear
/-
The deletions of a sync raise nothing.
-/
namespace Verif
open Prog OSM Call FSTools WM

theorem pathErr_noFile {fs : FS} (w : fs.WF) {root p : Path} (hr : fs.isDir root = true)
    (h : NoFileAbove fs root p) : fs.pathErr (root ++ p) = none ∨ fs.pathErr (root ++ p) = some .notFound := by
  have hne := pathErr_ne_notDir w hr h
  rcases Option.eq_none_or_eq_some (fs.pathErr (root ++ p)) with h1 | ⟨e, h1⟩
  · exact Or.inl h1
  · right
    have he := h1
    unfold FS.pathErr at he
    obtain ⟨q, hq, hq'⟩ := List.exists_of_findSome?_eq_some he
    rw [h1] at hne ⊢
    rcases Option.eq_none_or_eq_some (fs.get q) with h3 | ⟨n, h3⟩
    · simp [h3] at hq'
      rw [hq']
    · cases n with
      | dir m b => simp [h3] at hq'
      | file c m b => simp [h3] at hq'; exact absurd (congrArg some hq'.symm) hne
      | link t m => simp [h3] at hq'; exact absurd (congrArg some hq'.symm) hne

section
variable {env : Env}

theorem safe_rmFiles (ho : ∀ l, (env.order l).Perm l) {root : Path} {ps : List Path} {w : World} (wf : w.os.fs.WF)
    (hr : w.os.fs.isDir root = true) (hp : ∀ p ∈ ps, p ≠ []) (ha : ∀ p ∈ ps, NoFileAbove w.os.fs root p) :
    Safe (rmFiles env root ps) w := by
  unfold rmFiles
  refine Safe.bindSys ?_ (wp_anyway _ _) (fun _ _ _ => trivial)
  refine Safe.each (fun done (s : OS) => Shrink (fun q => ∃ p ∈ ps, root ++ p <+: q) w.os.fs s.fs)
    (env.order ps) ?_ (E := fun _ _ => True) ?_ (Shrink.refl _ _)
  all_goals
    intro done p rest hl s hs
    have hin : p ∈ ps := by rw [← (ho ps).mem_iff, hl]; simp
    have hne : root ++ p ≠ [] := by simp [hp p hin]
    have wfs := hs.wf wf
  · refine safe_rmOne wfs hne (pathErr_noFile wfs ?_ ?_)
    · obtain ⟨m, b, hg⟩ := FS.isDir_iff.1 hr
      refine FS.isDir_iff.2 ⟨m, b, ?_⟩
      rw [hs.keeps root]; exact hg
      rintro ⟨q, hq, h⟩
      have := h.length_le
      have h1 := hp q hq
      rw [List.length_append] at this
      exact h1 (List.eq_nil_of_length_eq_zero (by omega))
    · intro q n hq hne hn
      exact ha p hin q n hq hne (hs.some hn)
  · have := wp_rmAny hne wfs
    refine wp_mono this (fun _ s' h => ?_) (fun _ _ _ => trivial)
    exact hs.trans (h.1.mono (fun q hq => ⟨p, hin, hq⟩))

theorem safe_makeTrash {s : OS} (wf : s.fs.WF) (hu : s.fs.isDir env.util = true)
    (ht : ∀ n, s.fs.get env.trash = some n → n.isDir = true) :
    wp (makeTrash env) (fun _ s' => s'.fs.isDir env.trash = true) (fun e _ => e = .killed) s := by
  have hpe : s.fs.pathErr env.trash = none := by
    refine pathErr_of_parent wf (by simp [Env.trash]) ?_
    have : env.trash.dropLast = env.util := by simp [Env.trash]
    rw [this]; exact hu
  unfold makeTrash
  rw [wp_tryCatch]
  rcases Option.eq_none_or_eq_some (s.fs.get env.trash) with h | ⟨n, h⟩
  · have h1 : Safe (orRemote env (mkdir env.trash)) s := safe_orRemote (safe_op (fun now => ⟨_, FS.create_isSome hpe h⟩))
    refine wp_mono (wp_and h1 (Q' := fun _ s' => s'.fs.isDir env.trash = true) (E' := fun _ _ => True) ?_)
      (fun _ _ h => h.2) ?_
    · apply wp_orRemote
      refine wp_op ⟨trivial, fun _ => trivial⟩ (fun fs' hfs => ?_) (fun _ _ => ⟨trivial, fun _ => trivial⟩)
      have h2 := hfs.symm.trans (FS.create_isSome hpe h)
      cases h2
      refine FS.isDir_iff.2 ⟨_, _, FS.get_set_self s.fs (p := env.trash) (by simp [Env.trash]) _⟩
    · rintro e s' ⟨rfl, _⟩
      rw [if_pos rfl]
  · have hc : s.fs.mkdir env.trash (s.clk s.tick) = .error .exists_ := by
      unfold FS.mkdir FS.create
      rw [wf.lstat_iff.2 h]
    apply wp_orRemote
    refine wp_op ⟨by simp, fun h => by cases h⟩ (fun fs' hfs => ?_) (fun e he => ?_)
    · have h2 := hfs.symm.trans hc
      cases h2
    · have h2 := he.symm.trans hc
      cases h2
      refine ⟨?_, fun h => by cases h⟩
      rw [if_neg (by decide)]
      show wp (pure ()) _ _ _
      rw [wp_pure]
      show s.fs.isDir env.trash = true
      rw [isDir_iff_false h]; exact ht n h

theorem safe_trashOne {names : List Str} {p : Path} {s : OS} (w : s.fs.WF) (hu : UserPath p)
    (hg : GoodPath (env.trash ++ [trashName names (p.getLastD [])])) (ht : s.fs.isDir env.trash = true)
    (hpe : s.fs.pathErr (env.rem ++ p) = none ∨ s.fs.pathErr (env.rem ++ p) = some .notFound)
    (hfree : (∃ n, s.fs.get (env.rem ++ p) = some n) →
      s.fs.get (env.trash ++ [trashName names (p.getLastD [])]) = none) :
    Safe (trashOne env names p) s := by
  unfold trashOne Safe
  generalize trashName names (p.getLastD []) = t at *
  have hap : Apart (env.rem ++ p) (env.trash ++ [t]) := by
    have := hu.apart (q := "Trash".toList :: [t]) env
    unfold Env.trash
    rw [List.append_assoc]; exact this
  rw [wp_tryCatch, wp_bind]
  apply wp_rename w hg
  · rintro s1 (⟨h, _⟩ | ⟨h1, h2, ⟨n, h3, _⟩, h4, h5⟩)
    · exact absurd h (by rw [← List.append_nil (env.rem ++ p), ← List.append_nil (env.trash ++ [t])]; exact hap.ne _ _)
    refine wp_mono (wp_updateMtime h2 (by simp)) (fun _ _ _ => trivial) ?_
    rintro e s2 ⟨_, rfl⟩
    rw [if_pos rfl]
  · intro e s1 _ he
    split
    · assumption
    · rename_i hk
      have he := he.resolve_left hk
      have hnf : e = .notFound := by
        unfold FS.rename at he
        rcases Option.eq_none_or_eq_some (s.fs.get (env.rem ++ p)) with hn | ⟨n, hn⟩
        · have hl : s.fs.lstat (env.rem ++ p) = .error .notFound := by
            unfold FS.lstat
            rcases hpe with h | h
            · rw [h]; dsimp only; rw [hn]
            · rw [h]
          rw [hl] at he
          cases he; rfl
        · have hpe : s.fs.pathErr (env.trash ++ [t]) = none :=
            pathErr_of_parent w (by simp) (by simpa using ht)
          rw [w.lstat_iff.2 hn] at he
          simp only [hpe] at he
          rw [if_neg (by rw [← List.append_nil (env.rem ++ p), ← List.append_nil (env.trash ++ [t])]; exact hap.ne _ _)] at he
          have hnp : ¬ (env.rem ++ p) <+: (env.trash ++ [t]) := hap.1
          have hf := hfree ⟨n, hn⟩
          simp [hnp, hf, hu.1] at he
      subst hnf
      simp only [if_true]
      trivial

theorem safe_trashFiles (ho : ∀ l, (env.order l).Perm l) (hr : GoodPath env.rem) {ps : List Path}
    (hps : ∀ p ∈ ps, UserPath p ∧ GoodPath p) {w : World} (wf : w.os.fs.WF)
    (hu : w.os.fs.isDir env.util = true) (hrd : w.os.fs.isDir env.rem = true)
    (ht : ∀ n, w.os.fs.get env.trash = some n → n.isDir = true)
    (htop : ∀ d ∈ ps, ∀ d' ∈ ps, d' <+: d → d' = d)
    (ha : ∀ p ∈ ps, NoFileAbove w.os.fs env.rem p)
    (hn : ∀ p ∈ ps, ∀ q ∈ ps, p ≠ q → ∀ t, TrashTarget env w.os.fs p t → ¬ TrashTarget env w.os.fs q t) :
    Safe (trashFiles env ps) w := by
  unfold trashFiles
  refine Safe.bindSys (Safe.of (safe_makeTrash wf hu ht)) (wp_and (safe_makeTrash wf hu ht) (wp_makeTrash env w.os)) ?_
  rintro _ s0 ⟨hdir, hgrow⟩
  have w0 : s0.fs.WF := hgrow.wf (fun q hq => by rw [hq]; exact goodPath_trash hr) wf
  refine Safe.bindSys (Q := fun a s' => s'.fs = s0.fs ∧ scandir s0.fs env.trash = .ok a) (E := fun _ _ => True)
    (safe_query ⟨_, scandir_ok w0 hdir⟩) ?_ ?_
  · rw [wp_query]
    exact ⟨fun es h => ⟨rfl, h⟩, fun _ _ => trivial⟩
  rintro es s1 ⟨h1, hes⟩
  dsimp only
  obtain ⟨_, _, hmem⟩ := mem_scandir w0 hes
  generalize hnames : es.map (fun e => e.getLastD []) = names
  have hnm : ∀ c, c ∈ names ↔ s0.fs.get (env.trash ++ [c]) ≠ none := by
    intro c
    rw [← hnames, List.mem_map]
    constructor
    · rintro ⟨e, he, rfl⟩
      obtain ⟨h1, n, h2⟩ := (hmem e).1 he
      obtain ⟨d, rfl⟩ := List.length_eq_one_iff.1 h1
      simp [h2]
    · intro h
      obtain ⟨n, hn⟩ := Option.ne_none_iff_exists'.1 h
      exact ⟨[c], (hmem [c]).2 ⟨rfl, n, hn⟩, rfl⟩
  have htarget : ∀ p, TrashTarget env s0.fs p (trashName names (p.getLastD [])) := by
    intro p
    obtain ⟨k, h1, h2, h3⟩ := trashName_spec names (p.getLastD [])
    refine ⟨k, h1, ?_, fun j hj => (hnm _).1 (h3 j hj)⟩
    rw [h1]
    apply Classical.byContradiction
    intro h
    exact h2 ((hnm _).2 h)
  refine Safe.bindSys ?_ (wp_anyway _ _) (fun _ _ _ => trivial)
  have key : ∀ done p rest, env.order ps = done ++ p :: rest → p ∈ ps ∧ (∀ q ∈ done, q ∈ ps) ∧
      GoodPath (env.trash ++ [trashName names (p.getLastD [])]) ∧
      s0.fs.get (env.trash ++ [trashName names (p.getLastD [])]) = none := by
    intro done p rest hl
    have hp : p ∈ ps := by rw [← (ho ps).mem_iff, hl]; simp
    have hd : ∀ p ∈ done, p ∈ ps := by
      intro q hq; rw [← (ho ps).mem_iff, hl]; simp [hq]
    obtain ⟨hu, hg⟩ := hps p hp
    have hlast : GoodName (p.getLastD []) := by
      rw [List.getLastD_eq_getLast?, List.getLast?_eq_some_getLast hu.1]
      exact hg _ (List.getLast_mem hu.1)
    refine ⟨hp, hd, ?_, ?_⟩
    · rw [goodPath_append]
      refine ⟨goodPath_trash hr, ?_⟩
      intro c hc
      rw [List.mem_singleton] at hc
      obtain ⟨k, h1, _⟩ := trashName_spec names (p.getLastD [])
      rw [hc, h1]
      exact goodName_trashCand hlast k
    · obtain ⟨k, h1, h2, _⟩ := htarget p
      exact h2
  refine Safe.each (fun done (s' : OS) =>
      TrashInv env ps (fun p => trashName names (p.getLastD [])) s0.fs done s'.fs)
    (env.order ps) ?_ (E := fun _ _ => True) ?_ (by rw [h1]; exact TrashInv.init w0 hdir)
  · intro done p rest hl s i
    obtain ⟨hp, hd, hgt, hfresh⟩ := key done p rest hl
    have hu := (hps p hp).1
    have notB : ∀ q, q <+: p → q ≠ p → ¬ InBatch env ps (env.rem ++ q) := by
      rintro q hq hne ⟨d, h1, h2⟩
      have h3 := (List.prefix_append_right_inj _).1 h2
      have := htop p hp d h1 (h3.trans hq)
      subst this
      exact hne (hq.eq_of_length (Nat.le_antisymm hq.length_le h3.length_le))
    refine safe_trashOne i.wf hu hgt i.dir (pathErr_noFile i.wf ?_ ?_) ?_
    · have hnb : ¬ InBatch env ps env.rem := by
        rintro ⟨d, h1, h2⟩
        have := h2.length_le
        rw [List.length_append] at this
        exact (hps d h1).1.1 (List.eq_nil_of_length_eq_zero (by omega))
      obtain ⟨m, b, hg⟩ := FS.isDir_iff.1 hrd
      obtain ⟨n', e1, e2, _⟩ := i.kept _ _ (hgrow.keeps _ _ hg) hnb
      rw [isDir_iff_false e1, isDir_of_data e2]; rfl
    · intro q n hq hne hn
      have hpl : PlainPath q := hu.plain.prefix hq
      rcases i.new _ n hn with ⟨n', h2⟩ | ⟨d, _, h2⟩
      · obtain ⟨n'', e1, e2, _⟩ := i.kept _ _ h2 (notB q hq hne)
        rw [hn] at e1; cases e1
        rw [isDir_of_data e2]
        rcases Option.eq_none_or_eq_some (w.os.fs.get (env.rem ++ q)) with h3 | ⟨k, h3⟩
        · rcases hgrow.new _ h3 with h4 | ⟨h4, _⟩
          · rw [h4] at h2; cases h2
          · exact absurd h4 (plain_not_trash hpl (List.prefix_refl _))
        · have := hgrow.keeps _ _ h3
          rw [h2] at this; cases this
          exact ha p hp q _ hq hne h3
      · exact absurd rfl (plain_not_trash hpl ((List.prefix_append _ _).trans h2))
    · rintro ⟨k, hk⟩
      rcases Option.eq_none_or_eq_some (s.fs.get (env.trash ++ [trashName names (p.getLastD [])])) with h2 | ⟨n, h2⟩
      · exact h2
      · rcases i.new _ n h2 with ⟨n', h3⟩ | ⟨q, h3, h4⟩
        · rw [hfresh] at h3; cases h3
        · rw [List.prefix_append_right_inj] at h4
          have h5 : trashName names (q.getLastD []) = trashName names (p.getLastD []) := by
            simpa using h4.eq_of_length rfl
          by_cases hqp : q = p
          · subst hqp
            rw [i.gone q h3 _ (List.prefix_refl _)] at hk; cases hk
          · refine absurd ((htarget p).of_grow hgrow) (hn q (hd q h3) p hp hqp _ ?_)
            rw [← h5]
            exact (htarget q).of_grow hgrow
  · intro done p rest hl s i
    obtain ⟨hp, hd, hgt, hfresh⟩ := key done p rest hl
    have hu := (hps p hp).1
    refine wp_mono (wp_trashOne i.wf hu hgt i.dir) ?_ (fun _ _ _ => trivial)
    rintro _ s2 (⟨h1, h2⟩ | h1)
    · rw [h1]
      refine ⟨i.wf, i.dir, i.kept, ?_, ?_, i.reloc, i.src⟩
      · intro x n hx
        rcases i.new x n hx with h | ⟨q, hq, h⟩
        · exact Or.inl h
        · exact Or.inr ⟨q, by simp [hq], h⟩
      · intro q hq x hx
        rw [List.mem_append, List.mem_singleton] at hq
        rcases hq with hq | rfl
        · exact i.gone q hq x hx
        · by_cases he : env.rem ++ q = x
          · rw [← he]; exact h2
          · exact i.wf.none_below (by unfold FS.isDir; rw [h2]; rfl) hx he
    · exact i.step w0 (fun p hp => (hps p hp).1) hd hp hfresh h1

end

/-- The trash directory exists, and there are no links in it if old files are to be removed from it. The
exclude directory exists, and all that is in it are files. -/
structure UtilOk (env : Env) (fs : FS) : Prop where
  trash : fs.isDir env.trash = true
  links : env.cleanup ≠ none → ∀ c n, fs.get (env.trash ++ [c]) = some n → n.isLink = false
  excl : fs.isDir env.exclDir = true
  pats : ∀ c n, fs.get (env.exclDir ++ [c]) = some n → ∃ k m b, n = .file k m b

/-- Only what is in the utility directory matters. -/
theorem UtilOk.congr {env : Env} {fs fs' : FS} (h : UtilOk env fs)
    (he : ∀ q, q ≠ [] → fs'.get (env.util ++ q) = fs.get (env.util ++ q)) : UtilOk env fs' := by
  have e1 : ∀ q, fs'.get (env.trash ++ q) = fs.get (env.trash ++ q) := by
    intro q; unfold Env.trash; rw [List.append_assoc]; exact he _ (by simp)
  have e2 : ∀ q, fs'.get (env.exclDir ++ q) = fs.get (env.exclDir ++ q) := by
    intro q; unfold Env.exclDir; rw [List.append_assoc]; exact he _ (by simp)
  refine ⟨?_, ?_, ?_, ?_⟩
  · have := e1 []
    rw [List.append_nil] at this
    rw [FS.isDir_congr this]; exact h.trash
  · intro hc c n hn
    rw [e1] at hn; exact h.links hc c n hn
  · have := e2 []
    rw [List.append_nil] at this
    rw [FS.isDir_congr this]; exact h.excl
  · intro c n hn
    rw [e2] at hn; exact h.pats c n hn

theorem isLink_of_data {a b : Node} (h : a.data = b.data) : a.isLink = b.isLink := by
  cases a <;> cases b <;> simp_all [Node.data, Node.touch, Node.isLink]

theorem wp_utilOk {env : Env} (ho : ∀ l, (env.order l).Perm l) (hr : GoodPath env.rem) {ps : List Path}
    (hps : ∀ p ∈ ps, UserPath p ∧ GoodPath p) {w : World} (wf : w.os.fs.WF)
    (hT : env.cleanup ≠ none → ∀ c n, w.os.fs.get (env.trash ++ [c]) = some n → n.isLink = false)
    (hP : ∀ p n, UserPath p → w.os.fs.get (env.rem ++ p) = some n → n.isLink = false)
    (hE : w.os.fs.isDir env.exclDir = true)
    (hF : ∀ c n, w.os.fs.get (env.exclDir ++ [c]) = some n → ∃ k m b, n = .file k m b) :
    wp (trashFiles env ps) (fun _ w' => UtilOk env w'.os.fs) (fun _ _ => True) w := by
  refine wp_mono (wp_trashFiles ho hr hps wf) ?_ (fun _ _ _ => trivial)
  rintro _ w' ⟨_, f0, tn, hg, _, _, done, i, _⟩
  have hne : ∀ q, env.exclDir ++ q ≠ env.trash := by
    intro q e
    unfold Env.exclDir Env.trash at e
    rw [List.append_assoc, List.append_cancel_left_eq] at e
    simp at e
  have hnp : ∀ q, ¬ env.trash <+: env.exclDir ++ q := by
    intro q e
    unfold Env.exclDir Env.trash at e
    rw [List.append_assoc, List.prefix_append_right_inj] at e
    simp at e
  refine ⟨i.dir, ?_, ?_, ?_⟩
  rotate_left
  · obtain ⟨m, b, hd⟩ := FS.isDir_iff.1 hE
    rw [← List.append_nil env.exclDir, ← hg.get_eq (hne [])] at hd
    obtain ⟨n', e1, e2, _⟩ := i.kept _ _ hd (by
      rintro ⟨p, hp, h⟩
      have := (hps p hp).1.not_prefix (q := ["exclude".toList]) env
      refine this ?_
      rw [List.append_nil] at h; exact h)
    rw [List.append_nil] at e1
    rw [isDir_iff_false e1, isDir_of_data e2]; rfl
  · intro c n hn
    obtain ⟨y, n', h1, h2, rfl | ⟨_, h3⟩⟩ := i.src _ n hn
    · rw [hg.get_eq (hne _)] at h1
      obtain ⟨k, m, b, rfl⟩ := hF c n' h1
      cases n with
      | file k' m' b' => exact ⟨_, _, _, rfl⟩
      | dir m' b' => cases h2
      | link t m' => cases h2
    · exact absurd h3 (hnp _)
  intro hc c n hn
  obtain ⟨y, n', h1, h2, h3⟩ := i.src _ n hn
  rw [← isLink_of_data h2]
  rcases h3 with rfl | ⟨⟨p, hp, t, rfl⟩, _⟩
  · rw [hg.get_eq (by simp)] at h1
    exact hT hc c n' h1
  · have hu : UserPath (p ++ t) := PlainPath.extend (hps p hp).1 (List.prefix_append _ _)
    rw [List.append_assoc] at h1
    rw [hg.get_eq (fun e => plain_not_trash hu.plain (by rw [e]; exact List.prefix_refl _) rfl)] at h1
    exact hP _ _ hu h1

/-- The deletions of a sync. -/
theorem safe_clear {env : Env} {w w1 : World} {del : DeletedPaths} {new mod : UpdatedPaths} (r : SyncReady env w)
    (o : Orderly env w) (sc : Scanned env w del new mod w1) :
    wp (rmLocalFiles env del.loc >>= fun _ => rmRemoteFiles env del.rem >>= fun _ =>
      trashFiles env del.trash) (fun _ w2 => UtilOk env w2.os.fs) (fun e _ => e = .killed) w1 := by
  obtain ⟨ex, hex, hexm⟩ := sc.ex
  have less0 := sc.start.less r
  have hld : w1.os.fs.isDir env.loc = true := by
    have := sc.start.loc r []
    rw [List.append_nil] at this
    rw [FS.isDir_congr this]; exact r.loc_dir
  have fitsL : ∀ d ∈ del.loc, ∃ k, Fits env w1.os.fs d k := by
    intro d hd
    obtain ⟨_, _, h3, _⟩ := sc.delLoc d hd
    obtain ⟨k, h⟩ := (r.db.less less0).path h3
    exact ⟨k, h⟩
  have fitsR : ∀ d, d ∈ del.rem ∨ d ∈ del.trash → ∃ k, Fits env w1.os.fs d k := by
    intro d hd
    obtain ⟨_, _, h3, _⟩ := sc.delRem d hd
    obtain ⟨k, h⟩ := (r.db.less less0).path h3
    exact ⟨k, h⟩
  have s1 : Safe (rmLocalFiles env del.loc) w1 := by
    unfold rmLocalFiles
    refine Safe.matches hex (safe_rmFiles r.order sc.start.wf hld ?_ ?_)
    · intro p hp
      exact (sc.delLoc p (List.mem_filter.1 hp).1).1.1
    · intro p hp
      obtain ⟨k, h⟩ := fitsL p (List.mem_filter.1 hp).1
      exact h.aboveL
  have e1 : wp (rmLocalFiles env del.loc) (fun _ w2 =>
      Shrink (fun q => ∃ p ∈ del.loc, env.loc ++ p <+: q) w1.os.fs w2.os.fs) (fun _ _ => True) w1 := by
    unfold rmLocalFiles
    rw [wp_bind]
    refine wp_exclMatches ?_ (fun h => by rw [hex] at h; cases h) (fun _ => trivial)
    intro l hl
    rw [hex] at hl; cases hl
    refine wp_mono (wp_rmFiles r.order env.loc (fun p hp => (sc.delLoc p (List.mem_filter.1 hp).1).1.1) sc.start.wf)
      (fun _ _ h => h.1.mono ?_) (fun _ _ _ => trivial)
    rintro q ⟨p, hp, hq⟩
    exact ⟨p, (List.mem_filter.1 hp).1, hq⟩
  rw [wp_bind]
  refine wp_mono (s1.and e1) ?_ (fun _ _ h => h)
  intro _ w2 h2
  have wf2 := h2.wf sc.start.wf
  have less2 := h2.less env
  have off2 : ∀ q, ¬ env.loc <+: q → w2.os.fs.get q = w1.os.fs.get q := by
    intro q hq
    refine h2.keeps q ?_
    rintro ⟨p, _, h⟩
    exact hq ((List.prefix_append _ _).trans h)
  have nlr : ∀ q, ¬ env.loc <+: env.rem ++ q := by
    rintro q ⟨t, h⟩
    exact r.apart.ne _ _ h
  have rd2 : w2.os.fs.isDir env.rem = true := by
    rw [FS.isDir_congr (off2 _ (by simpa using nlr []))]; exact sc.start.rem_dir
  rw [wp_bind]
  refine wp_mono (Safe.and (safe_rmFiles r.order wf2 rd2 (fun p hp => (sc.delRem p (Or.inl hp)).1.1) ?_)
    (wp_rmFiles r.order env.rem (fun p hp => (sc.delRem p (Or.inl hp)).1.1) wf2)) ?_ (fun _ _ h => h)
  · intro p hp
    obtain ⟨k, h⟩ := fitsR p (Or.inl hp)
    exact (h.less less2).aboveR
  rintro _ w3 ⟨h3, _, _⟩
  have wf3 := h3.wf wf2
  have less3 := less2.trans (h3.less env)
  have util3 : ∀ q, w3.os.fs.get (env.util ++ q) = w1.os.fs.get (env.util ++ q) := by
    intro q
    rw [h3.keeps, off2]
    · have := nlr ([Env.utilName] ++ q)
      unfold Env.util
      rw [List.append_assoc]; exact this
    · rintro ⟨p, hp, h⟩
      exact (sc.delRem p (Or.inl hp)).1.not_prefix env h
  have trash3 : ∀ q, w3.os.fs.get (env.trash ++ q) = w.os.fs.get (env.trash ++ q) := by
    intro q
    have := util3 ("Trash".toList :: q)
    have e : env.trash ++ q = env.util ++ ("Trash".toList :: q) := by unfold Env.trash; simp
    rw [e, this, sc.start.only]
    intro h
    unfold Env.exclDir at h
    rw [List.append_assoc, List.append_cancel_left_eq] at h
    simp at h
  have rd3 : w3.os.fs.isDir env.rem = true := by
    rw [FS.isDir_congr (h3.keeps env.rem ?_)]; exact rd2
    rintro ⟨p, hp, h⟩
    have := h.length_le
    rw [List.length_append] at this
    exact (sc.delRem p (Or.inl hp)).1.1 (List.eq_nil_of_length_eq_zero (by omega))
  have hps : ∀ p ∈ del.trash, UserPath p ∧ GoodPath p := by
    intro p hp
    obtain ⟨h4, h5, _⟩ := sc.delRem p (Or.inr hp)
    exact ⟨h4, h5⟩
  refine Safe.and (safe_trashFiles r.order r.goodRem hps wf3 ?_ rd3 ?_ sc.trashTop ?_ ?_)
    (wp_utilOk r.order r.goodRem hps wf3 ?_ ?_ ?_ ?_)
  · rw [FS.isDir_congr (by simpa using util3 [])]; exact sc.start.util_dir
  · intro n hn
    have := trash3 []
    rw [List.append_nil] at this
    rw [this] at hn
    exact o.trash n hn
  · intro p hp
    obtain ⟨k, h⟩ := fitsR p (Or.inr hp)
    exact (h.less less3).aboveR
  · intro p hp q hq hne t h4 h5
    have conv : ∀ {x}, TrashTarget env w3.os.fs x t → TrashTarget env w.os.fs x t := by
      rintro x ⟨k, h1, h2, h3⟩
      exact ⟨k, h1, by rw [← trash3]; exact h2, fun j hj => by rw [← trash3]; exact h3 j hj⟩
    refine o.names p q (sc.delRem p (Or.inr hp)).2.2 (sc.delRem q (Or.inr hq)).2.2 ?_ ?_ t (conv h4) (conv h5)
    · intro h
      exact hne (sc.trashTop q hq p hp h)
    · intro h
      exact hne (sc.trashTop p hp q hq h).symm
  · intro hc c n hn
    rw [trash3] at hn
    exact o.tidyTrash hc c n hn
  · intro p n hu hn
    have h4 := h3.some hn
    rw [off2 _ (nlr p), sc.start.rem hu.plain] at h4
    exact o.plain p n hu h4
  · have := util3 ["exclude".toList]
    rw [FS.isDir_congr (p := env.exclDir) this, FS.isDir_congr (sc.start.only _ (by simp))]
    exact o.exclDir
  · intro c n hn
    have := util3 ("exclude".toList :: [c])
    have e : env.exclDir ++ [c] = env.util ++ ("exclude".toList :: [c]) := by unfold Env.exclDir; simp
    rw [e, this, ← e] at hn
    by_cases hc : c = env.id
    · subst hc
      obtain ⟨k, m, b, h4⟩ := sc.start.slot
      rw [hn] at h4
      exact ⟨k, m, b, Option.some.inj h4⟩
    · rw [sc.start.only _ (fun h4 => hc (by simpa using h4))] at hn
      exact o.clients c n hn

end Verif
