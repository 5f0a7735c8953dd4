import Verif.Trash
/-
C21: moving files to the trash.
-/
namespace Verif
open Prog OSM Call FSTools WM

theorem wp_orRemote {α : Type} {env : Env} {m : OSM α} {Q : α → OS → Prop} {E : Err → OS → Prop} {s : OS}
    (h : wp m Q (fun e s' => E e s' ∧ (e = .notFound → E .remote s')) s) : wp (orRemote env m) Q E s := by
  unfold orRemote
  rw [wp_tryCatch]
  refine wp_mono h (fun _ _ h => h) ?_
  rintro e s' ⟨h1, h2⟩
  split
  · exact h1
  · by_cases he : e = .notFound
    · subst he
      simp only [if_true]
      rw [wp_bind, wp_ask, wp_throw]
      split
      · exact h1
      · exact h2 rfl
    · simp only [he, if_false]
      exact h1

theorem wp_orRemote_killed {α : Type} {env : Env} {m : OSM α} {Q : α → OS → Prop} {E : OS → Prop} {s : OS}
    (h : wp m Q (fun e s' => E s' ∧ e = .killed) s) : wp (orRemote env m) Q (fun e s' => E s' ∧ e = .killed) s :=
  wp_orRemote (wp_mono h (fun _ _ x => x) (fun _ _ x => ⟨x, fun he => by rw [x.2] at he; cases he⟩))

/-- `t` is the name for `p` in the trash: its own name if that is free, otherwise with the first free counter. -/
def TrashTarget (env : Env) (fs : FS) (p : Path) (t : Str) : Prop :=
  ∃ k, t = trashCand (p.getLastD []) k ∧ fs.get (env.trash ++ [t]) = none ∧
    ∀ j < k, fs.get (env.trash ++ [trashCand (p.getLastD []) j]) ≠ none

/-- A path at or below a path of the batch. -/
def InBatch (env : Env) (ps : List Path) (x : Path) : Prop := ∃ p ∈ ps, env.rem ++ p <+: x

/-- `f` says where everything is now. -/
structure Relocated (env : Env) (ps : List Path) (fs fs' : FS) (f : Path → Path) : Prop where
  data : ∀ x n, fs.get x = some n → ∃ n', fs'.get (f x) = some n' ∧ n'.data = n.data
  inj : ∀ x y n m, fs.get x = some n → fs.get y = some m → f x = f y → x = y
  stay : ∀ x, ¬ InBatch env ps x → f x = x
  trash : ∀ x n, fs.get x = some n → f x = x ∨ ∃ c t, f x = env.trash ++ c :: t ∧ fs.get (f x) = none

/-- The state after some rounds. -/
structure TrashInv (env : Env) (ps : List Path) (tn : Path → Str) (fs : FS) (done : List Path) (fs' : FS) : Prop where
  wf : fs'.WF
  dir : fs'.isDir env.trash = true
  kept : ∀ x n, fs.get x = some n → ¬ InBatch env ps x →
    ∃ n', fs'.get x = some n' ∧ n'.data = n.data ∧ (n.isDir = false → n' = n)
  new : ∀ x n, fs'.get x = some n → (∃ n', fs.get x = some n') ∨ ∃ p ∈ done, env.trash ++ [tn p] <+: x
  gone : ∀ p ∈ done, ∀ x, env.rem ++ p <+: x → fs'.get x = none
  reloc : (∀ p ∈ ps, ∀ p' ∈ ps, tn p = tn p' → p = p') → ∃ f, Relocated env ps fs fs' f
  src : ∀ x n, fs'.get x = some n → ∃ y n', fs.get y = some n' ∧ n'.data = n.data ∧
    (y = x ∨ (∃ p ∈ ps, env.rem ++ p <+: y) ∧ env.trash <+: x)

theorem prefix_comparable {a b x : Path} (h : Apart a b) (ha : a <+: x) (hb : b <+: x) : False := by
  rcases List.prefix_or_prefix_of_prefix ha hb with h' | h'
  · exact h.1 h'
  · exact h.2 h'

theorem getData {a b : Option Node} (h : a.map Node.data = b.map Node.data) {n : Node} (hb : b = some n) :
    ∃ n', a = some n' ∧ n'.data = n.data := by
  subst hb
  cases a with
  | none => simp at h
  | some k => exact ⟨k, rfl, by simpa using h⟩

theorem getData_none {a b : Option Node} (h : a.map Node.data = b.map Node.data) (hb : b = none) : a = none := by
  subst hb
  cases a with
  | none => rfl
  | some k => simp at h

/-- One more round. -/
theorem TrashInv.step {env : Env} {ps : List Path} {tn : Path → Str} {fs s1 s2 : FS} {done : List Path} {p : Path}
    (w : fs.WF) (hps : ∀ p ∈ ps, UserPath p) (hd : ∀ p ∈ done, p ∈ ps) (hp : p ∈ ps)
    (hfresh : fs.get (env.trash ++ [tn p]) = none) (i : TrashInv env ps tn fs done s1)
    (h : MovedTo (env.rem ++ p) (env.trash ++ [tn p]) s1 s2) : TrashInv env ps tn fs (done ++ [p]) s2 := by
  have hfresh' : ∀ x, env.trash ++ [tn p] <+: x → fs.get x = none := by
    intro x hx
    by_cases he : env.trash ++ [tn p] = x
    · rw [← he]; exact hfresh
    · exact w.none_below (by unfold FS.isDir; rw [hfresh]; rfl) hx he
  have hapart : ∀ p ∈ ps, ∀ t, Apart (env.rem ++ p) (env.trash ++ [t]) := by
    intro p hp t
    have := (hps p hp).apart (q := "Trash".toList :: [t]) env
    unfold Env.trash
    rw [List.append_assoc]; exact this
  refine ⟨h.wf, ?_, ?_, ?_, ?_, ?_, ?_⟩
  · have h1 : ¬ env.rem ++ p <+: env.trash := fun h' => h.apart.1 (h'.trans (List.prefix_append _ _))
    have h2 : ¬ env.trash ++ [tn p] <+: env.trash := by
      intro h'; have := h'.length_le; simp at this
    have h3 := h.data env.trash
    rw [if_neg h1, if_neg h2] at h3
    obtain ⟨m, b, hg⟩ := FS.isDir_iff.1 i.dir
    obtain ⟨n', h4, h5⟩ := getData h3 hg
    unfold FS.isDir
    rw [h4]
    exact Node.data_isDir h5
  · intro x n hx hB
    have h1 : ¬ env.rem ++ p <+: x := fun h' => hB ⟨p, hp, h'⟩
    have h2 : ¬ env.trash ++ [tn p] <+: x := by
      intro h'; rw [hfresh' x h'] at hx; cases hx
    obtain ⟨n1, h3, h4, h5⟩ := i.kept x n hx hB
    have h6 := h.data x
    rw [if_neg h1, if_neg h2] at h6
    obtain ⟨n2, h7, h8⟩ := getData h6 h3
    refine ⟨n2, h7, h8.trans h4, ?_⟩
    intro hnd
    have := h5 hnd
    subst this
    have := h.same x n1 h1 h2 h3 hnd
    rw [h7] at this
    exact Option.some.inj this
  · intro x n hx
    have h1 := h.data x
    split at h1
    · rw [getData_none h1 rfl] at hx; cases hx
    · split at h1
      · rename_i h2
        exact Or.inr ⟨p, by simp, h2⟩
      · obtain ⟨n1, h3, _⟩ := getData h1.symm hx
        rcases i.new x n1 h3 with h4 | ⟨p', h4, h5⟩
        · exact Or.inl h4
        · exact Or.inr ⟨p', by simp [h4], h5⟩
  · intro p' hp' x hx
    have h1 := h.data x
    rw [List.mem_append, List.mem_singleton] at hp'
    rcases hp' with hp' | rfl
    · split at h1
      · exact getData_none h1 rfl
      · rw [if_neg (fun h2 => prefix_comparable (hapart p' (hd p' hp') _) hx h2)] at h1
        exact getData_none h1 (i.gone p' hp' x hx)
    · rw [if_pos hx] at h1
      exact getData_none h1 rfl
  · intro hdist
    obtain ⟨f, hf⟩ := i.reloc hdist
    have hQ : s1.get (env.trash ++ [tn p]) = none := by
      apply Classical.byContradiction
      intro hne
      obtain ⟨n, hn⟩ := Option.ne_none_iff_exists'.1 hne
      rcases i.new _ n hn with ⟨n', h1⟩ | ⟨p', h1, h2⟩
      · rw [hfresh] at h1; cases h1
      · rw [List.prefix_append_right_inj] at h2
        have h3 : tn p' = tn p := by simpa using h2.eq_of_length rfl
        have h4 := hdist p' (hd p' h1) p hp h3
        subst h4
        obtain ⟨k, hk⟩ := h.was
        rw [i.gone p' h1 _ (List.prefix_refl _)] at hk
        cases hk
    have hQ' : ∀ x, env.trash ++ [tn p] <+: x → s1.get x = none := by
      intro x hx
      by_cases he : env.trash ++ [tn p] = x
      · rw [← he]; exact hQ
      · exact i.wf.none_below (by unfold FS.isDir; rw [hQ]; rfl) hx he
    refine ⟨fun x => if env.rem ++ p <+: f x then env.trash ++ [tn p] ++ (f x).drop (env.rem ++ p).length else f x,
      ?_, ?_, ?_, ?_⟩
    · intro x n hx
      obtain ⟨n1, h1, h2⟩ := hf.data x n hx
      split
      · rename_i h3
        obtain ⟨t, ht⟩ := h3
        rw [← ht, List.drop_left]
        have h4 := h.data (env.trash ++ [tn p] ++ t)
        rw [if_neg (fun h5 => prefix_comparable h.apart h5 (List.prefix_append _ _)),
          if_pos (List.prefix_append _ _), List.drop_left, ht] at h4
        obtain ⟨n2, h5, h6⟩ := getData h4 h1
        exact ⟨n2, h5, h6.trans h2⟩
      · rename_i h3
        have h4 := h.data (f x)
        rw [if_neg h3, if_neg (fun h5 => by rw [hQ' _ h5] at h1; cases h1)] at h4
        obtain ⟨n2, h5, h6⟩ := getData h4 h1
        exact ⟨n2, h5, h6.trans h2⟩
    · intro x y n m hx hy hxy
      obtain ⟨n1, h1, _⟩ := hf.data x n hx
      obtain ⟨m1, h2, _⟩ := hf.data y m hy
      apply hf.inj x y n m hx hy
      split at hxy
      · rename_i h3
        obtain ⟨t, ht⟩ := h3
        split at hxy
        · rename_i h4
          obtain ⟨u, hu⟩ := h4
          rw [← ht, ← hu, List.drop_left, List.drop_left, List.append_cancel_left_eq] at hxy
          rw [← ht, ← hu, hxy]
        · rw [← hxy, hQ' _ (List.prefix_append _ _)] at h2; cases h2
      · split at hxy
        · rw [hxy, hQ' _ (List.prefix_append _ _)] at h1; cases h1
        · exact hxy
    · intro x hB
      have h1 := hf.stay x hB
      rw [h1, if_neg (fun h' => hB ⟨p, hp, h'⟩)]
    · intro x n hx
      split
      · right
        refine ⟨tn p, (f x).drop (env.rem ++ p).length, by simp, ?_⟩
        exact hfresh' _ (List.prefix_append _ _)
      · exact hf.trash x n hx
  · intro x n hx
    have h1 := h.data x
    split at h1
    · rw [getData_none h1 rfl] at hx; cases hx
    · split at h1
      · rename_i h2
        obtain ⟨n1, h3, h4⟩ := getData h1.symm hx
        obtain ⟨y, n2, h5, h6, h7⟩ := i.src _ n1 h3
        rcases h7 with h7 | ⟨_, h7⟩
        · refine ⟨y, n2, h5, h6.trans h4, Or.inr ⟨⟨p, hp, ?_⟩, (List.prefix_append _ _).trans h2⟩⟩
          rw [h7]; exact List.prefix_append _ _
        · have h8 := (hps p hp).apart (q := ["Trash".toList]) env
          exact (prefix_comparable h8 (List.prefix_append _ _) h7).elim
      · obtain ⟨n1, h3, h4⟩ := getData h1.symm hx
        obtain ⟨y, n2, h5, h6, h7⟩ := i.src _ n1 h3
        exact ⟨y, n2, h5, h6.trans h4, h7⟩

theorem TrashInv.init {env : Env} {ps : List Path} {tn : Path → Str} {fs : FS} (w : fs.WF)
    (hd : fs.isDir env.trash = true) : TrashInv env ps tn fs [] fs :=
  ⟨w, hd, fun x n h _ => ⟨n, h, rfl, fun _ => rfl⟩, fun x n h => Or.inl ⟨n, h⟩, by simp,
    fun _ => ⟨id, fun x n h => ⟨n, h, rfl⟩, fun _ _ _ _ _ _ h => h, fun _ _ => rfl, fun _ _ _ => Or.inl rfl⟩,
    fun x n h => ⟨x, n, h, rfl, Or.inl rfl⟩⟩

theorem goodPath_trash {env : Env} (h : GoodPath env.rem) : GoodPath env.trash := by
  unfold Env.trash Env.util
  rw [goodPath_append, goodPath_append]
  exact ⟨⟨h, by decide⟩, by decide⟩

theorem wp_makeTrash (env : Env) (s : OS) :
    wp (makeTrash env) (fun _ s' => Grow (· = env.trash) s.fs s'.fs) (fun _ s' => s'.fs = s.fs) s := by
  unfold makeTrash
  rw [wp_tryCatch]
  apply wp_orRemote
  apply wp_op
  · exact ⟨rfl, fun _ => rfl⟩
  · intro fs' h
    exact grow_mkdir h
  · intro e he
    refine ⟨?_, fun _ => rfl⟩
    split
    · rfl
    · by_cases hx : e = .exists_
      · subst hx
        simp only [if_true]
        rw [wp_pure]
        exact Grow.refl _ _
      · simp only [hx, if_false]
        rfl

/-- The result of `trash_files`: `f0` is the state in which the trash directory exists. -/
theorem wp_trashFiles {env : Env} (ho : ∀ l, (env.order l).Perm l) (hr : GoodPath env.rem) {ps : List Path}
    (hps : ∀ p ∈ ps, UserPath p ∧ GoodPath p) {w : World} (wf : w.os.fs.WF) :
    wp (trashFiles env ps)
      (fun _ w' => w' = { w.rmRows ps with os := w'.os } ∧ ∃ f0 tn,
        Grow (· = env.trash) w.os.fs f0 ∧ f0.WF ∧ (∀ p, TrashTarget env f0 p (tn p)) ∧
        ∃ done, TrashInv env ps tn f0 done w'.os.fs ∧ ∀ p ∈ ps, p ∈ done)
      (fun _ w' => w' = { w with os := w'.os } ∧ (w'.os.fs = w.os.fs ∨ ∃ f0 tn,
        Grow (· = env.trash) w.os.fs f0 ∧ f0.WF ∧ (f0 = w'.os.fs ∨ (∀ p, TrashTarget env f0 p (tn p)) ∧
        ∃ done, TrashInv env ps tn f0 done w'.os.fs))) w := by
  unfold trashFiles
  rw [wp_bind, wp_sys]
  refine wp_mono (wp_makeTrash env w.os) ?_ (fun _ s' h => ⟨rfl, Or.inl h⟩)
  intro _ s0 hgrow
  have w0 : s0.fs.WF := hgrow.wf (fun q hq => by rw [hq]; exact goodPath_trash hr) wf
  rw [wp_bind, wp_sys, wp_query]
  refine ⟨?_, fun _ _ => ⟨rfl, Or.inr ⟨s0.fs, fun _ => [], hgrow, w0, Or.inl rfl⟩⟩⟩
  intro es hes
  obtain ⟨hdir, _, hmem⟩ := mem_scandir w0 hes
  generalize hnames : es.map (fun e => e.getLastD []) = names
  have hnm : ∀ c, c ∈ names ↔ s0.fs.get (env.trash ++ [c]) ≠ none := by
    intro c
    rw [← hnames, List.mem_map]
    constructor
    · rintro ⟨e, he, rfl⟩
      obtain ⟨h1, n, h2⟩ := (hmem e).1 he
      obtain ⟨d, rfl⟩ := List.length_eq_one_iff.1 h1
      simp [h2]
    · intro h
      obtain ⟨n, hn⟩ := Option.ne_none_iff_exists'.1 h
      exact ⟨[c], (hmem [c]).2 ⟨rfl, n, hn⟩, rfl⟩
  have htarget : ∀ p, TrashTarget env s0.fs p (trashName names (p.getLastD [])) := by
    intro p
    obtain ⟨k, h1, h2, h3⟩ := trashName_spec names (p.getLastD [])
    refine ⟨k, h1, ?_, fun j hj => (hnm _).1 (h3 j hj)⟩
    rw [h1]
    apply Classical.byContradiction
    intro h
    exact h2 ((hnm _).2 h)
  rw [wp_bind, wp_sys]
  refine wp_mono (wp_each (fun done (s' : OS) =>
      TrashInv env ps (fun p => trashName names (p.getLastD [])) s0.fs done s'.fs)
    (E := fun _ s' => ∃ done, TrashInv env ps (fun p => trashName names (p.getLastD [])) s0.fs done s'.fs)
    (env.order ps) ?_ (TrashInv.init w0 hdir)) ?_ ?_
  · intro done p rest hl s1 i
    have hp : p ∈ ps := by rw [← (ho ps).mem_iff, hl]; simp
    have hd : ∀ p ∈ done, p ∈ ps := by
      intro q hq; rw [← (ho ps).mem_iff, hl]; simp [hq]
    obtain ⟨hu, hg⟩ := hps p hp
    have hlast : GoodName (p.getLastD []) := by
      rw [List.getLastD_eq_getLast?, List.getLast?_eq_some_getLast hu.1]
      exact hg _ (List.getLast_mem hu.1)
    have hgt : GoodPath (env.trash ++ [trashName names (p.getLastD [])]) := by
      rw [goodPath_append]
      refine ⟨goodPath_trash hr, ?_⟩
      intro c hc
      rw [List.mem_singleton] at hc
      obtain ⟨k, h1, _⟩ := trashName_spec names (p.getLastD [])
      rw [hc, h1]
      exact goodName_trashCand hlast k
    have hfresh : s0.fs.get (env.trash ++ [trashName names (p.getLastD [])]) = none := by
      obtain ⟨k, h1, h2, _⟩ := htarget p
      exact h2
    refine wp_mono (wp_trashOne i.wf hu hgt i.dir) ?_ ?_
    · rintro _ s2 (⟨h1, h2⟩ | h1)
      · rw [h1]
        refine ⟨i.wf, i.dir, i.kept, ?_, ?_, i.reloc, i.src⟩
        · intro x n hx
          rcases i.new x n hx with h | ⟨q, hq, h⟩
          · exact Or.inl h
          · exact Or.inr ⟨q, by simp [hq], h⟩
        · intro q hq x hx
          rw [List.mem_append, List.mem_singleton] at hq
          rcases hq with hq | rfl
          · exact i.gone q hq x hx
          · by_cases he : env.rem ++ q = x
            · rw [← he]; exact h2
            · exact i.wf.none_below (by unfold FS.isDir; rw [h2]; rfl) hx he
      · exact i.step w0 (fun p hp => (hps p hp).1) hd hp hfresh h1
    · rintro _ s2 (h1 | h1)
      · rw [h1]; exact ⟨done, i⟩
      · exact ⟨_, i.step w0 (fun p hp => (hps p hp).1) hd hp hfresh h1⟩
  · intro _ s1 i
    unfold rmBoth
    rw [wp_modify]
    exact ⟨rfl, s0.fs, _, hgrow, w0, htarget, _, i, fun p hp => (ho ps).mem_iff.2 hp⟩
  · rintro _ s1 ⟨done, i⟩
    exact ⟨rfl, Or.inr ⟨s0.fs, _, hgrow, w0, Or.inr ⟨htarget, done, i⟩⟩⟩

theorem TrashTarget.of_grow {env : Env} {fs f0 : FS} (hgrow : Grow (· = env.trash) fs f0) {p : Path} {t : Str}
    (h : TrashTarget env f0 p t) : TrashTarget env fs p t := by
  have : ∀ c, f0.get (env.trash ++ [c]) = fs.get (env.trash ++ [c]) := fun c => hgrow.get_eq (by simp)
  obtain ⟨k, h1, h2, h3⟩ := h
  exact ⟨k, h1, by rw [← this]; exact h2, fun j hj => by rw [← this]; exact h3 j hj⟩

/-- C21, second half, for every batch: however `trash_files` ends, whatever is not at or below a path of the
batch is still there, unchanged; only the mtime of a directory may differ (of the directory that a trashed link
leads to). In particular nothing that was in the trash is lost. -/
theorem C21_rest_kept {env : Env} (ho : ∀ l, (env.order l).Perm l) (hr : GoodPath env.rem) {ps : List Path}
    (hps : ∀ p ∈ ps, UserPath p ∧ GoodPath p) {w : World} (wf : w.os.fs.WF) {x : Path} {n : Node}
    (hx : w.os.fs.get x = some n) (hB : ∀ p ∈ ps, ¬ env.rem ++ p <+: x) :
    ∃ n', (trashFiles env ps w).2.os.fs.get x = some n' ∧ n'.data = n.data ∧ (n.isDir = false → n' = n) := by
  have hB' : ¬ InBatch env ps x := by rintro ⟨p, hp, h⟩; exact hB p hp h
  have h : wp (trashFiles env ps) (fun _ w' => ∃ n', w'.os.fs.get x = some n' ∧ n'.data = n.data ∧
      (n.isDir = false → n' = n)) (fun _ w' => ∃ n', w'.os.fs.get x = some n' ∧ n'.data = n.data ∧
      (n.isDir = false → n' = n)) w := by
    refine wp_mono (wp_trashFiles ho hr hps wf) ?_ ?_
    · rintro _ w' ⟨_, f0, tn, h1, _, _, done, h2, _⟩
      exact h2.kept x n (h1.keeps x n hx) hB'
    · rintro _ w' ⟨_, h | ⟨f0, tn, h1, _, rfl | ⟨_, done, h2⟩⟩⟩
      · exact ⟨n, by rw [h]; exact hx, rfl, fun _ => rfl⟩
      · exact ⟨n, h1.keeps x n hx, rfl, fun _ => rfl⟩
      · exact h2.kept x n (h1.keeps x n hx) hB'
  exact wp_state (I := fun w' : World => ∃ n', w'.os.fs.get x = some n' ∧ n'.data = n.data ∧
    (n.isDir = false → n' = n)) h

/-- C21, first half (partial: only if no two paths of the batch get the same name, see `C21_same_name_fails`):
after `trash_files` every file of the batch, and everything below its directories, is somewhere in the trash
where nothing was before, with its content; different files are in different places. -/
theorem C21_moved_partial {env : Env} (ho : ∀ l, (env.order l).Perm l) (hr : GoodPath env.rem) {ps : List Path}
    (hps : ∀ p ∈ ps, UserPath p ∧ GoodPath p) {w w' : World} (wf : w.os.fs.WF)
    (hdist : ∀ p ∈ ps, ∀ p' ∈ ps, ∀ t, TrashTarget env w.os.fs p t → TrashTarget env w.os.fs p' t → p = p')
    (h : trashFiles env ps w = (.ok (), w')) :
    ∃ f : Path → Path,
      (∀ x n, InBatch env ps x → w.os.fs.get x = some n → w'.os.fs.get x = none ∧
        ∃ n', w'.os.fs.get (f x) = some n' ∧ n'.data = n.data ∧
          (∃ c t, f x = env.trash ++ c :: t) ∧ w.os.fs.get (f x) = none) ∧
      ∀ x y n m, InBatch env ps x → InBatch env ps y → w.os.fs.get x = some n → w.os.fs.get y = some m →
        f x = f y → x = y := by
  obtain ⟨_, f0, tn, h1, w0, h2, done, h3, h4⟩ := wp_ok (wp_trashFiles ho hr hps wf) h
  obtain ⟨f, hf⟩ := h3.reloc (fun p hp p' hp' htn =>
    hdist p hp p' hp' (tn p) ((h2 p).of_grow h1) (htn ▸ (h2 p').of_grow h1))
  refine ⟨f, ?_, ?_⟩
  · rintro x n ⟨p, hp, hpx⟩ hx
    have hx0 := h1.keeps x n hx
    have hg := h3.gone p (h4 p hp) x hpx
    obtain ⟨n', h5, h6⟩ := hf.data x n hx0
    refine ⟨hg, n', h5, h6, ?_⟩
    rcases hf.trash x n hx0 with h7 | ⟨c, t, h7, h8⟩
    · rw [h7, hg] at h5; cases h5
    · refine ⟨⟨c, t, h7⟩, ?_⟩
      apply Classical.byContradiction
      intro h9
      obtain ⟨k, hk⟩ := Option.ne_none_iff_exists'.1 h9
      rw [h1.keeps _ _ hk] at h8; cases h8
  · intro x y n m _ _ hx hy
    exact hf.inj x y n m (h1.keeps x n hx) (h1.keeps y m hy)

/-- C21 (partial in the same way): if `trash_files` fails or is killed, every file of the batch is in its old
place or in the trash. -/
theorem C21_crash_partial {env : Env} (ho : ∀ l, (env.order l).Perm l) (hr : GoodPath env.rem) {ps : List Path}
    (hps : ∀ p ∈ ps, UserPath p ∧ GoodPath p) {w w' : World} {e : Err} (wf : w.os.fs.WF)
    (hdist : ∀ p ∈ ps, ∀ p' ∈ ps, ∀ t, TrashTarget env w.os.fs p t → TrashTarget env w.os.fs p' t → p = p')
    (h : trashFiles env ps w = (.error e, w')) :
    ∃ f : Path → Path,
      (∀ x n, w.os.fs.get x = some n → ∃ n', w'.os.fs.get (f x) = some n' ∧ n'.data = n.data ∧
        (f x = x ∨ InBatch env ps x ∧ ∃ c t, f x = env.trash ++ c :: t)) ∧
      ∀ x y n m, w.os.fs.get x = some n → w.os.fs.get y = some m → f x = f y → x = y := by
  have hid : ∀ fs' : FS, Grow (· = env.trash) w.os.fs fs' → ∃ f : Path → Path,
      (∀ x n, w.os.fs.get x = some n → ∃ n', fs'.get (f x) = some n' ∧ n'.data = n.data ∧
        (f x = x ∨ InBatch env ps x ∧ ∃ c t, f x = env.trash ++ c :: t)) ∧
      ∀ x y n m, w.os.fs.get x = some n → w.os.fs.get y = some m → f x = f y → x = y := fun fs' h1 =>
    ⟨id, fun x n hx => ⟨n, h1.keeps x n hx, rfl, Or.inl rfl⟩, fun _ _ _ _ _ _ h => h⟩
  obtain ⟨_, h1 | ⟨f0, tn, h1, w0, rfl | ⟨h2, done, h3⟩⟩⟩ := wp_error (wp_trashFiles ho hr hps wf) h
  · apply hid; rw [h1]; exact Grow.refl _ _
  · exact hid _ h1
  · obtain ⟨f, hf⟩ := h3.reloc (fun p hp p' hp' htn =>
      hdist p hp p' hp' (tn p) ((h2 p).of_grow h1) (htn ▸ (h2 p').of_grow h1))
    refine ⟨f, ?_, fun x y n m hx hy => hf.inj x y n m (h1.keeps x n hx) (h1.keeps y m hy)⟩
    intro x n hx
    have hx0 := h1.keeps x n hx
    obtain ⟨n', h5, h6⟩ := hf.data x n hx0
    refine ⟨n', h5, h6, ?_⟩
    by_cases hB : InBatch env ps x
    · rcases hf.trash x n hx0 with h7 | ⟨c, t, h7, _⟩
      · exact Or.inl h7
      · exact Or.inr ⟨hB, c, t, h7⟩
    · exact Or.inl (hf.stay x hB)

/-- Names that are all different and not in the trash are kept, so the assumption about names holds. -/
theorem distinct_targets {env : Env} {fs : FS} {ps : List Path}
    (h1 : ∀ p ∈ ps, ∀ p' ∈ ps, p.getLastD [] = p'.getLastD [] → p = p')
    (h2 : ∀ p ∈ ps, fs.get (env.trash ++ [p.getLastD []]) = none) :
    ∀ p ∈ ps, ∀ p' ∈ ps, ∀ t, TrashTarget env fs p t → TrashTarget env fs p' t → p = p' := by
  have key : ∀ p ∈ ps, ∀ t, TrashTarget env fs p t → t = p.getLastD [] := by
    rintro p hp t ⟨k, hk, _, h3⟩
    by_cases h0 : k = 0
    · rw [hk, h0, trashCand, if_pos rfl]
    · have := h3 0 (by omega)
      rw [trashCand, if_pos rfl] at this
      exact absurd (h2 p hp) this
  intro p hp p' hp' t ht ht'
  exact h1 p hp p' hp' ((key p hp t ht).symm.trans (key p' hp' t ht'))

/-! ### Examples -/

/-- Two files with the same name in different directories, one of them already in the trash. -/
def exTrashWorld (fs : FS) (fuel : Nat) : World where
  os := ⟨fs, fuel, 0, fun n => n + 50⟩
  db := []
  dbSaved := []
  rdb := []
  rdbSaved := []
  last := 10
  lastSaved := 10
  lmemo := []
  rmemo := []
  matches_ := none

def exTrashFS2 : FS :=
  [(["l".toList], .dir 1 8), (["r".toList], .dir 1 8), (["r".toList, "b".toList], .file 7 3 1),
    (["r".toList, "d".toList], .dir 3 8), (["r".toList, "d".toList, "x".toList], .file 5 3 1),
    (["r".toList, "d".toList, "b".toList], .file 6 3 1),
    (exCmdEnv.util, .dir 1 8), (exCmdEnv.trash, .dir 1 8), (exCmdEnv.trash ++ ["b".toList], .file 9 4 1)]

theorem exTrashFS2_wf : exTrashFS2.WF :=
  ⟨by decide +kernel, by decide +kernel, by decide +kernel, by decide +kernel⟩

/-- A file whose name is taken and a directory. -/
example : ((trashFiles exCmdEnv [["b".toList], ["d".toList]] (exTrashWorld exTrashFS2 100)).1 = .ok ()) ∧
    (trashFiles exCmdEnv [["b".toList], ["d".toList]] (exTrashWorld exTrashFS2 100)).2.os.fs.get
      (exCmdEnv.trash ++ ["b(1)".toList]) = some (.file 7 52 1) ∧
    (trashFiles exCmdEnv [["b".toList], ["d".toList]] (exTrashWorld exTrashFS2 100)).2.os.fs.get
      (exCmdEnv.trash ++ ["d".toList, "b".toList]) = some (.file 6 3 1) ∧
    (trashFiles exCmdEnv [["b".toList], ["d".toList]] (exTrashWorld exTrashFS2 100)).2.os.fs.get
      (exCmdEnv.trash ++ ["b".toList]) = some (.file 9 4 1) := by decide +kernel

/-- The assumptions hold for this batch. -/
example : (∀ p ∈ [["b".toList], ["d".toList]], UserPath p ∧ GoodPath p) ∧
    ∀ p ∈ [["b".toList], ["d".toList]], ∀ p' ∈ [["b".toList], ["d".toList]], ∀ t,
      TrashTarget exCmdEnv exTrashFS2 p t → TrashTarget exCmdEnv exTrashFS2 p' t → p = p' := by
  refine ⟨by decide, ?_⟩
  have hb : ∀ t, TrashTarget exCmdEnv exTrashFS2 ["b".toList] t → t = "b(1)".toList := by
    rintro t ⟨k, hk, h1, h2⟩
    rcases Nat.lt_trichotomy k 1 with h | rfl | h
    · have : k = 0 := by omega
      subst this
      rw [hk] at h1
      exact absurd h1 (by decide +kernel)
    · rw [hk]; decide +kernel
    · exact absurd (show exTrashFS2.get (exCmdEnv.trash ++ [trashCand "b".toList 1]) = none by decide +kernel) (h2 1 h)
  have hd : ∀ t, TrashTarget exCmdEnv exTrashFS2 ["d".toList] t → t = "d".toList := by
    rintro t ⟨k, hk, h1, h2⟩
    by_cases h : k = 0
    · rw [hk, h]; decide +kernel
    · exact absurd (show exTrashFS2.get (exCmdEnv.trash ++ [trashCand "d".toList 0]) = none by decide +kernel)
        (h2 0 (by omega))
  intro p hp p' hp' t ht ht'
  simp only [List.mem_cons, List.not_mem_nil, or_false] at hp hp'
  rcases hp with rfl | rfl <;> rcases hp' with rfl | rfl
  · rfl
  · exact absurd ((hb t ht).symm.trans (hd t ht')) (by decide)
  · exact absurd ((hd t ht).symm.trans (hb t ht')) (by decide)
  · rfl

/-- C21 is false in general: two files with the same name, trashed together, get the same name in the trash. The
second overwrites the first, whose content 7 is then nowhere. -/
theorem C21_same_name_fails :
    (trashFiles exCmdEnv [["b".toList], ["d".toList, "b".toList]] (exTrashWorld exTrashFS2 100)).1 = .ok () ∧
    exTrashFS2.get ["r".toList, "b".toList] = some (.file 7 3 1) ∧
    ∀ e ∈ (trashFiles exCmdEnv [["b".toList], ["d".toList, "b".toList]] (exTrashWorld exTrashFS2 100)).2.os.fs,
      ∀ m b, e.2 ≠ .file 7 m b := by
  refine ⟨by decide +kernel, by decide +kernel, ?_⟩
  intro e he m b h
  have : ∀ e ∈ (trashFiles exCmdEnv [["b".toList], ["d".toList, "b".toList]]
      (exTrashWorld exTrashFS2 100)).2.os.fs, e.2.data ≠ .file 7 0 1 ∧ (e.2.data = .file 7 0 e.2.blocks → False) := by
    decide +kernel
  apply (this e he).2
  rw [h]; rfl

end Verif
