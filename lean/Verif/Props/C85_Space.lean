import Verif.Space
import Verif.SyncSpace
import Verif.Props.C44_Init
import Verif.Props.C45_Reset
/-
C85: `init` and `reset` check for available space before they copy anything (zielen/filelogic.py:469-473,
zielen/commands/reset.py:54-58).
-/
namespace Verif
open Prog OSM Call FSTools WM

section
variable {env : Env} {w : World} {free : Nat}

theorem usage_eq {fs : FS} {root : Path} {s : Scan} (h : ∀ e ∈ s, fs.get (root ++ e.1) = some e.2) :
    s.usage = usedIn fs root (s.map Prod.fst) := by
  unfold Scan.usage usedIn
  rw [List.map_map]
  congr 1
  refine List.map_congr_left fun e he => ?_
  simp only [Function.comp, usedAt, h e he, Option.map_some, Option.getD_some]

theorem usedIn_le_usage {fs : FS} {root : Path} {s : Scan} (h : ∀ e ∈ s, fs.get (root ++ e.1) = some e.2) {F : List Path}
    (hF : F.Nodup) (hs : ∀ p ∈ F, ∃ n, (p, n) ∈ s) : usedIn fs root F ≤ s.usage := by
  rw [usage_eq h]
  refine sum_le_of_subset _ hF ?_
  intro p hp
  obtain ⟨n, hn⟩ := hs p hp
  exact List.mem_map.2 ⟨_, hn, rfl⟩

theorem usedIn_congr {fs fs' : FS} {a b : Path} {F : List Path}
    (h : ∀ p ∈ F, fs'.get (b ++ p) = fs.get (a ++ p)) : usedIn fs' b F = usedIn fs a F := by
  unfold usedIn
  congr 1
  refine List.map_congr_left fun p hp => ?_
  unfold usedAt
  rw [h p hp]

theorem bind_congr_at {σ α β : Type} {m : Prog σ α} {f g : α → Prog σ β} {s : σ}
    (h : wp m (fun a s' => f a s' = g a s') (fun _ _ => True) s) : (m >>= f) s = (m >>= g) s := by
  show (match m s with | (.ok a, s') => f a s' | (.error e, s') => (.error e, s')) =
    (match m s with | (.ok a, s') => g a s' | (.error e, s') => (.error e, s'))
  unfold wp at h
  rcases hm : m s with ⟨_ | a, s'⟩
  · rfl
  · rw [hm] at h; exact h

theorem bind_at {σ α β : Type} {m m' : Prog σ α} {f : α → Prog σ β} {s : σ} (h : m s = m' s) :
    (m >>= f) s = (m' >>= f) s := by
  show (match m s with | (.ok a, s') => f a s' | (.error e, s') => (.error e, s')) =
    (match m' s with | (.ok a, s') => f a s' | (.error e, s') => (.error e, s'))
  rw [h]

theorem bind_of {σ α β : Type} {m : Prog σ α} {f : α → Prog σ β} {s s' : σ} {a : α} (h : m s = (.ok a, s')) :
    (m >>= f) s = f a s' := by
  show (match m s with | (.ok a, s') => f a s' | (.error e, s') => (.error e, s')) = _
  rw [h]

theorem bind_of_error {σ α β : Type} {m : Prog σ α} {f : α → Prog σ β} {s s' : σ} {e : Err} (h : m s = (.error e, s')) :
    (m >>= f) s = (.error e, s') := by
  show (match m s with | (.ok a, s') => f a s' | (.error e, s') => (.error e, s')) = _
  rw [h]

theorem sys_query_of {α : Type} {f : FS → Except Err α} {a : α} (h : f w.os.fs = .ok a) : sys (query f) w = (.ok a, w) := by
  unfold sys query
  rw [h]

/-- A second scan gives the same. -/
theorem scanLocal_again {l : Scan} {w' : World} (h : scanLocal env w = (.ok l, w')) : scanLocal env w' = (.ok l, w') := by
  have key : wp (scanLocal env) (fun l w' => scanLocal env w' = (.ok l, w')) (fun _ _ => True) w := by
    unfold scanLocal
    rw [wp_bind, wp_gets]
    split
    · rename_i hm
      rw [wp_bind, wp_sys, wp_query]
      refine ⟨fun s hs => ?_, fun _ _ => trivial⟩
      rw [wp_bind, wp_modify, wp_pure]
      by_cases hl : s.isEmpty
      · show (if s.isEmpty then _ else _ : WM Scan) _ = _
        rw [if_pos hl]
        have h1 := sys_query_of (w := { w with lmemo := s }) (f := fun fs => scanNodes fs env.loc) hs
        refine (bind_of (s := { w with lmemo := s }) h1).trans ?_
        rfl
      · show (if s.isEmpty then _ else _ : WM Scan) _ = _
        rw [if_neg hl]
        rfl
    · rename_i hm
      rw [wp_pure]
      show (if w.lmemo.isEmpty then _ else _ : WM Scan) w = _
      rw [if_neg hm]
      rfl
  exact wp_ok key h

theorem scanRemote_again {l : Scan} {w' : World} (h : scanRemote env w = (.ok l, w')) : scanRemote env w' = (.ok l, w') := by
  have key : wp (scanRemote env) (fun l w' => scanRemote env w' = (.ok l, w')) (fun _ _ => True) w := by
    unfold scanRemote rescanRemote
    rw [wp_bind, wp_gets]
    split
    · rename_i hm
      rw [wp_bind, wp_sys, wp_query]
      refine ⟨fun s hs => ?_, fun _ _ => trivial⟩
      rw [wp_bind, wp_modify, wp_pure]
      by_cases hl : s.isEmpty
      · show (if s.isEmpty then _ else _ : WM Scan) _ = _
        rw [if_pos hl]
        have h1 := sys_query_of (w := { w with rmemo := s }) (f := fun fs => scanNodes fs env.rem) hs
        refine (bind_of (s := { w with rmemo := s }) h1).trans ?_
        rfl
      · show (if s.isEmpty then _ else _ : WM Scan) _ = _
        rw [if_neg hl]
        rfl
    · rename_i hm
      rw [wp_pure]
      show (if w.rmemo.isEmpty then _ else _ : WM Scan) w = _
      rw [if_neg hm]
      rfl
  exact wp_ok key h

theorem setupFromLocalIn_eq (h : wp (scanLocal env) (fun l _ => l.usage ≤ free) (fun _ _ => True) w) :
    setupFromLocalIn free env w = setupFromLocal env w := by
  unfold wp at h
  rcases hs : scanLocal env w with ⟨_ | l, w'⟩
  · unfold setupFromLocalIn setupFromLocal
    rw [bind_of_error hs, bind_of_error hs]
  · rw [hs] at h
    have h : l.usage ≤ free := h
    unfold setupFromLocalIn
    rw [bind_of hs, if_neg (by omega)]
    unfold setupFromLocal
    rw [bind_of hs, bind_of (scanLocal_again hs)]

theorem resetGetIn_eq {keep nor : Bool} (h : nor = false → wp (scanRemote env) (fun l _ => l.usage ≤ free) (fun _ _ => True) w) :
    resetGetIn free env keep nor w = resetGet env keep nor w := by
  cases nor with
  | true => rfl
  | false =>
    have h := h rfl
    unfold wp at h
    unfold resetGetIn
    rw [if_neg (by simp)]
    rcases hs : scanRemote env w with ⟨_ | l, w'⟩
    · unfold resetGet
      rw [if_neg (by simp), bind_of_error hs, bind_of_error hs]
    · rw [hs] at h
      have h : l.usage ≤ free := h
      rw [bind_of hs, if_neg (by omega)]
      unfold resetGet
      rw [if_neg (by simp), bind_of hs, bind_of (scanRemote_again hs)]

/-- The paths and sizes that the check of `init` looks at. -/
theorem scan_local_usage {fs fs' : FS} (wf : fs'.WF) (h : ∀ p, fs'.get (env.loc ++ p) = fs.get (env.loc ++ p)) :
    Scan.usage (fs'.below env.loc) = usedIn fs env.loc ((fs'.below env.loc).map Prod.fst) ∧
      ((fs'.below env.loc).map Prod.fst).Nodup ∧
      ∀ p, p ∈ (fs'.below env.loc).map Prod.fst ↔ p ≠ [] ∧ fs.get (env.loc ++ p) ≠ none := by
  refine ⟨usage_eq (fun e he => ?_), nodup_keys_below wf _, fun p => ?_⟩
  · rw [← h]; exact (wf.mem_below_iff.1 he).1
  · rw [List.mem_map]
    constructor
    · rintro ⟨e, he, rfl⟩
      obtain ⟨h1, h2⟩ := wf.mem_below_iff.1 he
      refine ⟨h2, ?_⟩
      rw [← h, h1]; simp
    · rintro ⟨h1, h2⟩
      rcases Option.eq_none_or_eq_some (fs.get (env.loc ++ p)) with h3 | ⟨n, h3⟩
      · exact absurd h3 h2
      · exact ⟨(p, n), wf.mem_below_iff.2 ⟨(h p).trans h3, h1⟩, rfl⟩

/-- Everything before the check of `init`: it makes directories. -/
theorem wp_initIn (h : InitReady env w) {Q : Unit → World → Prop} {E : Err → World → Prop}
    {m : WM Unit} (hE : ∀ e s, Grow (InitDirs env) w.os.fs s.fs → E e { w with os := s })
    (hm : ∀ s, Grow (InitDirs env) w.os.fs s.fs → wp m Q E { w with os := s }) :
    wp (do sys (makedirs env.loc); sys (makedirs env.exclDir); sys (makedirs env.trash); m) Q E w := by
  obtain ⟨lm, lb, hlg⟩ := FS.isDir_iff.1 h.loc_dir
  rw [wp_bind, wp_sys]
  refine wp_mono (wp_makedirs_dir h.wf hlg) ?_ (fun e s h1 => hE e s (by rw [h1.1]; exact Grow.refl _ _))
  intro _ s0 h0
  have g0 : Grow (InitDirs env) w.os.fs s0.fs := by rw [h0]; exact Grow.refl _ _
  have hd1 : ∀ q, q ≠ [] ∧ q <+: env.exclDir → InitDirs env q := fun q hq => ⟨hq.1, Or.inl hq.2⟩
  have hd2 : ∀ q, q ≠ [] ∧ q <+: env.trash → InitDirs env q := fun q hq => ⟨hq.1, Or.inr hq.2⟩
  rw [wp_bind, wp_sys]
  refine wp_mono (wp_makedirs env.exclDir s0) ?_ (fun e s h1 => hE e s (g0.trans (h1.mono hd1)))
  rintro _ s1 ⟨h1, _⟩
  have g1 := g0.trans (h1.mono hd1)
  rw [wp_bind, wp_sys]
  refine wp_mono (wp_makedirs env.trash s1) ?_ (fun e s h1 => hE e s (g1.trans (h1.mono hd2)))
  rintro _ s2 ⟨h2, _⟩
  exact hm s2 (g1.trans (h2.mono hd2))

theorem InitReady.dirs_good (h : InitReady env w) {q : Path} (hq : InitDirs env q) : GoodPath q := by
  rcases hq with ⟨_, h1 | h1⟩
  · exact goodPath_of_prefix (goodPath_exclDir h.rem_good) h1
  · exact goodPath_of_prefix (goodPath_trash h.rem_good) h1

/-- C85: if what is in the local directory takes more space than there is, `init` fails and has not copied or changed any
file, nor a database; all it has made is directories for its own files. -/
theorem C85_init_refused (h : InitReady env w) {F : List Path} (hF : F.Nodup)
    (hFl : ∀ p ∈ F, p ≠ [] ∧ w.os.fs.get (env.loc ++ p) ≠ none) (hbig : free < usedIn w.os.fs env.loc F) :
    (∃ e, (initIn free env false w).1 = .error e) ∧
    (∀ q n, w.os.fs.get q = some n → (initIn free env false w).2.os.fs.get q = some n) ∧
    (∀ q, w.os.fs.get q = none → (initIn free env false w).2.os.fs.get q = none ∨
      (env.rem <+: q → env.util <+: q ∨ q = env.rem) ∧ (initIn free env false w).2.os.fs.isDir q = true) ∧
    (initIn free env false w).2.dbSaved = w.dbSaved ∧ (initIn free env false w).2.rdbSaved = w.rdbSaved := by
  have key : wp (initIn free env false) (fun _ _ => False)
      (fun _ w' => Grow (InitDirs env) w.os.fs w'.os.fs ∧ w'.dbSaved = w.dbSaved ∧ w'.rdbSaved = w.rdbSaved) w := by
    refine wp_initIn h (fun e s hg => ⟨hg, rfl, rfl⟩) (fun s hg => ?_)
    rw [if_neg (by simp), wp_bind]
    unfold setupFromLocalIn
    rw [wp_bind]
    have wf : s.fs.WF := hg.wf (fun q => h.dirs_good) h.wf
    have hl : ∀ p, s.fs.get (env.loc ++ p) = w.os.fs.get (env.loc ++ p) :=
      fun p => hg.get_eq (InitDirs.not_loc h.apart p)
    refine wp_scanLocal (fun hm => absurd h.lmemo hm) (fun _ => ?_) (fun e => ⟨hg, rfl, rfl⟩)
    dsimp only
    obtain ⟨h1, h2, h3⟩ := scan_local_usage (env := env) wf hl
    have h4 : usedIn w.os.fs env.loc F ≤ Scan.usage (s.fs.below env.loc) := by
      rw [h1]
      exact sum_le_of_subset _ hF (fun p hp => (h3 p).2 (hFl p hp))
    rw [if_pos (by omega), wp_throw]
    exact ⟨hg, rfl, rfl⟩
  unfold wp at key
  rcases hr : initIn free env false w with ⟨e | a, w'⟩
  · rw [hr] at key
    obtain ⟨hg, h1, h2⟩ := key
    refine ⟨⟨e, rfl⟩, hg.keeps, fun q hq => ?_, h1, h2⟩
    rcases hg.new q hq with h3 | ⟨⟨_, h3⟩, h4⟩
    · exact Or.inl h3
    · refine Or.inr ⟨fun h5 => ?_, h4⟩
      obtain ⟨t, rfl⟩ := h5
      cases t with
      | nil => exact Or.inr (List.append_nil _)
      | cons c t =>
        left
        unfold Env.exclDir Env.trash Env.util at h3
        rw [List.append_assoc, List.append_assoc, List.prefix_append_right_inj, List.prefix_append_right_inj] at h3
        unfold Env.util
        rw [List.prefix_append_right_inj]
        rcases h3 with h3 | h3
        · rw [List.cons_append, List.cons_prefix_cons] at h3
          rw [h3.1]; exact ⟨t, rfl⟩
        · rw [List.cons_append, List.cons_prefix_cons] at h3
          rw [h3.1]; exact ⟨t, rfl⟩
  · rw [hr] at key; exact key.elim

/-- C85: if it does not, the check makes no difference, wherever `init` stops. -/
theorem C85_init_enough (h : InitReady env w)
    (hle : ∀ F : List Path, F.Nodup → (∀ p ∈ F, p ≠ [] ∧ w.os.fs.get (env.loc ++ p) ≠ none) →
      usedIn w.os.fs env.loc F ≤ free) : initIn free env false w = init env false w := by
  unfold initIn init
  refine bind_congr_at ?_
  rw [wp_sys]
  obtain ⟨lm, lb, hlg⟩ := FS.isDir_iff.1 h.loc_dir
  refine wp_mono (wp_makedirs_dir h.wf hlg) ?_ (fun _ _ _ => trivial)
  intro _ s0 h0
  have g0 : Grow (InitDirs env) w.os.fs s0.fs := by rw [h0]; exact Grow.refl _ _
  have hd1 : ∀ q, q ≠ [] ∧ q <+: env.exclDir → InitDirs env q := fun q hq => ⟨hq.1, Or.inl hq.2⟩
  have hd2 : ∀ q, q ≠ [] ∧ q <+: env.trash → InitDirs env q := fun q hq => ⟨hq.1, Or.inr hq.2⟩
  refine bind_congr_at ?_
  rw [wp_sys]
  refine wp_mono (wp_makedirs env.exclDir s0) ?_ (fun _ _ _ => trivial)
  rintro _ s1 ⟨h1, _⟩
  have g1 := g0.trans (h1.mono hd1)
  refine bind_congr_at ?_
  rw [wp_sys]
  refine wp_mono (wp_makedirs env.trash s1) ?_ (fun _ _ _ => trivial)
  rintro _ s2 ⟨h2, _⟩
  have hg := g1.trans (h2.mono hd2)
  rw [if_neg (by simp), if_neg (by simp)]
  refine bind_at (setupFromLocalIn_eq ?_)
  have wf : s2.fs.WF := hg.wf (fun q => h.dirs_good) h.wf
  have hl : ∀ p, s2.fs.get (env.loc ++ p) = w.os.fs.get (env.loc ++ p) :=
    fun p => hg.get_eq (InitDirs.not_loc h.apart p)
  refine wp_scanLocal (fun hm => absurd h.lmemo hm) (fun _ => ?_) (fun _ => trivial)
  dsimp only
  obtain ⟨h1, h2, h3⟩ := scan_local_usage (env := env) wf hl
  rw [h1]
  exact hle _ h2 (fun p hp => (h3 p).1 hp)

/-- C85: so after a success, the files that have been moved to the remote directory take no more than the space that there
was. -/
theorem C85_init_fits (h : InitReady env w) {w' : World} (hr : initIn free env false w = (.ok (), w')) {F : List Path}
    (hF : F.Nodup) (hFl : ∀ p ∈ F, p ≠ [] ∧ ∃ c m b, w.os.fs.get (env.loc ++ p) = some (.file c m b))
    (hx : ∀ p ∈ F, ¬ OwnExcludes env w.os.fs p) :
    (∀ p ∈ F, w'.os.fs.get (env.rem ++ p) = w.os.fs.get (env.loc ++ p)) ∧ usedIn w'.os.fs env.rem F ≤ free := by
  have hle : ∀ F : List Path, F.Nodup → (∀ p ∈ F, p ≠ [] ∧ w.os.fs.get (env.loc ++ p) ≠ none) →
      usedIn w.os.fs env.loc F ≤ free := by
    intro F hF hFl
    refine Nat.le_of_not_lt fun hbig => ?_
    obtain ⟨⟨e, h1⟩, _⟩ := C85_init_refused h hF hFl hbig
    rw [hr] at h1
    cases h1
  rw [C85_init_enough h hle] at hr
  have h1 : ∀ p ∈ F, w'.os.fs.get (env.rem ++ p) = w.os.fs.get (env.loc ++ p) := by
    intro p hp
    obtain ⟨h2, c, m, b, h3⟩ := hFl p hp
    rw [(C44_done_partial h hr h2 h3 (hx p hp)).1, h3]
  refine ⟨h1, ?_⟩
  rw [usedIn_congr h1]
  refine hle F hF fun p hp => ?_
  obtain ⟨h2, c, m, b, h3⟩ := hFl p hp
  exact ⟨h2, by rw [h3]; simp⟩

/-- The paths and sizes that the check of `reset` looks at. -/
theorem scan_remote_usage {fs : FS} (wf : fs.WF) :
    Scan.usage (Scan.user (fs.below env.rem)) = usedIn fs env.rem ((Scan.user (fs.below env.rem)).map Prod.fst) ∧
      ((Scan.user (fs.below env.rem)).map Prod.fst).Nodup ∧
      ∀ p, p ∈ (Scan.user (fs.below env.rem)).map Prod.fst ↔ UserPath p ∧ fs.get (env.rem ++ p) ≠ none := by
  refine ⟨usage_eq (fun e he => (wf.mem_below_iff.1 (List.mem_filter.1 he).1).1), ?_, fun p => ?_⟩
  · exact (nodup_keys_below wf env.rem).sublist (List.Sublist.map _ List.filter_sublist)
  · rw [List.mem_map]
    constructor
    · rintro ⟨e, he, rfl⟩
      obtain ⟨h1, h2⟩ := List.mem_filter.1 he
      obtain ⟨h3, h4⟩ := wf.mem_below_iff.1 h1
      exact ⟨⟨h4, by simpa using h2⟩, by rw [h3]; simp⟩
    · rintro ⟨h1, h2⟩
      rcases Option.eq_none_or_eq_some (fs.get (env.rem ++ p)) with h3 | ⟨n, h3⟩
      · exact absurd h3 h2
      · exact ⟨(p, n), List.mem_filter.2 ⟨wf.mem_below_iff.2 ⟨h3, h1.1⟩, by simpa using h1.2⟩, rfl⟩

/-- C85: if what is in the remote directory, outside the util directory, takes more space than there is locally, `reset`
fails and has changed nothing. -/
theorem C85_reset_refused (h : ResetReady env w) {keep : Bool} {F : List Path} (hF : F.Nodup)
    (hFl : ∀ p ∈ F, UserPath p ∧ w.os.fs.get (env.rem ++ p) ≠ none) (hbig : free < usedIn w.os.fs env.rem F) :
    (∃ e, (resetIn free env keep false w).1 = .error e) ∧ (resetIn free env keep false w).2.os.fs = w.os.fs ∧
    (resetIn free env keep false w).2.dbSaved = w.dbSaved ∧ (resetIn free env keep false w).2.rdbSaved = w.rdbSaved := by
  have key : wp (resetIn free env keep false) (fun _ _ => False)
      (fun _ w' => w'.os.fs = w.os.fs ∧ w'.dbSaved = w.dbSaved ∧ w'.rdbSaved = w.rdbSaved) w := by
    unfold resetIn
    rw [wp_bind, wp_sys]
    obtain ⟨m, b, hg⟩ := FS.isDir_iff.1 h.loc_dir
    refine wp_mono (wp_makedirs_dir h.wf hg) ?_ (fun _ s h1 => ⟨h1.1, rfl, rfl⟩)
    intro _ s h1
    rw [wp_bind]
    unfold resetGetIn
    rw [if_neg (by simp), wp_bind]
    refine wp_scanRemote (fun hm => absurd h.rmemo hm) (fun _ => ?_) (fun e => ⟨h1, rfl, rfl⟩)
    dsimp only
    rw [h1]
    obtain ⟨h2, h3, h4⟩ := scan_remote_usage (env := env) h.wf
    have h5 : usedIn w.os.fs env.rem F ≤ Scan.usage (Scan.user (w.os.fs.below env.rem)) := by
      rw [h2]
      exact sum_le_of_subset _ hF (fun p hp => (h4 p).2 (hFl p hp))
    rw [if_pos (by omega), wp_throw]
    exact ⟨h1, rfl, rfl⟩
  unfold wp at key
  rcases hr : resetIn free env keep false w with ⟨e | a, w'⟩
  · rw [hr] at key
    exact ⟨⟨e, rfl⟩, key⟩
  · rw [hr] at key; exact key.elim

/-- C85: if it does not, or nothing is to be retrieved, the check makes no difference, wherever `reset` stops. -/
theorem C85_reset_enough (h : ResetReady env w) {keep nor : Bool}
    (hle : nor = false → ∀ F : List Path, F.Nodup → (∀ p ∈ F, UserPath p ∧ w.os.fs.get (env.rem ++ p) ≠ none) →
      usedIn w.os.fs env.rem F ≤ free) : resetIn free env keep nor w = reset env keep nor w := by
  unfold resetIn reset
  refine bind_congr_at ?_
  rw [wp_sys]
  obtain ⟨m, b, hg⟩ := FS.isDir_iff.1 h.loc_dir
  refine wp_mono (wp_makedirs_dir h.wf hg) ?_ (fun _ _ _ => trivial)
  intro _ s h1
  refine bind_at (resetGetIn_eq fun hn => ?_)
  refine wp_scanRemote (fun hm => absurd h.rmemo hm) (fun _ => ?_) (fun _ => trivial)
  dsimp only
  rw [h1]
  obtain ⟨h2, h3, h4⟩ := scan_remote_usage (env := env) h.wf
  rw [h2]
  exact hle hn _ h3 (fun p hp => (h4 p).1 hp)

/-- C85: so after a success, the files that have been retrieved take no more than the space that there was. -/
theorem C85_reset_fits (h : ResetReady env w) {keep : Bool} {w' : World}
    (hr : resetIn free env keep false w = (.ok (), w')) {F : List Path} (hF : F.Nodup)
    (hFl : ∀ p ∈ F, p ∈ ADB.paths w.rdb ∧ ∃ c m b, w.os.fs.get (env.rem ++ p) = some (.file c m b)) :
    (∀ p ∈ F, w'.os.fs.get (env.loc ++ p) = w.os.fs.get (env.rem ++ p)) ∧ usedIn w'.os.fs env.loc F ≤ free := by
  have hle : ∀ F : List Path, F.Nodup → (∀ p ∈ F, UserPath p ∧ w.os.fs.get (env.rem ++ p) ≠ none) →
      usedIn w.os.fs env.rem F ≤ free := by
    intro F hF hFl
    refine Nat.le_of_not_lt fun hbig => ?_
    obtain ⟨⟨e, h1⟩, _⟩ := C85_reset_refused (keep := keep) h hF hFl hbig
    rw [hr] at h1
    cases h1
  rw [C85_reset_enough h (fun _ => hle)] at hr
  have h1 : ∀ p ∈ F, w'.os.fs.get (env.loc ++ p) = w.os.fs.get (env.rem ++ p) := by
    intro p hp
    obtain ⟨h2, c, m, b, h3⟩ := hFl p hp
    rw [C45_retrieved_partial h hr h2 h3, h3]
  refine ⟨h1, ?_⟩
  rw [usedIn_congr h1]
  refine hle F hF fun p hp => ?_
  obtain ⟨h2, c, m, b, h3⟩ := hFl p hp
  exact ⟨(h.rows p h2).1, by rw [h3]; simp⟩

end

/-! ### Examples -/

/-- The hypotheses of `C85_init_refused`: the local directory of `exInit` takes 5632 bytes. -/
example (fuel : Nat) : (exInit fuel).os.fs.get (exEnvE.loc ++ ["d".toList]) ≠ none ∧
    5631 < usedIn (exInit fuel).os.fs exEnvE.loc
      [["d".toList], ["d".toList, "a".toList], ["d".toList, "e".toList], ["b".toList]] :=
  (by decide +kernel : exInitFS.get (exEnvE.loc ++ ["d".toList]) ≠ none ∧
    5631 < usedIn exInitFS exEnvE.loc [["d".toList], ["d".toList, "a".toList], ["d".toList, "e".toList], ["b".toList]])

/-- With one byte more it succeeds. -/
example : (initIn 5631 exEnvE false (exInit 100)).1 = .error .space ∧
    (initIn 5631 exEnvE false (exInit 100)).2.os.fs.get ["r".toList, "b".toList] = none ∧
    (initIn 5632 exEnvE false (exInit 100)).1 = .ok () ∧
    (initIn 5632 exEnvE false (exInit 100)).2.os.fs.get ["r".toList, "b".toList] = some (.file 9 4 1) := by decide +kernel

/-- The same for `reset`, with the remote directory of `exReset`. -/
example : (resetIn 5119 exEnvE false false (exReset 100)).1 = .error .space ∧
    (resetIn 5120 exEnvE false false (exReset 100)).1 = .ok () ∧
    5119 < usedIn (exReset 100).os.fs exEnvE.rem [["d".toList], ["d".toList, "a".toList], ["b".toList]] := by
  decide +kernel

/-- C85 is not exact: excluded files are counted, although they are not copied. Here `init` is refused with 5200 bytes of
space, although it would take 5120. -/
theorem C85_excluded_fails :
    (initIn 5200 exEnvE false (exInit 100)).1 = .error .space ∧ (init exEnvE false (exInit 100)).1 = .ok () ∧
    Scan.usage (Scan.user ((init exEnvE false (exInit 100)).2.os.fs.below exEnvE.rem)) = 5120 := by decide +kernel

/-- An initialisation that is killed after it has copied `d/a`. -/
def exHalf : World := (initIn 5712 exEnvE false (exInit 12)).2

/-- What has been copied before an interruption is counted again: there are 5712 bytes of space, which is enough for
`init`. Killed after it has copied `d/a`, it is refused, although 1104 bytes are left and 512 are missing. It changes
nothing, so it will be refused again. -/
theorem C85_resume_fails :
    (initIn 5712 exEnvE false (exInit 100)).1 = .ok () ∧
    (initIn 5712 exEnvE false (exInit 12)).1 = .error .killed ∧
    usedIn exHalf.os.fs exEnvE.rem [["d".toList], ["d".toList, "a".toList]] = 4608 ∧
    (initIn (5712 - 4608) exEnvE false (exHalf.restart 100)).1 = .error .space ∧
    (initIn (5712 - 4608) exEnvE false (exHalf.restart 100)).2.os.fs = exHalf.os.fs ∧
    (init exEnvE false (exHalf.restart 100)).1 = .ok () ∧
    Scan.usage (Scan.user ((init exEnvE false (exHalf.restart 100)).2.os.fs.below exEnvE.rem)) = 4608 + 512 := by
  decide +kernel

/-- All files are in both directories. -/
def exCopies (fuel : Nat) : World := exWorld exEnvE
  [(["l".toList, "a".toList], .file 7 3 4), (["r".toList, "a".toList], .file 7 3 4),
    (["l".toList, "b".toList], .file 9 4 1), (["r".toList, "b".toList], .file 9 4 1)]
  [exRow ["a".toList] false 1 true, exRow ["b".toList] false 1 true]
  [exRRow ["a".toList] false, exRRow ["b".toList] false] fuel

/-- Files that the local directory has are counted: `reset` is refused with 2000 bytes of space, although no file is
missing in the local directory. -/
theorem C85_local_fails :
    (resetIn 2000 exEnvE false false (exCopies 100)).1 = .error .space ∧
    (∀ e ∈ Scan.user ((exCopies 100).os.fs.below exEnvE.rem),
      (exCopies 100).os.fs.get (exEnvE.loc ++ e.1) = some e.2) ∧
    (reset exEnvE false false (exCopies 100)).1 = .ok () ∧
    Scan.usage ((reset exEnvE false false (exCopies 100)).2.os.fs.below exEnvE.loc) =
      Scan.usage ((exCopies 100).os.fs.below exEnvE.loc) := by decide +kernel

end Verif
