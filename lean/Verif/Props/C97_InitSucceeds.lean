import Verif.SafeInit
import Verif.Props.C70_AddRemote
/-
C97: an initialisation that is not killed succeeds, and so does one that is started again after any number of
initialisations that were killed.

What the theorems assume beyond the claim. Of an initialisation from local files (`InitReady`, `InitTidy`): every local
link is excluded or unsafe, and an exclude pattern matches no local link itself; the remote directory has no links; what
is a directory on one side is one on the other. Of an initialisation from a remote directory (`AddReady`, `AddTidy`):
what is a directory on one side is one on the other. Both: the exclude pattern file is a file outside both directories,
and no link or file is in the way of the directories that are made. Hypotheses on the start are for the first start
only; that they hold again after a kill is part of the proof.
-/
namespace Verif
open Prog OSM Call FSTools WM

section
variable {env : Env} {k : Nat} {w : World}

theorem Resumed.tidy {w' : World} (hr : Resumed env w w') (h : InitReady env w) (hxl : ¬ env.loc <+: env.excl)
    (hxr : ¬ env.rem <+: env.excl) (ht : InitTidy env k w.os.fs) : InitReady env w' ∧ InitTidy env k w'.os.fs := by
  induction hr with
  | start => exact ⟨h, ht⟩
  | again fuel _ hfail ih =>
    rename_i w2 hr
    obtain ⟨ih1, ih2⟩ := ih
    have hwp := wp_and (wp_init ih1) (wp_init_tidy ih1 hxl hxr ih2)
    unfold wp at hwp
    rcases hi : init env false w2 with ⟨r, w3⟩
    rw [hi] at hwp hfail
    cases r with
    | ok u => exact absurd rfl (hfail u)
    | error e =>
      obtain ⟨⟨⟨_, h2⟩, h3⟩, _, h4⟩ := hwp
      exact ⟨ih1.next hxl hxr h2 h3 fuel, h4⟩

/-- C97: an initialisation from local files either is killed or succeeds, also when it resumes initialisations that were
killed. -/
theorem C97_resumed_partial (h : InitReady env w) (hxl : ¬ env.loc <+: env.excl) (hxr : ¬ env.rem <+: env.excl)
    (ht : InitTidy env k w.os.fs) {w' : World} (hr : Resumed env w w') :
    (init env false w').1 = .ok () ∨ (init env false w').1 = .error .killed := by
  obtain ⟨h1, h2⟩ := hr.tidy h hxl hxr ht
  have hwp := wp_init_tidy h1 hxl hxr h2
  unfold wp at hwp
  rcases hi : init env false w' with ⟨r, w3⟩
  rw [hi] at hwp
  cases r with
  | ok u => exact Or.inl rfl
  | error e => exact Or.inr (by rw [hwp.1])

/-- The remote directory of a first initialisation is empty, and if it exists, so far as it exists, is made of
directories. -/
theorem initTidy_new (wf : w.os.fs.WF) (hk : ∃ m b, w.os.fs.get env.excl = some (.file k m b))
    (hw : WayTo w.os.fs env.rem) (hne : ∀ p, p ≠ [] → w.os.fs.get (env.rem ++ p) = none)
    (hl : ∀ p t m, p ≠ [] → w.os.fs.get (env.loc ++ p) = some (.link t m) →
      (OwnExcludes env w.os.fs p ∨ UnsafeLink env.loc p (.link t m)) ∧ (env.patsOf k).any (fun g => g p) = false) :
    InitTidy env k w.os.fs := by
  obtain ⟨em, eb, hexg⟩ := hk
  have hst := FS.stat_nonlink (wf.pathErr hexg) hexg rfl
  have hway : ∀ r, WayTo w.os.fs (env.rem ++ r) := by
    intro r q hq
    by_cases h : q <+: env.rem
    · exact hw q h
    · rcases List.prefix_or_prefix_of_prefix hq (List.prefix_append env.rem r) with h1 | ⟨u, rfl⟩
      · exact absurd h1 h
      · left
        apply hne
        rintro rfl
        exact h (by simp)
  refine ⟨wf, ⟨em, eb, hexg⟩, by rw [exclDir_eq]; exact hway _, by rw [trash_eq]; exact hway _, ?_, ?_, ?_⟩
  · intro p t m h0 hn
    obtain ⟨h1, h2⟩ := hl p t m h0 hn
    refine ⟨?_, Or.inl h2⟩
    rcases h1 with ⟨_, k', _, _, h3, _, _, q, h5, h6, g, h7, h8⟩ | h1
    · rw [hst] at h3
      cases h3
      exact Or.inl ⟨q, h5, h6, List.any_eq_true.2 ⟨g, h7, h8⟩⟩
    · exact Or.inr h1
  · intro p t m hu hn
    rw [hne p hu.1] at hn
    cases hn
  · intro p n x hu hn _
    rw [hne p hu.1] at hn
    cases hn

/-- C97 for a new profile: the local directory has files, directories and links of which each is excluded or unsafe and
matches no pattern itself, and the remote directory is empty. The initialisation is killed and started again any number
of times; one that is not killed succeeds, and then every regular local file that was not excluded is in the remote
directory and its local path is a link to it. -/
theorem C97_new_partial (h : InitReady env w) (hxl : ¬ env.loc <+: env.excl) (hxr : ¬ env.rem <+: env.excl)
    (hk : ∃ m b, w.os.fs.get env.excl = some (.file k m b))
    (hw : WayTo w.os.fs env.rem) (hne : ∀ p, p ≠ [] → w.os.fs.get (env.rem ++ p) = none)
    (hl : ∀ p t m, p ≠ [] → w.os.fs.get (env.loc ++ p) = some (.link t m) →
      (OwnExcludes env w.os.fs p ∨ UnsafeLink env.loc p (.link t m)) ∧ (env.patsOf k).any (fun g => g p) = false)
    {w' : World} (hr : Resumed env w w') (hnk : (init env false w').1 ≠ .error .killed) :
    (init env false w').1 = .ok () ∧
    ∀ p c m b, p ≠ [] → w.os.fs.get (env.loc ++ p) = some (.file c m b) → ¬ OwnExcludes env w.os.fs p →
      (init env false w').2.os.fs.get (env.rem ++ p) = some (.file c m b) ∧
      ∃ t m', (init env false w').2.os.fs.get (env.loc ++ p) = some (.link t m') ∧
        FS.linkDest (env.loc ++ p) t = env.rem ++ p := by
  have hok := (C97_resumed_partial h hxl hxr (initTidy_new h.wf hk hw hne hl) hr).resolve_right hnk
  refine ⟨hok, fun p c m b hp hn hx => ?_⟩
  exact (C44_resumed_partial h hxl hxr hr hp hn hx).2 _ (Prod.ext hok rfl)

/-! ### From a remote directory -/

/-- What is assumed of the files when an initialisation from a remote directory starts. -/
structure AddTidy (env : Env) (fs : FS) : Prop where
  excl : ∃ c m b, fs.get env.excl = some (.file c m b)
  way_loc : WayTo fs env.loc
  way_excl : WayTo fs env.exclDir
  way_trash : WayTo fs env.trash
  kind : ∀ p n x, UserPath p → fs.get (env.rem ++ p) = some n → fs.get (env.loc ++ p) = some x → n.isDir = x.isDir

theorem AddTidy.grow {fs fs' : FS} (h : AddTidy env fs) (ha : Apart env.loc env.rem)
    (hg : Grow (AddDirs env) fs fs') : AddTidy env fs' := by
  obtain ⟨c, m, b, hx⟩ := h.excl
  refine ⟨⟨c, m, b, hg.keeps _ _ hx⟩, h.way_loc.grow hg, h.way_excl.grow hg, h.way_trash.grow hg, ?_⟩
  intro p n x hu
  rw [hg.get_eq (AddDirs.not_user ha hu), hg.get_eq (AddDirs.not_loc ha hu.1)]
  exact h.kind p n x hu

/-- Links have been made, and the exclude pattern file has been copied. -/
theorem AddTidy.setup {f2 f4 fs' : FS} (h : AddTidy env f2) (ha : Apart env.loc env.rem) (hxl : ¬ env.loc <+: env.excl)
    (hxr : ¬ env.rem <+: env.excl) (hf : SetupFrame env f2 f4) (ho : OnlyAt (env.exclDir ++ [env.id]) f4 fs') :
    AddTidy env fs' := by
  have hslot : ∀ q, q.length < (env.exclDir ++ [env.id]).length → fs'.get q = f4.get q := by
    intro q hq
    apply ho
    rintro rfl
    omega
  have hslotl : ∀ q, fs'.get (env.loc ++ q) = f4.get (env.loc ++ q) := by
    intro q
    apply ho
    rw [exclDir_eq, List.append_assoc]
    exact ha.ne _ _
  have hout : ∀ q, ¬ env.loc <+: q → f4.get q = f2.get q := by
    intro q hq
    apply hf.other
    rintro p _ rfl
    exact absurd (List.prefix_append _ _) hq
  have hrem : ∀ q, f4.get (env.rem ++ q) = f2.get (env.rem ++ q) := by
    intro q
    apply hout
    rintro ⟨t, ht⟩
    exact ha.ne t q ht
  have hremu : ∀ p, UserPath p → fs'.get (env.rem ++ p) = f2.get (env.rem ++ p) := by
    intro p hu
    rw [← hrem]
    apply ho
    intro he
    refine (hu.not_prefix env (q := ["exclude".toList] ++ [env.id])) ?_
    rw [he]
    unfold Env.exclDir
    rw [List.append_assoc]
    exact List.prefix_refl _
  have hway : ∀ r, r.length ≤ 2 → WayTo f2 (env.rem ++ r) → WayTo fs' (env.rem ++ r) := by
    intro r hr hw q hq
    have h1 : fs'.get q = f4.get q := by
      apply hslot
      have := hq.length_le
      rw [exclDir_eq]
      simp at this ⊢
      omega
    have h2 : f4.get q = f2.get q := by
      apply hout
      intro h3
      have := ha.not_prefix [] r
      rw [List.append_nil] at this
      exact this (h3.trans hq)
    rw [h1, FS.isDir_congr h1, h2, FS.isDir_congr h2]
    exact hw q hq
  have w1 := h.way_excl
  have w2 := h.way_trash
  rw [exclDir_eq] at w1
  rw [trash_eq] at w2
  obtain ⟨c, m, b, hx⟩ := h.excl
  refine ⟨⟨c, m, b, ?_⟩, ?_, by rw [exclDir_eq]; exact hway _ (by simp) w1, by rw [trash_eq]; exact hway _ (by simp) w2,
    ?_⟩
  · rw [ho, hout _ hxl]
    · exact hx
    · intro e
      apply hxr
      rw [e, exclDir_eq, List.append_assoc]
      exact List.prefix_append _ _
  · intro q hq
    have h1 : fs'.get q = f4.get q := by
      apply ho
      rintro rfl
      rw [exclDir_eq, List.append_assoc] at hq
      exact ha.2 ((List.prefix_append _ _).trans hq)
    have h2 : f4.get q = f2.get q := by
      apply hf.other
      rintro p hu rfl
      have h3 := hq.length_le
      have h4 := List.length_pos_iff.2 hu.1
      rw [List.length_append] at h3
      omega
    rw [h1, FS.isDir_congr h1, h2, FS.isDir_congr h2]
    exact h.way_loc q hq
  · intro p n x hu hn hx
    rw [hremu p hu] at hn
    rw [hslotl] at hx
    rcases hf.at_ p n hu hn with h2 | ⟨h2, h3⟩ | h2
    · exact h.kind p n x hu hn (by rw [← h2]; exact hx)
    · rcases h3 with h3 | ⟨m, h3⟩
      · rw [h3] at hx; cases hx
      · rw [h3] at hx; cases hx; exact h2
    · rw [isDir_iff_false hx] at h2
      rw [h2.1, h2.2.2]

/-- How the files are while an initialisation from a remote directory is going on. -/
structure Adding (env : Env) (fs : FS) : Prop where
  wf : fs.WF
  tidy : AddTidy env fs
  slot : ∀ n, fs.get (env.exclDir ++ [env.id]) = some n → ∃ c m b, n = .file c m b

/-- An initialisation from a remote directory raises nothing, and what is assumed stays true at every point. -/
theorem wp_initRemote_tidy (h : AddReady env w) (hxl : ¬ env.loc <+: env.excl) (hxr : ¬ env.rem <+: env.excl)
    (ht : AddTidy env w.os.fs) :
    wp (init env true) (fun _ w' => Adding env w'.os.fs)
      (fun e w' => e = .killed ∧ Adding env w'.os.fs ∧ w'.dbSaved = w.dbSaved) w := by
  have hge := goodPath_exclDir h.rem_good
  have hgt := goodPath_trash h.rem_good
  have hgdirs : ∀ q, AddDirs env q → GoodPath q := by
    rintro q ⟨_, h1 | h1 | h1⟩
    · exact goodPath_of_prefix h.loc_good h1
    · exact goodPath_of_prefix hge h1
    · exact goodPath_of_prefix hgt h1
  have hd0 : ∀ q, q ≠ [] ∧ q <+: env.loc → AddDirs env q := fun q hq => ⟨hq.1, Or.inl hq.2⟩
  have hd1 : ∀ q, q ≠ [] ∧ q <+: env.exclDir → AddDirs env q := fun q hq => ⟨hq.1, Or.inr (Or.inl hq.2)⟩
  have hd2 : ∀ q, q ≠ [] ∧ q <+: env.trash → AddDirs env q := fun q hq => ⟨hq.1, Or.inr (Or.inr hq.2)⟩
  have adding : ∀ fs', Grow (AddDirs env) w.os.fs fs' → Adding env fs' := by
    intro fs' hg
    refine ⟨hg.wf hgdirs h.wf, ht.grow h.apart hg, ?_⟩
    intro n hn
    rw [hg.get_eq (AddDirs.not_slot h.apart)] at hn
    exact h.slot n hn
  unfold init
  rw [wp_bind, wp_sys]
  refine wp_mono (wp_and (safe_makedirs_way h.wf h.loc_good ht.way_loc) (wp_makedirs _ _)) ?_
    (fun e s h1 => ⟨h1.1, adding _ (h1.2.mono hd0), rfl⟩)
  rintro _ s0 ⟨-, hk0, hp0⟩
  have hg0 := hk0.mono hd0
  have hl0 := wayTo_made ht.way_loc hk0 hp0
  have ha0 := adding _ hg0
  rw [wp_bind, wp_sys]
  refine wp_mono (wp_and (safe_makedirs_way ha0.wf hge ha0.tidy.way_excl) (wp_makedirs _ _)) ?_
    (fun e s h1 => ⟨h1.1, adding _ (hg0.trans (h1.2.mono hd1)), rfl⟩)
  rintro _ s1 ⟨-, hk1, hp1⟩
  have hg1 := hg0.trans (hk1.mono hd1)
  have hx1 := wayTo_made ha0.tidy.way_excl hk1 hp1
  have ha1 := adding _ hg1
  rw [wp_bind, wp_sys]
  refine wp_mono (wp_and (safe_makedirs_way ha1.wf hgt ha1.tidy.way_trash) (wp_makedirs _ _)) ?_
    (fun e s h1 => ⟨h1.1, adding _ (hg1.trans (h1.2.mono hd2)), rfl⟩)
  rintro _ s2 ⟨-, hk2, hp2⟩
  have ha2 := adding _ (hg1.trans (hk2.mono hd2))
  have hx2 : s2.fs.isDir env.exclDir = true := by
    obtain ⟨m, b, h1⟩ := FS.isDir_iff.1 hx1
    exact FS.isDir_iff.2 ⟨m, b, hk2.keeps _ _ h1⟩
  have hl2 : s2.fs.isDir env.loc = true := by
    obtain ⟨m, b, h1⟩ := FS.isDir_iff.1 hl0
    exact FS.isDir_iff.2 ⟨m, b, hk2.keeps _ _ (hk1.keeps _ _ h1)⟩
  have hr2 : s2.fs.isDir env.rem = true := by
    obtain ⟨m, b, hd⟩ := FS.isDir_iff.1 hx2
    refine ha2.wf.isDir_prefix hd _ (by rw [exclDir_eq]; exact List.prefix_append _ _) ?_
    rw [exclDir_eq]
    intro e
    have := congrArg List.length e
    simp at this
  rw [if_pos rfl]
  show wp (setupFromRemote env >>= fun _ => initTail env) _ _ _
  rw [wp_bind]
  unfold setupFromRemote
  rw [wp_bind]
  refine wp_mono (wp_and (safe_scanRemote ha2.wf hr2) (wp_scanRemote (E := fun _ w' => Adding env w'.os.fs ∧ w'.dbSaved = w.dbSaved)
    (Q := fun l w' => w' = { w with os := s2, rmemo := s2.fs.below env.rem })
    (fun hm => absurd h.rmemo hm) (fun _ => rfl) (fun _ => ⟨ha2, rfl⟩))) ?_ (fun _ _ h => h)
  rintro r _ ⟨-, rfl⟩
  refine wp_mono (wp_and (safe_setupDir (w := { w with os := s2, rmemo := s2.fs.below env.rem }) ha2.wf hl2 hr2
      (Or.inr rfl) h.rows ha2.tidy.kind)
    (wp_setupDir (w := { w with os := s2, rmemo := s2.fs.below env.rem }) ha2.wf hl2 (Or.inr rfl) h.rows)) ?_ ?_
  swap
  · rintro e w' ⟨h1, hf, hs⟩
    have hsl : w'.os.fs.get (env.exclDir ++ [env.id]) = s2.fs.get (env.exclDir ++ [env.id]) := by
      apply hf.other
      intro p _ he
      rw [exclDir_eq, List.append_assoc] at he
      exact absurd he.symm (h.apart.ne _ _)
    exact ⟨h1, ⟨hf.wf, ha2.tidy.setup h.apart hxl hxr hf (fun _ _ => rfl), fun n hn => ha2.slot n (by rw [← hsl]; exact hn)⟩, hs⟩
  rintro _ w4 ⟨-, hf, hs4, -, -⟩
  have hout : ∀ q, env.rem <+: q → w4.os.fs.get q = s2.fs.get q := by
    rintro _ ⟨t, rfl⟩
    apply hf.other
    intro p _ he
    exact absurd he.symm (h.apart.ne _ _)
  have ht4 := ha2.tidy.setup h.apart hxl hxr hf (fun _ _ => rfl)
  have hx4 : w4.os.fs.isDir env.exclDir = true := by
    rw [FS.isDir_congr (hout _ (by rw [exclDir_eq]; exact List.prefix_append _ _))]
    exact hx2
  have hsl4 : ∀ n, w4.os.fs.get (env.exclDir ++ [env.id]) = some n → ∃ c m b, n = .file c m b := by
    intro n hn
    rw [hout _ (by rw [exclDir_eq, List.append_assoc]; exact List.prefix_append _ _)] at hn
    exact ha2.slot n hn
  have hne : env.excl ≠ env.exclDir ++ [env.id] := by
    intro e
    apply hxr
    rw [e, exclDir_eq, List.append_assoc]
    exact List.prefix_append _ _
  refine wp_mono (wp_and (safe_initTail hf.wf hx4 hsl4 ht4.excl hne)
    (wp_initTail hf.wf (goodPath_append.2 ⟨hge, h.id_good⟩) hsl4)) ?_ ?_
  · rintro _ w5 ⟨-, h5, -⟩
    exact ⟨h5.wf, ha2.tidy.setup h.apart hxl hxr hf h5.only, h5.file⟩
  · rintro e w5 ⟨he, h5, hs5⟩
    exact ⟨he, ⟨h5.wf, ha2.tidy.setup h.apart hxl hxr hf h5.only, h5.file⟩, hs5.trans hs4⟩

/-- An initialisation from a remote directory has ended with an error, or has been killed, and the program is started
again; any number of times. -/
inductive AddResumed (env : Env) : World → World → Prop
  | start (w : World) : AddResumed env w w
  | again {w w' : World} (fuel : Nat) : AddResumed env w w' → (∀ u, (init env true w').1 ≠ .ok u) →
      AddResumed env w ((init env true w').2.restart fuel)

theorem AddResumed.tidy {w' : World} (hr : AddResumed env w w') (h : AddReady env w) (hs : w.dbSaved = [])
    (hxl : ¬ env.loc <+: env.excl) (hxr : ¬ env.rem <+: env.excl) (ht : AddTidy env w.os.fs) :
    AddReady env w' ∧ w'.dbSaved = [] ∧ AddTidy env w'.os.fs ∧
      ∀ p, UserPath p → w'.os.fs.get (env.rem ++ p) = w.os.fs.get (env.rem ++ p) := by
  induction hr with
  | start => exact ⟨h, hs, ht, fun _ _ => rfl⟩
  | again fuel _ hfail ih =>
    rename_i w2 hr
    obtain ⟨ih1, ih2, ih3, ih4⟩ := ih
    have hwp := wp_and (wp_initRemote_tidy ih1 hxl hxr ih3) (wp_initRemote ih1)
    unfold wp at hwp
    rcases hi : init env true w2 with ⟨r, w3⟩
    rw [hi] at hwp hfail
    cases r with
    | ok u => exact absurd rfl (hfail u)
    | error e =>
      obtain ⟨⟨_, h2, h3⟩, h4⟩ := hwp
      have hs3 : w3.dbSaved = [] := h3.trans ih2
      refine ⟨⟨h2.wf, h.apart, h.loc_good, ?_, h.rem_good, h.id_good, h2.slot, rfl, hs3⟩, hs3, h2.tidy, ?_⟩
      · intro n hn
        have hn : w3.os.fs.get env.loc = some n := hn
        rw [← isDir_iff_false hn]
        exact h2.tidy.way_loc.isDir ⟨n, hn⟩
      · intro p hu
        exact (h4.rem p hu).trans (ih4 p hu)

/-- C97 for an initialisation from a remote directory: it either is killed or succeeds, also when it resumes
initialisations that were killed; and then every file of the remote directory that is not an unsafe link is in the local
directory as a link. -/
theorem C97_add_partial (h : AddReady env w) (hs : w.dbSaved = []) (hxl : ¬ env.loc <+: env.excl)
    (hxr : ¬ env.rem <+: env.excl) (ht : AddTidy env w.os.fs) {w' : World} (hr : AddResumed env w w')
    (hnk : (init env true w').1 ≠ .error .killed) :
    (init env true w').1 = .ok () ∧
    ∀ p n, UserPath p → w.os.fs.get (env.rem ++ p) = some n → n.isDir = false → ¬ UnsafeLink env.rem p n →
      (init env true w').2.os.fs.get (env.rem ++ p) = some n ∧
      ∃ t m, (init env true w').2.os.fs.get (env.loc ++ p) = some (.link t m) ∧
        FS.linkDest (env.loc ++ p) t = env.rem ++ p := by
  obtain ⟨h1, h2, h3, h4⟩ := hr.tidy h hs hxl hxr ht
  have hok : (init env true w').1 = .ok () := by
    have hwp := wp_initRemote_tidy h1 hxl hxr h3
    unfold wp at hwp
    rcases hi : init env true w' with ⟨r, w3⟩
    rw [hi] at hwp hnk
    cases r with
    | ok u => rfl
    | error e => exact absurd (by rw [hwp.1]) hnk
  refine ⟨hok, fun p n hu hn hd hx => ⟨?_, ?_⟩⟩
  · rw [C70_kept h1 hu, h4 p hu]; exact hn
  · exact (C70_done h1 hok).1 p n hu ((h4 p hu).trans hn) hd hx

end

/-! ### Examples -/

theorem exInit_tidy (fuel : Nat) : InitTidy exEnvE 1 (exInit fuel).os.fs := by
  refine initTidy_new (w := exInit fuel) (exInit_ready fuel).wf
    ⟨1, 1, (by decide +kernel : exInitFS.get exEnvE.excl = some (.file 1 1 1))⟩ ?_ ?_ ?_
  · intro q hq
    rcases List.prefix_cons_iff.1 (show q <+: ["r".toList] from hq) with rfl | ⟨t, rfl, h⟩
    · exact Or.inr (by decide +kernel : exInitFS.isDir [] = true)
    · rw [List.prefix_nil.1 h]
      exact Or.inl (by decide +kernel : exInitFS.get ["r".toList] = none)
  · intro p h0
    change exInitFS.get (exEnvE.rem ++ p) = none
    rcases Option.eq_none_or_eq_some (exInitFS.get (exEnvE.rem ++ p)) with h | ⟨n, h⟩
    · exact h
    · have hm := FS.mem_of_get (by simp [exEnvE]) h
      simp [exInitFS, exEnvE] at hm
  · intro p t m h0 hn
    have hn : exInitFS.get (exEnvE.loc ++ p) = some (.link t m) := hn
    have hm := FS.mem_of_get (by simp [exEnvE]) hn
    simp [exInitFS, exEnvE] at hm
    obtain ⟨rfl, rfl, rfl⟩ := hm
    exact ⟨Or.inr (unsafeLink_abs _ _ ["q".toList] _), by decide +kernel⟩

/-- Killed after `b` has been removed, started again, killed again, and started again. -/
example : let w1 := (init exEnvE false (exInit 19)).2.restart 12
    let w2 := (init exEnvE false w1).2.restart 100
    Resumed exEnvE (exInit 19) w2 ∧ (init exEnvE false w2).1 = .ok () := by
  refine ⟨.again 100 (.again 12 (.start _) ?_) ?_, by decide +kernel⟩
  · have : (init exEnvE false (exInit 19)).1 = .error .killed := by decide +kernel
    intro u h
    rw [this] at h
    cases h
  · have : (init exEnvE false ((init exEnvE false (exInit 19)).2.restart 12)).1 = .error .killed := by decide +kernel
    intro u h
    rw [this] at h
    cases h

theorem exAdd_tidy (fuel : Nat) : AddTidy exEnvE (exAdd fuel).os.fs := by
  have hl : ∀ p, p ≠ [] → (exAdd 0).os.fs.get (exEnvE.loc ++ p) = none := by
    intro p h0
    rcases Option.eq_none_or_eq_some ((exAdd 0).os.fs.get (exEnvE.loc ++ p)) with h | ⟨n, h⟩
    · exact h
    · have hm := FS.mem_of_get (by simp [exEnvE]) h
      simp [exAdd, exWorld, exBase, Env.exclDir, Env.trash, Env.util, exEnvE, h0] at hm
  have hway : ∀ d : Path, (∀ i, i ≤ d.length → (exAdd 0).os.fs.get (d.take i) = none ∨
      (exAdd 0).os.fs.isDir (d.take i) = true) → WayTo (exAdd 0).os.fs d := by
    intro d h q hq
    rw [List.prefix_iff_eq_take.1 hq]
    exact h _ hq.length_le
  refine ⟨⟨1, 1, 1, (by decide +kernel : (exAdd 0).os.fs.get exEnvE.excl = some (.file 1 1 1))⟩, hway _ (by decide +kernel),
    hway _ (by decide +kernel), hway _ (by decide +kernel), ?_⟩
  intro p n x hu _ hx
  have hx : (exAdd 0).os.fs.get (exEnvE.loc ++ p) = some x := hx
  rw [hl p hu.1] at hx
  cases hx

/-- A file, and a link that leads nowhere and matches the exclude pattern `e`. -/
def exInitDangling : World := exWorld exEnvE
  [(["l".toList, "b".toList], .file 9 3 1), (["l".toList, "e".toList], .link "gone".toList 45)] [] [] 1000

/-- C97 in full is false: if an exclude pattern matches a local link that leads nowhere, the initialisation of a new
profile ends with FileNotFoundError, every time (zielen/profile.py:342-374, zielen/filelogic.py:459-480). -/
theorem C97_dangling_fails : (init exEnvE false exInitDangling).1 = .error .notFound ∧
    (init exEnvE false ((init exEnvE false exInitDangling).2.restart 1000)).1 = .error .notFound := by
  decide +kernel

/-- `b` is a file in the local and a directory in the remote directory. -/
def exInitKinds : World := exWorld exEnvE
  [(["l".toList, "b".toList], .file 9 3 1), (["r".toList, "b".toList], .dir 1 45)] [] [] 1000

/-- A resumed initialisation, for which it is not checked that the remote directory is empty, fails if the two sides
have different kinds of files at a path. -/
theorem C97_kinds_fails : (init exEnvE false exInitKinds).1 = .error .notDir := by
  decide +kernel

end Verif
