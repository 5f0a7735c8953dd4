import Verif.Props.C44_Init
/-
C70: `init --add-remote` changes no file of the remote directory, however it ends. After a success every file of the
remote directory, unsafe links excepted, is in the local directory as a link, every directory as a directory, and the
profile's database lists exactly these paths. Local files are not destroyed.

What the theorems assume beyond the claim (`AddReady`): the program starts with an empty profile database, neither
directory is in the other, and the local directory is a directory or does not exist. That it is empty, which `init`
checks, is not assumed; in a resumed initialisation it is not checked, and then the last sentence of the claim is
false, see `C70_resumed_fails`.
-/
namespace Verif
open Prog OSM Call FSTools WM

/-- What is assumed about the state in which an initialisation from a remote directory starts. -/
structure AddReady (env : Env) (w : World) : Prop where
  wf : w.os.fs.WF
  apart : Apart env.loc env.rem
  loc_good : GoodPath env.loc
  loc : ∀ n, w.os.fs.get env.loc = some n → n.isDir = true
  rem_good : GoodPath env.rem
  id_good : GoodPath [env.id]
  slot : ∀ n, w.os.fs.get (env.exclDir ++ [env.id]) = some n → ∃ c m b, n = .file c m b
  rmemo : w.rmemo = []
  rows : w.db = []

/-- What an initialisation from the remote directory leaves alone: all of the remote directory except `.zielen`, and
every local path that the remote directory does not have. -/
structure AddKept (env : Env) (fs fs' : FS) : Prop where
  rem : ∀ p, UserPath p → fs'.get (env.rem ++ p) = fs.get (env.rem ++ p)
  loc : ∀ p, p ≠ [] → (UserPath p → fs.get (env.rem ++ p) = none) → fs'.get (env.loc ++ p) = fs.get (env.loc ++ p)

/-- What it has done after a success. -/
structure AddDone (env : Env) (w w' : World) : Prop extends AddKept env w.os.fs w'.os.fs where
  files : ∀ p n, UserPath p → w.os.fs.get (env.rem ++ p) = some n → n.isDir = false → ¬ UnsafeLink env.rem p n →
    ∃ m, w'.os.fs.get (env.loc ++ p) = some (.link (absStr (env.rem ++ p)) m)
  unsafe_ : ∀ p n, UserPath p → w.os.fs.get (env.rem ++ p) = some n → UnsafeLink env.rem p n →
    w'.os.fs.get (env.loc ++ p) = w.os.fs.get (env.loc ++ p)
  dirs : ∀ p, UserPath p → w.os.fs.isDir (env.rem ++ p) = true →
    (∀ n, w.os.fs.get (env.loc ++ p) = some n → n.isDir = true) → w'.os.fs.isDir (env.loc ++ p) = true
  db : ∀ p, p ∈ ADB.paths w'.db ↔ UserPath p ∧ ∃ n, w.os.fs.get (env.rem ++ p) = some n ∧ ¬ UnsafeLink env.rem p n
  rdb : ∀ p, p ∈ ADB.paths w'.rdb ↔ p ∈ ADB.paths w.rdb ∨ p ∈ ADB.paths w'.db
  saved : w'.dbSaved = w'.db ∧ w'.rdbSaved = w'.rdb

section
variable {env : Env} {w : World}

theorem mem_unsafeLinks_user {fs : FS} (wf : fs.WF) {root p : Path} (hr : GoodPath root) :
    p ∈ unsafeLinks root (Scan.user (fs.below root)) ↔
      UserPath p ∧ ∃ n, fs.get (root ++ p) = some n ∧ UnsafeLink root p n := by
  have h : p ∈ unsafeLinks root (Scan.user (fs.below root)) ↔
      p ∈ unsafeLinks root (fs.below root) ∧ UserPath p := by
    unfold unsafeLinks
    simp only [List.mem_map, List.mem_filter, Prod.exists, exists_and_right, exists_eq_right]
    constructor
    · rintro ⟨n, ⟨h1, h2⟩, h3⟩
      obtain ⟨h4, h5⟩ := (mem_user_below wf).1 h1
      exact ⟨⟨n, ⟨wf.mem_below_iff.2 ⟨h4, h5.1⟩, h2⟩, h3⟩, h5⟩
    · rintro ⟨⟨n, ⟨h1, h2⟩, h3⟩, h5⟩
      exact ⟨n, ⟨(mem_user_below wf).2 ⟨(wf.mem_below_iff.1 h1).1, h5⟩, h2⟩, h3⟩
  rw [h, mem_unsafeLinks wf hr]
  constructor
  · rintro ⟨⟨_, n, h1, h2⟩, h3⟩; exact ⟨h3, n, h1, h2⟩
  · rintro ⟨h3, n, h1, h2⟩; exact ⟨⟨h3.1, n, h1, h2⟩, h3⟩

/-- The directories that an initialisation from a remote directory makes. -/
def AddDirs (env : Env) (q : Path) : Prop := q ≠ [] ∧ (q <+: env.loc ∨ q <+: env.exclDir ∨ q <+: env.trash)

theorem AddDirs.not_user (ap : Apart env.loc env.rem) {p : Path} (hu : UserPath p) : ¬ AddDirs env (env.rem ++ p) := by
  rintro ⟨h0, h1 | h1⟩
  · obtain ⟨t, ht⟩ := h1
    rw [List.append_assoc] at ht
    refine ap.ne [] (p ++ t) ?_
    rw [List.append_nil]; exact ht.symm
  · exact InitDirs.not_user hu ⟨h0, h1⟩

theorem AddDirs.not_loc (ap : Apart env.loc env.rem) {p : Path} (hp : p ≠ []) : ¬ AddDirs env (env.loc ++ p) := by
  rintro ⟨h0, h1 | h1⟩
  · have := h1.length_le
    have h2 := List.length_pos_iff.2 hp
    rw [List.length_append] at this
    omega
  · exact InitDirs.not_loc ap p ⟨h0, h1⟩

theorem AddDirs.not_slot (ap : Apart env.loc env.rem) : ¬ AddDirs env (env.exclDir ++ [env.id]) := by
  rintro ⟨h0, h1 | h1⟩
  · obtain ⟨t, ht⟩ := h1
    unfold Env.exclDir Env.util at ht
    rw [List.append_assoc, List.append_assoc, List.append_assoc] at ht
    refine ap.ne [] ([Env.utilName] ++ (["exclude".toList] ++ ([env.id] ++ t))) ?_
    rw [List.append_nil]; exact ht.symm
  · exact InitDirs.not_slot ⟨h0, h1⟩

theorem wp_initRemote (h : AddReady env w) :
    wp (init env true)
      (fun _ w' => AddDone env w w' ∧
        ((∀ e ∈ w.rdb, e.directory = w.os.fs.isDir (env.rem ++ e.path)) → (ADB.paths w.rdb).Nodup →
          (∀ p ∈ ADB.paths w.rdb, UserPath p ∧ ∃ n, w.os.fs.get (env.rem ++ p) = some n) →
          (∀ p n, UserPath p → w.os.fs.get (env.rem ++ p) = some n → ¬ UnsafeLink env.rem p n) →
          (∀ p, p ≠ [] → w.os.fs.get (env.loc ++ p) = none) → AtRest env w'))
      (fun _ w' => AddKept env w.os.fs w'.os.fs) w := by
  have hge := goodPath_exclDir h.rem_good
  have hgt := goodPath_trash h.rem_good
  have hgdirs : ∀ q, AddDirs env q → GoodPath q := by
    rintro q ⟨_, h1 | h1 | h1⟩
    · exact goodPath_of_prefix h.loc_good h1
    · exact goodPath_of_prefix hge h1
    · exact goodPath_of_prefix hgt h1
  have keptG : ∀ fs', Grow (AddDirs env) w.os.fs fs' → AddKept env w.os.fs fs' := fun fs' hg =>
    ⟨fun p hu => hg.get_eq (AddDirs.not_user h.apart hu), fun p hp _ => hg.get_eq (AddDirs.not_loc h.apart hp)⟩
  have hd0 : ∀ q, q ≠ [] ∧ q <+: env.loc → AddDirs env q := fun q hq => ⟨hq.1, Or.inl hq.2⟩
  have hd1 : ∀ q, q ≠ [] ∧ q <+: env.exclDir → AddDirs env q := fun q hq => ⟨hq.1, Or.inr (Or.inl hq.2)⟩
  have hd2 : ∀ q, q ≠ [] ∧ q <+: env.trash → AddDirs env q := fun q hq => ⟨hq.1, Or.inr (Or.inr hq.2)⟩
  unfold init
  rw [wp_bind, wp_sys]
  refine wp_mono (wp_makedirs env.loc w.os) ?_ (fun _ s h1 => keptG _ (h1.mono hd0))
  rintro _ s0 ⟨hg0, hpd⟩
  have hg0 := hg0.mono hd0
  have hld0 : s0.fs.isDir env.loc = true := by
    rcases Option.eq_none_or_eq_some (w.os.fs.get env.loc) with h1 | ⟨n, h1⟩
    · rcases hg0.new _ h1 with h2 | ⟨_, h2⟩
      · exfalso
        obtain ⟨e, h3⟩ := FS.stat_none h2
        unfold FS.pathIsDir at hpd
        rw [h3] at hpd
        cases hpd
      · exact h2
    · rw [isDir_iff_false (hg0.keeps _ _ h1)]; exact h.loc n h1
  rw [wp_bind, wp_sys]
  refine wp_mono (wp_makedirs env.exclDir s0) ?_ (fun _ s1 h1 => keptG _ (hg0.trans (h1.mono hd1)))
  rintro _ s1 ⟨hk1, _⟩
  have hg1 := hg0.trans (hk1.mono hd1)
  rw [wp_bind, wp_sys]
  refine wp_mono (wp_makedirs env.trash s1) ?_ (fun _ s2 h2 => keptG _ (hg1.trans (h2.mono hd2)))
  rintro _ s2 ⟨hk2, _⟩
  have hg2 := hg1.trans (hk2.mono hd2)
  -- the state before the links are made
  have wf2 : s2.fs.WF := hg2.wf hgdirs h.wf
  have hld2 : s2.fs.isDir env.loc = true := by
    obtain ⟨m, b, h1⟩ := FS.isDir_iff.1 hld0
    exact FS.isDir_iff.2 ⟨m, b, hk2.keeps _ _ (hk1.keeps _ _ h1)⟩
  have hloc2 : ∀ p, p ≠ [] → s2.fs.get (env.loc ++ p) = w.os.fs.get (env.loc ++ p) :=
    fun p hp => hg2.get_eq (AddDirs.not_loc h.apart hp)
  have hrem2 : ∀ p, UserPath p → s2.fs.get (env.rem ++ p) = w.os.fs.get (env.rem ++ p) :=
    fun p hu => hg2.get_eq (AddDirs.not_user h.apart hu)
  have hslotn : ∀ p, env.exclDir ++ [env.id] ≠ env.loc ++ p := by
    intro p he
    unfold Env.exclDir Env.util at he
    rw [List.append_assoc, List.append_assoc] at he
    exact h.apart.ne _ _ he.symm
  have hslotr : ∀ p, UserPath p → env.rem ++ p ≠ env.exclDir ++ [env.id] := by
    intro p hu he
    refine (hu.not_prefix env (q := ["exclude".toList] ++ [env.id])) ?_
    rw [he]
    unfold Env.exclDir
    rw [List.append_assoc]
    exact List.prefix_refl _
  have kept : ∀ f4 fs', SetupFrame env s2.fs f4 → OnlyAt (env.exclDir ++ [env.id]) f4 fs' → AddKept env w.os.fs fs' := by
    intro f4 fs' hf ho
    refine ⟨?_, ?_⟩
    · intro p hu
      rw [ho _ (hslotr p hu), hf.other _ (fun p' _ he => absurd he.symm (h.apart.ne _ _)), hrem2 p hu]
    · intro p hp hno
      rw [ho _ (Ne.symm (hslotn p)), hf.other, hloc2 p hp]
      intro p' hu he
      rw [← List.append_cancel_left he] at hu ⊢
      rw [hrem2 p hu]
      exact hno hu
  rw [if_pos rfl]
  show wp (setupFromRemote env >>= fun _ => initTail env) _ _ _
  rw [wp_bind]
  unfold setupFromRemote
  rw [wp_bind]
  apply wp_scanRemote
  · intro hm; exact absurd h.rmemo hm
  swap
  · intro e; exact keptG _ hg2
  intro _
  dsimp only
  generalize hun : unsafeLinks env.rem (Scan.user (s2.fs.below env.rem)) = un
  have hunm : ∀ p, p ∈ un ↔ UserPath p ∧ ∃ n, w.os.fs.get (env.rem ++ p) = some n ∧ UnsafeLink env.rem p n := by
    intro p
    rw [← hun, mem_unsafeLinks_user wf2 h.rem_good]
    constructor
    · rintro ⟨h1, n, h2, h3⟩; exact ⟨h1, n, (hrem2 p h1) ▸ h2, h3⟩
    · rintro ⟨h1, n, h2, h3⟩; exact ⟨h1, n, (hrem2 p h1).symm ▸ h2, h3⟩
  refine wp_mono (wp_setupDir (unsafe_ := un) (w := { w with os := s2, rmemo := s2.fs.below env.rem }) wf2 hld2
    (Or.inr rfl) h.rows) ?_ ?_
  swap
  · rintro e w' ⟨hf, _⟩
    exact kept _ _ hf (fun _ _ => rfl)
  rintro _ w4 ⟨hf, _, hlink, hsr⟩
  refine wp_mono (wp_initTail hf.wf ?_ ?_) ?_ ?_
  · rw [goodPath_append]
    exact ⟨hge, h.id_good⟩
  · intro n hn
    rw [hf.other _ (fun p _ he => absurd he (hslotn p))] at hn
    exact h.slot n ((hg2.get_eq (AddDirs.not_slot h.apart)).symm.trans hn)
  swap
  · rintro e w' ⟨ho, _⟩
    exact kept _ _ hf ho.only
  rintro _ w' ⟨ho, hdb', hrdb', hs1, hs2, hs3, _⟩
  have notUn : ∀ p n, w.os.fs.get (env.rem ++ p) = some n → ¬ UnsafeLink env.rem p n → p ∉ un := by
    intro p n hn hx hp
    obtain ⟨_, n', hn', h2⟩ := (hunm p).1 hp
    rw [hn] at hn'; cases hn'
    exact hx h2
  refine ⟨⟨kept _ _ hf ho.only, ?_, ?_, ?_, ?_, ?_, hs1, hs2⟩, ?_⟩
  · intro p n hu hn hd hx
    rw [ho.only _ (Ne.symm (hslotn p))]
    exact (hlink p n hu ((hrem2 p hu).trans hn) hd).1 (notUn p n hn hx)
  · intro p n hu hn hx
    rw [ho.only _ (Ne.symm (hslotn p))]
    rw [(hlink p n hu ((hrem2 p hu).trans hn) hx.isDir).2 ((hunm p).2 ⟨hu, n, hn, hx⟩)]
    exact hloc2 p hu.1
  · intro p hu hd hl
    rw [FS.isDir_congr (ho.only _ (Ne.symm (hslotn p)))]
    refine hsr.dirs p hu ?_ ?_
    · rw [← hd]; exact FS.isDir_congr (hrem2 p hu)
    · intro n hn
      exact hl n ((hloc2 p hu.1).symm.trans hn)
  · intro p
    rw [hdb', hsr.db]
    constructor
    · rintro ⟨hu, n, hn, hx⟩
      have hn' := (hrem2 p hu).symm.trans hn
      refine ⟨hu, n, hn', fun h1 => hx h1.isDir ((hunm p).2 ⟨hu, n, hn', h1⟩)⟩
    · rintro ⟨hu, n, hn, hx⟩
      exact ⟨hu, n, (hrem2 p hu).trans hn, fun _ => notUn p n hn hx⟩
  · intro p
    rw [hdb', hrdb', hsr.rdb]
  · intro hr1 hr2 hr3 hsafe hempty
    refine atRest_of_setup wf2 h.apart hf hlink hsr ?_ hr2 ?_ ?_ ?_ ho.only ho.wf hdb' hrdb' hs1 hs2 hs3
    · intro e he
      rw [hr1 e he]
      exact (FS.isDir_congr (hrem2 _ (hr3 _ (List.mem_map.2 ⟨e, he, rfl⟩)).1)).symm
    · intro p hp
      obtain ⟨hu, n, hn⟩ := hr3 p hp
      exact ⟨hu, n, (hrem2 p hu).trans hn⟩
    · intro p hp
      obtain ⟨hu, n, hn, hx⟩ := (hunm p).1 hp
      exact absurd hx (hsafe p n hu hn)
    · intro p hu _ n hn
      rw [show s2.fs.get (env.loc ++ p) = none from (hloc2 p hu.1).trans (hempty p hu.1)] at hn
      cases hn

end

/-- However an initialisation from a remote directory ends, every file of the remote directory is as it was. -/
theorem C70_kept {env : Env} {w : World} (h : AddReady env w) {p : Path} (hp : UserPath p) :
    (init env true w).2.os.fs.get (env.rem ++ p) = w.os.fs.get (env.rem ++ p) := by
  have hk : AddKept env w.os.fs (init env true w).2.os.fs :=
    wp_state (wp_mono (wp_initRemote h) (fun _ _ d => d.1.toAddKept) (fun _ _ d => d))
  exact hk.rem p hp

/-- After a success, every file of the remote directory is in the local directory as a link to it, every directory as
a directory, unless an entry was in its place, an unsafe link is not, and the saved database has exactly the paths
of the remote directory that are not unsafe links. -/
theorem C70_done {env : Env} {w : World} (h : AddReady env w) (hr : (init env true w).1 = .ok ()) :
    (∀ p n, UserPath p → w.os.fs.get (env.rem ++ p) = some n → n.isDir = false → ¬ UnsafeLink env.rem p n →
      ∃ t m, (init env true w).2.os.fs.get (env.loc ++ p) = some (.link t m) ∧
        FS.linkDest (env.loc ++ p) t = env.rem ++ p) ∧
    (∀ p n, UserPath p → w.os.fs.get (env.rem ++ p) = some n → UnsafeLink env.rem p n →
      (init env true w).2.os.fs.get (env.loc ++ p) = w.os.fs.get (env.loc ++ p)) ∧
    (∀ p, UserPath p → w.os.fs.isDir (env.rem ++ p) = true →
      (∀ n, w.os.fs.get (env.loc ++ p) = some n → n.isDir = true) →
      (init env true w).2.os.fs.isDir (env.loc ++ p) = true) ∧
    (∀ p, p ∈ ADB.paths (init env true w).2.dbSaved ↔
      UserPath p ∧ ∃ n, w.os.fs.get (env.rem ++ p) = some n ∧ ¬ UnsafeLink env.rem p n) ∧
    (∀ p, p ∈ ADB.paths (init env true w).2.rdbSaved ↔
      p ∈ ADB.paths w.rdb ∨ p ∈ ADB.paths (init env true w).2.dbSaved) := by
  obtain ⟨d, _⟩ := wp_ok (wp_initRemote h) (Prod.ext hr rfl)
  refine ⟨?_, d.unsafe_, d.dirs, ?_, ?_⟩
  · intro p n hu hn hd hx
    obtain ⟨m, hm⟩ := d.files p n hu hn hd hx
    exact ⟨_, m, hm, FS.linkDest_abs (h.wf.goodPath hn) _⟩
  · intro p; rw [d.saved.1]; exact d.db p
  · intro p; rw [d.saved.1, d.saved.2]; exact d.rdb p

/-- However it ends, a local file that the remote directory does not have at the same path is as it was. Missing: the
local files that the remote directory has; they are not kept, see `C70_resumed_fails`. -/
theorem C70_local_partial {env : Env} {w : World} (h : AddReady env w) {p : Path} (hp : p ≠ [])
    (hr : UserPath p → w.os.fs.get (env.rem ++ p) = none) :
    (init env true w).2.os.fs.get (env.loc ++ p) = w.os.fs.get (env.loc ++ p) := by
  have hk : AddKept env w.os.fs (init env true w).2.os.fs :=
    wp_state (wp_mono (wp_initRemote h) (fun _ _ d => d.1.toAddKept) (fun _ _ d => d))
  exact hk.loc p hp hr

/-- A remote directory with two files, a directory and a link out of the directory; the local directory is empty. -/
def exAdd (fuel : Nat) : World := exWorld exEnvE
  [(["r".toList, "a".toList], .file 9 4 1), (["r".toList, "d".toList], .dir 2 8),
    (["r".toList, "d".toList, "b".toList], .file 8 3 1), (["r".toList, "k".toList], .link "/q".toList 4)] [] [] fuel

theorem exAdd_ready (fuel : Nat) : AddReady exEnvE (exAdd fuel) where
  wf := (⟨by decide +kernel, by decide +kernel, by decide +kernel, by decide +kernel⟩ : (exAdd 0).os.fs.WF)
  apart := by unfold Apart; decide +kernel
  loc_good := by decide +kernel
  loc n hn := by
    have h1 : (exAdd 0).os.fs.get exEnvE.loc = some (.dir 1 8) := by decide +kernel
    have hn : (exAdd 0).os.fs.get exEnvE.loc = some n := hn
    rw [h1] at hn; cases hn; rfl
  rem_good := by decide +kernel
  id_good := by decide +kernel
  slot n hn := by
    have h1 : (exAdd 0).os.fs.get (exEnvE.exclDir ++ [exEnvE.id]) = none := by decide +kernel
    have hn : (exAdd 0).os.fs.get (exEnvE.exclDir ++ [exEnvE.id]) = some n := hn
    rw [h1] at hn; cases hn
  rmemo := rfl
  rows := rfl

example : (init exEnvE true (exAdd 100)).1 = .ok () ∧
    (init exEnvE true (exAdd 100)).2.os.fs.get ["l".toList, "d".toList, "b".toList] = some (.link "/r/d/b".toList 56) ∧
    (init exEnvE true (exAdd 100)).2.os.fs.get ["l".toList, "k".toList] = none ∧
    ADB.paths (init exEnvE true (exAdd 100)).2.dbSaved = [["a".toList], ["d".toList], ["d".toList, "b".toList]] := by
  decide +kernel

/-- The initialisation of `exAdd` is killed after it has made `d` and the link `a`. Then the user puts a file of
their own in the place of the link, and starts the initialisation again. -/
def exAddAgain : World :=
  let w := (init exEnvE true (exAdd 6)).2.restart 100
  { w with os := { w.os with fs := w.os.fs.set ["l".toList, "a".toList] (.file 7 60 1) } }

theorem exAddAgain_ready : AddReady exEnvE exAddAgain where
  wf := ⟨by decide +kernel, by decide +kernel, by decide +kernel, by decide +kernel⟩
  apart := by unfold Apart; decide +kernel
  loc_good := by decide +kernel
  loc n hn := by
    have h1 : exAddAgain.os.fs.get exEnvE.loc = some (.dir 1 8) := by decide +kernel
    rw [h1] at hn; cases hn; rfl
  rem_good := by decide +kernel
  id_good := by decide +kernel
  slot n hn := by
    have h1 : exAddAgain.os.fs.get (exEnvE.exclDir ++ [exEnvE.id]) = none := by decide +kernel
    rw [h1] at hn; cases hn
  rmemo := by decide +kernel
  rows := by decide +kernel

/-- C70 in full is false: a resumed initialisation replaces a file that the user has made in the meantime with a link;
its content is in no file any more (zielen/commands/init.py:113-160, zielen/filelogic.py:438-458, 490-499). -/
theorem C70_resumed_fails :
    (init exEnvE true (exAdd 6)).1 = .error .killed ∧
    AddReady exEnvE exAddAgain ∧
    exAddAgain.os.fs.get ["l".toList, "a".toList] = some (.file 7 60 1) ∧
    (init exEnvE true exAddAgain).1 = .ok () ∧
    (∀ e ∈ (init exEnvE true exAddAgain).2.os.fs, ∀ m b, e.2 ≠ .file 7 m b) := by
  refine ⟨by decide +kernel, exAddAgain_ready, by decide +kernel, by decide +kernel, ?_⟩
  have h : (init exEnvE true exAddAgain).2.os.fs.all
      (fun e => match e.2 with | .file c _ _ => c != 7 | _ => true) = true := by decide +kernel
  intro e he m b h1
  have := List.all_eq_true.1 h e he
  rw [h1] at this
  simp at this

end Verif
