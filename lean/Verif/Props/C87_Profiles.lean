import Verif.Profiles
import Verif.Props.C51_Table
import Verif.Props.C64_Template
import Verif.Props.C84_WholeInit
import Verif.Props.C85_Space
/-
C87: a profile that cannot be used does not get in the way of the others.

Not so for `list` and for new profiles.
-/
namespace Verif
open Prog OSM Call FSTools WM Lifecycle

variable {u : User} {m : Machine} {q n : Str} {p : Prof} {ps : Profiles}

/-! ### The profiles directory -/

theorem Profiles.get_cons (e : Str × Prof) (ps : Profiles) (n : Str) :
    Profiles.get (e :: ps) n = if e.1 = n then e.2 else Profiles.get ps n := by
  unfold Profiles.get
  rw [List.find?_cons]
  split
  · rename_i h
    rw [if_pos (by simpa using h)]
    rfl
  · rename_i h
    rw [if_neg (by simpa using h)]

theorem Profiles.mem_of_get (h : ps.get n = p) (hd : p.dir = true) : (n, p) ∈ ps := by
  induction ps with
  | nil => subst h; cases hd
  | cons e ps ih =>
    rw [Profiles.get_cons] at h
    split at h
    · rename_i h1
      subst h1 h
      exact List.mem_cons_self
    · exact List.mem_cons_of_mem _ (ih h)

theorem Profiles.get_absent (h : n ∉ ps.map Prod.fst) : ps.get n = Prof.absent := by
  induction ps with
  | nil => rfl
  | cons e ps ih =>
    rw [List.map_cons, List.mem_cons, not_or] at h
    rw [Profiles.get_cons, if_neg (fun h1 => h.1 h1.symm)]
    exact ih h.2

theorem Profiles.get_dir (hd : ∀ e ∈ ps, e.2.dir = true) (h : n ∈ ps.map Prod.fst) : (ps.get n).dir = true := by
  induction ps with
  | nil => cases h
  | cons e ps ih =>
    rw [Profiles.get_cons]
    split
    · exact hd e List.mem_cons_self
    · rename_i h1
      rw [List.map_cons, List.mem_cons] at h
      exact ih (fun e he => hd e (List.mem_cons_of_mem _ he)) (h.resolve_left (fun h2 => h1 h2.symm))

theorem Profiles.get_append (ps : Profiles) (e : Str × Prof) (h : n ∉ ps.map Prod.fst) :
    Profiles.get (ps ++ [e]) n = if e.1 = n then e.2 else Prof.absent := by
  induction ps with
  | nil => exact Profiles.get_cons e [] n
  | cons e' ps ih =>
    rw [List.map_cons, List.mem_cons, not_or] at h
    rw [List.cons_append, Profiles.get_cons, if_neg (fun h1 => h.1 h1.symm)]
    exact ih h.2

theorem Profiles.get_put_self (ps : Profiles) (n : Str) (p : Prof) :
    (ps.put n p).get n = if p.dir then p else Prof.absent := by
  unfold Profiles.put
  split
  · split
    · rename_i h
      induction ps with
      | nil => cases h
      | cons e ps ih =>
        rw [List.map_cons, Profiles.get_cons]
        by_cases h1 : e.1 = n
        · rw [if_pos h1, if_pos rfl]
        · rw [if_neg h1, if_neg h1]
          refine ih ?_
          rw [List.map_cons, List.mem_cons] at h
          exact h.resolve_left (fun h2 => h1 h2.symm)
    · rename_i h
      rw [Profiles.get_append _ _ h, if_pos rfl]
  · refine Profiles.get_absent ?_
    intro h
    obtain ⟨e, he, rfl⟩ := List.mem_map.1 h
    have := (List.mem_filter.1 he).2
    simp at this

theorem Profiles.get_put_other (ps : Profiles) {n q : Str} (p : Prof) (h : q ≠ n) : (ps.put n p).get q = ps.get q := by
  unfold Profiles.put
  split
  · split
    · clear * - h
      induction ps with
      | nil => rfl
      | cons e ps ih =>
        rw [List.map_cons, Profiles.get_cons, Profiles.get_cons, ih]
        by_cases h1 : e.1 = n
        · rw [if_pos h1, if_neg (fun h2 => h h2.symm), if_neg (fun h2 => h (h2.symm.trans h1))]
        · rw [if_neg h1]
    · clear * - h
      induction ps with
      | nil =>
        rw [List.nil_append, Profiles.get_cons, if_neg (fun h2 => h h2.symm)]
      | cons e ps ih => rw [List.cons_append, Profiles.get_cons, Profiles.get_cons, ih]
  · clear * - h
    induction ps with
    | nil => rfl
    | cons e ps ih =>
      rw [List.filter_cons]
      split
      · rw [Profiles.get_cons, Profiles.get_cons, ih]
      · rename_i h1
        have h1 : e.1 = n := by simpa using h1
        rw [ih, Profiles.get_cons, if_neg (fun h2 => h (h2.symm.trans h1))]

/-! ### `list` -/

theorem readConfigs_cons (e : Str × Prof) (ps : Profiles) : readConfigs (e :: ps) = (do
    let c ← readConfig e
    let cs ← readConfigs ps
    pure (c :: cs)) := by
  unfold readConfigs
  rw [List.mapM_cons]

theorem readConfigs_ok {cs : List (Str × Str)} (h : readConfigs ps = .ok cs) :
    ps.map (fun e => (e.1, e.2.cfg)) = cs.map (fun c => (c.1, some c.2)) := by
  induction ps generalizing cs with
  | nil => cases h; rfl
  | cons e ps ih =>
    rw [readConfigs_cons] at h
    unfold readConfig at h
    cases hc : e.2.cfg with
    | none => rw [hc] at h; cases h
    | some t =>
      rw [hc] at h
      cases hr : readConfigs ps with
      | error x => rw [hr] at h; cases h
      | ok cs' =>
        rw [hr] at h
        cases h
        rw [List.map_cons, List.map_cons, ih hr, hc]

theorem readConfigs_error {e : ListErr} (h : readConfigs ps = .error e) : ∃ x ∈ ps, x.2.cfg = none := by
  induction ps with
  | nil => cases h
  | cons x ps ih =>
    cases hc : x.2.cfg with
    | none => exact ⟨x, List.mem_cons_self, hc⟩
    | some t =>
      rw [readConfigs_cons] at h
      unfold readConfig at h
      rw [hc] at h
      cases hr : readConfigs ps with
      | error x' =>
        rw [hr] at h
        cases h
        obtain ⟨y, hy, hy2⟩ := ih hr
        exact ⟨y, List.mem_cons_of_mem _ hy, hy2⟩
      | ok cs' => rw [hr] at h; cases h

theorem readConfigs_missing {x : Str × Prof} (hx : x ∈ ps) (hc : x.2.cfg = none) : readConfigs ps = .error .parse := by
  induction ps with
  | nil => cases hx
  | cons e ps ih =>
    rw [readConfigs_cons]
    rcases List.mem_cons.1 hx with rfl | hx
    · unfold readConfig; rw [hc]; rfl
    · rw [ih hx]
      unfold readConfig
      cases e.2.cfg <;> rfl

/-- `list` prints the table exactly if every profile directory has a config file that sets the three required options.
Otherwise it prints nothing at all. -/
theorem C87_list_exact (ps : Profiles) :
    (∃ out, listCmd ps = .ok out) ↔
      ∀ e ∈ ps, ∃ t, e.2.cfg = some t ∧ ∀ k ∈ requiredKeys, k ∈ (configRead [] t).keys := by
  unfold listCmd
  cases h : readConfigs ps with
  | error e =>
    constructor
    · rintro ⟨_, h1⟩; cases h1
    · intro h1
      obtain ⟨x, hx, h2⟩ := readConfigs_error h
      obtain ⟨t, h3, _⟩ := h1 x hx
      rw [h2] at h3; cases h3
  | ok cs =>
    have h1 := readConfigs_ok h
    have h2 := C51_list_defined cs
    dsimp only
    refine Iff.trans (b := (listOutput cs).isSome = true) ?_ (h2.trans ?_)
    · cases listOutput cs with
      | none => simp
      | some out => simp
    constructor
    · intro h4 e he
      have : (e.1, e.2.cfg) ∈ cs.map (fun c => (c.1, some c.2)) := h1 ▸ List.mem_map.2 ⟨e, he, rfl⟩
      obtain ⟨c, hc, h5⟩ := List.mem_map.1 this
      exact ⟨c.2, (Prod.mk.inj h5).2.symm, h4 c hc⟩
    · intro h4 c hc
      have : (c.1, some c.2) ∈ ps.map (fun e => (e.1, e.2.cfg)) := h1 ▸ List.mem_map.2 ⟨c, hc, rfl⟩
      obtain ⟨e, he, h5⟩ := List.mem_map.1 this
      obtain ⟨t, h6, h7⟩ := h4 e he
      rw [h6] at h5
      rw [← Option.some.inj (Prod.mk.inj h5).2]
      exact h7

/-! ### A profile that makes `init` raise -/

/-- The profile has a config file, but cannot be read. -/
def Unreadable (p : Prof) : Prop := p.cfg ≠ none ∧ ∃ e, readProfile p = .error e

theorem BrokenProfile.unreadable (h : BrokenProfile p) (hc : p.cfg ≠ none) : Unreadable p :=
  ⟨hc, h.read.elim (fun h => ⟨_, h⟩) (fun h => ⟨_, h⟩)⟩

theorem overlapLoop_error {home : Str} {user : Str → Option Str} {dir : Str} {l : List Prof} (hp : p ∈ l)
    (h : Unreadable p) (k : Nat) : ∃ e, overlapLoop home user dir l k = .error e := by
  induction l generalizing k with
  | nil => cases hp
  | cons x l ih =>
    unfold overlapLoop
    rcases List.mem_cons.1 hp with rfl | hp
    · obtain ⟨h1, e, h2⟩ := h
      rw [if_neg (by simpa using h1), h2]
      exact ⟨e, rfl⟩
    · split
      · exact ih hp k
      · split
        · exact ⟨_, rfl⟩
        · split
          · exact ⟨_, rfl⟩
          · split
            · exact ⟨_, rfl⟩
            · exact ih hp _

theorem verifyLocal_blocked {home : Str} {user : Str → Option Str} {prog dir : Str} {l : List Prof} (hp : p ∈ l)
    (h : Unreadable p) : verifyLocal home user prog l dir ≠ .ok true := by
  unfold verifyLocal
  split
  · intro h1; cases h1
  · intro h1; cases h1
  · obtain ⟨e, he⟩ := overlapLoop_error (home := home) (user := user) (dir := dir) hp h 0
    rw [he]
    intro h1; cases h1

theorem wp_checkDirsP_blocked {env : Env} {home : Str} {user : Str → Option Str} {prog : Str} {l : List Prof} {a : Bool}
    (hp : p ∈ l) (h : Unreadable p) {s : OS} :
    wp (checkDirsP env home user prog l a) (fun _ _ => False) (fun _ s' => a = false → s' = s) s := by
  unfold checkDirsP
  have h2 : ∀ s1 : OS, (a = false → s1 = s) → wp (match verifyLocal home user prog l (absStr env.loc) with
      | .error e => throw e
      | .ok false => throw .input
      | .ok true => (do if ← checkDir env.rem (!a) then pure () else throw .input : OSM Unit))
      (fun _ _ => False) (fun _ s' => a = false → s' = s) s1 := by
    intro s1 h1
    have h3 := verifyLocal_blocked (home := home) (user := user) (prog := prog) (dir := absStr env.loc) hp h
    cases hv : verifyLocal home user prog l (absStr env.loc) with
    | error e => exact h1
    | ok b => cases b with
      | false => exact h1
      | true => exact absurd hv h3
  rw [wp_bind]
  cases a with
  | false =>
    refine wp_mono wp_checkDir_same ?_ (fun _ _ h => h.elim)
    rintro b s1 ⟨rfl, _⟩
    cases b with
    | true => rw [if_pos rfl]; exact h2 _ (fun _ => rfl)
    | false => exact fun _ => rfl
  | true =>
    refine wp_always ?_ (fun _ _ h => by cases h)
    intro b s1
    cases b with
    | true => rw [if_pos rfl]; exact h2 _ (fun h => by cases h)
    | false => exact fun h => by cases h

/-- Removing a profile that exists ends with nothing left, or is interrupted. -/
theorem wp_dropAll_kill {R : Type} : ∀ {order : List Member} {s : LS R},
    wp (each dropMember order)
      (fun _ s' => s'.rest = s.rest ∧ s'.prof.dir = s.prof.dir ∧
        ∀ m, Prof.has s'.prof m = true → Prof.has s.prof m = true ∧ m ∉ order)
      (fun e s' => e = .killed ∧ s'.rest = s.rest) s
  | [], s => by
    unfold each
    rw [wp_pure]
    exact ⟨rfl, rfl, fun m h => ⟨h, by simp⟩⟩
  | m :: order, s => by
    unfold each
    rw [wp_bind]
    refine wp_dropMember ?_ ?_ ?_
    · intro hm
      refine wp_mono wp_dropAll_kill ?_ (fun _ _ h => h)
      rintro _ s' ⟨h1, h2, h3⟩
      refine ⟨h1, h2, fun m' h' => ⟨(h3 m' h').1, ?_⟩⟩
      rw [List.mem_cons, not_or]
      refine ⟨?_, (h3 m' h').2⟩
      rintro rfl
      rw [(h3 m' h').1] at hm; cases hm
    · intro hm k hk
      refine wp_mono wp_dropAll_kill ?_ (fun _ _ h => h)
      rintro _ s' ⟨h1, h2, h3⟩
      refine ⟨h1, h2.trans dir_drop, fun m' h' => ?_⟩
      have h4 := (h3 m' h').1
      dsimp only at h4
      rw [has_drop, Bool.and_eq_true, decide_eq_true_eq] at h4
      rw [List.mem_cons, not_or]
      exact ⟨h4.1, h4.2, (h3 m' h').2⟩
    · intro hm h0
      exact ⟨rfl, rfl⟩

theorem wp_rmProfile_kill {R : Type} {order : List Member} (ho : ∀ m, m ∈ order) {s : LS R} (hd : s.prof.dir = true) :
    wp (rmProfile order) (fun _ s' => s'.prof = Prof.absent ∧ s'.rest = s.rest)
      (fun e s' => e = .killed ∧ s'.rest = s.rest) s := by
  have : ∀ Q E, wp (rmProfile order) Q E s ↔
      wp (do each dropMember order; step (fun p => { p with dir := false })) Q E s := by
    intro Q E
    unfold wp rmProfile
    rw [if_pos hd]
  rw [this, wp_bind]
  refine wp_mono wp_dropAll_kill ?_ (fun _ _ h => h)
  rintro _ s' ⟨h1, h2, h3⟩
  refine wp_step (fun k hk => ⟨absent_of_empty (fun m => ?_), h1⟩) (fun _ => ⟨rfl, h1⟩)
  cases hm : Prof.has s'.prof m with
  | false => rfl
  | true => exact absurd (ho m) (h3 m hm).2

theorem freshRun_init_blocked {env : Env} {home : Str} {user : Str → Option Str} {prog : Str} {id : Nat} {o : InitOpts}
    {t : Str} (hc : o.config = .ok t) (hq : (q, p) ∈ ps) (hn : q ≠ n) (h : Unreadable p) {s : LS World}
    (hi : s.prof.info = none) (x : Nat × Nat) :
    ∃ e, (freshRun (initActsP env home user prog ps n id) (.init o) x s).1 = .error e ∧
      (e ≠ .killed → (freshRun (initActsP env home user prog ps n id) (.init o) x s).2.prof = Prof.absent) ∧
      (o.addRemote = false →
        (freshRun (initActsP env home user prog ps n id) (.init o) x s).2.rest.os.fs = s.rest.os.fs) := by
  unfold freshRun
  refine wp_run (P := fun r (s' : LS World) => ∃ e, r = .error e ∧ (e ≠ .killed → s'.prof = Prof.absent) ∧
    (o.addRemote = false → s'.rest.os.fs = s.rest.os.fs)) ?_
  unfold Cmd.prog initCmd
  rw [wp_atExit, wp_bind, wp_readStatus]
  have hr : readProfile s.prof = .error .notFound := by unfold readProfile; rw [hi]
  dsimp only
  rw [hr]
  dsimp only
  unfold initLocked newProfile
  rw [wp_bind, wp_onRest]
  show wp (pure () : Prog World Unit) _ _ _
  rw [wp_pure, wp_bind, wp_atExit, wp_bind]
  refine wp_generate hc (fun k hk => ?_) (fun _ => ?_)
  · rw [wp_bind, wp_onRest]
    show wp (sys (checkDirsP env home user prog (seenDirs ps n t ⟨false, o.addRemote, id⟩) o.addRemote)) _ _ _
    rw [wp_sys]
    have hmem : p ∈ seenDirs ps n t ⟨false, o.addRemote, id⟩ :=
      List.mem_map.2 ⟨(q, p), hq, if_neg hn⟩
    refine wp_mono (wp_checkDirsP_blocked hmem h) (fun _ _ h => h.elim) ?_
    intro e os h1
    have hfs : o.addRemote = false → os.fs = s.rest.os.fs := by
      intro h2
      rw [h1 h2]
      rfl
    by_cases he : e = .killed
    · rw [if_pos he, if_pos he]
      exact ⟨e, rfl, fun h => absurd he h, hfs⟩
    · rw [if_neg he]
      refine wp_mono (wp_rmProfile_kill (initActs_order (env := env) (prog := prog) (others := [])) (s := ⟨genAfter o t 7 s.prof, k, _⟩) rfl) ?_ ?_
      · rintro _ ⟨p', k', r'⟩ ⟨h2, h3⟩
        dsimp only at h2 h3
        subst h2 h3
        rw [if_neg he]
        unfold wp
        rw [cleanup_absent]
        exact ⟨e, rfl, fun _ => rfl, hfs⟩
      · rintro e' s' ⟨rfl, h3⟩
        rw [if_pos rfl, if_pos rfl]
        refine ⟨_, rfl, fun h => absurd rfl h, ?_⟩
        rw [h3]
        exact hfs
  · dsimp only
    rw [if_pos rfl, if_pos rfl]
    exact ⟨_, rfl, fun h => absurd rfl h, fun _ => rfl⟩

/-- A profile that has a config file but cannot be read makes every initialisation of another new profile fail. Unless it
is killed, the new profile is removed again; without `--add-remote` no file is changed. -/
theorem C87_blocked_fails (u : User) (hp : Unreadable (m.profs.get q)) (hd : (m.profs.get q).dir = true) (hn : q ≠ n)
    (hi : (m.profs.get n).info = none) {o : InitOpts} {t : Str} (hc : o.config = .ok t) (x : Nat × Nat) :
    ∃ e, (m.run u n (.init o) x).1 = .error e ∧
      (e ≠ .killed → (m.run u n (.init o) x).2.profs.get n = Prof.absent) ∧
      (o.addRemote = false → (m.run u n (.init o) x).2.rest.os.fs = m.rest.os.fs) := by
  obtain ⟨e, h1, h2, h3⟩ := freshRun_init_blocked (env := u.env n) (home := u.home) (user := u.homes) (prog := u.prog)
    (id := o.id) hc (Profiles.mem_of_get rfl hd) hn hp (s := ⟨m.profs.get n, 0, m.rest⟩) hi x
  refine ⟨e, h1, fun he => ?_, h3⟩
  have h4 := h2 he
  show (Profiles.put m.profs n (freshRun _ _ _ _).2.prof).get n = _
  rw [Profiles.get_put_self]
  show (if (freshRun (initActsP (u.env n) u.home u.homes u.prog m.profs n o.id) (.init o) x ⟨m.profs.get n, 0, m.rest⟩).2.prof.dir
    then _ else _) = _
  rw [h4]
  rfl

/-! ### No command repairs it -/

theorem run_broken (u : User) (hb : BrokenProfile (m.profs.get q)) (n : Str) (c : Cmd) (x : Nat × Nat) :
    (m.run u n c x).2.profs.get q = m.profs.get q := by
  show (Profiles.put m.profs n (freshRun _ _ _ _).2.prof).get q = _
  by_cases hn : q = n
  · subst hn
    unfold freshRun
    rw [(C66_broken_fails _ c x.1 (s := ⟨m.profs.get q, 0, World.restart m.rest x.2⟩) hb).2, Profiles.get_put_self]
    show (if (m.profs.get q).dir then _ else _) = _
    rw [hb.1]
    rfl
  · exact Profiles.get_put_other _ _ hn

/-- Whatever is done with this and all other profiles, a broken profile stays what it is. -/
theorem runs_broken (u : User) (cs : List (Str × Cmd × Nat × Nat)) : ∀ {m : Machine}, BrokenProfile (m.profs.get q) →
    (m.runs u cs).profs.get q = m.profs.get q := by
  induction cs with
  | nil => intro m _; rfl
  | cons c cs ih =>
    intro m h
    obtain ⟨n, c, x⟩ := c
    have h1 := run_broken u h n c x
    unfold Machine.runs
    rw [ih (h1.symm ▸ h), h1]

/-- After that no new profile can be made with any commands. -/
theorem blocked_forever (u : User) (hb : BrokenProfile (m.profs.get q)) (hc : (m.profs.get q).cfg ≠ none)
    (cs : List (Str × Cmd × Nat × Nat)) (hn : q ≠ n) (hi : ((m.runs u cs).profs.get n).info = none) {o : InitOpts} {t : Str}
    (ho : o.config = .ok t) (x : Nat × Nat) :
    ∃ e, ((m.runs u cs).run u n (.init o) x).1 = .error e := by
  have h1 := runs_broken u cs hb
  obtain ⟨e, h2, _⟩ := C87_blocked_fails (m := m.runs u cs) (q := q) (n := n) u (h1.symm ▸ hb.unreadable hc)
    (h1.symm ▸ hb.1) hn hi ho x
  exact ⟨e, h2⟩

/-- Killed while it makes the profile directory, `init` leaves what it has made. -/
theorem run_init_early (u : User) (h : m.profs.get q = Prof.absent) {o : InitOpts} {t : Str} (hc : o.config = .ok t)
    {x : Nat × Nat} (h1 : 1 ≤ x.1) (h6 : x.1 ≤ 6) :
    (m.run u q (.init o) x).2.profs.get q = genAfter o t x.1 Prof.absent := by
  have h2 : (freshRun (initActsP (u.env q) u.home u.homes u.prog m.profs q o.id) (.init o) x
      ⟨m.profs.get q, 0, m.rest⟩).2.prof = genAfter o t x.1 Prof.absent := by
    unfold freshRun
    refine wp_run (P := fun _ (s' : LS World) => s'.prof = genAfter o t x.1 Prof.absent) ?_
    unfold Cmd.prog initCmd
    rw [wp_atExit, wp_bind, wp_readStatus]
    dsimp only
    rw [h, absent_read]
    dsimp only
    unfold initLocked newProfile
    rw [wp_bind, wp_onRest]
    show wp (pure () : Prog World Unit) _ _ _
    rw [wp_pure, wp_bind, wp_atExit, wp_bind]
    refine wp_generate hc (fun k hk => ?_) (fun _ => ?_)
    · dsimp only at hk; omega
    · rw [if_pos rfl, if_pos rfl]
  show (Profiles.put m.profs q (freshRun (initActsP (u.env q) u.home u.homes u.prog m.profs q o.id) (.init o) x
      ⟨m.profs.get q, 0, m.rest⟩).2.prof).get q = _
  rw [Profiles.get_put_self, h2, if_pos]
  have : x.1 = 1 ∨ x.1 = 2 ∨ x.1 = 3 ∨ x.1 = 4 ∨ x.1 = 5 ∨ x.1 = 6 := by omega
  rcases this with h | h | h | h | h | h <;> rw [h] <;> rfl

theorem genAfter_broken {o : InitOpts} {t : Str} {k : Nat} (h3 : 3 ≤ k) (h6 : k ≤ 6) :
    BrokenProfile (genAfter o t k Prof.absent) ∧
    ((genAfter o t k Prof.absent).cfg = none ∨ (genAfter o t k Prof.absent).cfg = some []) := by
  have : k = 3 ∨ k = 4 ∨ k = 5 ∨ k = 6 := by omega
  rcases this with rfl | rfl | rfl | rfl
  · exact ⟨⟨rfl, Or.inl rfl⟩, Or.inl rfl⟩
  · exact ⟨⟨rfl, Or.inr ⟨⟨_, rfl⟩, fun t ht => by cases ht⟩⟩, Or.inl rfl⟩
  · exact ⟨⟨rfl, Or.inr ⟨⟨_, rfl⟩, fun t ht => by cases ht⟩⟩, Or.inl rfl⟩
  · refine ⟨⟨rfl, Or.inr ⟨⟨_, rfl⟩, fun t ht => ?_⟩⟩, Or.inr rfl⟩
    cases ht
    decide +kernel

/-- Killed while it writes the info file, the database or the config file, an initialisation leaves a profile with which `list`
never works again, whatever commands are run on it and on other profiles. -/
theorem C87_list_fails (u : User) (h : m.profs.get q = Prof.absent) {o : InitOpts} {t : Str} (hc : o.config = .ok t)
    {x : Nat × Nat} (h3 : 3 ≤ x.1) (h6 : x.1 ≤ 6) (cs : List (Str × Cmd × Nat × Nat)) :
    ∃ e, listCmd ((m.run u q (.init o) x).2.runs u cs).profs = .error e := by
  have h1 : BrokenProfile ((m.run u q (.init o) x).2.profs.get q) ∧
      (((m.run u q (.init o) x).2.profs.get q).cfg = none ∨ ((m.run u q (.init o) x).2.profs.get q).cfg = some []) := by
    rw [run_init_early u h hc (by omega) h6]
    exact genAfter_broken h3 h6
  have h2 := runs_broken u cs h1.1
  cases hl : listCmd ((m.run u q (.init o) x).2.runs u cs).profs with
  | error e => exact ⟨e, rfl⟩
  | ok out =>
    exfalso
    obtain ⟨t', h4, h5⟩ := (C87_list_exact _).1 ⟨out, hl⟩ (q, _) (Profiles.mem_of_get rfl (h2.symm ▸ h1.1.1))
    dsimp only at h4
    rw [h2] at h4
    rcases h1.2 with h7 | h7
    · rw [h7] at h4; cases h4
    · rw [h7] at h4
      cases h4
      exact absurd (h5 "LocalDir".toList (by decide)) (by decide)

/-- Killed when it has made the empty config file, an initialisation leaves a profile with which no other profile can be
made any more, whatever commands are run. -/
theorem C87_init_fails (u : User) (h : m.profs.get q = Prof.absent) {o : InitOpts} {t : Str} (hc : o.config = .ok t) (k : Nat)
    (cs : List (Str × Cmd × Nat × Nat)) (hn : q ≠ n)
    (hi : (((m.run u q (.init o) (6, k)).2.runs u cs).profs.get n).info = none) {o' : InitOpts} {t' : Str}
    (ho : o'.config = .ok t') (x : Nat × Nat) :
    ∃ e, (((m.run u q (.init o) (6, k)).2.runs u cs).run u n (.init o') x).1 = .error e := by
  have h1 := run_init_early u h hc (x := (6, k)) (by simp) (by simp)
  refine blocked_forever u ?_ ?_ cs hn hi ho x
  · rw [h1]
    exact (genAfter_broken (by simp) (by simp)).1
  · rw [h1]
    intro h2; cases h2

/-- Only what happens without an exception. -/
theorem wp_atExit_ok {R α : Type} {hd : Prog (LS R) Unit} {f : Prog (LS R) α} {Q : α → LS R → Prop} {s : LS R}
    (h : wp f Q (fun _ _ => True) s) : wp (atExit hd f) Q (fun _ _ => True) s := by
  rw [wp_atExit]
  refine wp_mono h (fun _ _ h => h) ?_
  intro e s' _
  split
  · trivial
  · refine wp_always (fun _ _ => trivial) (fun _ _ => ?_)
    split <;> trivial

/-- `init` keeps the config file that it has made. -/
theorem wp_init_done {R : Type} (acts : Acts R) {o : InitOpts} {t : Str} (hc : o.config = .ok t) {s : LS R}
    (h : s.prof = Prof.absent) :
    wp (initCmd acts o) (fun _ s' => s'.prof.dir = true ∧ s'.prof.cfg = some t ∧ ∃ i, s'.prof.info = some (some i))
      (fun _ _ => True) s := by
  unfold initCmd
  refine wp_atExit_ok ?_
  rw [wp_bind, wp_readStatus, h, absent_read]
  dsimp only
  unfold initLocked
  rw [wp_bind, wp_onRest]
  refine wp_always (fun _ r => ?_) (fun _ _ => trivial)
  rw [wp_bind]
  unfold newProfile
  refine wp_atExit_ok ?_
  rw [wp_bind]
  refine wp_generate hc (fun k _ => ?_) (fun _ => trivial)
  rw [wp_bind, wp_onRest]
  refine wp_always (fun _ r2 => ?_) (fun _ _ => trivial)
  rw [wp_pure]
  unfold finish writeInfo
  rw [wp_bind, wp_onRest]
  refine wp_always (fun _ r3 => ?_) (fun _ _ => trivial)
  rw [wp_bind, wp_bind]
  refine wp_step (fun k1 _ => ?_) (fun _ => trivial)
  refine wp_step (fun k2 _ => ?_) (fun _ => trivial)
  rw [wp_onRest]
  exact wp_always (fun _ r4 => ⟨rfl, rfl, _, rfl⟩) (fun _ _ => trivial)

theorem run_init_done (u : User) (h : m.profs.get q = Prof.absent) {o : InitOpts} {t : Str} (hc : o.config = .ok t)
    {x : Nat × Nat} (hr : (m.run u q (.init o) x).1 = .ok ()) :
    ((m.run u q (.init o) x).2.profs.get q).dir = true ∧ ((m.run u q (.init o) x).2.profs.get q).cfg = some t ∧
    ∃ i, ((m.run u q (.init o) x).2.profs.get q).info = some (some i) := by
  have h2 := wp_init_done (initActsP (u.env q) u.home u.homes u.prog m.profs q o.id) hc
    (s := ⟨m.profs.get q, x.1, m.rest.restart x.2⟩) h
  have h3 : (m.run u q (.init o) x) =
      ((initCmd (initActsP (u.env q) u.home u.homes u.prog m.profs q o.id) o ⟨m.profs.get q, x.1, m.rest.restart x.2⟩).1,
      ⟨m.profs.put q (initCmd (initActsP (u.env q) u.home u.homes u.prog m.profs q o.id) o
        ⟨m.profs.get q, x.1, m.rest.restart x.2⟩).2.prof, (initCmd (initActsP (u.env q) u.home u.homes u.prog m.profs q o.id) o
        ⟨m.profs.get q, x.1, m.rest.restart x.2⟩).2.rest⟩) := rfl
  rw [h3] at hr ⊢
  unfold wp at h2
  generalize initCmd (initActsP (u.env q) u.home u.homes u.prog m.profs q o.id) o
    ⟨m.profs.get q, x.1, m.rest.restart x.2⟩ = r at h2 hr ⊢
  obtain ⟨r, s'⟩ := r
  dsimp only at hr ⊢
  subst hr
  dsimp only at h2
  rw [Profiles.get_put_self, if_pos h2.1]
  exact h2

/-- A template with an empty value, as in C64, does the same without any crash: the initialisation succeeds, and
from then on no other profile can be made, whatever commands are run. -/
theorem C87_template_fails (u : User) (h : m.profs.get q = Prof.absent) {o : InitOpts} {t : Str} (hc : o.config = .ok t)
    (ht : ¬ ValidConfig t) {x : Nat × Nat} (hr : (m.run u q (.init o) x).1 = .ok ())
    (cs : List (Str × Cmd × Nat × Nat)) (hn : q ≠ n)
    (hi : (((m.run u q (.init o) x).2.runs u cs).profs.get n).info = none) {o' : InitOpts} {t' : Str}
    (ho : o'.config = .ok t') (y : Nat × Nat) :
    ∃ e, (((m.run u q (.init o) x).2.runs u cs).run u n (.init o') y).1 = .error e := by
  obtain ⟨h1, h2, h3⟩ := run_init_done u h hc hr
  refine blocked_forever u ⟨h1, Or.inr ⟨h3, fun t2 h4 => ?_⟩⟩ (by rw [h2]; intro h; cases h) cs hn hi ho y
  rw [h2] at h4
  cases h4
  exact ht

/-- Killed when it has made the directory or the exclude file, an initialisation leaves a directory with which `list` does
not work until the initialisation is run again. -/
theorem C87_leftover_fails (u : User) (h : m.profs.get q = Prof.absent) {o : InitOpts} {t : Str} (hc : o.config = .ok t)
    {x : Nat × Nat} (h1 : 1 ≤ x.1) (h2 : x.1 ≤ 2) : listCmd (m.run u q (.init o) x).2.profs = .error .parse := by
  have h3 := run_init_early u h hc h1 (by omega)
  have h4 : (genAfter o t x.1 Prof.absent).dir = true ∧ (genAfter o t x.1 Prof.absent).cfg = none := by
    have : x.1 = 1 ∨ x.1 = 2 := by omega
    rcases this with h | h <;> rw [h] <;> exact ⟨rfl, rfl⟩
  unfold listCmd
  rw [readConfigs_missing (Profiles.mem_of_get h3 h4.1) h4.2]

/-! ### Profiles that can be read -/

/-- The profile has no config file, or it can be read. -/
def Harmless (p : Prof) : Prop := p.cfg = none ∨ ∃ i t, HasProfile p i t

/-- The local directories of profiles. -/
def localsOf (home : Str) (user : Str → Option Str) (l : List Prof) : List Str :=
  l.filterMap (fun p => p.cfg.bind (fun t => (vals (configRead [] t) "LocalDir".toList).map (localPath home user)))

theorem cfgLocal_valid {home : Str} {user : Str → Option Str} {t : Str} (h : ValidConfig t) :
    ∃ v, vals (configRead [] t) "LocalDir".toList = some v ∧ cfgLocal home user t = .ok (localPath home user v) := by
  obtain ⟨v, hv⟩ := ((checkAll_eq_nil (nodup_configRead (by simp [Dict.Nodup, Dict.keys]) t) true).1 h).1 "LocalDir".toList
    (by decide)
  have h1 : vals (configRead [] t) "LocalDir".toList = some v := by unfold vals; rw [hv]
  refine ⟨v, h1, ?_⟩
  unfold cfgLocal
  rw [h1]

theorem foldl_countOverlap_none (dir : Str) (l : List Str) : l.foldl (countOverlap dir) none = none := by
  induction l with
  | nil => rfl
  | cons a l ih => rw [List.foldl_cons]; exact ih

theorem overlapLoop_eq {home : Str} {user : Str → Option Str} {dir : Str} {l : List Prof} (h : ∀ p ∈ l, Harmless p) (k : Nat) :
    overlapLoop home user dir l k = match (localsOf home user l).foldl (countOverlap dir) (some k) with
      | some n => .ok n
      | none => .error .invalid := by
  induction l generalizing k with
  | nil => rfl
  | cons p l ih =>
    have ih := ih (fun p hp => h p (List.mem_cons_of_mem _ hp))
    unfold overlapLoop localsOf
    rcases h p List.mem_cons_self with h1 | ⟨i, t, h1⟩
    · rw [if_pos (by rw [h1]; rfl), List.filterMap_cons_none (by rw [h1]; rfl)]
      exact ih k
    · obtain ⟨v, hv, hl⟩ := cfgLocal_valid (home := home) (user := user) h1.2.2.2
      rw [if_neg (by rw [h1.2.2.1]; simp), h1.read]
      dsimp only
      rw [hl, List.filterMap_cons_some (b := localPath home user v) (by rw [h1.2.2.1, Option.bind_some, hv]; rfl), List.foldl_cons]
      dsimp only
      have hcount : countOverlap dir (some k) (localPath home user v) = match overlaps (localPath home user v) dir with
          | some true => some (k + 1)
          | some false => some k
          | none => none := by
        unfold countOverlap
        cases overlaps (localPath home user v) dir with
        | none => rfl
        | some b => cases b <;> rfl
      rw [hcount]
      cases ho : overlaps (localPath home user v) dir with
      | none =>
        dsimp only
        rw [foldl_countOverlap_none]
      | some b =>
        cases b with
        | true => exact ih (k + 1)
        | false => exact ih k

theorem checkDirsP_eq {env : Env} {home : Str} {user : Str → Option Str} {prog : Str} {l : List Prof}
    (h : ∀ p ∈ l, Harmless p) (a : Bool) :
    checkDirsP env home user prog l a = checkDirs env prog (localsOf home user l) a := by
  unfold checkDirsP checkDirs verifyLocal verifyLocalDir
  rw [overlapLoop_eq h]
  congr 1
  funext b
  cases b with
  | false => rfl
  | true =>
    rw [if_pos rfl, if_pos rfl]
    cases overlaps (absStr env.loc) prog with
    | none => rfl
    | some c =>
      cases c with
      | true => rfl
      | false =>
        dsimp only
        cases (localsOf home user l).foldl (countOverlap (absStr env.loc)) (some 0) with
        | none => rfl
        | some n =>
          rw [Option.map_some]
          dsimp only
          cases decide (n = 0) <;> rfl

/-- The order of the profiles does not matter. -/
theorem checkDirs_perm {env : Env} {prog : Str} {l l' : List Str} (h : l.Perm l') (a : Bool) :
    checkDirs env prog l a = checkDirs env prog l' a := by
  have h1 : ∀ d z (a b : Str), countOverlap d (countOverlap d z a) b = countOverlap d (countOverlap d z b) a := by
    intro d z a b
    unfold countOverlap
    cases z with
    | none => rfl
    | some k =>
      cases overlaps a d with
      | none =>
        cases overlaps b d with
        | none => rfl
        | some y => cases y <;> rfl
      | some x =>
        cases overlaps b d with
        | none => cases x <;> rfl
        | some y => cases x <;> cases y <;> rfl
  unfold checkDirs verifyLocalDir
  rw [List.Perm.foldl_eq' h (fun a _ b _ z => h1 _ z a b)]

/-- `init` only uses the check of its own config file. -/
theorem run_init_congr {R : Type} {acts acts' : Acts R} {o : InitOpts} {t : Str} (hc : o.config = .ok t)
    (hk : acts.check t o.addRemote = acts'.check t o.addRemote) (h1 : acts.lock = acts'.lock) (h2 : acts.setup = acts'.setup)
    (h3 : acts.commit = acts'.commit) (h4 : acts.order = acts'.order) :
    Lifecycle.run acts (.init o) = Lifecycle.run acts' (.init o) := by
  have hnew : newProfile acts o = newProfile acts' o := by
    unfold newProfile
    rw [h4]
    congr 1
    funext s
    refine bind_congr_at (wp_generate hc (fun k _ => ?_) (fun _ => trivial))
    dsimp only
    rw [hk]
  have hinit : initCmd acts o = initCmd acts' o := by
    unfold initCmd
    congr 1
    congr 1
    funext st
    unfold initLocked
    rw [hnew, h1]
    unfold finish
    rw [h2, h3]
  funext fuel s
  show initCmd acts o _ = initCmd acts' o _
  rw [hinit]

/-- The other profiles. -/
def Profiles.others (ps : Profiles) (n : Str) : List Prof := (ps.filter (fun e => decide (e.1 ≠ n))).map Prod.snd

theorem seenDirs_perm {home : Str} {user : Str → Option Str} {t : Str} {i : PInfo} {v : Str} (hnd : (ps.map Prod.fst).Nodup)
    (hv : vals (configRead [] t) "LocalDir".toList = some v) (n : Str) :
    (localsOf home user (seenDirs ps n t i)).Perm (if n ∈ ps.map Prod.fst then
      localPath home user v :: localsOf home user (ps.others n) else localsOf home user (ps.others n)) := by
  induction ps with
  | nil => exact List.Perm.refl _
  | cons e ps ih =>
    rw [List.map_cons, List.nodup_cons] at hnd
    have ih := ih hnd.2
    by_cases he : e.1 = n
    · have h1 : n ∉ ps.map Prod.fst := he ▸ hnd.1
      rw [if_neg h1] at ih
      rw [if_pos (by rw [List.map_cons, he]; exact List.mem_cons_self)]
      have h2 : Profiles.others (e :: ps) n = Profiles.others ps n := by
        unfold Profiles.others
        rw [List.filter_cons_of_neg (by simp [he])]
      have h3 : localsOf home user (seenDirs (e :: ps) n t i) =
          localPath home user v :: localsOf home user (seenDirs ps n t i) := by
        unfold seenDirs localsOf
        rw [List.map_cons, if_pos he, List.filterMap_cons_some]
        rw [Option.bind_some, hv]
        rfl
      rw [h2, h3]
      exact List.Perm.cons _ ih
    · have h2 : Profiles.others (e :: ps) n = e.2 :: Profiles.others ps n := by
        unfold Profiles.others
        rw [List.filter_cons_of_pos (by simp [he]), List.map_cons]
      have h3 : seenDirs (e :: ps) n t i = e.2 :: seenDirs ps n t i := by
        unfold seenDirs
        rw [List.map_cons, if_neg he]
      have h4 : n ∈ List.map Prod.fst (e :: ps) ↔ n ∈ ps.map Prod.fst := by
        rw [List.map_cons, List.mem_cons]
        exact ⟨fun h => h.resolve_left (fun h => he h.symm), Or.inr⟩
      rw [h2, h3, if_congr h4 rfl rfl]
      have h5 : ∀ l, localsOf home user (e.2 :: l) = localsOf home user [e.2] ++ localsOf home user l := by
        intro l
        unfold localsOf
        rw [← List.filterMap_append]
        rfl
      rw [h5 (seenDirs ps n t i), h5 (Profiles.others ps n)]
      refine (List.Perm.append_left _ ih).trans ?_
      split
      · exact List.perm_middle
      · exact List.Perm.refl _

theorem seenDirs_harmless {t : Str} {i : PInfo} (ht : ValidConfig t) (h : ∀ e ∈ ps, e.1 ≠ n → Harmless e.2) :
    ∀ p ∈ seenDirs ps n t i, Harmless p := by
  intro p hp
  obtain ⟨e, he, rfl⟩ := List.mem_map.1 hp
  split
  · exact Or.inr ⟨i, t, rfl, rfl, rfl, ht⟩
  · rename_i h1
    exact h e he h1

/-- If every other profile has no config file or can be read, an initialisation is the one of C84 to C86: the other profiles
only matter because of where their local directories are. -/
theorem C87_alone_partial (u : User) (hnd : (m.profs.map Prod.fst).Nodup) (hd : ∀ e ∈ m.profs, e.2.dir = true)
    (h : ∀ e ∈ m.profs, e.1 ≠ n → Harmless e.2) {o : InitOpts} {t : Str} (hc : o.config = .ok t) (ht : ValidConfig t)
    (hl : cfgLocal u.home u.homes t = .ok (absStr (u.env n).loc)) (x : Nat × Nat) :
    (m.run u n (.init o) x).1 =
      (initOnce (u.env n) u.prog (localsOf u.home u.homes (m.profs.others n)) none o x ⟨m.profs.get n, 0, m.rest⟩).1 ∧
    (m.run u n (.init o) x).2.profs = m.profs.put n
      (initOnce (u.env n) u.prog (localsOf u.home u.homes (m.profs.others n)) none o x ⟨m.profs.get n, 0, m.rest⟩).2.prof ∧
    (m.run u n (.init o) x).2.rest =
      (initOnce (u.env n) u.prog (localsOf u.home u.homes (m.profs.others n)) none o x ⟨m.profs.get n, 0, m.rest⟩).2.rest := by
  obtain ⟨v, hv, hv2⟩ := cfgLocal_valid (home := u.home) (user := u.homes) ht
  rw [hl] at hv2
  have hv2 := Except.ok.inj hv2
  have hseen : (localsOf u.home u.homes (seenDirs m.profs n t ⟨false, o.addRemote, o.id⟩)).Perm
      (seen (u.env n) (localsOf u.home u.homes (m.profs.others n)) (m.profs.get n)) := by
    have h1 := seenDirs_perm (home := u.home) (user := u.homes) (i := ⟨false, o.addRemote, o.id⟩) hnd hv n
    rw [← hv2] at h1
    unfold seen
    have h2 : n ∈ m.profs.map Prod.fst ↔ (m.profs.get n).dir = true := by
      constructor
      · intro h3
        exact Profiles.get_dir hd h3
      · intro h3
        exact List.mem_map.2 ⟨_, Profiles.mem_of_get rfl h3, rfl⟩
    rw [if_congr h2 rfl rfl] at h1
    exact h1
  have ha : Lifecycle.run (initActsP (u.env n) u.home u.homes u.prog m.profs n o.id) (.init o) =
      Lifecycle.run (initActs (u.env n) u.prog (seen (u.env n) (localsOf u.home u.homes (m.profs.others n)) (m.profs.get n)))
        (.init o) := by
    refine run_init_congr hc ?_ rfl rfl rfl rfl
    show sys (checkDirsP _ _ _ _ _ _) = sys (checkDirs _ _ _ _)
    rw [checkDirsP_eq (seenDirs_harmless ht h), checkDirs_perm hseen]
  unfold initOnce
  rw [sigRun_none]
  unfold Machine.run freshRun
  rw [show (Cmd.init o).id = o.id from rfl]
  dsimp only
  rw [ha]
  exact ⟨rfl, rfl, rfl⟩

/-! ### Examples -/

def exUser : User where
  env _ := exEnvE
  home := "/home".toList
  homes _ := none
  prog := "/home/p".toList

/-- The profile `k` is initialised, its local directory is `/k`; the profile `j` has been left by an `init` that was killed
when it had made the directory. -/
def exMachine : Machine where
  profs := [("k".toList, ⟨true, true, some (some ⟨true, false, 3⟩), true,
      some "LocalDir=/k\nRemoteDir=/s\nStorageLimit=1 GB\n".toList⟩),
    ("j".toList, ⟨true, false, none, false, none⟩)]
  rest := exNewFiles 0

def exEmpty : InitOpts := { exOpts with config := .ok "LocalDir=/l\nRemoteDir=/r\nStorageLimit=1 GB\nSyncInterval=\n".toList }

def exN : Str := "n".toList
def exO : Str := "o".toList

theorem exMachine_harmless : ∀ e ∈ exMachine.profs, Harmless e.2 := by
  intro e he
  rcases List.mem_cons.1 he with rfl | he
  · exact Or.inr ⟨_, _, rfl, rfl, rfl, by decide +kernel⟩
  · rcases List.mem_cons.1 he with rfl | he
    · exact Or.inl rfl
    · cases he

/-- A new profile, beside one that is all right and one that has no config file. -/
example : (exMachine.run exUser exN (.init exOpts) (20, 100)).1 = .ok () ∧
    (initOnce exEnvE "/home/p".toList (localsOf "/home".toList (fun _ => none) (exMachine.profs.others exN)) none exOpts (20, 100)
      ⟨exMachine.profs.get exN, 0, exMachine.rest⟩).1 = .ok () := by
  have h := (C87_alone_partial (m := exMachine) (n := exN) exUser (by decide +kernel) (by decide +kernel)
    (fun e he _ => exMachine_harmless e he) (o := exOpts) (t := exText) rfl exText_valid (by decide +kernel) (20, 100)).1
  have h1 : (exMachine.run exUser exN (.init exOpts) (20, 100)).1 = .ok () := by decide +kernel
  exact ⟨h1, h.symm.trans h1⟩

/-- `list` does not print the row of `k`, because of `j`; when the initialisation of `j` has been tried again, it does. -/
example : listCmd exMachine.profs = .error .parse ∧
    ∃ out, listCmd (exMachine.run exUser "j".toList (.init exOpts) (20, 100)).2.profs = .ok out := by
  refine ⟨by decide +kernel, (C87_list_exact _).2 ?_⟩
  have h : (exMachine.run exUser "j".toList (.init exOpts) (20, 100)).2.profs = exMachine.profs.take 1 := by decide +kernel
  rw [h]
  intro e he
  rcases List.mem_cons.1 he with rfl | he
  · exact ⟨_, rfl, by decide +kernel⟩
  · cases he

/-- The theorems about crashes and templates apply to this machine. -/
example (cs : List (Str × Cmd × Nat × Nat)) :
    ∃ e, listCmd ((exMachine.run exUser exN (.init exOpts) (4, 0)).2.runs exUser cs).profs = .error e :=
  C87_list_fails exUser (by decide +kernel) (o := exOpts) (t := exText) rfl (by decide) (by decide) cs

example : ∃ e, (((exMachine.run exUser exN (.init exOpts) (6, 0)).2.runs exUser
    [(exN, .reset, 20, 100), (exN, .init exOpts, 20, 100)]).run exUser exO (.init exOpts) (20, 100)).1 = .error e :=
  C87_init_fails exUser (by decide +kernel) (o := exOpts) (t := exText) rfl 0 _ (by decide) (by decide +kernel) (t' := exText) rfl
    (20, 100)

example : ∃ e, (((exMachine.run exUser exN (.init exEmpty) (20, 100)).2.runs exUser
    [(exN, .use, 20, 100), (exN, .reset, 20, 100)]).run exUser exO (.init exOpts) (20, 100)).1 = .error e :=
  C87_template_fails exUser (by decide +kernel) (o := exEmpty) rfl (by decide +kernel) (by decide +kernel) _ (by decide)
    (by decide +kernel) (t' := exText) rfl (20, 100)

end Verif
