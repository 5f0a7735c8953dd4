import Verif.Props.C66_Lifecycle
/-
C67: the directories of a profile have passed the checks of `init` (zielen/commands/init.py:126-137).
C68: `init` leaves an existing profile alone.
-/
namespace Verif
open Lifecycle Prog
variable {R α : Type}

/-! ### Removing the profile directory -/

/-- The number of files. -/
def Prof.size (p : Prof) : Nat :=
  (if p.excl then 1 else 0) + (if p.info.isSome then 1 else 0) + (if p.db then 1 else 0) + (if p.cfg.isSome then 1 else 0)

theorem Prof.size_le (p : Prof) : p.size ≤ 4 := by
  unfold Prof.size
  split <;> split <;> split <;> split <;> omega

theorem has_drop {p : Prof} {m m' : Member} : Prof.has (Prof.drop p m) m' = (Prof.has p m' && decide (m' ≠ m)) := by
  cases m <;> cases m' <;> simp [Prof.has, Prof.drop]

theorem size_drop {p : Prof} {m : Member} (h : Prof.has p m = true) : (Prof.drop p m).size + 1 = p.size := by
  obtain ⟨d, e, i, b, c⟩ := p
  cases m <;> cases e <;> cases i <;> cases b <;> cases c <;> simp_all [Prof.has, Prof.drop, Prof.size]

theorem dir_drop {p : Prof} {m : Member} : (Prof.drop p m).dir = p.dir := by cases m <;> rfl

theorem wp_dropMember {m : Member} {s : LS R} {Q : Unit → LS R → Prop} {E : Err → LS R → Prop}
    (h1 : Prof.has s.prof m = false → Q () s)
    (h2 : Prof.has s.prof m = true → ∀ n, s.fuel = n + 1 → Q () ⟨Prof.drop s.prof m, n, s.rest⟩)
    (h3 : Prof.has s.prof m = true → s.fuel = 0 → E .killed s) : wp (dropMember m) Q E s := by
  cases h : Prof.has s.prof m with
  | true =>
    have : dropMember m s = step (fun p => Prof.drop p m) s := if_pos h
    have h' := wp_step (f := fun p => Prof.drop p m) (h2 h) (h3 h)
    unfold wp at h' ⊢
    rw [this]
    exact h'
  | false =>
    have : dropMember m s = (.ok (), s) := if_neg (by simp [h])
    unfold wp
    rw [this]
    exact h1 h

/-- With enough time, all files are removed. -/
theorem wp_dropAll {Q : Unit → LS R → Prop} {E : Err → LS R → Prop} : ∀ {order : List Member} {s : LS R},
    s.prof.size ≤ s.fuel →
    (∀ s' : LS R, s'.rest = s.rest → s'.prof.dir = s.prof.dir → s.fuel + s'.prof.size = s'.fuel + s.prof.size →
      (∀ m, Prof.has s'.prof m = true ↔ Prof.has s.prof m = true ∧ m ∉ order) → Q () s') →
    wp (each dropMember order) Q E s
  | [], s, hf, h => by
    unfold each
    rw [wp_pure]
    exact h s rfl rfl rfl (by simp)
  | m :: order, s, hf, h => by
    unfold each
    rw [wp_bind]
    refine wp_dropMember ?_ ?_ ?_
    · intro hm
      refine wp_dropAll hf (fun s' h1 h2 h3 h4 => h s' h1 h2 h3 (fun m' => ?_))
      rw [h4, List.mem_cons, not_or]
      constructor
      · rintro ⟨a, b⟩
        refine ⟨a, ?_, b⟩
        rintro rfl
        rw [hm] at a; cases a
      · rintro ⟨a, _, b⟩; exact ⟨a, b⟩
    · intro hm n hn
      have hs := size_drop hm
      refine wp_dropAll (by dsimp only; omega) (fun s' h1 h2 h3 h4 => h s' h1 (h2.trans dir_drop) ?_ (fun m' => ?_))
      · dsimp only at h3; omega
      · rw [h4]
        dsimp only
        rw [has_drop]
        simp only [Bool.and_eq_true, decide_eq_true_eq, List.mem_cons, not_or, and_assoc]
    · intro hm h0
      have := size_drop hm
      omega

theorem absent_of_empty {p : Prof} (h : ∀ m, Prof.has p m = false) : { p with dir := false } = Prof.absent := by
  have h1 := h .excl
  have h2 := h .info
  have h3 := h .db
  have h4 := h .cfg
  obtain ⟨d, e, i, b, c⟩ := p
  simp only [Prof.has] at h1 h2 h3 h4
  subst h1 h3
  cases i with
  | some i => cases h2
  | none => cases c with
    | some c => cases h4
    | none => rfl

/-- `shutil.rmtree` removes the profile directory. -/
theorem wp_rmProfile {order : List Member} (ho : ∀ m, m ∈ order) {s : LS R} (hd : s.prof.dir = true)
    (hf : 5 ≤ s.fuel) {Q : Unit → LS R → Prop} {E : Err → LS R → Prop}
    (hQ : ∀ n, Q () ⟨Prof.absent, n, s.rest⟩) : wp (rmProfile order) Q E s := by
  have : wp (rmProfile order) Q E s ↔
      wp (do each dropMember order; step (fun p => { p with dir := false })) Q E s := by
    unfold wp rmProfile
    rw [if_pos hd]
  rw [this, wp_bind]
  have hs := s.prof.size_le
  refine wp_dropAll (by omega) (fun s' h1 h2 h3 h4 => ?_)
  refine wp_step (fun n hn => ?_) (fun h0 => ?_)
  · have : ∀ m, Prof.has s'.prof m = false := by
      intro m
      cases hm : Prof.has s'.prof m with
      | false => rfl
      | true => exact absurd (ho m) ((h4 m).1 hm).2
    rw [absent_of_empty this, h1]
    exact hQ n
  · exfalso
    omega

/-- A process that has no time left removes nothing. -/
theorem wp_rmProfile_zero {order : List Member} {s : LS R} (hd : s.prof.dir = true) (hf : s.fuel = 0)
    (ha : ∀ m, Prof.has s.prof m = true) {Q : Unit → LS R → Prop} {E : Err → LS R → Prop} (hE : E .killed s) :
    wp (rmProfile order) Q E s := by
  have : wp (rmProfile order) Q E s ↔
      wp (do each dropMember order; step (fun p => { p with dir := false })) Q E s := by
    unfold wp rmProfile
    rw [if_pos hd]
  rw [this, wp_bind]
  cases order with
  | nil =>
    unfold each
    rw [wp_pure]
    exact wp_step (fun n hn => by omega) (fun _ => hE)
  | cons m order =>
    unfold each
    rw [wp_bind]
    exact wp_dropMember (fun h => by rw [ha m] at h; cases h) (fun _ n hn => by omega) (fun _ _ => hE)

/-! ### C67 -/

/-- A check that fails. -/
def Rejects (m : Prog R Unit) : Prop := ∀ r, ∃ r', m r = (.error .input, r')

theorem Rejects.wp {m : Prog R Unit} (h : Rejects m) {r : R} {Q : Unit → R → Prop} {E : Err → R → Prop}
    (hE : ∀ r', E .input r') : Verif.wp m Q E r := by
  obtain ⟨r', h1⟩ := h r
  unfold Verif.wp
  rw [h1]
  exact hE r'

/-- The directories are rejected, but the process is killed before it has removed the new profile. `init` takes this for
an initialisation to resume, and completes it without any check. -/
theorem C67_killed_fails (acts : Acts R) {o : InitOpts} {t : Str} (hc : o.config = .ok t) (ht : ValidConfig t)
    (hl : Succeeds acts.lock) (hk : Rejects (acts.check t o.addRemote))
    (hs : Succeeds (acts.setup t ⟨false, o.addRemote, o.id⟩)) (hm : Succeeds acts.commit) {s : LS R}
    (h : s.prof = Prof.absent) (o' : InitOpts) :
    (run acts (.init o) 7 s).1 = .error .killed ∧
    (run acts (.init o') 2 (run acts (.init o) 7 s).2).1 = .ok () ∧
    HasProfile (run acts (.init o') 2 (run acts (.init o) 7 s).2).2.prof ⟨true, o.addRemote, o.id⟩ t := by
  have h1 : (run acts (.init o) 7 s).1 = .error .killed ∧
      HasProfile (run acts (.init o) 7 s).2.prof ⟨false, o.addRemote, o.id⟩ t := by
    refine wp_run (P := fun r s' => r = .error .killed ∧ HasProfile s'.prof ⟨false, o.addRemote, o.id⟩ t) ?_
    unfold Cmd.prog initCmd
    rw [wp_atExit, wp_bind, wp_readStatus]
    dsimp only
    rw [h, absent_read]
    dsimp only
    unfold initLocked newProfile
    rw [wp_bind, wp_onRest]
    refine hl.wp (fun _ r' _ => ?_)
    rw [wp_bind, wp_atExit, wp_bind]
    refine wp_generate hc (fun n hn => ?_) (fun hn => by dsimp only at hn; omega)
    dsimp only at hn
    have hn0 : n = 0 := by omega
    subst hn0
    rw [wp_bind, wp_onRest]
    refine hk.wp (fun r2 => ?_)
    rw [if_neg (by decide)]
    refine wp_rmProfile_zero rfl rfl (by intro m; cases m <;> rfl) ?_
    rw [if_pos rfl, if_pos rfl]
    exact ⟨rfl, rfl, rfl, rfl, ht⟩
  obtain ⟨h2, h3⟩ := C66_resume_partial acts o' hl hs hm h1.2 rfl (Nat.le_refl 2)
  exact ⟨h1.1, h2, h3⟩

/-- Without such a kill, the new profile is removed again. -/
theorem C67_rejected_partial (acts : Acts R) (ho : ∀ m, m ∈ acts.order) {o : InitOpts} {t : Str} (hc : o.config = .ok t)
    (hl : Succeeds acts.lock) (hk : Rejects (acts.check t o.addRemote)) {s : LS R} (h : s.prof = Prof.absent) {fuel : Nat}
    (hf : 12 ≤ fuel) :
    (run acts (.init o) fuel s).1 = .error .input ∧ (run acts (.init o) fuel s).2.prof = Prof.absent := by
  refine wp_run (P := fun r s' => r = .error .input ∧ s'.prof = Prof.absent) ?_
  unfold Cmd.prog initCmd
  rw [wp_atExit, wp_bind, wp_readStatus]
  dsimp only
  rw [h, absent_read]
  dsimp only
  unfold initLocked newProfile
  rw [wp_bind, wp_onRest]
  refine hl.wp (fun _ r' _ => ?_)
  rw [wp_bind, wp_atExit, wp_bind]
  refine wp_generate hc (fun n hn => ?_) (fun hn => by dsimp only at hn; omega)
  rw [wp_bind, wp_onRest]
  refine hk.wp (fun r2 => ?_)
  rw [if_neg (by decide)]
  refine wp_rmProfile ho rfl (by dsimp only at hn ⊢; omega) (fun n => ?_)
  rw [if_neg (by decide)]
  unfold wp cleanupProfile
  exact ⟨rfl, rfl⟩

/-- The directories in the config file have been checked, with or without `--add-remote`. -/
def Passed (acts : Acts R) (t : Str) (addRemote : Bool) : Prop := ∃ r r', acts.check t addRemote r = (.ok (), r')

/-- There is no profile, or there is a valid one whose directories have been checked. -/
def CheckedProfile (acts : Acts R) (p : Prof) : Prop :=
  p = Prof.absent ∨ ∃ i t, HasProfile p i t ∧ Passed acts t i.addRemote

theorem CheckedProfile.cases {acts : Acts R} {p : Prof} (h : CheckedProfile acts p) :
    (p = Prof.absent ∧ readProfile p = .error .notFound) ∨
      ∃ i t, HasProfile p i t ∧ Passed acts t i.addRemote ∧ readProfile p = .ok (i, t) := by
  rcases h with h | ⟨i, t, h1, h2⟩
  · exact Or.inl ⟨h, by rw [h]; rfl⟩
  · exact Or.inr ⟨i, t, h1, h2, h1.read⟩

/-- The exit handler of `init` does not touch such a profile. -/
theorem CheckedProfile.cleanup {acts : Acts R} {s : LS R} (h : CheckedProfile acts s.prof) :
    (cleanupProfile : Prog (LS R) Unit) s = (.ok (), s) := by
  rcases h with h | ⟨i, t, h1, _⟩
  · unfold cleanupProfile
    rw [h]
    rfl
  · exact cleanup_info (by rw [h1.2.1]; rfl)

theorem wp_any {m : Prog R α} {Q : α → R → Prop} {E : Err → R → Prop} {r : R} (hQ : ∀ a r', m r = (.ok a, r') → Q a r')
    (hE : ∀ e r', m r = (.error e, r') → E e r') : wp m Q E r := by
  unfold wp
  split
  · rename_i h; exact hQ _ _ h
  · rename_i h; exact hE _ _ h

/-- The end of an initialisation. -/
theorem wp_finish {acts : Acts R} {s : LS R} {i : PInfo} {t : Str} (h : HasProfile s.prof i t)
    (hp : Passed acts t i.addRemote) (hf : 2 ≤ s.fuel) :
    wp (finish acts (i, t)) (fun _ s' => CheckedProfile acts s'.prof) (fun _ s' => CheckedProfile acts s'.prof) s := by
  unfold finish
  rw [wp_bind, wp_onRest]
  refine wp_any (fun _ r1 _ => ?_) (fun _ r1 _ => Or.inr ⟨i, t, h, hp⟩)
  unfold writeInfo
  rw [wp_bind, wp_bind]
  refine wp_step (fun n1 e1 => ?_) (fun e1 => by dsimp only at e1; omega)
  refine wp_step (fun n2 e2 => ?_) (fun e2 => by dsimp only at e1 e2; omega)
  rw [wp_onRest]
  have h' : ∀ r : R, CheckedProfile acts (LS.prof ⟨{ s.prof with info := some (some { i with initialized := true }) }, n2, r⟩) :=
    fun r => Or.inr ⟨{ i with initialized := true }, t, ⟨h.1, rfl, h.2.2.1, h.2.2.2⟩, hp⟩
  exact wp_any (fun _ r3 _ => h' r3) (fun _ r3 _ => h' r3)

/-- A template that is rejected. -/
theorem wp_generate_error {o : InitOpts} {errs : List CheckErr} (hc : o.config = .error errs) {s : LS R} (hf : 5 ≤ s.fuel)
    {Q : PInfo × Str → LS R → Prop} {E : Err → LS R → Prop}
    (hE : ∀ n p, s.fuel = n + 5 → p.dir = true → E .parse ⟨p, n, s.rest⟩) : wp (generate o) Q E s := by
  obtain ⟨p, n, r⟩ := s
  dsimp only at hf hE
  unfold generate writeInfo
  rw [hc, wp_bind]
  refine wp_step (fun n1 h1 => ?_) (fun h1 => by dsimp only at h1; omega)
  rw [wp_bind]
  refine wp_step (fun n2 h2 => ?_) (fun h2 => by dsimp only at h1 h2; omega)
  rw [wp_bind, wp_bind]
  refine wp_step (fun n3 h3 => ?_) (fun h3 => by dsimp only at h1 h2 h3; omega)
  refine wp_step (fun n4 h4 => ?_) (fun h4 => by dsimp only at h1 h2 h3 h4; omega)
  rw [wp_bind]
  refine wp_step (fun n5 h5 => ?_) (fun h5 => by dsimp only at h1 h2 h3 h4 h5; omega)
  dsimp only at h1 h2 h3 h4 h5 ⊢
  unfold wp
  exact hE n5 _ (by omega) rfl

/-- One command, not killed while it changes the profile directory. -/
theorem run_checked {acts : Acts R} (ho : ∀ m, m ∈ acts.order) (hk : ∀ t a r, (acts.check t a r).1 ≠ .error .killed)
    {c : Cmd} (hc : ∀ o t, c = .init o → o.config = .ok t → ValidConfig t) {fuel : Nat} (hf : 12 ≤ fuel) {s : LS R}
    (h : CheckedProfile acts s.prof) : CheckedProfile acts (run acts c fuel s).2.prof := by
  refine wp_run (P := fun _ s' => CheckedProfile acts s'.prof) ?_
  have hrest : ∀ r : R, CheckedProfile acts (LS.prof ⟨s.prof, fuel, r⟩) := fun r => h
  cases c with
  | init o =>
    unfold Cmd.prog initCmd
    rw [wp_atExit]
    refine wp_mono (Q := fun _ s' => CheckedProfile acts s'.prof) (E := fun _ s' => CheckedProfile acts s'.prof) ?_
      (fun _ _ h => h) ?_
    · rw [wp_bind, wp_readStatus]
      dsimp only
      rcases h.cases with ⟨h1, h2⟩ | ⟨i, t, h1, h2, h3⟩
      · rw [h2]
        dsimp only
        unfold initLocked newProfile
        rw [wp_bind, wp_onRest]
        refine wp_any (fun _ r1 _ => ?_) (fun _ r1 _ => hrest r1)
        dsimp only
        rw [h1, wp_bind, wp_atExit, wp_bind]
        cases ho' : o.config with
        | error errs =>
          refine wp_generate_error ho' (by dsimp only; omega) (fun n p hn hp => ?_)
          rw [if_neg (by decide)]
          refine wp_rmProfile ho hp (by dsimp only at hn ⊢; omega) (fun n => ?_)
          exact Or.inl rfl
        | ok t =>
          refine wp_generate ho' (fun n hn => ?_) (fun hn => by dsimp only at hn; omega)
          dsimp only at hn
          rw [wp_bind, wp_onRest]
          refine wp_any (fun _ r2 h2 => ?_) (fun e r2 h2 => ?_)
          · rw [wp_pure]
            exact wp_finish ⟨rfl, rfl, rfl, hc o t rfl ho'⟩ ⟨_, _, h2⟩ (by dsimp only; omega)
          · rw [if_neg (by
              intro he
              subst he
              exact hk _ _ _ (by rw [h2]))]
            refine wp_rmProfile ho rfl (by dsimp only; omega) (fun n => ?_)
            exact Or.inl rfl
      · rw [h3]
        dsimp only
        unfold initLocked
        dsimp only
        split
        · exact hrest _
        · rw [wp_bind, wp_onRest]
          refine wp_any (fun _ r1 _ => ?_) (fun _ r1 _ => hrest r1)
          exact wp_finish h1 h2 (by dsimp only; omega)
    · intro e s' h'
      split
      · exact h'
      · unfold wp
        rw [h'.cleanup]
        exact h'
  | use =>
    rcases h.cases with ⟨h1, h2⟩ | ⟨i, t, h1, h2, h3⟩
    · unfold Cmd.prog useCmd
      rw [wp_bind]
      unfold wp setupProfile
      dsimp only
      rw [if_neg (by rw [h1]; decide)]
      exact h
    · unfold Cmd.prog useCmd
      rw [wp_bind, wp_setupProfile (s := { s with fuel := fuel }) h1.1]
      dsimp only
      rw [h3]
      refine wp_any (fun _ r1 _ => ?_) (fun _ r1 _ => hrest r1)
      split
      · rw [wp_onRest]
        exact wp_any (fun _ r2 _ => hrest r2) (fun _ r2 _ => hrest r2)
      · exact hrest r1
  | reset =>
    rcases h.cases with ⟨h1, h2⟩ | ⟨i, t, h1, h2, h3⟩
    · unfold Cmd.prog resetCmd
      rw [wp_bind]
      unfold wp setupProfile
      dsimp only
      rw [if_neg (by rw [h1]; decide)]
      exact h
    · unfold Cmd.prog resetCmd
      rw [wp_bind, wp_setupProfile (s := { s with fuel := fuel }) h1.1]
      dsimp only
      rw [h3]
      refine wp_any (fun _ r1 _ => ?_) (fun _ r1 _ => hrest r1)
      split
      · rw [wp_bind, wp_onRest]
        refine wp_any (fun _ r2 _ => ?_) (fun _ r2 _ => hrest r2)
        refine wp_rmProfile (s := ⟨s.prof, fuel, r2⟩) ho h1.1 (show 5 ≤ fuel by omega) (fun n => ?_)
        exact Or.inl rfl
      · exact hrest r1

/-- If no command is killed while it changes the profile directory, the directories of a profile have been checked: from
no profile on, whatever commands are given, and whatever else happens in them. The commands may be killed while they work
on the sync directories. -/
theorem C67_checked_partial {acts : Acts R} (ho : ∀ m, m ∈ acts.order)
    (hk : ∀ t a r, (acts.check t a r).1 ≠ .error .killed) :
    ∀ {cs : List (Cmd × Nat)} {s : LS R}, CheckedProfile acts s.prof →
    (∀ o t fuel, (Cmd.init o, fuel) ∈ cs → o.config = .ok t → ValidConfig t) → (∀ c ∈ cs, 12 ≤ c.2) →
    CheckedProfile acts (runs acts cs s).prof
  | [], _, h, _, _ => h
  | (c, fuel) :: cs, _, h, hc, hf => by
    unfold runs
    refine C67_checked_partial ho hk (run_checked ho hk (fun o t ho' h2 => ?_) (hf _ (List.mem_cons_self ..)) h)
      (fun o t f hm => hc o t f (List.mem_cons_of_mem _ hm)) (fun c hm => hf c (List.mem_cons_of_mem _ hm))
    subst ho'
    exact hc o t fuel (List.mem_cons_self ..) h2

/-! ### C68 -/

/-- On an initialised profile, `init` raises an error and changes nothing at all. -/
theorem C68_refused (acts : Acts R) (o : InitOpts) (fuel : Nat) {s : LS R} {i : PInfo} {t : Str}
    (h : HasProfile s.prof i t) (hi : i.initialized = true) :
    run acts (.init o) fuel s = (.error .input, { s with fuel := fuel }) := by
  have : (run acts (.init o) fuel s).1 = .error .input ∧ (run acts (.init o) fuel s).2 = { s with fuel := fuel } := by
    refine wp_run (P := fun r s' => r = .error .input ∧ s' = { s with fuel := fuel }) ?_
    unfold Cmd.prog initCmd
    rw [wp_atExit, wp_bind, wp_readStatus]
    dsimp only
    rw [h.read]
    dsimp only
    unfold initLocked
    dsimp only
    rw [if_pos hi]
    have hc : (cleanupProfile : Prog (LS R) Unit) { s with fuel := fuel } = (.ok (), { s with fuel := fuel }) :=
      cleanup_info (by rw [h.2.1]; rfl)
    rw [wp_throw, if_neg (by decide)]
    unfold wp
    rw [hc]
    exact ⟨rfl, rfl⟩
  exact Prod.ext this.1 this.2

/-- But the status is read before the profile is locked. If another process initialises the profile in between, `init`
makes the profile anew: the check fails, because the directories are in use, and the profile is removed. -/
theorem C68_race_fails (acts : Acts R) (ho : ∀ m, m ∈ acts.order) {o : InitOpts} {t' : Str} (hc : o.config = .ok t')
    (hl : Succeeds acts.lock) (hk : Rejects (acts.check t' o.addRemote)) {s s' : LS R} (h : s.prof = Prof.absent)
    (hf : 12 ≤ s'.fuel) :
    readStatus s = (.ok none, s) ∧ (initLocked acts o none s').1 = .error .input ∧
    (initLocked acts o none s').2.prof = Prof.absent := by
  refine ⟨?_, ?_⟩
  · unfold readStatus
    rw [h]
    rfl
  have : wp (initLocked acts o none) (fun _ _ => False) (fun e s2 => e = .input ∧ s2.prof = Prof.absent) s' := by
    unfold initLocked newProfile
    rw [wp_bind, wp_onRest]
    refine hl.wp (fun _ r' _ => ?_)
    rw [wp_bind, wp_atExit, wp_bind]
    refine wp_generate hc (fun n hn => ?_) (fun hn => by dsimp only at hn; omega)
    rw [wp_bind, wp_onRest]
    refine hk.wp (fun r2 => ?_)
    rw [if_neg (by decide)]
    refine wp_rmProfile ho rfl (by dsimp only at hn ⊢; omega) (fun n => ?_)
    exact ⟨rfl, rfl⟩
  unfold wp at this
  split at this
  · exact this.elim
  · rename_i h2
    rw [h2]
    exact ⟨by rw [this.1], this.2⟩

/-! ### Examples -/

theorem exActs_order : ∀ m, m ∈ exActs.order := by intro m; cases m <;> decide

/-- The hypotheses of `C67_checked_partial` for a first init, a second one, a sync, and a reset. -/
example : CheckedProfile exActs
    (runs exActs [(.init exOpts, 12), (.init exOpts, 12), (.use, 12), (.reset, 12)] ⟨Prof.absent, 0, false⟩).prof := by
  refine C67_checked_partial exActs_order (fun t a r => ?_) (Or.inl rfl) (fun o t f h1 h2 => ?_) (by decide)
  · unfold exActs
    cases a <;> cases r <;> simp
  · simp only [List.mem_cons, Prod.mk.injEq, Cmd.init.injEq, reduceCtorEq, List.not_mem_nil, false_and, or_false] at h1
    rcases h1 with ⟨rfl, _⟩ | ⟨rfl, _⟩ <;> (cases h2; exact exText_valid)

/-- The remote directory is never accepted. -/
def exRejecting : Acts Bool := { exActs with check := fun _ _ r => (.error .input, r) }

/-- The hypotheses of `C67_killed_fails`: the profile is initialised although no check has ever succeeded. -/
example : HasProfile (run exRejecting (.init exOpts) 2 (run exRejecting (.init exOpts) 7 ⟨Prof.absent, 0, true⟩).2).2.prof
      ⟨true, false, 7⟩ exText ∧ ¬ Passed exRejecting exText false := by
  refine ⟨(C67_killed_fails exRejecting (t := exText) rfl exText_valid (fun r => ⟨(), r, rfl⟩) (fun r => ⟨r, rfl⟩)
    (fun r => ⟨(), true, rfl⟩) (fun r => ⟨(), r, rfl⟩) rfl exOpts).2.2, ?_⟩
  rintro ⟨r, r', h⟩
  cases h

/-- The hypotheses of `C68_race_fails`: between the reading of the status and the lock, another process has initialised
the profile. The initialised profile is removed. -/
example : let s : LS Bool := ⟨Prof.absent, 12, false⟩
    let s' : LS Bool := { (run exActs (.init exOpts) 12 s).2 with fuel := 12 }
    HasProfile s'.prof ⟨true, false, 7⟩ exText ∧ (initLocked exActs exOpts none s').1 = .error .input ∧
      (initLocked exActs exOpts none s').2.prof = Prof.absent := by
  refine ⟨⟨rfl, by decide +kernel, by decide +kernel, exText_valid⟩, ?_, ?_⟩ <;> decide +kernel

end Verif
