import Verif.Lifecycle
import Verif.Props.C64_Template
/-
C66: an interrupted initialisation can be completed or cancelled, as the message says that is printed
(zielen/commandbase.py:135-140).

Not so if the process is killed while it makes the profile directory, and never by a reset.
-/
namespace Verif
open Lifecycle Prog
variable {R α : Type}

/-! ### Reasoning -/

theorem wp_step {f : Prof → Prof} {s : LS R} {Q : Unit → LS R → Prop} {E : Err → LS R → Prop}
    (hQ : ∀ n, s.fuel = n + 1 → Q () ⟨f s.prof, n, s.rest⟩) (hE : s.fuel = 0 → E .killed s) : wp (step f) Q E s := by
  unfold wp step
  cases h : s.fuel with
  | zero => exact hE h
  | succ n => exact hQ n h

theorem wp_onRest {m : Prog R α} {s : LS R} {Q : α → LS R → Prop} {E : Err → LS R → Prop} :
    wp (onRest m) Q E s ↔
      wp m (fun a r => Q a { s with rest := r }) (fun e r => E e { s with rest := r }) s.rest := by
  unfold wp onRest
  dsimp only
  cases h : m s.rest with
  | mk r s' => cases r <;> rfl

theorem wp_atExit {h : Prog (LS R) Unit} {m : Prog (LS R) α} {s : LS R} {Q : α → LS R → Prop} {E : Err → LS R → Prop} :
    wp (atExit h m) Q E s ↔ wp m Q (fun e s' => if e = .killed then E e s' else
      wp h (fun _ s'' => E e s'') (fun e' s'' => if e' = .killed then E .killed s'' else E e s'') s') s := by
  unfold wp atExit
  dsimp only
  cases hm : m s with
  | mk r s' =>
    cases r with
    | ok a => rfl
    | error e =>
      dsimp only
      by_cases hk : e = .killed
      · simp [hk]
      · rw [if_neg hk, if_neg hk]
        cases hh : h s' with
        | mk r2 s2 =>
          cases r2 with
          | ok a => rfl
          | error e2 =>
            by_cases hk2 : e2 = .killed
            · subst hk2; rfl
            · simp [hk2]

/-- What a run of a command that satisfies a specification does. -/
theorem wp_run {acts : Acts R} {c : Cmd} {fuel : Nat} {s : LS R} {P : Except Err Unit → LS R → Prop}
    (h : wp (c.prog acts) (fun a s' => P (.ok a) s') (fun e s' => P (.error e) s') { s with fuel := fuel }) :
    P (run acts c fuel s).1 (run acts c fuel s).2 := by
  unfold run
  unfold wp at h
  generalize c.prog acts { s with fuel := fuel } = r at h ⊢
  obtain ⟨r, s'⟩ := r
  cases r <;> exact h

/-! ### Profiles -/

/-- The text is a valid config file. -/
def ValidConfig (t : Str) : Prop := checkAll (configRead [] t) true = []

instance (t : Str) : Decidable (ValidConfig t) := inferInstanceAs (Decidable (_ = _))

/-- The info file is there and cannot be parsed, or it is there and there is no valid config file. -/
def BrokenProfile (p : Prof) : Prop :=
  p.dir = true ∧ (p.info = some none ∨ ((∃ i, p.info = some (some i)) ∧ ∀ t, p.cfg = some t → ¬ ValidConfig t))

/-- The profile directory of an initialisation that can be resumed, or of an initialised profile. -/
def HasProfile (p : Prof) (i : PInfo) (t : Str) : Prop :=
  p.dir = true ∧ p.info = some (some i) ∧ p.cfg = some t ∧ ValidConfig t

theorem HasProfile.read {p : Prof} {i : PInfo} {t : Str} (h : HasProfile p i t) : readProfile p = .ok (i, t) := by
  obtain ⟨_, h2, h3, h4⟩ := h
  unfold readProfile
  rw [h2, h3]
  exact if_pos h4

theorem BrokenProfile.read {p : Prof} (h : BrokenProfile p) :
    readProfile p = .error .json ∨ readProfile p = .error .parse := by
  obtain ⟨_, h2 | ⟨⟨i, h2⟩, h3⟩⟩ := h
  · left; unfold readProfile; rw [h2]
  · right
    unfold readProfile
    rw [h2]
    cases hc : p.cfg with
    | none => rfl
    | some t => exact if_neg (h3 t hc)

theorem cleanup_info {s : LS R} (h : s.prof.info.isSome = true) :
    (cleanupProfile : Prog (LS R) Unit) s = (.ok (), s) := by
  unfold cleanupProfile
  simp [h]

theorem wp_readStatus {s : LS R} {Q : Option (PInfo × Str) → LS R → Prop} {E : Err → LS R → Prop} :
    wp readStatus Q E s ↔ match readProfile s.prof with
      | .ok r => Q (some r) s
      | .error .notFound => Q none s
      | .error e => E e s := by
  unfold wp readStatus
  split
  · rename_i h; split at h
    · cases h; rename_i h1; rw [h1]
    · cases h; rename_i h1; rw [h1]
    · cases h
  · rename_i h; split at h
    · cases h
    · cases h
    · cases h
      rename_i e h1 h2
      split
      · rename_i h3; rw [h2] at h3; cases h3
      · rename_i h3; rw [h2] at h3; cases h3; exact absurd rfl h1
      · rename_i h3; rw [h2] at h3; cases h3; rfl

theorem wp_setupProfile {acts : Acts R} {s : LS R} {Q : PInfo × Str → LS R → Prop} {E : Err → LS R → Prop}
    (hd : s.prof.dir = true) :
    wp (setupProfile acts) Q E s ↔ match readProfile s.prof with
      | .ok r => wp acts.lock (fun _ x => if r.1.initialized then Q r { s with rest := x } else E .input { s with rest := x })
          (fun e x => E e { s with rest := x }) s.rest
      | .error e => E e s := by
  have : wp (setupProfile acts) Q E s ↔ wp (do
    let r ← profileRead
    onRest acts.lock
    if r.1.initialized then pure r else throw .input) Q E s := by
    unfold wp setupProfile
    rw [if_pos hd]
  rw [this, wp_bind]
  unfold profileRead
  cases h : readProfile s.prof with
  | error e => unfold wp; dsimp only; rw [h]
  | ok r =>
    have e1 : ∀ (Q' : PInfo × Str → LS R → Prop), wp (fun s : LS R => (readProfile s.prof, s)) Q' E s ↔ Q' r s := by
      intro Q'
      unfold wp
      dsimp only
      rw [h]
    rw [e1, wp_bind, wp_onRest]
    dsimp only
    constructor
    · intro h1
      refine wp_mono h1 ?_ (fun _ _ h => h)
      intro _ x h2
      split
      · rename_i h3; rw [if_pos h3] at h2; exact h2
      · rename_i h3; rw [if_neg h3] at h2; exact h2
    · intro h1
      refine wp_mono h1 ?_ (fun _ _ h => h)
      intro _ x h2
      split
      · rename_i h3; rw [if_pos h3] at h2; exact h2
      · rename_i h3; rw [if_neg h3] at h2; exact h2

/-! ### C66 -/

/-- A broken profile stays broken: every command raises, whenever it is killed, and changes nothing. -/
theorem C66_broken_fails (acts : Acts R) (c : Cmd) (fuel : Nat) {s : LS R} (h : BrokenProfile s.prof) :
    (∃ e, (run acts c fuel s).1 = .error e) ∧ (run acts c fuel s).2 = { s with fuel := fuel } := by
  have hi : s.prof.info.isSome = true := by
    obtain ⟨_, h2 | ⟨⟨i, h2⟩, _⟩⟩ := h <;> rw [h2] <;> rfl
  refine wp_run (P := fun r s' => (∃ e, r = .error e) ∧ s' = { s with fuel := fuel }) ?_
  cases c with
  | init o =>
    unfold Cmd.prog initCmd
    rw [wp_atExit, wp_bind, wp_readStatus]
    have hc : (cleanupProfile : Prog (LS R) Unit) { s with fuel := fuel } = (.ok (), { s with fuel := fuel }) :=
      cleanup_info hi
    rcases h.read with h1 | h1 <;> rw [h1] <;> dsimp only <;> rw [if_neg (by decide)] <;> unfold wp <;> rw [hc] <;>
      exact ⟨⟨_, rfl⟩, rfl⟩
  | use =>
    unfold Cmd.prog useCmd
    rw [wp_bind, wp_setupProfile (s := { s with fuel := fuel }) h.1]
    dsimp only
    rcases h.read with h1 | h1 <;> rw [h1] <;> exact ⟨⟨_, rfl⟩, rfl⟩
  | reset =>
    unfold Cmd.prog resetCmd
    rw [wp_bind, wp_setupProfile (s := { s with fuel := fuel }) h.1]
    dsimp only
    rcases h.read with h1 | h1 <;> rw [h1] <;> exact ⟨⟨_, rfl⟩, rfl⟩

/-- Any number of commands. -/
def runs (acts : Acts R) : List (Cmd × Nat) → LS R → LS R
  | [], s => s
  | (c, fuel) :: cs, s => runs acts cs (run acts c fuel s).2

/-- So it stays broken for good. -/
theorem C66_forever_fails (acts : Acts R) (cs : List (Cmd × Nat)) : ∀ {s : LS R}, BrokenProfile s.prof →
    (runs acts cs s).prof = s.prof ∧ (runs acts cs s).rest = s.rest := by
  induction cs with
  | nil => intro s _; exact ⟨rfl, rfl⟩
  | cons c cs ih =>
    intro s h
    have h1 := (C66_broken_fails acts c.1 c.2 h).2
    have h2 := ih (s := (run acts c.1 c.2 s).2) (by rw [h1]; exact h)
    unfold runs
    rw [h1] at h2 ⊢
    exact h2

/-- A reset does not cancel an initialisation: it raises and changes nothing in the profile directory. -/
theorem C66_cancel_fails (acts : Acts R) (fuel : Nat) {s : LS R} {i : PInfo} {t : Str} (h : HasProfile s.prof i t)
    (hi : i.initialized = false) :
    (∃ e, (run acts .reset fuel s).1 = .error e) ∧ (run acts .reset fuel s).2.prof = s.prof := by
  refine wp_run (P := fun r s' => (∃ e, r = .error e) ∧ s'.prof = s.prof) ?_
  unfold Cmd.prog resetCmd
  rw [wp_bind, wp_setupProfile (s := { s with fuel := fuel }) h.1]
  dsimp only
  rw [h.read]
  dsimp only
  rw [hi]
  unfold wp
  split
  · exact ⟨⟨_, rfl⟩, rfl⟩
  · exact ⟨⟨_, rfl⟩, rfl⟩

/-! ### A new profile -/

/-- The changes that `generate` makes, one by one. -/
def genSteps (o : InitOpts) (t : Str) : List (Prof → Prof) :=
  [fun p => { p with dir := true }, fun p => { p with excl := true }, fun p => { p with info := some none },
    fun p => { p with info := some (some ⟨false, o.addRemote, o.id⟩) }, fun p => { p with db := true },
    fun p => { p with cfg := some [] }, fun p => { p with cfg := some t }]

/-- The profile directory after `k` of these changes. -/
def genAfter (o : InitOpts) (t : Str) (k : Nat) (p : Prof) : Prof := ((genSteps o t).take k).foldl (fun p f => f p) p

theorem wp_generate {o : InitOpts} {t : Str} (hc : o.config = .ok t) {s : LS R}
    {Q : PInfo × Str → LS R → Prop} {E : Err → LS R → Prop}
    (hQ : ∀ n, s.fuel = n + 7 → Q (⟨false, o.addRemote, o.id⟩, t) ⟨genAfter o t 7 s.prof, n, s.rest⟩)
    (hE : s.fuel < 7 → E .killed ⟨genAfter o t s.fuel s.prof, 0, s.rest⟩) : wp (generate o) Q E s := by
  obtain ⟨p, n, r⟩ := s
  dsimp only at hQ hE
  unfold generate writeInfo writeCfg
  rw [hc]
  rw [wp_bind]
  refine wp_step (fun n1 h1 => ?_) (fun h1 => by dsimp only at h1; subst h1; exact hE (by omega))
  rw [wp_bind]
  refine wp_step (fun n2 h2 => ?_) (fun h2 => by dsimp only at h1 h2; subst h2 h1; exact hE (by omega))
  rw [wp_bind, wp_bind]
  refine wp_step (fun n3 h3 => ?_) (fun h3 => by dsimp only at h1 h2 h3; subst h3 h2 h1; exact hE (by omega))
  refine wp_step (fun n4 h4 => ?_) (fun h4 => by dsimp only at h1 h2 h3 h4; subst h4 h3 h2 h1; exact hE (by omega))
  rw [wp_bind]
  refine wp_step (fun n5 h5 => ?_) (fun h5 => by dsimp only at h1 h2 h3 h4 h5; subst h5 h4 h3 h2 h1; exact hE (by omega))
  dsimp only
  rw [wp_bind, wp_bind]
  refine wp_step (fun n6 h6 => ?_)
    (fun h6 => by dsimp only at h1 h2 h3 h4 h5 h6; subst h6 h5 h4 h3 h2 h1; exact hE (by omega))
  refine wp_step (fun n7 h7 => ?_)
    (fun h7 => by dsimp only at h1 h2 h3 h4 h5 h6 h7; subst h7 h6 h5 h4 h3 h2 h1; exact hE (by omega))
  rw [wp_pure]
  dsimp only at h1 h2 h3 h4 h5 h6 h7
  subst h7 h6 h5 h4 h3 h2 h1
  exact hQ _ rfl

theorem absent_read : readProfile Prof.absent = .error .notFound := rfl

/-- No exception. -/
def Succeeds (m : Prog R α) : Prop := ∀ r, ∃ a r', m r = (.ok a, r')

theorem Succeeds.wp {m : Prog R α} (h : Succeeds m) {r : R} {Q : α → R → Prop} {E : Err → R → Prop}
    (hQ : ∀ a r', m r = (.ok a, r') → Q a r') : Verif.wp m Q E r := by
  obtain ⟨a, r', h1⟩ := h r
  unfold Verif.wp
  rw [h1]
  exact hQ a r' h1

/-- Killed between the creation of the info file and the end of writing the config file, an initialisation leaves a
profile that is broken for good, even if the template and the directories are all right. -/
theorem C66_killed_fails (acts : Acts R) {o : InitOpts} {t : Str} (hc : o.config = .ok t) (hl : Succeeds acts.lock)
    {s : LS R} (h : s.prof = Prof.absent) {fuel : Nat} (h3 : 3 ≤ fuel) (h6 : fuel ≤ 6) :
    (run acts (.init o) fuel s).1 = .error .killed ∧ BrokenProfile (run acts (.init o) fuel s).2.prof := by
  refine wp_run (P := fun r s' => r = .error .killed ∧ BrokenProfile s'.prof) ?_
  unfold Cmd.prog initCmd
  rw [wp_atExit, wp_bind, wp_readStatus]
  dsimp only
  rw [h, absent_read]
  dsimp only
  unfold initLocked newProfile
  rw [wp_bind, wp_onRest]
  refine hl.wp (fun _ r' _ => ?_)
  rw [wp_bind, wp_atExit, wp_bind]
  refine wp_generate hc (fun n hn => ?_) (fun _ => ?_)
  · dsimp only at hn; omega
  · dsimp only
    rw [if_pos rfl, if_pos rfl]
    refine ⟨rfl, ?_⟩
    have : fuel = 3 ∨ fuel = 4 ∨ fuel = 5 ∨ fuel = 6 := by omega
    rcases this with rfl | rfl | rfl | rfl
    · exact ⟨rfl, Or.inl rfl⟩
    · exact ⟨rfl, Or.inr ⟨⟨_, rfl⟩, fun t ht => by cases ht⟩⟩
    · exact ⟨rfl, Or.inr ⟨⟨_, rfl⟩, fun t ht => by cases ht⟩⟩
    · refine ⟨rfl, Or.inr ⟨⟨_, rfl⟩, fun t ht => ?_⟩⟩
      cases ht
      decide +kernel

/-- Interrupted later, while it copies files, it leaves a profile that can be resumed. -/
theorem C66_interrupted_partial (acts : Acts R) {o : InitOpts} {t : Str} (hc : o.config = .ok t) (ht : ValidConfig t)
    (hl : Succeeds acts.lock) (hk : Succeeds (acts.check t o.addRemote))
    (hs : ∀ r, ∃ e r', acts.setup t ⟨false, o.addRemote, o.id⟩ r = (.error e, r'))
    {s : LS R} (h : s.prof = Prof.absent) {fuel : Nat} (h7 : 7 ≤ fuel) :
    (∃ e, (run acts (.init o) fuel s).1 = .error e) ∧
    HasProfile (run acts (.init o) fuel s).2.prof ⟨false, o.addRemote, o.id⟩ t := by
  refine wp_run (P := fun r s' => (∃ e, r = .error e) ∧ HasProfile s'.prof ⟨false, o.addRemote, o.id⟩ t) ?_
  unfold Cmd.prog initCmd
  rw [wp_atExit, wp_bind, wp_readStatus]
  dsimp only
  rw [h, absent_read]
  dsimp only
  unfold initLocked newProfile
  rw [wp_bind, wp_onRest]
  refine hl.wp (fun _ r' _ => ?_)
  rw [wp_bind, wp_atExit, wp_bind]
  refine wp_generate hc (fun n hn => ?_) (fun hn => by dsimp only at hn; omega)
  rw [wp_bind, wp_onRest]
  refine hk.wp (fun _ r' _ => ?_)
  rw [wp_pure]
  unfold finish
  rw [wp_bind, wp_onRest]
  obtain ⟨e, r2, h2⟩ := hs r'
  unfold wp
  rw [show acts.setup (_, t).2 (⟨false, o.addRemote, o.id⟩, t).1 r' = (.error e, r2) from h2]
  dsimp only
  have hp : HasProfile (genAfter o t 7 Prof.absent) ⟨false, o.addRemote, o.id⟩ t := ⟨rfl, rfl, rfl, ht⟩
  split
  · exact ⟨⟨_, rfl⟩, hp⟩
  · rw [cleanup_info (by rfl)]
    exact ⟨⟨_, rfl⟩, hp⟩

/-- And then `init` completes it, with the options and the config file of the first run, whatever options are given
now. -/
theorem C66_resume_partial (acts : Acts R) (o : InitOpts) {i : PInfo} {t : Str} (hl : Succeeds acts.lock)
    (hs : Succeeds (acts.setup t i)) (hm : Succeeds acts.commit) {s : LS R} (h : HasProfile s.prof i t)
    (hi : i.initialized = false) {fuel : Nat} (h2 : 2 ≤ fuel) :
    (run acts (.init o) fuel s).1 = .ok () ∧
    HasProfile (run acts (.init o) fuel s).2.prof ⟨true, i.addRemote, i.id⟩ t := by
  refine wp_run (P := fun r s' => r = .ok () ∧ HasProfile s'.prof ⟨true, i.addRemote, i.id⟩ t) ?_
  unfold Cmd.prog initCmd
  rw [wp_atExit, wp_bind, wp_readStatus]
  dsimp only
  rw [h.read]
  dsimp only
  unfold initLocked
  dsimp only
  rw [if_neg (by simp [hi]), wp_bind, wp_onRest]
  refine hl.wp (fun _ r1 _ => ?_)
  unfold finish
  rw [wp_bind, wp_onRest]
  refine hs.wp (fun _ r2 _ => ?_)
  unfold writeInfo
  rw [wp_bind, wp_bind]
  refine wp_step (fun n1 e1 => ?_) (fun e1 => by dsimp only at e1; omega)
  refine wp_step (fun n2 e2 => ?_) (fun e2 => by dsimp only at e1 e2; omega)
  rw [wp_onRest]
  refine hm.wp (fun _ r3 _ => ?_)
  exact ⟨rfl, h.1, rfl, h.2.2.1, h.2.2.2⟩

/-! ### An example -/

/-- The state outside the profile directory is whether the remote directory is in use; the check wants it to be unused
unless `--add-remote` is given. -/
def exActs : Acts Bool where
  lock := pure ()
  check _ a := fun used => (if used = a then .ok () else .error .input, used)
  setup _ _ := fun _ => (.ok (), true)
  commit := pure ()
  use _ _ := pure ()
  retrieve _ _ := fun _ => (.ok (), false)
  order := [.cfg, .db, .excl, .info]

def exText : Str := "LocalDir=/l\nRemoteDir=/r\nStorageLimit=2 GB\n".toList

def exOpts : InitOpts := ⟨.ok exText, false, 7⟩

theorem exText_valid : ValidConfig exText := by decide +kernel

/-- The same with a copy that fails. -/
def exInterrupted : Acts Bool := { exActs with setup := fun _ _ r => (.error .space, r) }

/-- Init, interrupted while copying, then resumed, then reset. -/
example :
    let s1 := (run exInterrupted (.init exOpts) 20 ⟨Prof.absent, 0, false⟩).2
    let s2 := (run exActs (.init exOpts) 20 s1).2
    let s3 := (run exActs .reset 20 s2).2
    HasProfile s1.prof ⟨false, false, 7⟩ exText ∧ HasProfile s2.prof ⟨true, false, 7⟩ exText ∧ s2.rest = true ∧
    s3.prof = Prof.absent ∧ s3.rest = false :=
  ⟨⟨rfl, rfl, rfl, exText_valid⟩, ⟨rfl, by decide +kernel, by decide +kernel, exText_valid⟩, by decide +kernel,
    by decide +kernel, by decide +kernel⟩

/-- Killed while the config file is written: nothing works any more. -/
example : BrokenProfile (run exActs (.init exOpts) 6 ⟨Prof.absent, 0, false⟩).2.prof ∧
    (∃ e, (run exActs (.init exOpts) 20 (run exActs (.init exOpts) 6 ⟨Prof.absent, 0, false⟩).2).1 = .error e) ∧
    (∃ e, (run exActs .reset 20 (run exActs (.init exOpts) 6 ⟨Prof.absent, 0, false⟩).2).1 = .error e) := by
  have h := (C66_killed_fails exActs (o := exOpts) (s := ⟨Prof.absent, 0, false⟩) (fuel := 6) (t := exText) rfl
    (fun r => ⟨(), r, rfl⟩) rfl (by decide) (by decide)).2
  exact ⟨h, (C66_broken_fails exActs _ 20 h).1, (C66_broken_fails exActs _ 20 h).1⟩

end Verif
