import Verif.Signal
import Verif.Props.C67_Checks
/-
C86: a signal while `init` runs (Ctrl-C, SIGTERM, SIGHUP).

The exit handlers run then, so a profile that is not complete is removed, as long as nothing has been copied; later the
profile can be resumed. Not so in the moment when the info file is empty, and not if the signal comes while a refused profile
is being removed.
-/
namespace Verif
open Lifecycle Prog
variable {R α : Type}

theorem wp_always {σ α : Type} {m : Prog σ α} {Q : α → σ → Prop} {E : Err → σ → Prop} {s : σ} (hQ : ∀ a s', Q a s')
    (hE : ∀ e s', E e s') : wp m Q E s := by
  unfold wp
  split
  · exact hQ _ _
  · exact hE _ _

theorem wp_atExitSig {sg : Option Nat} {h : Prog (LS R) Unit} {m : Prog (LS R) α} {s : LS R} {Q : α → LS R → Prop}
    {E : Err → LS R → Prop} :
    wp (atExitSig sg h m) Q E s ↔ wp m Q (fun e s' => if e = .killed then
        match sg with
        | none => E e s'
        | some k => wp h (fun _ s'' => E e s'') (fun _ s'' => E e s'') { s' with fuel := k }
      else wp h (fun _ s'' => E e s'') (fun e' s'' => if e' = .killed then E .killed s'' else E e s'') s') s := by
  unfold wp atExitSig
  dsimp only
  cases hm : m s with
  | mk r s' =>
    cases r with
    | ok a => rfl
    | error e =>
      dsimp only
      by_cases hk : e = .killed
      · rw [if_pos hk, if_pos hk]
        cases sg with
        | none => rfl
        | some k =>
          dsimp only
          cases hh : h { s' with fuel := k } with
          | mk r2 s2 => cases r2 <;> rfl
      · rw [if_neg hk, if_neg hk]
        cases hh : h s' with
        | mk r2 s2 =>
          cases r2 with
          | ok a => rfl
          | error e2 =>
            by_cases hk2 : e2 = .killed
            · subst hk2; rfl
            · simp [hk2]

/-- Without a signal, `init` is the command of the other properties. -/
theorem atExitSig_none (h : Prog (LS R) Unit) (m : Prog (LS R) α) : atExitSig none h m = atExit h m := by
  funext s
  unfold atExitSig atExit
  cases m s with
  | mk r s' => cases r <;> rfl

theorem initCmdSig_none (acts : Acts R) (o : InitOpts) : initCmdSig acts none o = initCmd acts o := by
  unfold initCmdSig initCmd
  rw [atExitSig_none]
  have h : initLockedSig acts none o = initLocked acts o := by
    funext st
    cases st with
    | some r => rfl
    | none =>
      unfold initLockedSig initLocked newProfileSig newProfile
      rw [atExitSig_none]
  rw [h]

theorem sigRun_none (acts : Acts R) (o : InitOpts) (fuel : Nat) (s : LS R) :
    sigRun acts none o fuel s = run acts (.init o) fuel s := by
  unfold sigRun run Cmd.prog
  rw [initCmdSig_none]

theorem wp_sigRun {acts : Acts R} {sg : Option Nat} {o : InitOpts} {fuel : Nat} {s : LS R}
    {P : Except Err Unit → LS R → Prop}
    (h : wp (initCmdSig acts sg o) (fun a s' => P (.ok a) s') (fun e s' => P (.error e) s') { s with fuel := fuel }) :
    P (sigRun acts sg o fuel s).1 (sigRun acts sg o fuel s).2 := by
  unfold sigRun
  unfold wp at h
  generalize initCmdSig acts sg o { s with fuel := fuel } = r at h ⊢
  obtain ⟨r, s'⟩ := r
  cases r <;> exact h

/-- Removing what is left, if there is enough time. -/
theorem wp_rmProfile_any {order : List Member} (ho : ∀ m, m ∈ order) {s : LS R} (hf : 5 ≤ s.fuel)
    {Q : Unit → LS R → Prop} {E : Err → LS R → Prop} (hQ : ∀ n, Q () ⟨Prof.absent, n, s.rest⟩)
    (hE : s.prof.dir = false → E .notFound s) : wp (rmProfile order) Q E s := by
  cases hd : s.prof.dir with
  | true => exact wp_rmProfile ho hd hf hQ
  | false =>
    unfold wp rmProfile
    rw [if_neg (by rw [hd]; decide)]
    exact hE hd

theorem cleanup_absent {n : Nat} {r : R} :
    (cleanupProfile : Prog (LS R) Unit) ⟨Prof.absent, n, r⟩ = (.ok (), ⟨Prof.absent, n, r⟩) := rfl

/-- The directory is the first thing that is made. -/
theorem genAfter_dir {o : InitOpts} {t : Str} {k : Nat} (h : (genAfter o t k Prof.absent).dir = false) :
    genAfter o t k Prof.absent = Prof.absent := by
  match k with
  | 0 => rfl
  | 1 | 2 | 3 | 4 | 5 | 6 => cases h
  | _ + 7 => simp [genAfter, genSteps] at h

/-! ### C86 -/

/-- The check of the directories finds nothing wrong. -/
def NeverRefuses (acts : Acts R) (t : Str) (b : Bool) : Prop :=
  ∀ r e r', acts.check t b r = (.error e, r') → e = .killed

/-- There is no profile, or there is one that can be resumed, or that is initialised. -/
def Sound (o : InitOpts) (t : Str) (p : Prof) : Prop :=
  p = Prof.absent ∨ HasProfile p ⟨false, o.addRemote, o.id⟩ t ∨ HasProfile p ⟨true, o.addRemote, o.id⟩ t

theorem wp_finish_sound {acts : Acts R} {o : InitOpts} {t : Str} {s : LS R}
    (h : HasProfile s.prof ⟨false, o.addRemote, o.id⟩ t) (h1 : s.fuel ≠ 1) {P : LS R → Prop}
    (hP : ∀ s', HasProfile s'.prof ⟨false, o.addRemote, o.id⟩ t ∨ HasProfile s'.prof ⟨true, o.addRemote, o.id⟩ t → P s') :
    wp (finish acts (⟨false, o.addRemote, o.id⟩, t)) (fun _ s' => P s') (fun _ s' => P s' ∧ s'.prof.info.isSome = true) s := by
  have hinfo : s.prof.info.isSome = true := by rw [h.2.1]; rfl
  unfold finish
  rw [wp_bind, wp_onRest]
  refine wp_always ?_ ?_
  · intro _ r1
    unfold writeInfo
    rw [wp_bind, wp_bind]
    refine wp_step (fun n1 e1 => ?_) (fun e1 => ⟨hP _ (Or.inl h), hinfo⟩)
    refine wp_step (fun n2 e2 => ?_) (fun e2 => absurd (show s.fuel = 1 by dsimp only at e1 e2; omega) h1)
    rw [wp_onRest]
    refine wp_always ?_ ?_
    · intro _ r2
      exact hP _ (Or.inr ⟨h.1, rfl, h.2.2.1, h.2.2.2⟩)
    · intro _ r2
      exact ⟨hP _ (Or.inr ⟨h.1, rfl, h.2.2.1, h.2.2.2⟩), rfl⟩
  · intro _ r1
    exact ⟨hP _ (Or.inl h), hinfo⟩

/-- C86: `init` gets a signal anywhere, whatever the directories are like. If there was no profile or one that can be
resumed, then so there is afterwards, or there is an initialised one. This holds except in the moment in which the info file
is empty, and except that the signal comes when the directories have been refused and the profile is being removed. -/
theorem C86_sound_partial {acts : Acts R} {o : InitOpts} {t : Str} (hc : o.config = .ok t) (ht : ValidConfig t)
    (ho : ∀ m, m ∈ acts.order) {k : Nat} (hk : 5 ≤ k) {s : LS R} {fuel : Nat}
    (h : s.prof = Prof.absent ∧ fuel ≠ 8 ∧ (12 ≤ fuel ∨ NeverRefuses acts t o.addRemote) ∨
      HasProfile s.prof ⟨false, o.addRemote, o.id⟩ t ∧ fuel ≠ 1) :
    Sound o t (sigRun acts (some k) o fuel s).2.prof := by
  refine wp_sigRun (P := fun _ s' => Sound o t s'.prof) ?_
  unfold initCmdSig
  rw [wp_atExitSig, wp_bind, wp_readStatus]
  dsimp only
  have fin : ∀ {s1 : LS R}, HasProfile s1.prof ⟨false, o.addRemote, o.id⟩ t → s1.fuel ≠ 1 →
      wp (finish acts (⟨false, o.addRemote, o.id⟩, t)) (fun _ s' => Sound o t s'.prof) (fun e s' => if e = Err.killed then
        wp cleanupProfile (fun _ s'' => Sound o t s''.prof) (fun _ s'' => Sound o t s''.prof) { s' with fuel := k }
      else wp cleanupProfile (fun _ s'' => Sound o t s''.prof)
        (fun e' s'' => if e' = .killed then Sound o t s''.prof else Sound o t s''.prof) s') s1 := by
    intro s1 g1 g2
    refine wp_mono (wp_finish_sound g1 g2 (P := fun s' => Sound o t s'.prof) (fun s' h => Or.inr h)) (fun _ _ h => h) ?_
    rintro e s' ⟨g3, g4⟩
    split
    · unfold wp
      rw [cleanup_info (s := { s' with fuel := k }) g4]
      exact g3
    · unfold wp
      rw [cleanup_info g4]
      exact g3
  rcases h with ⟨h1, h2, h3⟩ | ⟨h1, h2⟩
  · rw [h1, absent_read]
    dsimp only
    unfold initLockedSig newProfileSig
    rw [wp_bind, wp_onRest]
    have habs : ∀ n (r : R) e, (if e = Err.killed then
        wp cleanupProfile (fun _ s'' => Sound o t s''.prof) (fun _ s'' => Sound o t s''.prof) (⟨Prof.absent, k, r⟩ : LS R)
      else wp cleanupProfile (fun _ s'' => Sound o t s''.prof)
        (fun e' s'' => if e' = .killed then Sound o t s''.prof else Sound o t s''.prof) (⟨Prof.absent, n, r⟩ : LS R)) := by
      intro n r e
      split <;> exact Or.inl rfl
    refine wp_always ?_ (fun e r => habs _ r e)
    intro _ r0
    rw [wp_bind, wp_atExitSig, wp_bind]
    refine wp_generate hc ?_ ?_
    · intro n1 hn1
      dsimp only at hn1
      rw [wp_bind, wp_onRest]
      have hprof : HasProfile (genAfter o t 7 Prof.absent) ⟨false, o.addRemote, o.id⟩ t := ⟨rfl, rfl, rfl, ht⟩
      dsimp only
      cases hcheck : acts.check t o.addRemote r0 with
      | mk res r1 =>
        unfold wp
        rw [hcheck]
        cases res with
        | ok _ => exact fin (s1 := ⟨genAfter o t 7 Prof.absent, n1, r1⟩) hprof (by dsimp only; omega)
        | error e =>
          dsimp only
          by_cases he : e = .killed
          · rw [if_pos he]
            refine wp_rmProfile_any (s := ⟨genAfter o t 7 Prof.absent, k, r1⟩) ho hk (fun n => habs n r1 e) ?_
            intro hd; cases hd
          · rw [if_neg he]
            refine wp_rmProfile_any (s := ⟨genAfter o t 7 Prof.absent, n1, r1⟩) ho ?_ (fun n => habs n r1 e) ?_
            · rcases h3 with h3 | h3
              · dsimp only; omega
              · exact absurd (h3 _ _ _ hcheck) he
            · intro hd; cases hd
    · intro hlt
      rw [if_pos rfl]
      dsimp only
      refine wp_rmProfile_any (s := ⟨genAfter o t fuel Prof.absent, k, r0⟩) ho hk (fun n => habs n r0 .killed) ?_
      intro hd
      rw [genAfter_dir hd]
      exact habs k r0 .killed
  · rw [h1.read]
    dsimp only
    unfold initLockedSig
    dsimp only
    rw [if_neg (by decide), wp_bind, wp_onRest]
    have hinfo : s.prof.info.isSome = true := by rw [h1.2.1]; rfl
    refine wp_always ?_ ?_
    · intro _ r1
      exact fin (s1 := ⟨s.prof, fuel, r1⟩) h1 h2
    · intro e r1
      split
      · unfold wp
        rw [cleanup_info (s := ⟨s.prof, k, r1⟩) hinfo]
        exact Or.inr (Or.inl h1)
      · unfold wp
        rw [cleanup_info (s := ⟨s.prof, fuel, r1⟩) hinfo]
        exact Or.inr (Or.inl h1)

/-- C86: a signal before the directories are checked leaves no profile. -/
theorem C86_absent {acts : Acts R} {o : InitOpts} {t : Str} (hc : o.config = .ok t) (hl : Succeeds acts.lock)
    (ho : ∀ m, m ∈ acts.order) {k : Nat} (hk : 5 ≤ k) {s : LS R} (h : s.prof = Prof.absent) {fuel : Nat} (h7 : fuel < 7) :
    (sigRun acts (some k) o fuel s).1 = .error .killed ∧ (sigRun acts (some k) o fuel s).2.prof = Prof.absent := by
  refine wp_sigRun (P := fun r s' => r = .error .killed ∧ s'.prof = Prof.absent) ?_
  unfold initCmdSig
  rw [wp_atExitSig, wp_bind, wp_readStatus]
  dsimp only
  rw [h, absent_read]
  dsimp only
  unfold initLockedSig newProfileSig
  rw [wp_bind, wp_onRest]
  refine hl.wp (fun _ r0 _ => ?_)
  rw [wp_bind, wp_atExitSig, wp_bind]
  refine wp_generate hc (fun n1 hn1 => by dsimp only at hn1; omega) ?_
  intro hlt
  rw [if_pos rfl]
  dsimp only
  refine wp_rmProfile_any (s := ⟨genAfter o t fuel Prof.absent, k, r0⟩) ho hk (fun n => ?_) ?_
  · rw [if_pos rfl]
    exact ⟨rfl, rfl⟩
  · intro hd
    rw [genAfter_dir hd]
    rw [if_pos rfl]
    exact ⟨rfl, rfl⟩

/-- C86 is false for a signal in the moment in which the info file is empty: then the profile is broken, and stays so
(`C66_forever_fails`), although everything has been copied. -/
theorem C86_empty_fails {acts : Acts R} {o : InitOpts} {t : Str} (hc : o.config = .ok t) (hl : Succeeds acts.lock)
    (hk : Succeeds (acts.check t o.addRemote)) (hs : Succeeds (acts.setup t ⟨false, o.addRemote, o.id⟩)) {k : Nat}
    {s : LS R} (h : s.prof = Prof.absent) :
    (sigRun acts (some k) o 8 s).1 = .error .killed ∧ BrokenProfile (sigRun acts (some k) o 8 s).2.prof := by
  refine wp_sigRun (P := fun r s' => r = .error .killed ∧ BrokenProfile s'.prof) ?_
  unfold initCmdSig
  rw [wp_atExitSig, wp_bind, wp_readStatus]
  dsimp only
  rw [h, absent_read]
  dsimp only
  unfold initLockedSig newProfileSig
  rw [wp_bind, wp_onRest]
  refine hl.wp (fun _ r0 _ => ?_)
  rw [wp_bind, wp_atExitSig, wp_bind]
  refine wp_generate hc ?_ (fun hn => by dsimp only at hn; omega)
  intro n1 hn1
  dsimp only at hn1
  rw [wp_bind, wp_onRest]
  refine hk.wp (fun _ r1 _ => ?_)
  rw [wp_pure]
  unfold finish
  rw [wp_bind, wp_onRest]
  refine hs.wp (fun _ r2 _ => ?_)
  unfold writeInfo
  rw [wp_bind, wp_bind]
  refine wp_step (fun n2 e2 => ?_) (fun e2 => by dsimp only at e2; omega)
  refine wp_step (fun n3 e3 => by dsimp only at e2 e3; omega) (fun e3 => ?_)
  rw [if_pos rfl]
  unfold wp
  rw [cleanup_info (by rfl)]
  exact ⟨rfl, rfl, Or.inl rfl⟩

/-- C86 is false for a signal before the profile is removed whose directories have been refused: then it is left as one
that can be resumed, and that is resumed without the checks (zielen/commands/init.py:107-123). -/
theorem C86_refused_fails {acts : Acts R} {o : InitOpts} {t : Str} (hc : o.config = .ok t) (ht : ValidConfig t)
    (hl : Succeeds acts.lock) (hk : Rejects (acts.check t o.addRemote)) {k : Nat} {s : LS R} (h : s.prof = Prof.absent) :
    (sigRun acts (some k) o 7 s).1 = .error .killed ∧
    HasProfile (sigRun acts (some k) o 7 s).2.prof ⟨false, o.addRemote, o.id⟩ t := by
  refine wp_sigRun (P := fun r s' => r = .error .killed ∧ HasProfile s'.prof ⟨false, o.addRemote, o.id⟩ t) ?_
  unfold initCmdSig
  rw [wp_atExitSig, wp_bind, wp_readStatus]
  dsimp only
  rw [h, absent_read]
  dsimp only
  unfold initLockedSig newProfileSig
  rw [wp_bind, wp_onRest]
  refine hl.wp (fun _ r0 _ => ?_)
  rw [wp_bind, wp_atExitSig, wp_bind]
  refine wp_generate hc ?_ (fun hn => by dsimp only at hn; omega)
  intro n1 hn1
  dsimp only at hn1
  rw [wp_bind, wp_onRest]
  refine hk.wp (fun r1 => ?_)
  rw [if_neg (by decide)]
  refine wp_rmProfile_zero rfl (by dsimp only; omega) (by intro m; cases m <;> rfl) ?_
  rw [if_pos rfl, if_pos rfl]
  unfold wp
  rw [cleanup_info (by rfl)]
  exact ⟨rfl, rfl, rfl, rfl, ht⟩

end Verif
