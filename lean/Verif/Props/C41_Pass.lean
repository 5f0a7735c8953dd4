import Verif.Props.C41_InfoRace
/-!
C41: the main pass of the daemon, which reads the info file after it has taken the lock of the database.
-/
namespace Verif

/-- While the daemon has the lock, a sync changes nothing that the daemon sees. -/
theorem quiet_sync {c : List (Proc × RAct)} : ∀ {tr : List (Proc × RAct)} {s s' : RState}, LInv tr s →
    s.owner = some .daemon → (∀ x ∈ c, x.1 = .sync) → raceRun s c = some s' →
    s'.file = s.file ∧ s'.mem .daemon = s.mem .daemon ∧ s'.pos .daemon = s.pos .daemon ∧ s'.owner = some .daemon ∧
      LInv (tr ++ c) s' := by
  induction c with
  | nil => intro tr s s' hi ho _ h; cases h; exact ⟨rfl, rfl, rfl, ho, by rwa [List.append_nil]⟩
  | cons x c ih =>
    intro tr s s' hi ho hc h
    obtain ⟨p, a⟩ := x
    have hp : p = .sync := hc _ List.mem_cons_self
    subst hp
    rw [raceRun] at h
    cases hs : raceStep s .sync a with
    | none => rw [hs] at h; cases h
    | some s1 =>
      rw [hs, Option.bind_some] at h
      have hi1 := linv_step hi hs
      have hn : ¬ (s.pos .sync = .locked ∨ s.pos .sync = .lockedRead ∨ s.pos .sync = .written) := by
        intro hk
        have := hi.owns _ hk
        rw [ho] at this
        cases this
      have key : s1.file = s.file ∧ s1.mem .daemon = s.mem .daemon ∧ s1.pos .daemon = s.pos .daemon ∧
          s1.owner = some .daemon := by
        unfold raceStep at hs
        cases hk : progNext .sync (s.pos .sync) a with
        | none => rw [hk] at hs; cases hs
        | some y =>
          rw [hk] at hs
          dsimp only at hs
          cases a with
          | read => cases hs; exact ⟨rfl, by simp [setFun], by simp [setFun], ho⟩
          | acquire => simp [ho] at hs
          | write t =>
            exfalso
            cases hx : s.pos .sync <;> rw [hx] at hk hn <;> cases t <;> simp [progNext, syncNext] at hk hn
          | release => exact absurd (progNext_release hk).1 hn
          | retry => cases hs; exact ⟨rfl, rfl, by simp [setFun], ho⟩
      obtain ⟨h1, h2, h3, h4, h5⟩ := ih hi1 key.2.2.2 (fun x hx => hc x (List.mem_cons_of_mem _ hx)) h
      exact ⟨h1.trans key.1, h2.trans key.2.1, h3.trans key.2.2.1, h4, by simpa using h5⟩

/-- C41 for the main pass of the daemon: if the daemon has taken the lock of the database before it reads the info file,
what it writes back has the time of the last sync that is in the file, in every interleaving with a sync. Missing: the
passes in which the daemon reads first (C41_lastSync_fails). -/
theorem C41_pass_partial {i : Info} {clock : Int} {a b c : List (Proc × RAct)} {t : Option Int} {s s' : RState}
    (hb : ∀ x ∈ b, x.1 = .sync) (hc : ∀ x ∈ c, x.1 = .sync)
    (h : raceRun (.start i clock) (a ++ (.daemon, .acquire) :: (b ++ (.daemon, .read) :: c)) = some s)
    (h' : raceRun s [(.daemon, .write t)] = some s') : s'.file.lastSync = s.file.lastSync := by
  rw [raceRun_append] at h
  cases h1 : raceRun (.start i clock) a with
  | none => rw [h1] at h; cases h
  | some s1 =>
    have i1 : LInv ([] ++ a) s1 := linv_run ⟨by simp [RState.start], by simp [RState.start]⟩ h1
    rw [h1, Option.bind_some, raceRun] at h
    cases h2 : raceStep s1 .daemon .acquire with
    | none => rw [h2] at h; cases h
    | some s2 =>
      have i2 := linv_step i1 h2
      have o2 : s2.owner = some .daemon := by
        unfold raceStep at h2
        cases hk : progNext .daemon (s1.pos .daemon) .acquire with
        | none => rw [hk] at h2; cases h2
        | some y =>
          rw [hk] at h2
          dsimp only at h2
          split at h2
          · cases h2; rfl
          · cases h2
      rw [h2, Option.bind_some, raceRun_append] at h
      cases h3 : raceRun s2 b with
      | none => rw [h3] at h; cases h
      | some s3 =>
        obtain ⟨_, _, _, o3, i3⟩ := quiet_sync i2 o2 hb h3
        rw [h3, Option.bind_some, raceRun] at h
        cases h4 : raceStep s3 .daemon .read with
        | none => rw [h4] at h; cases h
        | some s4 =>
          have i4 := linv_step i3 h4
          have o4 : s4.owner = some .daemon ∧ s4.mem .daemon = s4.file := by
            unfold raceStep at h4
            cases hk : progNext .daemon (s3.pos .daemon) .read with
            | none => rw [hk] at h4; cases h4
            | some y => rw [hk] at h4; cases h4; exact ⟨o3, by simp [setFun]⟩
          rw [h4, Option.bind_some] at h
          obtain ⟨f5, m5, _, _, _⟩ := quiet_sync i4 o4.1 hc h
          have e : s.mem .daemon = s.file := by rw [m5, f5, o4.2]
          rw [raceRun] at h'
          unfold raceStep at h'
          cases hk : progNext .daemon (s.pos .daemon) (.write t) with
          | none => rw [hk] at h'; cases h'
          | some y =>
            rw [hk] at h'
            dsimp only at h'
            split at h'
            · simp only [Option.bind_some, raceRun, Option.some.injEq] at h'
              rw [← h']
              dsimp only
              rw [e]
              cases t <;> rfl
            · cases h'

/-- A sync reads while the daemon has the lock, waits for it, and writes afterwards. -/
def exPass : List (Proc × RAct) :=
  [] ++ (.daemon, .acquire) :: ([(.sync, .read)] ++ (.daemon, .read) :: [(.sync, .retry), (.sync, .read)])

example : ((raceRun (.start ⟨5, 5⟩ 6) (exPass ++ [(.daemon, .write none), (.daemon, .release), (.sync, .acquire),
    (.sync, .write (some 9))])).map RState.file = some ⟨9, 5⟩) ∧
    (∀ x ∈ [(Proc.sync, RAct.read)], x.1 = .sync) ∧ ∀ x ∈ [(Proc.sync, RAct.retry), (.sync, .read)], x.1 = .sync :=
  ⟨rfl, by simp, by simp⟩

end Verif
