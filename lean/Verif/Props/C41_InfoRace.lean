import Verif.InfoRace
/-
C41: the info file never loses an update.
-/
namespace Verif

/-- The full claim C41: in every interleaving neither time ever goes back. -/
def C41Claim : Prop := ∀ (i : Info) (clock : Int), i.lastSync ≤ clock → i.lastAdjust ≤ clock →
  ∀ tr tr' s s', raceRun (.start i clock) tr = some s → raceRun s tr' = some s' →
    s.file.lastSync ≤ s'.file.lastSync ∧ s.file.lastAdjust ≤ s'.file.lastAdjust

/-- The time of the last sync can go back: the daemon reads the file, a sync
completes, the daemon writes what it has read. -/
theorem C41_lastSync_fails : ∃ s s', raceRun (.start ⟨5, 5⟩ 6)
      [(.daemon, .read), (.sync, .read), (.sync, .acquire), (.sync, .write (some 9)), (.sync, .release)]
      = some s ∧
    raceRun s [(.daemon, .write none)] = some s' ∧ s.file.lastSync = 9 ∧ s'.file.lastSync = 5 :=
  ⟨_, _, rfl, rfl, rfl, rfl⟩

/-- So can the time of the last adjustment: the daemon adjusts the priorities while a sync
that has read the file has not changed the database yet. -/
theorem C41_lastAdjust_fails : ∃ s s', raceRun (.start ⟨5, 5⟩ 6)
      [(.sync, .read), (.daemon, .read), (.daemon, .acquire), (.daemon, .write (some 7)), (.daemon, .release)]
      = some s ∧
    raceRun s [(.sync, .acquire), (.sync, .write (some 9))] = some s' ∧
      s.file.lastAdjust = 7 ∧ s'.file.lastAdjust = 5 :=
  ⟨_, _, rfl, rfl, rfl, rfl⟩

theorem C41_fails : ¬ C41Claim := by
  intro h
  obtain ⟨s, s', h1, h2, h3, h4⟩ := C41_lastSync_fails
  have := (h ⟨5, 5⟩ 6 (by decide) (by decide) _ _ _ _ h1 h2).1
  omega

/-- No process writes between another one's `read` and the next `write` of that one. -/
def Uninterrupted (tr : List (Proc × RAct)) : Prop :=
  ∀ p q a b c t u, q ≠ p → tr = a ++ (p, .read) :: (b ++ (p, .write t) :: c) →
    (p, RAct.read) ∉ b → (q, RAct.write u) ∉ b

theorem raceRun_append {s : RState} {a b : List (Proc × RAct)} :
    raceRun s (a ++ b) = (raceRun s a).bind (fun s' => raceRun s' b) := by
  induction a generalizing s with
  | nil => rfl
  | cons x a ih =>
    obtain ⟨p, act⟩ := x
    rw [List.cons_append, raceRun, raceRun]
    cases raceStep s p act with
    | none => rfl
    | some s' => simp only [Option.bind_some]; exact ih

/-- What holds after any run. -/
structure RInv (tr : List (Proc × RAct)) (s : RState) : Prop where
  clock : s.file.lastSync ≤ s.clock ∧ s.file.lastAdjust ≤ s.clock
  memClock : ∀ p, (s.mem p).lastSync ≤ s.clock ∧ (s.mem p).lastAdjust ≤ s.clock
  hasRead : ∀ p, s.pos p = .haveRead ∨ s.pos p = .lockedRead →
    ∃ a b, tr = a ++ (p, .read) :: b ∧ (p, RAct.read) ∉ b
  fresh : ∀ p a b, tr = a ++ (p, .read) :: b → (p, RAct.read) ∉ b →
    (∀ q u, q ≠ p → (q, RAct.write u) ∉ b) → s.mem p = s.file

theorem snoc_read_cases {tr a b : List (Proc × RAct)} {x : Proc × RAct} {p : Proc}
    (h : tr ++ [x] = a ++ (p, .read) :: b) :
    (b = [] ∧ x = (p, .read) ∧ tr = a) ∨ ∃ b', b = b' ++ [x] ∧ tr = a ++ (p, .read) :: b' := by
  rcases List.eq_nil_or_concat b with rfl | ⟨b', y, hb⟩
  · left
    exact ⟨rfl, by simpa using List.append_inj_right' h rfl, List.append_inj_left' h rfl⟩
  · right
    rw [List.concat_eq_append] at hb
    subst hb
    have e : tr ++ [x] = (a ++ (p, .read) :: b') ++ [y] := by rw [h]; simp
    have h1 := List.append_inj_left' e rfl
    have h2 : x = y := by simpa using List.append_inj_right' e rfl
    subst h2
    exact ⟨b', rfl, h1⟩

/-- Where a process has read before: it is a position after a read. -/
theorem progNext_read {p : Proc} {x y : RPos} {a : RAct} (h : progNext p x a = some y)
    (hy : y = .haveRead ∨ y = .lockedRead) : a = .read ∨ ((x = .haveRead ∨ x = .lockedRead) ∧ a = .acquire) := by
  cases p <;> cases x <;> cases a <;> simp [progNext, daemonNext, syncNext] at h <;>
    (try (rename_i t; cases t <;> simp [progNext, daemonNext, syncNext] at h)) <;> subst h <;> simp at hy ⊢

theorem progNext_write {p : Proc} {x y : RPos} {t : Option Int} (h : progNext p x (.write t) = some y) :
    x = .haveRead ∨ x = .lockedRead := by
  cases p <;> cases x <;> cases t <;> simp_all [progNext, daemonNext, syncNext]

theorem rinv_step {tr : List (Proc × RAct)} {s s' : RState} {p : Proc} {a : RAct} (hi : RInv tr s)
    (h : raceStep s p a = some s') : RInv (tr ++ [(p, a)]) s' := by
  unfold raceStep at h
  cases hn : progNext p (s.pos p) a with
  | none => simp [hn] at h
  | some y =>
    rw [hn] at h
    dsimp only at h
    -- the positions
    have hpos : ∀ s'' : RState, s''.pos = setFun s.pos p y → ∀ q, s''.pos q = .haveRead ∨ s''.pos q = .lockedRead →
        ∃ a' b', tr ++ [(p, a)] = a' ++ (q, .read) :: b' ∧ (q, RAct.read) ∉ b' := by
      intro s'' hs q hq
      rw [hs] at hq
      unfold setFun at hq
      split at hq
      · rename_i hqp
        subst hqp
        rcases progNext_read hn hq with rfl | ⟨hx, rfl⟩
        · exact ⟨tr, [], rfl, by simp⟩
        · obtain ⟨a', b', e, hb⟩ := hi.hasRead q hx
          exact ⟨a', b' ++ [(q, .acquire)], by rw [e]; simp, by simp [hb]⟩
      · rename_i hqp
        obtain ⟨a', b', e, hb⟩ := hi.hasRead q hq
        refine ⟨a', b' ++ [(p, a)], by rw [e]; simp, ?_⟩
        intro hm
        rcases List.mem_append.1 hm with hm | hm
        · exact hb hm
        · simp only [List.mem_singleton, Prod.mk.injEq] at hm
          exact hqp hm.1
    -- freshness, if the file and the other memories are unchanged
    have hfr : ∀ s'' : RState, s''.file = s.file → s''.mem = s.mem → a ≠ .read →
        ∀ q a' b', tr ++ [(p, a)] = a' ++ (q, .read) :: b' → (q, RAct.read) ∉ b' →
        (∀ r u, r ≠ q → (r, RAct.write u) ∉ b') → s''.mem q = s''.file := by
      intro s'' h1 h2 ha q a' b' e hb hw
      rcases snoc_read_cases e with ⟨_, hx, _⟩ | ⟨c, rfl, e'⟩
      · exact absurd (Prod.mk.inj hx).2 ha
      · rw [h1, h2]
        exact hi.fresh q a' c e' (fun hm => hb (by simp [hm])) (fun r u hr hm => hw r u hr (by simp [hm]))
    cases a with
    | read =>
      simp only [Option.some.injEq] at h
      subst h
      refine ⟨hi.clock, ?_, hpos _ rfl, ?_⟩
      · intro q
        dsimp only
        unfold setFun
        split
        · exact hi.clock
        · exact hi.memClock q
      intro q a' b' e hb hw
      dsimp only
      unfold setFun
      split
      · rfl
      · rename_i hqp
        rcases snoc_read_cases e with ⟨_, hx, _⟩ | ⟨c, rfl, e'⟩
        · exact absurd (Prod.mk.inj hx).1.symm hqp
        · exact hi.fresh q a' c e' (fun hm => hb (by simp [hm])) (fun r u hr hm => hw r u hr (by simp [hm]))
    | acquire =>
      dsimp only at h
      split at h
      · cases h; exact ⟨hi.clock, hi.memClock, hpos _ rfl, hfr _ rfl rfl (by simp)⟩
      · simp at h
    | release =>
      cases h; exact ⟨hi.clock, hi.memClock, hpos _ rfl, hfr _ rfl rfl (by simp)⟩
    | retry =>
      cases h; exact ⟨hi.clock, hi.memClock, hpos _ rfl, hfr _ rfl rfl (by simp)⟩
    | write t =>
      dsimp only at h
      split at h
      · rename_i ht
        simp only [Option.some.injEq] at h
        subst h
        have hm := hi.memClock p
        have hset : (setTime p t (s.mem p)).lastSync ≤ t.getD s.clock ∧
            (setTime p t (s.mem p)).lastAdjust ≤ t.getD s.clock := by
          cases p <;> cases t <;> simp only [setTime, Option.getD_none, Option.getD_some] at * <;> omega
        refine ⟨hset, ?_, hpos _ rfl, ?_⟩
        · intro q
          dsimp only
          unfold setFun
          split
          · exact hset
          · have := hi.memClock q
            omega
        · intro q a' b' e hb hw
          dsimp only
          unfold setFun
          split
          · rfl
          · rename_i hqp
            exfalso
            rcases snoc_read_cases e with ⟨_, hx, _⟩ | ⟨c, rfl, e'⟩
            · exact absurd (Prod.mk.inj hx).2 (by simp)
            · exact hw p t (fun e => hqp e.symm) (by simp)
      · simp at h

theorem rinv_run {tr tr' : List (Proc × RAct)} {s s' : RState} (hi : RInv tr s)
    (h : raceRun s tr' = some s') : RInv (tr ++ tr') s' := by
  induction tr' generalizing tr s with
  | nil => cases h; simpa using hi
  | cons x tr' ih =>
    obtain ⟨p, a⟩ := x
    rw [raceRun] at h
    cases hs : raceStep s p a with
    | none => simp [hs] at h
    | some s1 =>
      rw [hs, Option.bind_some] at h
      have := ih (rinv_step hi hs) h
      simpa using this

theorem uninterrupted_prefix {a b : List (Proc × RAct)} (h : Uninterrupted (a ++ b)) : Uninterrupted a := by
  intro p q x y z t u hqp e hr
  exact h p q x y (z ++ b) t u hqp (by rw [e]; simp) hr

theorem step_mono {tr : List (Proc × RAct)} {s s' : RState} {p : Proc} {a : RAct} (hi : RInv tr s)
    (hu : Uninterrupted (tr ++ [(p, a)])) (h : raceStep s p a = some s') :
    s.file.lastSync ≤ s'.file.lastSync ∧ s.file.lastAdjust ≤ s'.file.lastAdjust := by
  unfold raceStep at h
  cases hn : progNext p (s.pos p) a with
  | none => simp [hn] at h
  | some y =>
    rw [hn] at h
    dsimp only at h
    cases a with
    | read => cases h; exact ⟨Int.le_refl _, Int.le_refl _⟩
    | acquire =>
      dsimp only at h
      split at h
      · cases h; exact ⟨Int.le_refl _, Int.le_refl _⟩
      · simp at h
    | release => cases h; exact ⟨Int.le_refl _, Int.le_refl _⟩
    | retry => cases h; exact ⟨Int.le_refl _, Int.le_refl _⟩
    | write t =>
      dsimp only at h
      split at h
      · rename_i ht
        simp only [Option.some.injEq] at h
        subst h
        obtain ⟨a', b', e, hb⟩ := hi.hasRead p (progNext_write hn)
        have hmem := hi.fresh p a' b' e hb (fun q u hq => hu p q a' b' [] t u hq (by rw [e]; simp) hb)
        dsimp only
        rw [hmem]
        have := hi.clock
        cases p <;> cases t <;> simp only [setTime, Option.getD_none, Option.getD_some] at * <;> omega
      · simp at h

/-- If no process writes the file between another one's `read` and `write`, neither time
ever goes back. Missing from C41: nothing in the program ensures this. -/
theorem C41_serial_partial {i : Info} {clock : Int} (h1 : i.lastSync ≤ clock) (h2 : i.lastAdjust ≤ clock)
    {tr tr' : List (Proc × RAct)} {s s' : RState} (hr : raceRun (.start i clock) tr = some s)
    (hr' : raceRun s tr' = some s') (hu : Uninterrupted (tr ++ tr')) :
    s.file.lastSync ≤ s'.file.lastSync ∧ s.file.lastAdjust ≤ s'.file.lastAdjust := by
  have hi0 : RInv [] (.start i clock) := by
    refine ⟨⟨h1, h2⟩, fun _ => ⟨h1, h2⟩, ?_, ?_⟩
    · intro p hp
      rcases hp with hp | hp <;> simp [RState.start] at hp
    · intro p a b e
      simp at e
  have hi := rinv_run hi0 hr
  rw [List.nil_append] at hi
  clear hr hi0
  induction tr' generalizing tr s with
  | nil => cases hr'; exact ⟨Int.le_refl _, Int.le_refl _⟩
  | cons x tr' ih =>
    obtain ⟨p, a⟩ := x
    rw [raceRun] at hr'
    cases hs : raceStep s p a with
    | none => simp [hs] at hr'
    | some s1 =>
      rw [hs, Option.bind_some] at hr'
      have e : tr ++ (p, a) :: tr' = (tr ++ [(p, a)]) ++ tr' := by simp
      rw [e] at hu
      have m1 := step_mono hi (uninterrupted_prefix hu) hs
      have m2 := ih hr' hu (rinv_step hi hs)
      omega

/-- Every time in the file was put there by the process it belongs to, or was there at the
start: whatever the interleaving, races only bring back older times. -/
theorem C41_values {i : Info} {clock : Int} {tr : List (Proc × RAct)} {s : RState}
    (hr : raceRun (.start i clock) tr = some s) :
    (s.file.lastSync = i.lastSync ∨ (Proc.sync, RAct.write (some s.file.lastSync)) ∈ tr) ∧
    (s.file.lastAdjust = i.lastAdjust ∨ (Proc.daemon, RAct.write (some s.file.lastAdjust)) ∈ tr) := by
  have key : ∀ (tr : List (Proc × RAct)) (s s' : RState), raceRun s tr = some s' →
      ∀ (P Q : Int → Prop), (∀ t, (Proc.sync, RAct.write (some t)) ∈ tr → P t) →
      (∀ t, (Proc.daemon, RAct.write (some t)) ∈ tr → Q t) →
      P s.file.lastSync → Q s.file.lastAdjust →
      (∀ p, P (s.mem p).lastSync ∧ Q (s.mem p).lastAdjust) → P s'.file.lastSync ∧ Q s'.file.lastAdjust := by
    intro tr
    induction tr with
    | nil => intro s s' h P Q _ _ hP hQ _; cases h; exact ⟨hP, hQ⟩
    | cons x tr ih =>
      intro s s' h P Q h1 h2 hP hQ hm
      obtain ⟨p, a⟩ := x
      rw [raceRun] at h
      cases hs : raceStep s p a with
      | none => simp [hs] at h
      | some s1 =>
        rw [hs, Option.bind_some] at h
        have rest := ih s1 s' h P Q (fun t ht => h1 t (by simp [ht])) (fun t ht => h2 t (by simp [ht]))
        unfold raceStep at hs
        cases hn : progNext p (s.pos p) a with
        | none => simp [hn] at hs
        | some y =>
          rw [hn] at hs
          dsimp only at hs
          cases a with
          | read =>
            cases hs
            refine rest hP hQ ?_
            intro q
            dsimp only
            unfold setFun
            split
            · exact ⟨hP, hQ⟩
            · exact hm q
          | acquire =>
            dsimp only at hs
            split at hs
            · cases hs; exact rest hP hQ hm
            · simp at hs
          | release => cases hs; exact rest hP hQ hm
          | retry => cases hs; exact rest hP hQ hm
          | write t =>
            dsimp only at hs
            split at hs
            · simp only [Option.some.injEq] at hs
              subst hs
              have hset : P (setTime p t (s.mem p)).lastSync ∧ Q (setTime p t (s.mem p)).lastAdjust := by
                have := hm p
                cases p <;> cases t <;> simp only [setTime]
                · exact this
                · exact ⟨this.1, h2 _ (by simp)⟩
                · exact this
                · exact ⟨h1 _ (by simp), this.2⟩
              refine rest hset.1 hset.2 ?_
              intro q
              dsimp only
              unfold setFun
              split
              · exact hset
              · exact hm q
            · simp at hs
  exact key tr _ s hr (fun x => x = i.lastSync ∨ (Proc.sync, RAct.write (some x)) ∈ tr)
    (fun x => x = i.lastAdjust ∨ (Proc.daemon, RAct.write (some x)) ∈ tr)
    (fun t ht => Or.inr ht) (fun t ht => Or.inr ht) (Or.inl rfl) (Or.inl rfl)
    (fun _ => ⟨Or.inl rfl, Or.inl rfl⟩)

/-- An uninterrupted run of an adjustment, a sync and a pass of the daemon. -/
def exSerial : List (Proc × RAct) :=
  [(.daemon, .read), (.daemon, .acquire), (.daemon, .write (some 7)), (.sync, .read), (.daemon, .release),
    (.sync, .acquire), (.sync, .write (some 9)), (.daemon, .read), (.daemon, .write none), (.sync, .release)]

example : (raceRun (.start ⟨5, 5⟩ 6) exSerial).map RState.file = some ⟨9, 7⟩ := rfl

/-- A check of `Uninterrupted` for concrete runs. -/
def uninterruptedB (tr : List (Proc × RAct)) : Bool :=
  (List.range tr.length).all (fun i => (List.range tr.length).all (fun j =>
    match tr[i]?, tr[j]? with
    | some (p, .read), some (p', .write _) =>
      let b := (tr.drop (i + 1)).take (j - (i + 1))
      decide (p ≠ p') || b.any (fun x => decide (x = (p, .read))) ||
        b.all (fun x => match x with | (q, .write _) => decide (q = p) | _ => true)
    | _, _ => true))

theorem uninterrupted_of_b {tr : List (Proc × RAct)} (h : uninterruptedB tr = true) : Uninterrupted tr := by
  intro p q a b c t u hqp e hr hw
  unfold uninterruptedB at h
  rw [List.all_eq_true] at h
  have h1 := h a.length (by rw [List.mem_range, e]; simp)
  rw [List.all_eq_true] at h1
  have h2 := h1 (a.length + 1 + b.length) (by rw [List.mem_range, e]; simp; omega)
  have e1 : tr[a.length]? = some (p, .read) := by rw [e]; simp
  have e2 : tr[a.length + 1 + b.length]? = some (p, .write t) := by
    rw [e, List.getElem?_append_right (by omega),
      show a.length + 1 + b.length - a.length = b.length + 1 by omega, List.getElem?_cons_succ]
    simp
  have e3 : (tr.drop (a.length + 1)).take (a.length + 1 + b.length - (a.length + 1)) = b := by
    have : tr = (a ++ [(p, .read)]) ++ (b ++ (p, .write t) :: c) := by rw [e]; simp
    rw [this, List.drop_left' (by simp), show a.length + 1 + b.length - (a.length + 1) = b.length by omega,
      List.take_left' rfl]
  rw [e1, e2] at h2
  dsimp only at h2
  rw [e3] at h2
  simp only [Bool.or_eq_true, decide_eq_true_eq, List.any_eq_true, List.all_eq_true] at h2
  rcases h2 with (h2 | ⟨x, hx, rfl⟩) | h2
  · exact h2 rfl
  · exact hr hx
  · have := h2 _ hw
    simp only [decide_eq_true_eq] at this
    exact hqp this

example : Uninterrupted exSerial := uninterrupted_of_b (by decide +kernel)

/-! ### The database lock -/

/-- A process that has the lock has taken it and not released it, and nobody has taken it since then. -/
structure LInv (tr : List (Proc × RAct)) (s : RState) : Prop where
  owns : ∀ p, s.pos p = .locked ∨ s.pos p = .lockedRead ∨ s.pos p = .written → s.owner = some p
  taken : ∀ p, s.owner = some p → ∃ a b, tr = a ++ (p, .acquire) :: b ∧ (p, RAct.release) ∉ b ∧
    ∀ q, (q, RAct.acquire) ∉ b

theorem progNext_locked {p : Proc} {x y : RPos} {a : RAct} (h : progNext p x a = some y)
    (hy : y = .locked ∨ y = .lockedRead ∨ y = .written) :
    a = .acquire ∨ ((x = .locked ∨ x = .lockedRead ∨ x = .written) ∧ a ≠ .release) := by
  cases p <;> cases x <;> cases a <;> simp [progNext, daemonNext, syncNext] at h <;>
    (try (rename_i t; cases t <;> simp [progNext, daemonNext, syncNext] at h)) <;> subst h <;> simp at hy ⊢

theorem progNext_release {p : Proc} {x y : RPos} (h : progNext p x .release = some y) :
    (x = .locked ∨ x = .lockedRead ∨ x = .written) ∧ y = .idle := by
  cases p <;> cases x <;> simp_all [progNext, daemonNext, syncNext]

theorem progNext_writeTime {p : Proc} {x y : RPos} {t : Int} (h : progNext p x (.write (some t)) = some y) :
    x = .lockedRead := by
  cases p <;> cases x <;> simp_all [progNext, daemonNext, syncNext]

theorem linv_step {tr : List (Proc × RAct)} {s s' : RState} {p : Proc} {a : RAct} (hi : LInv tr s)
    (h : raceStep s p a = some s') : LInv (tr ++ [(p, a)]) s' := by
  unfold raceStep at h
  cases hn : progNext p (s.pos p) a with
  | none => simp [hn] at h
  | some y =>
    rw [hn] at h
    dsimp only at h
    -- steps that leave the owner as it is
    have hsame : ∀ s'' : RState, s''.pos = setFun s.pos p y → s''.owner = s.owner → a ≠ .acquire → a ≠ .release →
        LInv (tr ++ [(p, a)]) s'' := by
      intro s'' h1 h2 h3 h4
      refine ⟨fun q hq => ?_, fun q hq => ?_⟩
      · rw [h2]
        rw [h1] at hq
        unfold setFun at hq
        split at hq
        · rename_i e
          subst e
          rcases progNext_locked hn hq with h | ⟨h, _⟩
          · exact absurd h h3
          · exact hi.owns q h
        · exact hi.owns q hq
      · rw [h2] at hq
        obtain ⟨c, b, e, h5, h6⟩ := hi.taken q hq
        refine ⟨c, b ++ [(p, a)], by rw [e]; simp, ?_, ?_⟩
        · simp only [List.mem_append, List.mem_singleton, Prod.mk.injEq, not_or, not_and]
          exact ⟨h5, fun _ e' => h4 e'.symm⟩
        · intro r
          simp only [List.mem_append, List.mem_singleton, Prod.mk.injEq, not_or, not_and]
          exact ⟨h6 r, fun _ e' => h3 e'.symm⟩
    cases a with
    | read => simp only [Option.some.injEq] at h; subst h; exact hsame _ rfl rfl (by simp) (by simp)
    | retry => simp only [Option.some.injEq] at h; subst h; exact hsame _ rfl rfl (by simp) (by simp)
    | write t =>
      simp only at h
      split at h
      · simp only [Option.some.injEq] at h; subst h; exact hsame _ rfl rfl (by simp) (by simp)
      · cases h
    | acquire =>
      simp only at h
      split at h
      · next ho =>
        simp only [Option.some.injEq] at h
        subst h
        refine ⟨fun q hq => ?_, fun q hq => ?_⟩
        · dsimp only at hq ⊢
          unfold setFun at hq
          split at hq
          · rename_i e; rw [e]
          · have := hi.owns q hq
            rw [ho] at this; cases this
        · dsimp only at hq
          cases hq
          exact ⟨tr, [], rfl, by simp, by simp⟩
      · cases h
    | release =>
      simp only [Option.some.injEq] at h
      subst h
      obtain ⟨hx, rfl⟩ := progNext_release hn
      have ho := hi.owns p hx
      refine ⟨fun q hq => ?_, fun q hq => ?_⟩
      · dsimp only at hq ⊢
        unfold setFun at hq
        split at hq
        · simp at hq
        · rename_i hne
          have := hi.owns q hq
          rw [ho] at this
          cases this
          exact absurd rfl hne
      · dsimp only at hq
        rw [if_pos ho] at hq
        cases hq

theorem linv_run {tr : List (Proc × RAct)} : ∀ {tr0 : List (Proc × RAct)} {s0 s : RState}, LInv tr0 s0 →
    raceRun s0 tr = some s → LInv (tr0 ++ tr) s := by
  induction tr with
  | nil => intro tr0 s0 s hi h; cases h; rw [List.append_nil]; exact hi
  | cons x tr ih =>
    intro tr0 s0 s hi h
    obtain ⟨p, a⟩ := x
    rw [raceRun] at h
    cases hs : raceStep s0 p a with
    | none => rw [hs] at h; cases h
    | some s1 =>
      rw [hs, Option.bind_some] at h
      have := ih (linv_step hi hs) h
      rwa [List.append_assoc] at this

/-- C41: neither process records a new time in the info file without the lock of the database: it has taken the lock
before, not released it, and the other one has not taken it since then. So the two new times are never written in the
middle of each other's changes of the database. -/
theorem C41_locked (i : Info) (clock : Int) {tr : List (Proc × RAct)} {p : Proc} {t : Int} {s : RState}
    (h : raceRun (.start i clock) (tr ++ [(p, .write (some t))]) = some s) :
    ∃ a b, tr = a ++ (p, .acquire) :: b ∧ (p, RAct.release) ∉ b ∧ ∀ q, (q, RAct.acquire) ∉ b := by
  rw [raceRun_append] at h
  cases hr : raceRun (.start i clock) tr with
  | none => rw [hr] at h; cases h
  | some s1 =>
    rw [hr, Option.bind_some] at h
    have hi : LInv ([] ++ tr) s1 := linv_run ⟨by simp [RState.start], by simp [RState.start]⟩ hr
    rw [List.nil_append] at hi
    rw [raceRun] at h
    unfold raceStep at h
    cases hn : progNext p (s1.pos p) (.write (some t)) with
    | none => rw [hn] at h; cases h
    | some y => exact hi.taken p (hi.owns p (Or.inr (Or.inl (progNext_writeTime hn))))

/-- The sync of `C41_lastSync_fails`. -/
example : ∃ a b, [(Proc.daemon, RAct.read), (.sync, .read), (.sync, .acquire)] = a ++ (.sync, .acquire) :: b ∧
    (Proc.sync, RAct.release) ∉ b ∧ ∀ q, (q, RAct.acquire) ∉ b := by
  have : (raceRun (.start ⟨5, 5⟩ 6)
      ([(.daemon, .read), (.sync, .read), (.sync, .acquire)] ++ [(.sync, .write (some 9))])).isSome = true := rfl
  obtain ⟨s, hs⟩ := Option.isSome_iff_exists.1 this
  exact C41_locked _ _ hs

end Verif
