import Verif.Props.C104_DaemonConfig
/-
C104 over the whole life of a daemon: how far apart the syncs are that it starts, whatever the user writes into the config
file in the meantime.
-/
namespace Verif

/-- Every value of SyncInterval that one of the texts has ever had, even if it was overridden, is one of `ok`. -/
def IntervalsIn (texts : List Str) (ok : Nat → Prop) : Prop :=
  ∀ T ∈ texts, ∀ ls, LinesOf T ls → ∀ l ∈ ls, ∀ v, Assigns l "SyncInterval".toList v → ok (digitsValue v)

theorem linesOf_all (texts : List Str) : ∃ lss, List.Forall₂ LinesOf texts lss := by
  induction texts with
  | nil => exact ⟨[], .nil⟩
  | cons S texts ih =>
    obtain ⟨ls1, h1⟩ := linesOf_exists S
    obtain ⟨lss, h2⟩ := ih
    exact ⟨ls1 :: lss, .cons h1 h2⟩

theorem forall2_mem {texts : List Str} {lss : List (List Str)} (h : List.Forall₂ LinesOf texts lss) {ls : List Str}
    (hm : ls ∈ lss) : ∃ T ∈ texts, LinesOf T ls := by
  induction h with
  | nil => cases hm
  | cons h1 _ ih =>
    rcases List.mem_cons.1 hm with rfl | hm
    · exact ⟨_, List.mem_cons_self, h1⟩
    · obtain ⟨T, h2, h3⟩ := ih hm
      exact ⟨T, List.mem_cons_of_mem _ h2, h3⟩

/-- The interval in force after some texts have been read is one of their values, or 20. -/
theorem interval_in {texts : List Str} (h0 : texts ≠ []) {ok : Nat → Prop} (h : IntervalsIn texts ok) (h20 : ok 20) :
    ∃ n : Nat, ok n ∧ syncInterval (texts.foldl configRead []) = (n : Int) * 60000000 := by
  obtain ⟨lss, hl⟩ := linesOf_all texts
  obtain ⟨T, h1, h2⟩ := readLines_text h0 ⟨lss, hl, rfl⟩
  have hsome : ∃ v, vals (configRead [] T) "SyncInterval".toList = some v := by
    unfold vals
    split
    · exact ⟨_, rfl⟩
    · exact ⟨"20".toList, by decide⟩
  obtain ⟨v, hv⟩ := hsome
  refine ⟨digitsValue v, ?_, ?_⟩
  · rcases (C38_value h1 _ _).1 hv with ⟨l1, l, l2, he, ha, _⟩ | ⟨_, hd⟩
    · have hm : l ∈ lss.flatten := by rw [he]; simp
      obtain ⟨ls, hls, hl'⟩ := List.mem_flatten.1 hm
      obtain ⟨S, hS, hSl⟩ := forall2_mem hl hls
      exact h S hS ls hSl l hl' v ha
    · generalize hk : "SyncInterval".toList = k at hd
      cases hd with
      | interval => exact h20
      | halfLife => exact absurd hk (by decide)
      | trash => exact absurd hk (by decide)
      | cleanup => exact absurd hk (by decide)
      | inflate => exact absurd hk (by decide)
      | size => exact absurd hk (by decide)
  · unfold syncInterval
    rw [h2, hv, Option.getD_some, decimal_eq]
    omega

theorem daemonEvents_spacing {m : Nat} (h20 : m ≤ 20) (es : List DaemonEvent) :
    ∀ (texts : List Str) (last : Int), texts ≠ [] → IntervalsIn (texts ++ textsOf es) (m ≤ ·) →
    ∀ A a b B, (daemonEvents (texts.foldl configRead []) last es).1 = A ++ .sync a b :: B →
      lastEnd last A + (m : Int) * 60000000 ≤ a := by
  induction es with
  | nil =>
    intro texts last _ _ A a b B h
    cases A <;> cases h
  | cons e es ih =>
    intro texts last h0 hi A a b B h
    have hstep : ∀ T, IntervalsIn (texts ++ T :: textsOf es) (m ≤ ·) →
        IntervalsIn ((texts ++ [T]) ++ textsOf es) (m ≤ ·) := by
      intro T hT
      rw [List.append_assoc]
      exact hT
    cases e with
    | read text =>
      rw [ev_read] at h
      cases hr : rereadConfig (texts.foldl configRead []) text with
      | error x => rw [hr] at h; cases A <;> cases h
      | ok raw' =>
        rw [hr] at h
        obtain ⟨T, rfl, rfl, hc⟩ := rereadConfig_ok hr
        refine ih (texts ++ [T]) last (by simp) (hstep T hi) A a b B ?_
        rw [List.foldl_append]
        exact h
    | adjust text =>
      rw [ev_adjust] at h
      cases hr : rereadConfig (texts.foldl configRead []) text with
      | error x => rw [hr] at h; cases A <;> cases h
      | ok raw' =>
        rw [hr] at h
        obtain ⟨T, rfl, rfl, hc⟩ := rereadConfig_ok hr
        dsimp only at h
        split at h
        · cases A <;> cases h
        · cases A with
          | nil => cases h
          | cons x A =>
            rw [List.cons_append, List.cons.injEq] at h
            obtain ⟨rfl, h⟩ := h
            refine ih (texts ++ [T]) last (by simp) (hstep T hi) A a b B ?_
            rw [List.foldl_append]
            exact h
    | check now ended =>
      rw [ev_check] at h
      have hi1 : IntervalsIn texts (m ≤ ·) := fun T hT => hi T (List.mem_append_left _ hT)
      have hi2 : IntervalsIn (texts ++ textsOf es) (m ≤ ·) := hi
      obtain ⟨n, hn, hs⟩ := interval_in h0 hi1 h20
      split at h
      · next hle =>
        cases A with
        | nil =>
          rw [List.nil_append, List.cons.injEq] at h
          obtain ⟨h1, _⟩ := h
          cases h1
          rw [hs] at hle
          have h2 : (m : Int) * 60000000 ≤ (n : Int) * 60000000 := by
            have : m ≤ n := hn
            omega
          show last + _ ≤ _
          omega
        | cons x A =>
          rw [List.cons_append, List.cons.injEq] at h
          obtain ⟨rfl, h⟩ := h
          exact ih texts ended h0 hi2 A a b B h
      · exact ih texts last h0 hi2 A a b B h

/-- C104: as long as the user never writes a SyncInterval of less than `m` minutes (and `m` is not more than the default),
every sync that the daemon starts, starts at least `m` minutes after the one before has ended, and the first one at least
`m` minutes after the recorded last sync: however often the file is changed, for every order of what the two threads do,
and for a daemon that has ended as well. -/
theorem C104_spacing {lastSync : Int} {T0 : Str} {es : List DaemonEvent} {m : Nat} (h20 : m ≤ 20)
    (hi : IntervalsIn (T0 :: textsOf es) (m ≤ ·)) {A B : List DaemonAct} {a b t : Int}
    (h : (daemonLife lastSync (some T0) es).1 = A ++ .sync a b :: B) (ht : LastEnd lastSync A t) :
    t + (m : Int) * 60000000 ≤ a := by
  rw [← lastEnd_eq ht]
  unfold daemonLife at h
  rw [ev_read] at h
  cases hr : rereadConfig [] (some T0) with
  | error x => rw [hr] at h; cases A <;> cases h
  | ok raw' =>
    rw [hr] at h
    obtain ⟨T, h1, rfl, hc⟩ := rereadConfig_ok hr
    cases h1
    exact daemonEvents_spacing h20 es [T0] lastSync (by simp) hi A a b B h

/-- C104: as long as the user never writes a SyncInterval of more than `m` minutes (and `m` is not less than the default),
every check that comes `m` minutes or more after the end of the last sync starts a sync, unless the daemon has ended. -/
theorem C104_due {lastSync : Int} {T0 : Str} {before : List DaemonEvent} {m : Nat} (h20 : 20 ≤ m)
    (alive : (daemonLife lastSync (some T0) before).2 = none) (hi : IntervalsIn (T0 :: textsOf before) (· ≤ m))
    {t : Int} (ht : LastEnd lastSync (daemonLife lastSync (some T0) before).1 t) {now : Int} (ended : Int)
    (hnow : t + (m : Int) * 60000000 ≤ now) :
    daemonLife lastSync (some T0) (before ++ [.check now ended]) =
      ((daemonLife lastSync (some T0) before).1 ++ [.sync now ended], none) := by
  obtain ⟨n, hn, hs⟩ := interval_in (by simp) hi h20
  rw [daemonLife_snoc alive, lastEnd_eq ht, ev_check, hs, if_pos]
  · rfl
  · have h2 : (n : Int) * 60000000 ≤ (m : Int) * 60000000 := by
      have : n ≤ m := hn
      omega
    omega

/-! ### A case -/

theorem intervals_of {T : Str} {ok : Nat → Prop}
    (h : ∀ p ∈ assignments T, p.1 = "SyncInterval".toList → ok (digitsValue p.2)) : IntervalsIn [T] ok := by
  intro S hS ls hl l hll v ha
  rw [List.mem_singleton] at hS
  subst hS
  exact h ("SyncInterval".toList, v) (by
    rw [assignments_linesOf hl, List.mem_filterMap]
    exact ⟨l, hll, assigns_iff.1 ha⟩) rfl

/-- Two syncs, five minutes apart; the interval was 20 minutes at first. -/
def exSpacing : List DaemonEvent :=
  [.check 1500000000 1501000000, .check 1700000000 1701000000, .read (some exDaemonText5),
    .check 1800999999 1801999999, .check 1801000000 1802000000]

theorem exSpacing_intervals : IntervalsIn (exDaemonText :: textsOf exSpacing) (fun n => 5 ≤ n ∧ n ≤ 30) := by
  have h1 : IntervalsIn [exDaemonText] (fun n => 5 ≤ n ∧ n ≤ 30) := intervals_of (by decide +kernel)
  have h2 : IntervalsIn [exDaemonText5] (fun n => 5 ≤ n ∧ n ≤ 30) := intervals_of (by decide +kernel)
  intro T hT
  rcases List.mem_cons.1 hT with rfl | hT
  · exact h1 _ (by simp)
  · exact h2 _ hT

theorem exSpacing_life : daemonLife 0 (some exDaemonText) exSpacing =
    ([.sync 1500000000 1501000000, .sync 1801000000 1802000000], none) := by decide +kernel

example : (1501000000 : Int) + (5 : Nat) * 60000000 ≤ 1801000000 := by
  refine C104_spacing (es := exSpacing) (A := [.sync 1500000000 1501000000]) (B := []) (b := 1802000000) (by omega)
    (fun T hT ls hl l hm v ha => (exSpacing_intervals T hT ls hl l hm v ha).1) (by rw [exSpacing_life]; rfl)
    (Or.inl ⟨[], 1500000000, [], rfl, by simp⟩)

example : daemonLife 0 (some exDaemonText) (exSpacing ++ [.check 3602000000 3603000000]) =
    ([.sync 1500000000 1501000000, .sync 1801000000 1802000000, .sync 3602000000 3603000000], none) := by
  rw [C104_due (m := 30) (t := 1802000000) (by omega) (by rw [exSpacing_life])
    (fun T hT ls hl l hm v ha => (exSpacing_intervals T hT ls hl l hm v ha).2)
    (by rw [exSpacing_life]; exact Or.inl ⟨[.sync 1500000000 1501000000], 1801000000, [], rfl, by simp⟩) _ (by omega),
    exSpacing_life]
  rfl

end Verif
