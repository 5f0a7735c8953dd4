import Verif.Schedule
/-
C73: the daemon starts a sync when one is due.
-/
namespace Verif

/-- The end of the last of some attempts, or `first` if there are none. -/
def endOf (first : Int) (attempts : List SyncCheck) : Int := attempts.foldl (fun _ c => c.ended) first

theorem endOf_cons (t : Int) (c : SyncCheck) (l : List SyncCheck) : endOf t (c :: l) = endOf c.ended l := rfl

theorem endOf_getLast (t : Int) (l : List SyncCheck) (c : SyncCheck) : endOf t (l ++ [c]) = c.ended := by
  simp [endOf]

theorem schedule_append (t : Int) (a b : List SyncCheck) :
    schedule t (a ++ b) = schedule t a ++ schedule (endOf t (schedule t a)) b := by
  induction a generalizing t with
  | nil => rfl
  | cons c a ih =>
    simp only [List.cons_append, schedule]
    split
    · rw [ih, List.cons_append, endOf_cons]
    · exact ih t

/-- C73: whatever the clock and the interval do, a check starts a sync if and only if the interval has passed since
the end of the last sync that the daemon has started, or since the recorded one if it has not started any. -/
theorem C73_exact (lastSync : Int) (before after : List SyncCheck) (c : SyncCheck) :
    daemonSyncs lastSync (before ++ c :: after) =
      daemonSyncs lastSync before ++
        (if endOf lastSync (daemonSyncs lastSync before) + c.interval ≤ c.now
          then c :: schedule c.ended after else schedule (endOf lastSync (daemonSyncs lastSync before)) after) := by
  unfold daemonSyncs
  rw [schedule_append, schedule]

/-- C73: between the end of a sync that the daemon has started and the start of any later one there is at least the
interval, also if the first one has failed. -/
theorem C73_spacing_partial (lastSync : Int) (cs : List SyncCheck) (hf : ∀ c ∈ cs, c.now ≤ c.ended)
    (hi : ∀ c ∈ cs, 0 ≤ c.interval) :
    (daemonSyncs lastSync cs).Pairwise (fun a b => a.ended + b.interval ≤ b.now) ∧
    ∀ b ∈ daemonSyncs lastSync cs, lastSync + b.interval ≤ b.now := by
  unfold daemonSyncs
  induction cs generalizing lastSync with
  | nil => exact ⟨List.Pairwise.nil, fun b hb => absurd hb List.not_mem_nil⟩
  | cons c cs ih =>
    have hf' := fun d hd => hf d (List.mem_cons_of_mem c hd)
    have hi' := fun d hd => hi d (List.mem_cons_of_mem c hd)
    unfold schedule
    split
    · next h =>
      obtain ⟨h1, h2⟩ := ih c.ended hf' hi'
      refine ⟨List.Pairwise.cons (fun b hb => h2 b hb) h1, fun b hb => ?_⟩
      rcases List.mem_cons.1 hb with rfl | hb
      · exact h
      · have := h2 b hb
        have := hf c List.mem_cons_self
        have := hi c List.mem_cons_self
        omega
    · exact ih lastSync hf' hi'

/-- C73: with checks at most `gap` apart and a fixed interval, a sync starts at most `gap` after it was due, unless it
is the first thing that the daemon does. `a` and `c` are two checks in a row; `sleep` says that the second one comes at
most `gap` after the first one or, if that has started a sync, after the end of this sync. -/
theorem C73_prompt_partial (lastSync gap : Int) (before : List SyncCheck) (a c : SyncCheck)
    (hi : a.interval = c.interval) (h0 : 0 ≤ c.interval)
    (sleep : c.now ≤ (if endOf lastSync (daemonSyncs lastSync before) + a.interval ≤ a.now then a.ended else a.now) + gap)
    (due : Int) (hdue : due = endOf lastSync (daemonSyncs lastSync (before ++ [a])) + c.interval) :
    (due ≤ c.now ↔ daemonSyncs lastSync (before ++ [a, c]) = daemonSyncs lastSync (before ++ [a]) ++ [c]) ∧
    c.now ≤ due + gap := by
  subst hdue
  have e : before ++ [a, c] = (before ++ [a]) ++ c :: [] := by simp
  constructor
  · rw [e, C73_exact lastSync (before ++ [a]) [] c]
    split
    · next h => simp only [h, schedule]
    · next h => simp [h, schedule]
  · rw [C73_exact]
    split at sleep
    · next h => rw [if_pos h]; simp only [schedule]; rw [endOf_getLast]; omega
    · next h => rw [if_neg h]; simp only [schedule, List.append_nil]; omega

/-- C73: a sync that is due at some check has been started. -/
theorem C73_started (lastSync : Int) (before mid : List SyncCheck) (c : SyncCheck)
    (h : endOf lastSync (daemonSyncs lastSync before) + c.interval ≤ c.now) :
    ∃ d rest, d ∈ mid ++ [c] ∧ daemonSyncs lastSync (before ++ mid ++ [c]) = daemonSyncs lastSync before ++ d :: rest := by
  unfold daemonSyncs at *
  rw [List.append_assoc, schedule_append]
  suffices H : ∀ t, t + c.interval ≤ c.now → ∃ d rest, d ∈ mid ++ [c] ∧ schedule t (mid ++ [c]) = d :: rest by
    obtain ⟨d, rest, hd, e⟩ := H _ h
    exact ⟨d, rest, hd, by rw [e]⟩
  clear h
  induction mid with
  | nil => exact fun t h => ⟨c, [], by simp, by simp [schedule, h]⟩
  | cons m mid ih =>
    intro t h
    simp only [List.cons_append, schedule]
    split
    · exact ⟨m, _, by simp, rfl⟩
    · obtain ⟨d, rest, hd, e⟩ := ih t h
      exact ⟨d, rest, List.mem_cons_of_mem m hd, e⟩

/-- Checks three seconds apart, none of which starts a sync. -/
def idleChecks (interval t : Int) : Nat → List SyncCheck
  | 0 => []
  | n + 1 => ⟨t, interval, t⟩ :: idleChecks interval (t + 3000000) n

theorem idle_schedule (interval last t : Int) (n : Nat) (h : t + 3000000 * n ≤ last + interval) :
    schedule last (idleChecks interval t n) = [] := by
  induction n generalizing t with
  | zero => rfl
  | succ n ih =>
    unfold idleChecks schedule
    rw [if_neg (by show ¬ last + interval ≤ t; omega)]
    exact ih _ (by omega)

/-- C73 fails if the clock has been set back: after a sync at the time `3000000 * n` the clock is set to 0. For `n`
checks, that is for an arbitrarily long time, nothing is synced, although the interval is a minute. -/
theorem C73_clock_fails (n : Nat) :
    (idleChecks 60000000 0 n).length = n ∧
    (idleChecks 60000000 0 n).Pairwise (fun a b => a.now + 3000000 ≤ b.now) ∧
    daemonSyncs (3000000 * n) (idleChecks 60000000 0 n) = [] := by
  have H : ∀ (n : Nat) (t : Int), (idleChecks 60000000 t n).length = n ∧
      (∀ b ∈ idleChecks 60000000 t n, t ≤ b.now) ∧
      (idleChecks 60000000 t n).Pairwise (fun a b => a.now + 3000000 ≤ b.now) := by
    intro n
    induction n with
    | zero => exact fun t => ⟨rfl, fun b hb => absurd hb List.not_mem_nil, List.Pairwise.nil⟩
    | succ n ih =>
      intro t
      obtain ⟨h1, h2, h3⟩ := ih (t + 3000000)
      refine ⟨by simp [idleChecks, h1], fun b hb => ?_, List.Pairwise.cons h2 h3⟩
      rcases List.mem_cons.1 hb with rfl | hb
      · exact Int.le_refl _
      · have := h2 b hb; omega
  exact ⟨(H n 0).1, (H n 0).2.2, idle_schedule _ _ _ _ (by omega)⟩

/-- An interval of ten seconds; the first sync is due at once, takes five seconds and is followed by three checks that
find nothing to do and one that starts a sync. -/
def exChecks : List SyncCheck :=
  [⟨100000000, 10000000, 105000000⟩, ⟨108000000, 10000000, 0⟩, ⟨111000000, 10000000, 0⟩, ⟨114000000, 10000000, 0⟩,
    ⟨117000000, 10000000, 118000000⟩]

example : daemonSyncs 50000000 exChecks =
    [⟨100000000, 10000000, 105000000⟩, ⟨117000000, 10000000, 118000000⟩] := by decide

/-- The hypotheses of `C73_prompt_partial` for the last two checks. -/
example : (117000000 : Int) ≤ (if endOf 50000000 (daemonSyncs 50000000 (exChecks.take 3)) + 10000000 ≤ 114000000
      then 0 else 114000000) + 3000000 ∧
    endOf 50000000 (daemonSyncs 50000000 (exChecks.take 3 ++ [⟨114000000, 10000000, 0⟩])) + 10000000 = 115000000 := by
  decide

/-- The hypotheses of `C73_started` and of `C73_spacing_partial`. -/
example : endOf 50000000 (daemonSyncs 50000000 (exChecks.take 1)) + 10000000 ≤ 117000000 ∧
    (∀ c ∈ exChecks.map (fun c => { c with ended := max c.now c.ended }), c.now ≤ c.ended) ∧
    (∀ c ∈ exChecks, 0 ≤ c.interval) := by decide

end Verif
