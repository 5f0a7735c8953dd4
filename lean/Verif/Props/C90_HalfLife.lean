import Verif.HalfLife
import Verif.Props.C43_Retry
import Verif.Props.C36_C37_Values
import Mathlib.Tactic.Linarith
import Mathlib.Tactic.FieldSimp
import Mathlib.Tactic.Ring
/-
C90: the priority of a file that is not used halves in each half-life.
-/
namespace Verif
open ADB ALocal

theorem prioOf_adjustAll (a : ALocal) (c : Rat) (p : Path) :
    prioOf (ALocal.adjustAll a c) p = (prioOf a p).map (fun y => y * c) := by
  unfold prioOf info ALocal.adjustAll
  rw [List.find?_map, Option.map_map, Option.map_map]
  rfl

/-- The rounds come in the order of their times, the first one not before `t`. -/
def Ordered : Int → List DRound → Prop
  | _, [] => True
  | t, r :: rs => t ≤ r.now ∧ Ordered r.now rs

/-- Each round is at most `d` after the one before, the first one after `t`, and finds the database unlocked when it
adjusts the priorities. -/
def Paced (d : Int) : Int → List DRound → Prop
  | _, [] => True
  | t, r :: rs => r.now ≤ t + d ∧ r.locked ≠ .adjust ∧ Paced d r.now rs

/-- The time of the last round. -/
def lastTime (t : Int) : List DRound → Int
  | [] => t
  | r :: rs => lastTime r.now rs

/-- Nothing is done to the priority of `p` but adjustments. -/
def Unused (p : Path) (rs : List DRound) : Prop :=
  ∀ r ∈ rs, (∀ q ∈ r.counted, ¬ p <+: q) ∧ ∀ a, prioOf (r.other a) p = prioOf a p

theorem round_prio {c : Rat} {s : DaemonState} {r : DRound} {p : Path} (hp : ∀ q ∈ s.pending, ¬ p <+: q)
    (hc : ∀ q ∈ r.counted, ¬ p <+: q) (ho : ∀ a, prioOf (r.other a) p = prioOf a p) :
    (∀ q ∈ (daemonRound c s r).pending, ¬ p <+: q) ∧
    if s.lastAdjust + adjustInterval ≤ r.now ∧ r.locked ≠ .adjust then
      (daemonRound c s r).lastAdjust = r.now ∧
        prioOf (daemonRound c s r).view p = (prioOf s.view p).map (fun y => y * c)
    else (daemonRound c s r).lastAdjust = s.lastAdjust ∧ prioOf (daemonRound c s r).view p = prioOf s.view p := by
  have hpe : ∀ q ∈ (s.arrive r).pending, ¬ p <+: q := by
    intro q hq
    rcases List.mem_append.1 hq with hq | hq
    · exact hp q hq
    · exact hc q hq
  have hv : prioOf (s.arrive r).view p = prioOf s.view p := by
    unfold DaemonState.arrive DaemonState.view
    cases hw : s.work with
    | none => simpa [hw] using ho s.com
    | some w => simp [hw]
  have hla : (s.arrive r).lastAdjust = s.lastAdjust := rfl
  have hinc : ∀ a, prioOf (ALocal.increment a (s.arrive r).pending 1) p = prioOf a p := by
    intro a
    rw [prioOf_increment a _ 1 (fun q hq h => absurd h (hpe q hq))]
    have : (s.arrive r).pending.count p = 0 :=
      List.count_eq_zero.2 (fun hm => hpe p hm (List.prefix_refl _))
    rw [this]
    cases prioOf a p <;> simp
  unfold daemonRound
  generalize s.arrive r = s1 at *
  rw [← hla, ← hv]
  unfold DaemonState.pass
  by_cases hd : s1.lastAdjust + adjustInterval ≤ r.now
  · cases hl : r.locked <;> simp [hd, hl, DaemonState.view, hinc, prioOf_adjustAll] <;> exact hpe
  · cases hl : r.locked <;> simp [hd, hl, DaemonState.view, hinc] <;> exact hpe

theorem run_prio {c : Rat} {p : Path} (rs : List DRound) :
    ∀ (t : Int) (s : DaemonState), Ordered t rs → Unused p rs → (∀ q ∈ s.pending, ¬ p <+: q) → s.lastAdjust ≤ t →
      ∃ k : Nat, prioOf (daemonRun c s rs).view p = (prioOf s.view p).map (fun y => y * c ^ k) ∧
        k * adjustInterval ≤ (daemonRun c s rs).lastAdjust - s.lastAdjust ∧
        (daemonRun c s rs).lastAdjust ≤ lastTime t rs ∧
        (∀ d : Int, 0 ≤ d → Paced d t rs → t < s.lastAdjust + adjustInterval →
          (daemonRun c s rs).lastAdjust - s.lastAdjust ≤ k * (adjustInterval + d) ∧
          lastTime t rs < (daemonRun c s rs).lastAdjust + adjustInterval) := by
  have hI : (0 : Int) < adjustInterval := by decide
  induction rs with
  | nil =>
    intro t s _ _ _ ht
    refine ⟨0, ?_, ?_, ht, fun d _ _ h => ⟨?_, h⟩⟩
    · show prioOf s.view p = _
      cases prioOf s.view p <;> simp
    · show ((0 : Nat) : Int) * adjustInterval ≤ s.lastAdjust - s.lastAdjust
      simp
    · show s.lastAdjust - s.lastAdjust ≤ ((0 : Nat) : Int) * (adjustInterval + d)
      simp
  | cons r rs ih =>
    intro t s ho hu hp ht
    obtain ⟨hpend, hr⟩ := round_prio (c := c) hp (hu r List.mem_cons_self).1 (hu r List.mem_cons_self).2
    have hrun : daemonRun c s (r :: rs) = daemonRun c (daemonRound c s r) rs := rfl
    rw [hrun]
    by_cases hdue : s.lastAdjust + adjustInterval ≤ r.now ∧ r.locked ≠ .adjust
    · rw [if_pos hdue] at hr
      obtain ⟨k, h1, h2, h3, h4⟩ := ih r.now (daemonRound c s r) ho.2 (fun x hx => hu x (List.mem_cons_of_mem _ hx)) hpend
        (by rw [hr.1])
      rw [hr.1] at h2 h4
      refine ⟨k + 1, ?_, ?_, h3, ?_⟩
      · rw [h1, hr.2]
        cases prioOf s.view p with
        | none => rfl
        | some y => simp only [Option.map_some, pow_succ]; congr 1; ring
      · push_cast; rw [add_mul]; omega
      · intro d hd hpa hlt
        obtain ⟨h5, h6⟩ := h4 d hd hpa.2.2 (by omega)
        refine ⟨?_, h6⟩
        have := hpa.1
        push_cast
        rw [add_mul]
        omega
    · rw [if_neg hdue] at hr
      obtain ⟨k, h1, h2, h3, h4⟩ := ih r.now (daemonRound c s r) ho.2 (fun x hx => hu x (List.mem_cons_of_mem _ hx)) hpend
        (by rw [hr.1]; exact ht.trans ho.1)
      rw [hr.1] at h2 h4
      refine ⟨k, ?_, h2, h3, ?_⟩
      · rw [h1, hr.2]
      · intro d hd hpa hlt
        exact h4 d hd hpa.2.2 (by
          by_contra hn
          exact hdue ⟨by omega, hpa.2.1⟩)

theorem round_same {c c' : Rat} {s : DaemonState} {r : DRound} (h : ¬ s.lastAdjust + adjustInterval ≤ r.now) :
    daemonRound c s r = daemonRound c' s r := by
  unfold daemonRound DaemonState.pass
  have : ¬ (s.arrive r).lastAdjust + adjustInterval ≤ r.now := h
  simp [this]

/-- With a half-life that is not zero no round raises an exception. -/
theorem daemonSteps_run {pow : Rat → Rat} {h : Nat} (hh : h ≠ 0) (rs : List DRound) : ∀ s : DaemonState,
    daemonSteps pow h s rs = .ok (daemonRun (pow (600 / (h : Rat))) s rs) := by
  induction rs with
  | nil => intro s; rfl
  | cons r rs ih =>
    intro s
    have h1 : daemonStep pow h s r = .ok (daemonRound (pow (600 / (h : Rat))) s r) := by
      unfold daemonStep decayExp
      rw [if_neg hh]
      by_cases hd : s.lastAdjust + adjustInterval ≤ r.now
      · rw [if_pos hd]
      · rw [if_neg hd, round_same hd]
    unfold daemonSteps
    rw [h1]
    exact ih _

/-- Microseconds of an hour. -/
def hour : Rat := 3600 * 1000000

/-- `priority_half_life` is the value in hours. -/
theorem halfLife_eq {v : Str} (hv : Digits v) : halfLife v = digitsValue v * 3600 := by
  have h : dollar v = v := by
    unfold dollar
    rw [if_neg]
    intro h
    exact absurd (hv.2 _ (List.mem_of_getLast? h)) (by decide)
  unfold halfLife
  rw [h, decimal_eq]

/-- The priority of a path that is not used is multiplied by `0.5 ** (1/6H)` some number of times, `x` halvings
altogether. This is never faster than once in each half-life of `H` hours, where `H` is the number that the option
PriorityHalfLife has as its value. If the rounds come at most `d` apart and the
database is not locked when the priorities are adjusted, it is not slower either, up to one adjustment and the time from
one round to the next for each of them. -/
theorem C90_halves_partial {pow : Rat → Rat} {value : Str} {H : Nat} (hv : Digits value) (hval : digitsValue value = H)
    (hH : H ≠ 0) {a : ALocal} {t : Int} {rs : List DRound} {p : Path}
    (ho : Ordered t rs) (hu : Unused p rs) :
    ∃ (s : DaemonState) (k : Nat), daemonSteps pow (halfLife value) ⟨a, none, [], t⟩ rs = .ok s ∧
      prioOf s.view p = (prioOf a p).map (fun y => y * pow (1 / (6 * H)) ^ k) ∧
      (k : Rat) * (1 / (6 * H)) ≤ ((lastTime t rs - t : Int) : Rat) / (H * hour) ∧
      ∀ d : Int, 0 ≤ d → Paced d t rs →
        ((lastTime t rs - t : Int) : Rat) / (H * hour) <
          (k : Rat) * (1 / (6 * H)) * (1 + d / (adjustInterval : Rat)) + 1 / (6 * H) := by
  rw [halfLife_eq hv, hval]
  have hHr : (0 : Rat) < H := by exact_mod_cast Nat.pos_of_ne_zero hH
  have he : (600 : Rat) / ((H * 3600 : Nat) : Rat) = 1 / (6 * H) := by
    push_cast
    field_simp
    norm_num
  have hAI : (adjustInterval : Rat) = 600 * 1000000 := by norm_num [adjustInterval]
  have hrun := daemonSteps_run (pow := pow) (h := H * 3600) (by omega) rs ⟨a, none, [], t⟩
  rw [he] at hrun
  obtain ⟨k, h1, h2, h3, h4⟩ := run_prio (c := pow (1 / (6 * (H : Rat)))) (p := p) rs t ⟨a, none, [], t⟩ ho hu (by simp)
    (le_refl t)
  generalize daemonRun (pow (1 / (6 * (H : Rat)))) ⟨a, none, [], t⟩ rs = s at *
  dsimp only at h2 h4
  have hhr : (0 : Rat) < H * hour := by unfold hour; positivity
  refine ⟨s, k, hrun, h1, ?_, ?_⟩
  · have h5 : (k : Rat) * adjustInterval ≤ ((lastTime t rs - t : Int) : Rat) := by
      have : (k : Int) * adjustInterval ≤ lastTime t rs - t := by omega
      exact_mod_cast this
    rw [le_div_iff₀ hhr]
    refine le_trans (le_of_eq ?_) h5
    rw [hAI]
    unfold hour
    field_simp
    ring
  · intro d hd hpa
    obtain ⟨h5, h6⟩ := h4 d hd hpa (by unfold adjustInterval; omega)
    have h7 : ((lastTime t rs - t : Int) : Rat) < k * (adjustInterval + d) + adjustInterval := by
      have : lastTime t rs - t < k * (adjustInterval + d) + adjustInterval := by omega
      exact_mod_cast this
    rw [div_lt_iff₀ hhr]
    refine lt_of_lt_of_eq h7 ?_
    rw [hAI]
    unfold hour
    field_simp
    ring

/-- Three rounds, of which the first two are due. -/
def exDecayRounds : List DRound :=
  [⟨[], 600000000, .never, id⟩, ⟨[[['b']]], 1200000000, .increment, id⟩, ⟨[], 1203000000, .never, id⟩]

/-- They satisfy the hypotheses of `C90_halves_partial`, and the priority is adjusted twice. -/
example : Ordered 0 exDecayRounds ∧ Unused [['a']] exDecayRounds ∧ Paced 600000000 0 exDecayRounds := by
  refine ⟨by simp [Ordered, exDecayRounds], ?_, by simp [Paced, exDecayRounds]⟩
  intro r hr
  simp only [exDecayRounds, List.mem_cons, List.not_mem_nil, or_false] at hr
  rcases hr with rfl | rfl | rfl <;> simp

example : prioOf exOneFile [['a']] = some 5 ∧
    (daemonSteps (fun _ => 1 / 2) (halfLife "1".toList) ⟨exOneFile, none, [], 0⟩ exDecayRounds).toOption.map
      (fun s => prioOf s.view [['a']]) = some (some (5 / 4)) := by
  decide +kernel

/-- C90 in full is false: 0 is accepted as the half-life, and then the first round in which an adjustment is due ends the
daemon, whatever has happened before. -/
theorem C90_zero_fails : checkValue "PriorityHalfLife".toList "0".toList = none ∧
    ∀ (pow : Rat → Rat) (s : DaemonState) (r : DRound) (rs : List DRound), s.lastAdjust + adjustInterval ≤ r.now →
      daemonSteps pow (halfLife "0".toList) s (r :: rs) = .error .zeroDiv := by
  refine ⟨by decide +kernel, ?_⟩
  intro pow s r rs h
  have h0 : halfLife "0".toList = 0 := by decide +kernel
  rw [h0]
  unfold daemonSteps daemonStep
  rw [if_pos h]
  rfl

end Verif
