import Verif.Daemon
/-
C42: quick successive openings count once.
-/
namespace Verif

/-- The openings of a path that count are more than `gap` apart. -/
def Spaced (gap : Int) (l : List (Path × Int)) : Prop :=
  l.Pairwise (fun a b => a.1 = b.1 → a.2 + gap < b.2)

/-- All openings of a sequence of rounds, in order. -/
def openings (bs : List Batch) : List (Path × Int) := bs.flatMap Batch.accessed

/-- The times come from a clock that does not go back, after the epoch. -/
def ClockOK (bs : List Batch) : Prop :=
  ((openings bs).map Prod.snd).Pairwise (· ≤ ·) ∧ (∀ e ∈ openings bs, 0 < e.2) ∧
  ∀ b ∈ bs, ∀ e ∈ b.accessed, e.2 ≤ b.now

/-- The first half of C42 in full. -/
def C42Claim : Prop := ∀ bs, ClockOK bs → Spaced cooldownPeriod (countedFrom [] bs)

/-- It does not hold: a round that takes long forgets an opening although the next one,
already in the queue, is within the cooldown period. -/
theorem C42_fails : ¬ C42Claim := by
  intro h
  have := h [⟨[([['a']], 10000000)], 11500000⟩, ⟨[([['a']], 10600000)], 12000000⟩] (by
    refine ⟨by decide, by decide, by decide⟩)
  revert this
  unfold Spaced
  decide +kernel

/-- `lag`: how far an opening that is read in a round may lie before the end of an earlier
round. -/
def LagBound (lag : Int) (bs : List Batch) : Prop :=
  bs.Pairwise (fun a b => ∀ e ∈ b.accessed, a.now - lag < e.2)

namespace Cooldown
theorem get_set (c : Cooldown) (p q : Path) (t : Int) :
    (c.set p t).get q = if q = p then some t else c.get q := by
  unfold Cooldown.get Cooldown.set
  rw [List.find?_cons]
  by_cases h : q = p
  · subst h; simp
  · rw [if_neg h]
    have : decide ((p, t).1 = q) = false := by simp [Ne.symm h]
    rw [this]
    dsimp only
    congr 1
    clear this
    induction c with
    | nil => rfl
    | cons e c ih =>
      rw [List.filter_cons, List.find?_cons]
      by_cases he : e.1 = q
      · have : e.1 ≠ p := fun h' => h (he ▸ h')
        rw [if_pos (by simpa using this), List.find?_cons]
        simp [he]
      · split
        · rw [List.find?_cons]; simp only [he, decide_false]; exact ih
        · simp only [he, decide_false]; exact ih

theorem get_purge_some {c : Cooldown} {now : Int} {p : Path} {t : Int} (hn : (c.map Prod.fst).Nodup)
    (h : c.get p = some t) (ht : now - cooldownPeriod < t) : Cooldown.get (purge now c) p = some t := by
  unfold Cooldown.get purge at *
  induction c with
  | nil => simp at h
  | cons e c ih =>
    rw [List.map_cons, List.nodup_cons] at hn
    rw [List.find?_cons] at h
    by_cases he : e.1 = p
    · simp only [he, decide_true, Option.map_some, Option.some.injEq] at h
      rw [List.filter_cons, if_pos (by rw [h]; simpa using ht), List.find?_cons]
      simp [he, h]
    · simp only [he, decide_false] at h
      rw [List.filter_cons]
      split
      · rw [List.find?_cons]; simp only [he, decide_false]; exact ih hn.2 h
      · exact ih hn.2 h

theorem get_mem {c : Cooldown} {p : Path} {t : Int} (h : c.get p = some t) : (p, t) ∈ c := by
  unfold Cooldown.get at h
  obtain ⟨e, he, rfl⟩ := Option.map_eq_some_iff.1 h
  have h1 := List.find?_some he
  simp only [decide_eq_true_eq] at h1
  have h2 := List.mem_of_find?_eq_some he
  rw [← h1]; exact h2

theorem nodup_set {c : Cooldown} (hn : (c.map Prod.fst).Nodup) (p : Path) (t : Int) :
    ((c.set p t).map Prod.fst).Nodup := by
  unfold Cooldown.set
  rw [List.map_cons, List.nodup_cons]
  refine ⟨?_, hn.sublist (List.filter_sublist.map _)⟩
  intro hm
  obtain ⟨e, he, hep⟩ := List.mem_map.1 hm
  have := (List.mem_filter.1 he).2
  simp only [decide_eq_true_eq] at this
  exact this hep
end Cooldown

/-- What `countStep` decides. -/
theorem countStep_cases (c : Cooldown) (l : List (Path × Int)) (e : Path × Int) :
    (countStep (c, l) e = (c.set e.1 e.2, l ++ [e]) ∧
      ∀ t, c.get e.1 = some t → t = 0 ∨ t + cooldownPeriod < e.2) ∨
    (countStep (c, l) e = (c, l) ∧ ∃ t, c.get e.1 = some t ∧ e.2 ≤ t + cooldownPeriod) := by
  unfold countStep
  dsimp only
  cases hg : Cooldown.get c e.1 with
  | none =>
    left
    refine ⟨if_pos (Or.inr rfl), by simp⟩
  | some t =>
    rw [Option.getD_some]
    by_cases h : (t ≠ 0 ∧ t + cooldownPeriod < e.2) ∨ t = 0
    · left
      rw [if_pos h]
      refine ⟨rfl, ?_⟩
      intro t' ht'
      cases ht'
      rcases h with h | h
      · exact Or.inr h.2
      · exact Or.inl h
    · right
      rw [if_neg h]
      refine ⟨rfl, t, rfl, ?_⟩
      rw [not_or, not_and] at h
      have := h.1 h.2
      omega

/-- The state between two openings, where `fut` are the openings still to come. -/
structure CInv (lag : Int) (c : Cooldown) (l : List (Path × Int)) (fut : List (Path × Int)) : Prop where
  nodup : (c.map Prod.fst).Nodup
  spaced : Spaced (cooldownPeriod - lag) l
  last : ∀ e ∈ l, (∃ t, c.get e.1 = some t ∧ e.2 ≤ t) ∨ ∀ f ∈ fut, e.2 + (cooldownPeriod - lag) < f.2
  before : ∀ e ∈ l, ∀ f ∈ fut, e.2 ≤ f.2
  counted : ∀ e ∈ c, e ∈ l ∧ 0 < e.2

theorem cinv_step {lag : Int} (hl : 0 ≤ lag) {c : Cooldown} {l fut : List (Path × Int)} {e : Path × Int}
    (hi : CInv lag c l (e :: fut)) (h0 : 0 < e.2) (hmono : ∀ f ∈ fut, e.2 ≤ f.2) :
    CInv lag (countStep (c, l) e).1 (countStep (c, l) e).2 fut ∧
      ∃ t, (e.1, t) ∈ (countStep (c, l) e).2 ∧ t ≤ e.2 ∧ e.2 ≤ t + cooldownPeriod := by
  rcases countStep_cases c l e with ⟨h, hc⟩ | ⟨h, t, hg, ht⟩
  · rw [h]
    refine ⟨⟨Cooldown.nodup_set hi.nodup _ _, ?_, ?_, ?_, ?_⟩, ?_⟩
    · unfold Spaced
      rw [List.pairwise_append]
      refine ⟨hi.spaced, by simp, ?_⟩
      intro a ha b hb
      simp only [List.mem_singleton] at hb
      subst hb
      intro hab
      rcases hi.last a ha with ⟨t, hg, hat⟩ | hf
      · rw [hab] at hg
        have := (hi.counted _ (Cooldown.get_mem hg)).2
        dsimp only at this
        rcases hc t hg with h | h <;> omega
      · exact hf b (by simp)
    · intro a ha
      rcases List.mem_append.1 ha with ha | ha
      · rw [Cooldown.get_set]
        split
        · left; exact ⟨e.2, rfl, hi.before a ha e (by simp)⟩
        · rcases hi.last a ha with h | h
          · left; exact h
          · right; exact fun f hf => h f (by simp [hf])
      · simp only [List.mem_singleton] at ha
        subst ha
        left
        exact ⟨a.2, by rw [Cooldown.get_set, if_pos rfl], Int.le_refl _⟩
    · intro a ha f hf
      rcases List.mem_append.1 ha with ha | ha
      · exact hi.before a ha f (by simp [hf])
      · simp only [List.mem_singleton] at ha
        subst ha
        exact hmono f hf
    · intro a ha
      unfold Cooldown.set at ha
      rcases List.mem_cons.1 ha with rfl | ha
      · exact ⟨by simp, h0⟩
      · have := hi.counted a (List.mem_filter.1 ha).1
        exact ⟨by simp [this.1], this.2⟩
    · exact ⟨e.2, by simp, Int.le_refl _, by unfold cooldownPeriod; omega⟩
  · rw [h]
    refine ⟨⟨hi.nodup, hi.spaced, ?_, fun a ha f hf => hi.before a ha f (by simp [hf]), hi.counted⟩, ?_⟩
    · intro a ha
      rcases hi.last a ha with h | h
      · left; exact h
      · right; exact fun f hf => h f (by simp [hf])
    · have hm := Cooldown.get_mem hg
      have := (hi.counted _ hm).1
      exact ⟨t, this, hi.before _ this e (by simp), ht⟩

theorem cinv_batch {lag : Int} (hl : 0 ≤ lag) (es : List (Path × Int)) {c : Cooldown}
    {l fut : List (Path × Int)} (hi : CInv lag c l (es ++ fut)) (h0 : ∀ e ∈ es ++ fut, 0 < e.2)
    (hmono : (es ++ fut).Pairwise (fun a b => a.2 ≤ b.2)) :
    CInv lag (es.foldl countStep (c, l)).1 (es.foldl countStep (c, l)).2 fut ∧
    (∀ x ∈ l, x ∈ (es.foldl countStep (c, l)).2) ∧
    ∀ e ∈ es, ∃ t, (e.1, t) ∈ (es.foldl countStep (c, l)).2 ∧ t ≤ e.2 ∧ e.2 ≤ t + cooldownPeriod := by
  induction es generalizing c l with
  | nil => exact ⟨by simpa using hi, by simp, by simp⟩
  | cons e es ih =>
    rw [List.cons_append] at hi h0 hmono
    rw [List.pairwise_cons] at hmono
    obtain ⟨h1, t, ht⟩ := cinv_step hl hi (h0 e (by simp)) hmono.1
    have hsub : ∀ x ∈ l, x ∈ (countStep (c, l) e).2 := by
      intro x hx
      rcases countStep_cases c l e with ⟨h, _⟩ | ⟨h, _⟩ <;> rw [h]
      · simp [hx]
      · exact hx
    obtain ⟨i1, i2, i3⟩ := ih h1 (fun x hx => h0 x (by simp [hx])) hmono.2
    rw [List.foldl_cons]
    refine ⟨i1, fun x hx => i2 x (hsub x hx), ?_⟩
    intro x hx
    rcases List.mem_cons.1 hx with rfl | hx
    · exact ⟨t, i2 _ ht.1, ht.2⟩
    · exact i3 x hx

/-- The counted openings do not depend on how the list is collected. -/
theorem foldl_countStep_append (es : List (Path × Int)) (c : Cooldown) (l : List (Path × Int)) :
    es.foldl countStep (c, l) = ((es.foldl countStep (c, [])).1, l ++ (es.foldl countStep (c, [])).2) := by
  induction es generalizing c l with
  | nil => simp
  | cons e es ih =>
    rw [List.foldl_cons, List.foldl_cons]
    have h : countStep (c, l) e = ((countStep (c, []) e).1, l ++ (countStep (c, []) e).2) := by
      unfold countStep
      dsimp only
      split <;> simp
    rw [h, ih, ih (countStep (c, []) e).1 (countStep (c, []) e).2]
    simp

theorem cinv_purge {lag : Int} {c : Cooldown} {l fut : List (Path × Int)} {now : Int}
    (hi : CInv lag c l fut) (hf : ∀ f ∈ fut, now - lag < f.2) : CInv lag (purge now c) l fut := by
  refine ⟨hi.nodup.sublist (List.filter_sublist.map _), hi.spaced, ?_, hi.before,
    fun e he => hi.counted e (List.mem_filter.1 he).1⟩
  intro e he
  rcases hi.last e he with ⟨t, hg, ht⟩ | h
  · by_cases hn : now - cooldownPeriod < t
    · left; exact ⟨t, Cooldown.get_purge_some hi.nodup hg hn, ht⟩
    · right
      intro f hff
      have := hf f hff
      omega
  · right; exact h

theorem counted_main {lag : Int} (hl : 0 ≤ lag) (bs : List Batch) {c : Cooldown} {l : List (Path × Int)}
    (hi : CInv lag c l (openings bs)) (h0 : ∀ e ∈ openings bs, 0 < e.2)
    (hmono : (openings bs).Pairwise (fun a b => a.2 ≤ b.2)) (hlag : LagBound lag bs) :
    Spaced (cooldownPeriod - lag) (l ++ countedFrom c bs) ∧
    ∀ e ∈ openings bs, ∃ t, (e.1, t) ∈ l ++ countedFrom c bs ∧ t ≤ e.2 ∧ e.2 ≤ t + cooldownPeriod := by
  induction bs generalizing c l with
  | nil =>
    simp only [countedFrom, List.append_nil]
    exact ⟨hi.spaced, by simp [openings]⟩
  | cons b bs ih =>
    have eo : openings (b :: bs) = b.accessed ++ openings bs := rfl
    rw [eo] at hi h0 hmono ⊢
    obtain ⟨hp1, hp2⟩ := List.pairwise_cons.1 hlag
    obtain ⟨i1, i2, i3⟩ := cinv_batch hl b.accessed hi h0 hmono
    rw [foldl_countStep_append] at i1 i2 i3
    have i4 := cinv_purge (now := b.now) i1 (by
      intro f hf
      obtain ⟨b', hb', hf⟩ := List.mem_flatMap.1 hf
      exact hp1 b' hb' f hf)
    have := ih i4 (fun e he => h0 e (by simp [he])) (List.pairwise_append.1 hmono).2.1 hp2
    have ec : l ++ countedFrom c (b :: bs) = (l ++ (List.foldl countStep (c, []) b.accessed).2) ++
        countedFrom (purge b.now (List.foldl countStep (c, []) b.accessed).1) bs := by
      rw [countedFrom, List.append_assoc]; rfl
    rw [ec]
    refine ⟨this.1, ?_⟩
    intro e he
    rcases List.mem_append.1 he with he | he
    · obtain ⟨t, h1, h2⟩ := i3 e he
      exact ⟨t, List.mem_append_left _ h1, h2⟩
    · exact this.2 e he

/-- If openings are read less than `lag` after the end of an earlier round, counted openings
of a path are more than the cooldown period minus `lag` apart. With `lag = 0` this is the
claim. Missing from C42: the case of a round that is still running when an
opening that it does not read happens. -/
theorem C42_spaced_partial {lag : Int} (hl : 0 ≤ lag) (bs : List Batch) (hc : ClockOK bs)
    (hlag : LagBound lag bs) : Spaced (cooldownPeriod - lag) (countedFrom [] bs) := by
  have hi : CInv lag [] [] (openings bs) := ⟨by simp, by simp [Spaced], by simp, by simp, by simp⟩
  have := (counted_main hl bs hi hc.2.1 (by rw [← List.pairwise_map (f := Prod.snd)]; exact hc.1) hlag).1
  simpa using this

/-- Every opening is counted or at most the cooldown period after a counted one of the same
path, without any condition on the rounds. -/
theorem C42_counted (bs : List Batch) (hc : ClockOK bs) :
    ∀ e ∈ openings bs, ∃ t, (e.1, t) ∈ countedFrom [] bs ∧ t ≤ e.2 ∧ e.2 ≤ t + cooldownPeriod := by
  obtain ⟨lag, hl, hlag⟩ : ∃ lag : Int, 0 ≤ lag ∧ LagBound lag bs := by
    clear hc
    have : ∃ m : Int, 0 ≤ m ∧ (∀ b ∈ bs, b.now ≤ m) ∧ ∀ b ∈ bs, ∀ e ∈ b.accessed, -m < e.2 := by
      have hnow : ∀ l : List Int, ∃ m : Int, 0 < m ∧ ∀ x ∈ l, x < m ∧ -m < x := by
        intro l
        induction l with
        | nil => exact ⟨1, by omega, by simp⟩
        | cons x l ih =>
          obtain ⟨m, h0, hm⟩ := ih
          refine ⟨m + x.natAbs + 1, by omega, ?_⟩
          intro y hy
          rcases List.mem_cons.1 hy with rfl | hy
          · omega
          · have := hm y hy; omega
      obtain ⟨m, h0, hm⟩ := hnow (bs.map Batch.now ++ (openings bs).map Prod.snd)
      refine ⟨m, by omega, ?_, ?_⟩
      · intro b hb
        have := hm b.now (by rw [List.mem_append]; left; exact List.mem_map_of_mem hb)
        omega
      · intro b hb e he
        have := hm e.2 (by
          rw [List.mem_append]; right
          exact List.mem_map_of_mem (f := Prod.snd) (List.mem_flatMap.2 ⟨b, hb, he⟩))
        omega
    obtain ⟨m, h0, h1, h2⟩ := this
    refine ⟨m + m, by omega, ?_⟩
    unfold LagBound
    rw [List.pairwise_iff_forall_sublist]
    intro a b hab e he
    have ha := h1 a (hab.subset (by simp))
    have hb := h2 b (hab.subset (by simp)) e he
    omega
  have hi : CInv lag [] [] (openings bs) := ⟨by simp, by simp [Spaced], by simp, by simp, by simp⟩
  have := (counted_main hl bs hi hc.2.1 (by rw [← List.pairwise_map (f := Prod.snd)]; exact hc.1) hlag).2
  simpa using this

/-- Only openings are counted, each at most once and in order. -/
theorem C42_sublist (bs : List Batch) : (countedFrom [] bs).Sublist (openings bs) := by
  have hs : ∀ (es : List (Path × Int)) (c : Cooldown), ((es.foldl countStep (c, [])).2).Sublist es := by
    intro es
    induction es with
    | nil => simp
    | cons e es ih =>
      intro c
      rw [List.foldl_cons]
      rcases countStep_cases c [] e with ⟨h, _⟩ | ⟨h, _⟩ <;> rw [h]
      · rw [foldl_countStep_append]
        exact (ih _).cons_cons e
      · exact (ih c).cons e
  have : ∀ (bs : List Batch) (c : Cooldown), (countedFrom c bs).Sublist (openings bs) := by
    intro bs
    induction bs with
    | nil => intro c; simp [countedFrom]
    | cons b bs ih =>
      intro c
      exact (hs b.accessed c).append (ih _)
  exact this bs []

/-- Two files in three rounds; the lag of these rounds is zero. -/
def exBatches : List Batch :=
  [⟨[([['a']], 10000000), ([['b']], 10100000), ([['a']], 10900000), ([['a']], 11000001)], 11100000⟩,
    ⟨[([['b']], 11100001), ([['a']], 11500000)], 14000000⟩, ⟨[([['a']], 14000001)], 17000000⟩]

example : ClockOK exBatches := by refine ⟨by decide, by decide, by decide⟩
example : LagBound 0 exBatches := by unfold LagBound exBatches; decide
example : countedFrom [] exBatches = [([['a']], 10000000), ([['b']], 10100000), ([['a']], 11000001),
    ([['b']], 11100001), ([['a']], 14000001)] := by decide +kernel

end Verif
