import Verif.Props.C38_Options
/-
C36: every accepted storage limit is understood.
C37: every accepted boolean option is understood.
Both fail, for values that the check accepts in any case but that are then
compared case-sensitively.
-/
namespace Verif

theorem decimal_eq (s : Str) : decimal s = digitsValue s := by
  have key : ∀ (s : Str) (n : Nat), s.foldl (fun n c => n * 10 + (c.toNat - 48)) n =
      n * 10 ^ s.length + digitsValue s := by
    intro s
    induction s with
    | nil => intro n; simp [digitsValue]
    | cons c s ih =>
      intro n
      rw [List.foldl_cons, ih, digitsValue, List.length_cons, Nat.pow_succ, Nat.add_mul,
        Nat.mul_assoc, Nat.mul_comm 10, Nat.add_assoc]
      rfl
  have := key s 0
  simpa [decimal] using this

/-- The full claim C36: an accepted storage limit is understood, never an exception. -/
def C36Claim : Prop := ∀ v, Stripped v → checkValue "StorageLimit".toList v = none →
  ∃ n, storageLimit v = some n

/-- It does not hold: `10mb` is accepted, and reading the limit raises. -/
theorem C36_fails : ¬ C36Claim := by
  intro h
  obtain ⟨n, hn⟩ := h "10mb".toList (by decide +kernel) (by decide +kernel)
  rw [show storageLimit "10mb".toList = none by decide +kernel] at hn
  simp at hn

/-- Accepted limits written with one of the prefixes K, k, M, G and one of the
units B, iB or none are understood, for every number and any space between.
Missing from C36: other spellings that are accepted (see `C36_raises_iff`). -/
theorem C36_understood_partial {v num : Str} {p : Char} {u : Str} (hs : Stripped v)
    (hv : LimitValue v num p u) (hp : p ∈ ['K', 'k', 'M', 'G'])
    (hu : u ∈ ["".toList, "B".toList, "iB".toList]) :
    storageLimit v = some (digitsValue num * (if u = "B".toList then 1000 else 1024) ^
      (if p = 'M' then 2 else if p = 'G' then 3 else 1)) := by
  unfold storageLimit
  rw [(matchLimit_iff hs num p u).2 hv]
  simp only [List.mem_cons, List.not_mem_nil, or_false] at hp hu
  rw [← decimal_eq]
  rcases hp with rfl | rfl | rfl | rfl <;> rcases hu with rfl | rfl | rfl <;> rfl

/-- The exact set of accepted values on which reading the limit raises. -/
theorem C36_raises_iff {v : Str} (hs : Stripped v)
    (hv : checkValue "StorageLimit".toList v = none) :
    storageLimit v = none ↔ ∃ num p u, LimitValue v num p u ∧
      (p ∉ ['K', 'k', 'M', 'G'] ∨ u ∉ ["".toList, "B".toList, "iB".toList]) := by
  rw [checkValue_iff (by decide) hs] at hv
  have hex : ∃ num p u, LimitValue v num p u := by
    generalize hk : "StorageLimit".toList = k at hv
    cases hv with
    | limit h => exact ⟨_, _, _, h⟩
    | bool hb _ => subst hk; exact absurd hb (by decide)
    | _ => exact absurd hk (by decide)
  obtain ⟨num, p, u, h⟩ := hex
  constructor
  · intro hn
    refine ⟨num, p, u, h, ?_⟩
    by_contra hc
    rw [not_or, not_not, not_not] at hc
    rw [C36_understood_partial hs h hc.1 hc.2] at hn
    simp at hn
  · rintro ⟨num', p', u', h', hc⟩
    have e := (matchLimit_iff hs num' p' u').2 h'
    unfold storageLimit
    rw [e]
    dsimp only
    rcases hc with hc | hc
    · simp only [List.mem_cons, List.not_mem_nil, or_false, not_or] at hc
      obtain ⟨h1, h2, h3, h4⟩ := hc
      rw [if_neg (c := p' = 'k' ∨ p' = 'K') (by rintro (h | h) <;> [exact h2 h; exact h1 h]),
        if_neg h3, if_neg h4]
      split
      · rename_i h; simp at h
      · rfl
    · simp only [List.mem_cons, List.not_mem_nil, or_false, not_or] at hc
      obtain ⟨h1, h2, h3⟩ := hc
      rw [if_neg (c := u' = "iB".toList ∨ u' = []) (by rintro (h | h) <;> [exact h3 h; exact h1 h]),
        if_neg h2]

example : storageLimit "10 GiB".toList = some 10737418240 := by decide +kernel
example : LimitValue "10 GiB".toList "10".toList 'G' "iB".toList := by
  rw [← matchLimit_iff (by decide +kernel)]; decide +kernel
example : ∃ v, Stripped v ∧ checkValue "StorageLimit".toList v = none ∧ storageLimit v = none :=
  ⟨"5KIB".toList, by decide +kernel, by decide +kernel, by decide +kernel⟩

/-- The full claim C37: a value that `check_all` accepts for a boolean option is
true exactly when it is `yes` or `true` in any case, and false otherwise. -/
def C37Claim : Prop := ∀ k v, k ∈ boolKeys → Stripped v → checkValue k v = none →
  (convertBool v = some true ↔ AnyCase v "yes".toList ∨ AnyCase v "true".toList) ∧
  convertBool v ≠ none

/-- It does not hold: `UseTrash=Yes` is accepted and is neither true nor false, so
it acts as `no` and deletions become permanent. -/
theorem C37_fails : ¬ C37Claim := by
  intro h
  exact (h "UseTrash".toList "Yes".toList (by decide) (by decide +kernel) (by decide +kernel)).2
    (by decide +kernel)

/-- An option that is set to nothing is accepted, and is neither true nor false; the
default does not apply. -/
theorem C37_empty : checkValue "UseTrash".toList [] = none ∧
    vals (configRead [] "UseTrash=".toList) "UseTrash".toList = some [] ∧ convertBool [] = none := by
  decide +kernel

/-- Accepted values in lower case are understood. Missing from C37: accepted values
with a letter in upper case, and the empty value (see `C37_none_iff`). -/
theorem C37_understood_partial {k v : Str} (hk : k ∈ boolKeys) (hs : Stripped v)
    (hv : checkValue k v = none) (h0 : v ≠ []) (hl : ∀ c ∈ v, ¬ (65 ≤ c.toNat ∧ c.toNat ≤ 90)) :
    (convertBool v = some true ↔ AnyCase v "yes".toList ∨ AnyCase v "true".toList) ∧
    (convertBool v = some false ↔ AnyCase v "no".toList ∨ AnyCase v "false".toList) ∧
    convertBool v ≠ none := by
  have hka : k ∈ allKeys := by
    simp only [boolKeys, List.mem_cons, List.not_mem_nil, or_false] at hk
    rcases hk with rfl | rfl | rfl <;> decide
  have hval : pyLower v ∈ trueVals ++ falseVals := by
    rw [checkValue_iff hka hs] at hv
    rw [boolValue_iff]
    have hne : ∀ s : Str, s ∈ ["LocalDir".toList, "RemoteDir".toList, "StorageLimit".toList,
        "SyncInterval".toList, "PriorityHalfLife".toList, "TrashCleanupPeriod".toList] → s ∉ boolKeys := by
      decide
    cases hv with
    | bool _ h => exact h.resolve_left h0
    | _ => exact absurd hk (hne _ (by decide))
  have hlow : pyLower v = v := by
    have : ∀ c ∈ v, c.toNat ≠ 0x212a ∧ c.toNat ≠ 0x130 := by
      intro c hc
      have hch : ∀ d ∈ pyLower v, d ≠ 'k' ∧ d ≠ 'i' := by
        intro d hd
        simp only [trueVals, falseVals, List.cons_append, List.nil_append, List.mem_cons,
          List.not_mem_nil, or_false] at hval
        rcases hval with h | h | h | h <;> (rw [h] at hd; revert d; decide)
      constructor
      · intro h
        refine (hch 'k' ?_).1 rfl
        unfold pyLower
        exact List.mem_flatMap.2 ⟨c, hc, by rw [if_pos h]; simp⟩
      · intro h
        refine (hch 'i' ?_).2 rfl
        unfold pyLower
        exact List.mem_flatMap.2 ⟨c, hc, by rw [if_neg (by omega), if_pos h]; simp⟩
    clear hv hval h0 hs
    induction v with
    | nil => rfl
    | cons c v ih =>
      have h1 := this c (by simp)
      have h2 := hl c (by simp)
      have := ih (fun c hc => hl c (by simp [hc])) (fun c hc => this c (by simp [hc]))
      unfold pyLower at this ⊢
      rw [List.flatMap_cons, this, if_neg h1.1, if_neg h1.2, if_neg h2]
      rfl
  rw [anyCase_iff v (w := "yes".toList) (by decide), anyCase_iff v (w := "true".toList) (by decide),
    anyCase_iff v (w := "no".toList) (by decide), anyCase_iff v (w := "false".toList) (by decide), hlow]
  rw [hlow] at hval
  simp only [trueVals, falseVals, List.cons_append, List.nil_append, List.mem_cons,
    List.not_mem_nil, or_false] at hval
  rcases hval with rfl | rfl | rfl | rfl <;> decide

/-- The accepted values that are neither true nor false: nothing, or a letter in
upper case. -/
theorem C37_none_iff {k v : Str} (hk : k ∈ boolKeys) (hs : Stripped v) (hv : checkValue k v = none) :
    convertBool v = none ↔ v = [] ∨ ∃ c ∈ v, 65 ≤ c.toNat ∧ c.toNat ≤ 90 := by
  constructor
  · intro h
    by_contra hn
    rw [not_or] at hn
    exact (C37_understood_partial hk hs hv hn.1 (fun c hc hh => hn.2 ⟨c, hc, hh⟩)).2.2 h
  · rintro (rfl | ⟨c, hc, h1, h2⟩)
    · rfl
    · have : v ∉ trueVals ++ falseVals := by
        intro hm
        have hall : ∀ w ∈ trueVals ++ falseVals, ∀ c ∈ w, ¬ (65 ≤ c.toNat ∧ c.toNat ≤ 90) := by
          decide
        exact hall v hm c hc ⟨h1, h2⟩
      unfold convertBool
      rw [if_neg (fun h => this (by simp [h])), if_neg (fun h => this (by simp [h]))]

example : checkValue "AccountForSize".toList "true".toList = none ∧ convertBool "true".toList = some true := by
  decide +kernel

end Verif
