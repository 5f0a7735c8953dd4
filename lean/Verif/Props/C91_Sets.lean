import Verif.Props.C91_Patterns
/-!
C91: what the manual does not say about patterns, but what users know from shells: negated sets, ranges, and brackets
that are not closed.
-/
namespace Verif

theorem bracket_lt {s a r : Str} (h : bracket s = some (a, r)) : r.length < s.length := by
  unfold bracket at h
  dsimp only at h
  generalize (if (s.drop (if s.head? = some '!' then 1 else 0)).head? = some ']' then
    (if s.head? = some '!' then 1 else 0) + 1 else (if s.head? = some '!' then 1 else 0)) = k at h
  cases hd : (s.drop k).dropWhile (· != ']') with
  | nil => rw [hd] at h; cases h
  | cons x rest =>
    rw [hd] at h
    cases h
    have h1 := ((s.drop k).dropWhile_suffix (· != ']')).length_le
    rw [hd] at h1
    simp at h1
    omega

/-- The fuel of `toks` does not matter. -/
theorem toks_fuel : ∀ (n m : Nat) (s : Str), s.length ≤ n → s.length ≤ m → toks n s = toks m s
  | _, _, [], _, _ => by simp [toks]
  | 0, _, _ :: _, h, _ => by simp at h
  | _, 0, _ :: _, _, h => by simp at h
  | n + 1, m + 1, c :: s, h1, h2 => by
    have h1 : s.length ≤ n := by simpa using h1
    have h2 : s.length ≤ m := by simpa using h2
    have ih := toks_fuel n m s h1 h2
    unfold toks
    rw [ih]
    cases hb : bracket s with
    | none => rfl
    | some x =>
      obtain ⟨a, r⟩ := x
      have := bracket_lt hb
      dsimp only
      rw [toks_fuel n m r (by omega) (by omega)]

/-- A bracket at the start of a pattern. -/
theorem fnmatch_bracket {c : Char} {s a p q : Str} (h : bracket q = some (a, p)) (ht : setTok a ≠ .star) :
    fnmatch (c :: s) ('[' :: q) = (tokChar c (setTok a) && fnmatch s p) := by
  have := bracket_lt h
  have e : toks ('[' :: q).length ('[' :: q) = setTok a :: toks p.length p := by
    rw [List.length_cons, toks, if_neg (by decide), if_neg (by decide), if_pos rfl, h]
    dsimp only
    rw [toks_fuel q.length p.length p (by omega) (Nat.le_refl _)]
  unfold fnmatch
  rw [e]
  generalize setTok a = t at ht ⊢
  cases t with
  | star => exact absurd rfl ht
  | _ => rfl

theorem bracket_neg {b p : Str} (h0 : b ≠ []) (h1 : ']' ∉ b) : bracket ('!' :: b ++ ']' :: p) = some ('!' :: b, p) := by
  obtain ⟨x, b', rfl⟩ := List.exists_cons_of_ne_nil h0
  have hx : x ≠ ']' := fun h => h1 (by simp [h])
  have h2 : ∀ y ∈ x :: b', (y != ']') = true := by
    intro y hy; simp only [bne_iff_ne, ne_eq]; rintro rfl; exact h1 hy
  have e1 : ((x :: b') ++ ']' :: p).dropWhile (· != ']') = ']' :: p := by
    rw [List.dropWhile_append_of_pos h2]; simp
  have e2 : ((x :: b') ++ ']' :: p).takeWhile (· != ']') = x :: b' := by
    rw [List.takeWhile_append_of_pos h2]; simp
  have e3 : ('!' :: (x :: b') ++ ']' :: p).drop 1 = (x :: b') ++ ']' :: p := rfl
  have e4 : ('!' :: (x :: b') ++ ']' :: p).head? = some '!' := rfl
  unfold bracket
  simp only [e4, if_true, e3]
  rw [if_neg (by simp [hx]), e3, e1, e2]
  rfl

theorem setTok_neg {b : Str} (h0 : b ≠ []) (h1 : '-' ∉ b) : setTok ('!' :: b) = .set true [b] := by
  obtain ⟨x, b', rfl⟩ := List.exists_cons_of_ne_nil h0
  unfold setTok
  rw [if_neg (by simp only [List.mem_cons, not_or] at h1 ⊢; exact ⟨by decide, h1⟩)]
  split
  · rename_i h; simp at h
  · rename_i h; simp at h
  · rename_i h; simp at h; rw [← h.1, ← h.2]
  · rename_i h1 h2 h3; exact absurd rfl (h3 _ _)

/-- `[!abc]` matches one character that is none of those. -/
theorem C91_negated {b p s : Str} {c : Char} (h0 : b ≠ []) (h1 : ']' ∉ b) (h2 : '-' ∉ b) :
    fnmatch (c :: s) ('[' :: '!' :: b ++ ']' :: p) = true ↔ c ∉ b ∧ fnmatch s p = true := by
  have h := fnmatch_bracket (c := c) (s := s) (bracket_neg (p := p) h0 h1) (by rw [setTok_neg h0 h2]; simp)
  rw [show ('[' :: '!' :: b ++ ']' :: p) = '[' :: ('!' :: b ++ ']' :: p) from rfl, h, setTok_neg h0 h2]
  simp [tokChar, inChunks]

/-- `[a-z]` matches one character from `a` to `z`; none if they are the wrong way round. -/
theorem C91_range {x y c : Char} {p s : Str} (hx : x ≠ '!' ∧ x ≠ ']' ∧ x ≠ '-') (hy : y ≠ ']' ∧ y ≠ '-') :
    fnmatch (c :: s) ('[' :: x :: '-' :: y :: ']' :: p) = true ↔
      x.toNat ≤ c.toNat ∧ c.toNat ≤ y.toNat ∧ fnmatch s p = true := by
  have hb : bracket ([x, '-', y] ++ ']' :: p) = some ([x, '-', y], p) :=
    bracket_plain (by simp) (by simp [hx.2.1.symm, hy.1.symm]) (by simp [hx.1])
  have hc : chunks 3 1 [x, '-', y] = [[x], [y]] := by
    simp [chunks]
  have ht : setTok [x, '-', y] = if y.toNat < x.toNat then .never else .set false [[x], [y]] := by
    unfold setTok
    rw [if_pos (by simp), if_neg (by simp [hx.1])]
    simp only [List.length_cons, List.length_nil, Nat.zero_add, Nat.reduceAdd, hc]
    by_cases h : y.toNat < x.toNat
    · simp [fixRanges, h]
    · simp only [fixRanges, List.getLast?_singleton, List.head?_cons, if_neg h]
      split <;> simp_all
  have h := fnmatch_bracket (c := c) (s := s) hb (by rw [ht]; split <;> simp)
  rw [show ('[' :: x :: '-' :: y :: ']' :: p) = '[' :: ([x, '-', y] ++ ']' :: p) from rfl, h, ht]
  by_cases hlt : y.toNat < x.toNat
  · rw [if_pos hlt]
    simp only [tokChar, Bool.false_and, Bool.false_eq_true, false_iff]
    omega
  · rw [if_neg hlt]
    have e1 : ∀ z : Char, c = z → c.toNat = z.toNat := fun z h => by rw [h]
    simp only [tokChar, inChunks, List.mem_singleton, List.getLast?_singleton, List.head?_cons]
    have : (decide (c = x) || (decide (x.toNat ≤ c.toNat) && decide (c.toNat ≤ y.toNat)) || decide (c = y)) = true ↔
        x.toNat ≤ c.toNat ∧ c.toNat ≤ y.toNat := by
      simp only [Bool.or_eq_true, Bool.and_eq_true, decide_eq_true_eq]
      constructor
      · rintro ((h | h) | h)
        · subst h; omega
        · exact h
        · subst h; omega
      · exact fun h => Or.inl (Or.inr h)
    simp only [Bool.and_eq_true, bne_iff_ne, ne_eq, Bool.not_eq_false, this, and_assoc]

/-- A bracket that is not closed stands for itself. -/
theorem C91_unclosed {p s : Str} {c : Char} (h : ']' ∉ p) :
    fnmatch (c :: s) ('[' :: p) = true ↔ c = '[' ∧ fnmatch s p = true := by
  have hb : bracket p = none := by
    unfold bracket
    dsimp only
    generalize (if (p.drop (if p.head? = some '!' then 1 else 0)).head? = some ']' then
      (if p.head? = some '!' then 1 else 0) + 1 else (if p.head? = some '!' then 1 else 0)) = k
    have : (p.drop k).dropWhile (· != ']') = [] := by
      have h2 : ∀ y ∈ p.drop k, (y != ']') = true := by
        intro y hy; simp only [bne_iff_ne, ne_eq]; rintro rfl; exact h (List.mem_of_mem_drop hy)
      have h3 := List.dropWhile_append_of_pos (l₂ := []) h2
      simpa using h3
    rw [this]
  have e : toks ('[' :: p).length ('[' :: p) = .lit '[' :: toks p.length p := by
    rw [List.length_cons, toks, if_neg (by decide), if_neg (by decide), if_pos rfl, hb]
  unfold fnmatch
  rw [e]
  simp [matchToks, tokChar]

/-- `[!ab]*`, `[a-c]x`, `[c-a]` and `[a`. -/
example : fnmatch "cx".toList "[!ab]*".toList = true ∧ fnmatch "bx".toList "[!ab]*".toList = false ∧
    fnmatch "cx".toList "[a-c]x".toList = true ∧ fnmatch "dx".toList "[a-c]x".toList = false ∧
    fnmatch "c".toList "[c-a]".toList = false ∧ fnmatch "[a".toList "[a".toList = true := by
  decide +kernel

/-- The hypotheses can be met. -/
example : "ab".toList ≠ [] ∧ ']' ∉ "ab".toList ∧ '-' ∉ "ab".toList ∧ ('a' ≠ '!' ∧ 'a' ≠ ']' ∧ 'a' ≠ '-') ∧
    ('c' ≠ ']' ∧ 'c' ≠ '-') := by
  decide +kernel

end Verif
