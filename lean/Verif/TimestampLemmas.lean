import Verif.Timestamp
import Verif.Props.C38_Options
/-
Lemmas about the calendar and the format of sync times.
-/
namespace Verif

theorem monthDay_ok : ∀ leap, ∀ n < 366, (n = 365 → leap = true) →
    1 ≤ (monthDay leap n).1 ∧ (monthDay leap n).1 ≤ 12 ∧ 1 ≤ (monthDay leap n).2 ∧
    (monthDay leap n).2 ≤ daysInMonth leap (monthDay leap n).1 ∧
    daysBeforeMonth leap (monthDay leap n).1 + (monthDay leap n).2 = n + 1 := by
  decide +kernel

/-- Year 400a+100b+4c+d+1 in terms of the cycles. -/
theorem year_parts {a b c d : Nat} (hb : b ≤ 3) (hc : c ≤ 24) (hd : d ≤ 3) :
    daysBeforeYear (a * 400 + 1 + b * 100 + c * 4 + d) = 146097 * a + 36524 * b + 1461 * c + 365 * d := by
  unfold daysBeforeYear; omega

theorem leap_parts {a b c d : Nat} (hb : b ≤ 3) (hc : c ≤ 24) (hd : d ≤ 3) :
    isLeap (a * 400 + 1 + b * 100 + c * 4 + d) = (d == 3 && (c != 24 || b == 3)) := by
  rw [Bool.eq_iff_iff]
  unfold isLeap
  simp only [Bool.and_eq_true, Bool.or_eq_true, beq_iff_eq, bne_iff_ne, ne_eq]
  omega

/-- A date that exists. -/
def ValidDate (y m d : Nat) : Prop :=
  1 ≤ y ∧ 1 ≤ m ∧ m ≤ 12 ∧ 1 ≤ d ∧ d ≤ daysInMonth (isLeap y) m

theorem ord2ymd_ok {n : Nat} (hn : 1 ≤ n) :
    ValidDate (ord2ymd n).1 (ord2ymd n).2.1 (ord2ymd n).2.2 ∧
    ymd2ord (ord2ymd n).1 (ord2ymd n).2.1 (ord2ymd n).2.2 = n := by
  unfold ord2ymd
  dsimp only
  obtain ⟨k, rfl⟩ : ∃ k, n = k + 1 := ⟨n - 1, by omega⟩
  rw [Nat.add_sub_cancel]
  generalize ha : k / 146097 = a
  generalize hb : k % 146097 / 36524 = b
  generalize hc : k % 146097 % 36524 / 1461 = c
  generalize hd : k % 146097 % 36524 % 1461 / 365 = d
  generalize he : k % 146097 % 36524 % 1461 % 365 = e
  have hk : k = 146097 * a + 36524 * b + 1461 * c + 365 * d + e := by omega
  have he' : e < 365 := by omega
  have hb4 : b ≤ 4 := by omega
  have hd4 : d ≤ 4 := by omega
  have hc24 : c ≤ 24 := by omega
  have hbe : b = 4 → c = 0 ∧ d = 0 ∧ e = 0 := by omega
  have hde : d = 4 → e = 0 := by omega
  have hlast : d = 4 → ¬ (c = 24 ∧ b ≠ 3) := by omega
  clear ha hb hc hd he
  split
  · rename_i h
    rcases h with h | h
    · -- the last day of a leap year
      have hb3 : b ≤ 3 := by
        by_contra hh
        have : b = 4 := by omega
        have := (hbe this).2.1
        omega
      subst h
      have e0 := hde rfl
      subst e0
      have hy : a * 400 + 1 + b * 100 + c * 4 + 4 - 1 = a * 400 + 1 + b * 100 + c * 4 + 3 := by omega
      have hl := leap_parts (a := a) hb3 hc24 (d := 3) (by omega)
      have hl' : isLeap (a * 400 + 1 + b * 100 + c * 4 + 3) = true := by
        rw [hl]
        by_cases h1 : c = 24
        · have : b = 3 := by
            by_contra hh; exact hlast rfl ⟨h1, hh⟩
          simp [this]
        · simp [h1]
      rw [hy]
      dsimp only
      refine ⟨⟨by omega, by omega, by omega, by omega, ?_⟩, ?_⟩
      · rw [hl']; decide
      · unfold ymd2ord
        rw [hl', year_parts hb3 hc24 (by omega)]
        have : daysBeforeMonth true 12 = 335 := by decide
        rw [this]; omega
    · subst h
      obtain ⟨rfl, rfl, rfl⟩ := hbe rfl
      have hy : a * 400 + 1 + 4 * 100 + 0 * 4 + 0 - 1 = a * 400 + 1 + 3 * 100 + 24 * 4 + 3 := by omega
      have hl := leap_parts (a := a) (b := 3) (c := 24) (d := 3) (by omega) (by omega) (by omega)
      have hl' : isLeap (a * 400 + 1 + 3 * 100 + 24 * 4 + 3) = true := by rw [hl]; rfl
      rw [hy]
      dsimp only
      refine ⟨⟨by omega, by omega, by omega, by omega, ?_⟩, ?_⟩
      · rw [hl']; decide
      · unfold ymd2ord
        rw [hl', year_parts (by omega) (by omega) (by omega)]
        have : daysBeforeMonth true 12 = 335 := by decide
        rw [this]; omega
  · rename_i h
    rw [not_or] at h
    have hb3 : b ≤ 3 := by omega
    have hd3 : d ≤ 3 := by omega
    dsimp only
    rw [← leap_parts (a := a) hb3 hc24 hd3]
    obtain ⟨h1, h2, h3, h4, h5⟩ := monthDay_ok (isLeap (a * 400 + 1 + b * 100 + c * 4 + d)) e
      (by omega) (by omega)
    refine ⟨⟨by omega, h1, h2, h3, h4⟩, ?_⟩
    unfold ymd2ord
    rw [Nat.add_assoc, h5, year_parts hb3 hc24 hd3]
    omega

theorem month_mono : ∀ leap, ∀ m < 13, ∀ m' < 13, 1 ≤ m → m < m' →
    daysBeforeMonth leap m + daysInMonth leap m ≤ daysBeforeMonth leap m' := by decide +kernel

theorem month_bound : ∀ leap, ∀ m < 13, 1 ≤ m →
    daysBeforeMonth leap m + daysInMonth leap m ≤ 365 + (if leap then 1 else 0) := by decide +kernel

theorem year_step (y : Nat) (hy : 1 ≤ y) :
    daysBeforeYear (y + 1) = daysBeforeYear y + 365 + (if isLeap y then 1 else 0) := by
  unfold daysBeforeYear isLeap
  obtain ⟨z, rfl⟩ : ∃ z, y = z + 1 := ⟨y - 1, by omega⟩
  rw [Nat.add_sub_cancel, Nat.add_sub_cancel]
  have e4 : (z + 1) / 4 = z / 4 + (if (z + 1) % 4 = 0 then 1 else 0) := by split <;> omega
  have e100 : (z + 1) / 100 = z / 100 + (if (z + 1) % 100 = 0 then 1 else 0) := by split <;> omega
  have e400 : (z + 1) / 400 = z / 400 + (if (z + 1) % 400 = 0 then 1 else 0) := by split <;> omega
  have i1 : (z + 1) % 400 = 0 → (z + 1) % 100 = 0 := by omega
  have i2 : (z + 1) % 100 = 0 → (z + 1) % 4 = 0 := by omega
  have hle : z / 100 ≤ z / 4 := by omega
  rw [e4, e100, e400]
  generalize z / 4 = p at *
  generalize z / 100 = q at *
  generalize z / 400 = r at *
  by_cases h4 : (z + 1) % 4 = 0 <;> by_cases h100 : (z + 1) % 100 = 0 <;>
    by_cases h400 : (z + 1) % 400 = 0 <;> simp [h4, h100, h400] at i1 i2 ⊢ <;> omega

theorem year_mono {y y' : Nat} (h : y < y') (hy : 1 ≤ y) :
    daysBeforeYear y + 365 + (if isLeap y then 1 else 0) ≤ daysBeforeYear y' := by
  rw [← year_step y hy]
  have : ∀ k, daysBeforeYear (y + 1) ≤ daysBeforeYear (y + 1 + k) := by
    intro k
    induction k with
    | zero => exact Nat.le_refl _
    | succ k ih =>
      have := year_step (y + 1 + k) (by omega)
      rw [← Nat.add_assoc, this]
      omega
  have := this (y' - (y + 1))
  rwa [show y + 1 + (y' - (y + 1)) = y' by omega] at this

/-- Dates in lexicographic order have their ordinals in order. -/
theorem ymd2ord_lt {y m d y' m' d' : Nat} (h : ValidDate y m d) (h' : ValidDate y' m' d')
    (hlt : y < y' ∨ (y = y' ∧ (m < m' ∨ (m = m' ∧ d < d')))) : ymd2ord y m d < ymd2ord y' m' d' := by
  obtain ⟨h1, h2, h3, h4, h5⟩ := h
  obtain ⟨h1', h2', h3', h4', h5'⟩ := h'
  unfold ymd2ord
  rcases hlt with hlt | ⟨rfl, hlt | ⟨rfl, hlt⟩⟩
  · have a := year_mono hlt h1
    have b := month_bound (isLeap y) m (by omega) h2
    omega
  · have := month_mono (isLeap y) m (by omega) m' (by omega) h2 hlt
    omega
  · omega

theorem ymd2ord_inj {y m d y' m' d' : Nat} (h : ValidDate y m d) (h' : ValidDate y' m' d')
    (e : ymd2ord y m d = ymd2ord y' m' d') : y = y' ∧ m = m' ∧ d = d' := by
  have t1 := fun hlt => Nat.ne_of_lt (ymd2ord_lt h h' hlt)
  have t2 := fun hlt => Nat.ne_of_lt (ymd2ord_lt h' h hlt)
  by_contra hn
  have : (y < y' ∨ (y = y' ∧ (m < m' ∨ (m = m' ∧ d < d')))) ∨
      (y' < y ∨ (y' = y ∧ (m' < m ∨ (m' = m ∧ d' < d)))) := by omega
  rcases this with h | h
  · exact t1 h e
  · exact t2 h e.symm

/-! ### Digits -/

theorem digitChar_ok : ∀ n < 10, isDigit (digitChar n) = true ∧ (digitChar n).toNat - 48 = n ∧
    (digitChar n).toNat = 48 + n := by decide +kernel

theorem length_pad (w n : Nat) : (pad w n).length = w := by
  induction w generalizing n with
  | zero => rfl
  | succ w ih => simp [pad, ih]

theorem digits_pad (w n : Nat) : (pad w n).all isDigit = true := by
  induction w generalizing n with
  | zero => rfl
  | succ w ih =>
    simp [pad, ih, (digitChar_ok (n % 10) (Nat.mod_lt _ (by omega))).1]

theorem decimal_append (s : Str) (c : Char) : decimal (s ++ [c]) = decimal s * 10 + (c.toNat - 48) := by
  unfold decimal; rw [List.foldl_append]; rfl

theorem decimal_pad (w n : Nat) : decimal (pad w n) = n % 10 ^ w := by
  induction w generalizing n with
  | zero => simp [pad, decimal, Nat.mod_one]
  | succ w ih =>
    rw [pad, decimal_append, ih, (digitChar_ok (n % 10) (Nat.mod_lt _ (by omega))).2.1, Nat.pow_succ,
      Nat.mul_comm (10 ^ w) 10, Nat.mod_mul]
    omega

theorem yearStr_eq {y : Nat} (h : 1000 ≤ y) (h' : y ≤ 9999) : yearStr y = pad 4 y := by
  unfold yearStr
  apply dropWhile_none
  intro c hc
  have hp : pad 4 y = [digitChar (y / 10 / 10 / 10 % 10), digitChar (y / 10 / 10 % 10),
    digitChar (y / 10 % 10), digitChar (y % 10)] := rfl
  rw [hp] at hc
  simp only [List.head?_cons, Option.some.injEq] at hc
  subst hc
  have h1 : 1 ≤ y / 10 / 10 / 10 % 10 := by omega
  have h2 : y / 10 / 10 / 10 % 10 < 10 := by omega
  generalize y / 10 / 10 / 10 % 10 = k at h1 h2
  revert k
  decide +kernel

theorem yearStr_length {y : Nat} (h : y < 1000) : (yearStr y).length < 4 := by
  unfold yearStr
  have hp : pad 4 y = digitChar (y / 10 / 10 / 10 % 10) :: [digitChar (y / 10 / 10 % 10),
    digitChar (y / 10 % 10), digitChar (y % 10)] := rfl
  rw [hp, show y / 10 / 10 / 10 % 10 = 0 by omega, List.dropWhile_cons, if_pos (by decide)]
  exact Nat.lt_of_le_of_lt (List.dropWhile_sublist _).length_le (by simp)

theorem field_ok {lo hi : Nat} {ds : Str} {c : Char} {rest : Str} (hd : ds.all isDigit = true)
    (hlo : lo ≤ ds.length) (hhi : ds.length ≤ hi) (hc : isDigit c = false) :
    field lo hi (some c) (ds ++ c :: rest) = some (ds, rest) := by
  obtain ⟨e1, e2⟩ := span_digits hd (t := c :: rest) (by simpa using hc)
  unfold field
  dsimp only
  rw [e1, e2, if_pos ⟨hlo, hhi⟩]
  simp

theorem field_last {lo hi : Nat} {ds : Str} (hd : ds.all isDigit = true)
    (hlo : lo ≤ ds.length) (hhi : ds.length ≤ hi) : field lo hi none ds = some (ds, []) := by
  obtain ⟨e1, e2⟩ := span_digits hd (t := []) (by simp)
  rw [List.append_nil] at e1 e2
  unfold field
  dsimp only
  rw [e1, e2, if_pos ⟨hlo, hhi⟩]

/-- Fields that exist. -/
def DateTime.Valid (d : DateTime) : Prop :=
  ValidDate d.year d.month d.day ∧ d.hour ≤ 23 ∧ d.minute ≤ 59 ∧ d.second ≤ 59 ∧ d.micro ≤ 999999

theorem daysInMonth_le : ∀ leap, ∀ m < 13, daysInMonth leap m ≤ 31 := by decide +kernel

theorem strptime_strftime {d : DateTime} (h : d.Valid) (hy : 1000 ≤ d.year) (hy' : d.year ≤ 9999) :
    strptime (strftime d) = some d := by
  obtain ⟨⟨h1, h2, h3, h4, h5⟩, h6, h7, h8, h9⟩ := h
  have h10 := daysInMonth_le (isLeap d.year) d.month (by omega)
  unfold strftime strptime
  rw [yearStr_eq hy hy']
  simp only [List.append_assoc, List.cons_append]
  rw [field_ok (digits_pad _ _) (by rw [length_pad]) (by rw [length_pad]) (by decide)]
  dsimp only [Option.bind_eq_bind, Option.bind_some]
  rw [field_ok (digits_pad _ _) (by rw [length_pad]; omega) (by rw [length_pad]) (by decide)]
  dsimp only [Option.bind_eq_bind, Option.bind_some]
  rw [field_ok (digits_pad _ _) (by rw [length_pad]; omega) (by rw [length_pad]) (by decide)]
  dsimp only [Option.bind_eq_bind, Option.bind_some]
  rw [field_ok (digits_pad _ _) (by rw [length_pad]; omega) (by rw [length_pad]) (by decide)]
  dsimp only [Option.bind_eq_bind, Option.bind_some]
  rw [field_ok (digits_pad _ _) (by rw [length_pad]; omega) (by rw [length_pad]) (by decide)]
  dsimp only [Option.bind_eq_bind, Option.bind_some]
  rw [field_ok (digits_pad _ _) (by rw [length_pad]; omega) (by rw [length_pad]) (by decide)]
  dsimp only [Option.bind_eq_bind, Option.bind_some]
  rw [field_last (digits_pad _ _) (by rw [length_pad]; omega) (by rw [length_pad])]
  dsimp only [Option.bind_eq_bind, Option.bind_some]
  simp only [decimal_pad, length_pad]
  have e1 : d.year % 10 ^ 4 = d.year := Nat.mod_eq_of_lt (by omega)
  have e2 : d.month % 10 ^ 2 = d.month := Nat.mod_eq_of_lt (by omega)
  have e3 : d.day % 10 ^ 2 = d.day := Nat.mod_eq_of_lt (by omega)
  have e4 : d.hour % 10 ^ 2 = d.hour := Nat.mod_eq_of_lt (by omega)
  have e5 : d.minute % 10 ^ 2 = d.minute := Nat.mod_eq_of_lt (by omega)
  have e6 : d.second % 10 ^ 2 = d.second := Nat.mod_eq_of_lt (by omega)
  have e7 : d.micro % 10 ^ 6 = d.micro := Nat.mod_eq_of_lt (by omega)
  rw [e1, e2, e3, e4, e5, e6, e7, if_pos ⟨h1, h2, h3, h4, h5, h6, h7, h8⟩]
  simp

theorem strptime_short {d : DateTime} (hy : d.year < 1000) : strptime (strftime d) = none := by
  unfold strftime strptime
  have hl := yearStr_length hy
  have hdg : (yearStr d.year).all isDigit = true := by
    rw [List.all_eq_true]
    intro c hc
    have := digits_pad 4 d.year
    rw [List.all_eq_true] at this
    exact this c ((List.dropWhile_sublist _).subset hc)
  have : ∀ rest, field 4 4 (some '-') (yearStr d.year ++ '-' :: rest) = none := by
    intro rest
    obtain ⟨e1, e2⟩ := span_digits hdg (t := '-' :: rest) (by
      intro c hc
      simp only [List.head?_cons, Option.some.injEq] at hc
      subst hc
      decide)
    unfold field
    dsimp only
    rw [e1, if_neg (by omega)]
  simp only [List.append_assoc, List.cons_append]
  rw [this]
  rfl

theorem toFields_valid (t : Nat) : (toFields t).Valid := by
  obtain ⟨h1, _⟩ := ord2ymd_ok (n := t / 1000000 / 86400 + 1) (by omega)
  exact ⟨h1, by simp only [toFields]; omega, by simp only [toFields]; omega,
    by simp only [toFields]; omega, by simp only [toFields]; omega⟩

theorem fromFields_toFields (t : Nat) : fromFields (toFields t) = t := by
  obtain ⟨_, h2⟩ := ord2ymd_ok (n := t / 1000000 / 86400 + 1) (by omega)
  unfold fromFields
  have : ymd2ord (toFields t).year (toFields t).month (toFields t).day = t / 1000000 / 86400 + 1 := h2
  rw [this]
  simp only [toFields]
  omega

end Verif
