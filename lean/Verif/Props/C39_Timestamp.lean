import Verif.TimestampLemmas
import Mathlib.Algebra.Order.Floor.Ring
import Mathlib.Data.Rat.Cast.Order
import Mathlib.Algebra.Order.Field.Power
import Mathlib.Tactic.Positivity
/-
C39: sync times are stored exactly.
-/
namespace Verif

/-- `a` comes before `b` in lexicographic order. -/
def LexLt (a b : Str) : Prop :=
  (∃ c r, b = a ++ c :: r) ∨
    ∃ p c d r s, a = p ++ c :: r ∧ b = p ++ d :: s ∧ c.toNat < d.toNat

/-- The instants of the years 1000 to 9999, in microseconds from 0001-01-01. -/
def FourDigitYear (t : Nat) : Prop :=
  daysBeforeYear 1000 * 86400 * 1000000 ≤ t ∧ t < daysBeforeYear 10000 * 86400 * 1000000

theorem year_bounds (t : Nat) : daysBeforeYear (toFields t).year * 86400 * 1000000 ≤ t ∧
    t < daysBeforeYear ((toFields t).year + 1) * 86400 * 1000000 := by
  obtain ⟨⟨h1, h2, h3, h4, h5⟩, h6⟩ := ord2ymd_ok (n := t / 1000000 / 86400 + 1) (by omega)
  have hm := month_bound (isLeap (toFields t).year) (toFields t).month (by simp only [toFields]; omega) h2
  have hs := year_step (toFields t).year h1
  have e : ymd2ord (toFields t).year (toFields t).month (toFields t).day = t / 1000000 / 86400 + 1 := h6
  unfold ymd2ord at e
  have h4' : 1 ≤ (toFields t).day := h4
  have h5' : (toFields t).day ≤ daysInMonth (isLeap (toFields t).year) (toFields t).month := h5
  omega

theorem dby_mono {y y' : Nat} (h : y ≤ y') (hy : 1 ≤ y) : daysBeforeYear y ≤ daysBeforeYear y' := by
  rcases Nat.lt_or_eq_of_le h with h | rfl
  · have := year_mono h hy; omega
  · exact Nat.le_refl _

theorem fourDigitYear_iff (t : Nat) :
    FourDigitYear t ↔ 1000 ≤ (toFields t).year ∧ (toFields t).year ≤ 9999 := by
  obtain ⟨h1, h2⟩ := year_bounds t
  have hv := (toFields_valid t).1.1
  unfold FourDigitYear
  generalize (toFields t).year = y at *
  constructor
  · rintro ⟨h3, h4⟩
    constructor
    · by_contra hn
      have := dby_mono (y := y + 1) (y' := 1000) (Nat.lt_of_not_le hn) (Nat.succ_pos y)
      omega
    · by_contra hn
      have := dby_mono (y := 10000) (y' := y) (Nat.lt_of_not_le hn) (Nat.succ_pos 9999)
      omega
  · rintro ⟨h3, h4⟩
    have a := dby_mono h3 (Nat.succ_pos 999)
    have b := dby_mono (y := y + 1) (y' := 10000) (Nat.succ_le_succ h4) (Nat.succ_pos y)
    omega

/-- Formatting an instant and parsing the text gives the instant back, for every
microsecond of the years 1000 to 9999. -/
theorem C39_fields_partial {t : Nat} (h : FourDigitYear t) :
    (strptime (strftime (toFields t))).map fromFields = some t := by
  rw [fourDigitYear_iff] at h
  rw [strptime_strftime (toFields_valid t) h.1 h.2, Option.map_some, fromFields_toFields]

/-- Missing from C39: before the year 1000 the text that is stored cannot be parsed,
because the year is written with fewer than four digits. -/
theorem C39_early_fails {t : Nat} (h : t < daysBeforeYear 1000 * 86400 * 1000000) :
    strptime (strftime (toFields t)) = none := by
  apply strptime_short
  obtain ⟨h1, _⟩ := year_bounds t
  by_contra hn
  have := dby_mono (y := 1000) (y' := (toFields t).year) (Nat.le_of_not_lt hn) (Nat.succ_pos 999)
  omega

/-! ### Order of the texts -/

theorem lexLt_append {a b x y : Str} (h : LexLt a b) (hl : a.length = b.length) :
    LexLt (a ++ x) (b ++ y) := by
  rcases h with ⟨c, r, rfl⟩ | ⟨p, c, d, r, s, rfl, rfl, hlt⟩
  · simp at hl
  · exact Or.inr ⟨p, c, d, r ++ x, s ++ y, by simp, by simp, hlt⟩

theorem lexLt_prefix {p a b : Str} (h : LexLt a b) : LexLt (p ++ a) (p ++ b) := by
  rcases h with ⟨c, r, rfl⟩ | ⟨q, c, d, r, s, rfl, rfl, hlt⟩
  · exact Or.inl ⟨c, r, by simp⟩
  · exact Or.inr ⟨p ++ q, c, d, r, s, by simp, by simp, hlt⟩

theorem lexLt_pad {w n m : Nat} (h : n < m) (hm : m < 10 ^ w) : LexLt (pad w n) (pad w m) := by
  induction w generalizing n m with
  | zero => omega
  | succ w ih =>
    rw [Nat.pow_succ] at hm
    unfold pad
    rcases Nat.lt_or_ge (n / 10) (m / 10) with hd | hd
    · exact lexLt_append (ih hd (by omega)) (by simp [length_pad])
    · have e : n / 10 = m / 10 := by omega
      rw [e]
      refine Or.inr ⟨pad w (m / 10), digitChar (n % 10), digitChar (m % 10), [], [], rfl, rfl, ?_⟩
      rw [(digitChar_ok (n % 10) (by omega)).2.2, (digitChar_ok (m % 10) (by omega)).2.2]
      omega

/-- One more field: the texts are in order if the first fields are, or if they are
equal and the rest is in order. -/
theorem lexLt_field {w n m : Nat} {c : Char} {x y : Str} (hm : m < 10 ^ w)
    (h : n < m ∨ (n = m ∧ LexLt x y)) : LexLt (pad w n ++ c :: x) (pad w m ++ c :: y) := by
  rcases h with h | ⟨rfl, h⟩
  · exact lexLt_append (lexLt_pad h hm) (by simp [length_pad])
  · exact lexLt_prefix (lexLt_prefix (p := [c]) h)

/-- Later instants are stored as lexicographically larger texts, for every two
instants of the years 1000 to 9999. -/
theorem C39_order_partial {t t' : Nat} (h : FourDigitYear t) (h' : FourDigitYear t') (hlt : t < t') :
    LexLt (strftime (toFields t)) (strftime (toFields t')) := by
  rw [fourDigitYear_iff] at h h'
  obtain ⟨⟨h1, h2, h3, h4, h5⟩, h6, h7, h8, h9⟩ := toFields_valid t
  obtain ⟨⟨g1, g2, g3, g4, g5⟩, g6, g7, g8, g9⟩ := toFields_valid t'
  have b := daysInMonth_le (isLeap (toFields t').year) (toFields t').month (by omega)
  have e := fromFields_toFields t
  have e' := fromFields_toFields t'
  have hord : ymd2ord (toFields t).year (toFields t).month (toFields t).day < ymd2ord (toFields t').year
      (toFields t').month (toFields t').day →
      (toFields t).year < (toFields t').year ∨ ((toFields t).year = (toFields t').year ∧
        ((toFields t).month < (toFields t').month ∨ ((toFields t).month = (toFields t').month ∧
          (toFields t).day < (toFields t').day))) := by
    intro ho
    by_contra hn
    by_cases heq : (toFields t).year = (toFields t').year ∧ (toFields t).month = (toFields t').month ∧
        (toFields t).day = (toFields t').day
    · rw [heq.1, heq.2.1, heq.2.2] at ho; omega
    · have := ymd2ord_lt ⟨g1, g2, g3, g4, g5⟩ ⟨h1, h2, h3, h4, h5⟩ (by omega)
      omega
  have hinj := fun he => ymd2ord_inj ⟨h1, h2, h3, h4, h5⟩ ⟨g1, g2, g3, g4, g5⟩ he
  have o1 : 1 ≤ ymd2ord (toFields t).year (toFields t).month (toFields t).day := by
    unfold ymd2ord; omega
  have o2 : 1 ≤ ymd2ord (toFields t').year (toFields t').month (toFields t').day := by
    unfold ymd2ord; omega
  unfold fromFields at e e'
  unfold strftime
  rw [yearStr_eq h.1 h.2, yearStr_eq h'.1 h'.2]
  simp only [List.append_assoc, List.cons_append]
  generalize toFields t = f at *
  generalize toFields t' = f' at *
  generalize ymd2ord f.year f.month f.day = o at *
  generalize ymd2ord f'.year f'.month f'.day = o' at *
  have hcase : o < o' ∨ (o = o' ∧ (f.hour < f'.hour ∨ (f.hour = f'.hour ∧ (f.minute < f'.minute ∨
      (f.minute = f'.minute ∧ (f.second < f'.second ∨ (f.second = f'.second ∧ f.micro < f'.micro))))))) := by
    omega
  have htail : (o = o' ∧ (f.hour < f'.hour ∨ (f.hour = f'.hour ∧ (f.minute < f'.minute ∨
      (f.minute = f'.minute ∧ (f.second < f'.second ∨ (f.second = f'.second ∧ f.micro < f'.micro))))))) →
      LexLt (pad 2 f.hour ++ ':' :: (pad 2 f.minute ++ ':' :: (pad 2 f.second ++ '.' :: pad 6 f.micro)))
        (pad 2 f'.hour ++ ':' :: (pad 2 f'.minute ++ ':' :: (pad 2 f'.second ++ '.' :: pad 6 f'.micro))) := by
    rintro ⟨_, hh⟩
    refine lexLt_field (by omega) (hh.imp id fun h => ⟨h.1, ?_⟩)
    refine lexLt_field (by omega) (h.2.imp id fun h => ⟨h.1, ?_⟩)
    refine lexLt_field (by omega) (h.2.imp id fun h => ⟨h.1, ?_⟩)
    exact lexLt_pad h.2 (by omega)
  refine lexLt_field (by omega) ?_
  rcases hcase with ho | ho
  · rcases hord ho with hy | ⟨hy, hm⟩
    · exact Or.inl hy
    · refine Or.inr ⟨hy, lexLt_field (by omega) ?_⟩
      rcases hm with hm | ⟨hm, hd⟩
      · exact Or.inl hm
      · exact Or.inr ⟨hm, lexLt_field (by omega) (Or.inl hd)⟩
  · obtain ⟨ey, em, ed⟩ := hinj ho.1
    exact Or.inr ⟨ey, lexLt_field (by omega) (Or.inr ⟨em, lexLt_field (by omega)
      (Or.inr ⟨ed, htail ho⟩)⟩)⟩

/-! ### Floating point -/

theorem roundEven_nearest (q : ℚ) (m : ℤ) : |(roundEven q : ℚ) - q| ≤ |(m : ℚ) - q| := by
  have h1 : (⌊q⌋ : ℚ) ≤ q := Int.floor_le q
  have h2 : q < ⌊q⌋ + 1 := Int.lt_floor_add_one q
  have hm : (m : ℚ) ≤ ⌊q⌋ ∨ (⌊q⌋ : ℚ) + 1 ≤ m := by
    rcases lt_or_ge ⌊q⌋ m with h | h
    · right; exact_mod_cast h
    · left; exact_mod_cast h
  have key : ∀ r : ℤ, (r = ⌊q⌋ ∧ q - ⌊q⌋ ≤ 1 / 2) ∨ (r = ⌊q⌋ + 1 ∧ 1 / 2 ≤ q - ⌊q⌋) →
      |(r : ℚ) - q| ≤ |(m : ℚ) - q| := by
    intro r hr
    rcases hr with ⟨rfl, hr⟩ | ⟨rfl, hr⟩
    · rw [abs_of_nonpos (by linarith)]
      rcases hm with hm | hm
      · rw [abs_of_nonpos (by linarith)]; linarith
      · rw [abs_of_nonneg (by linarith)]; linarith
    · push_cast
      rw [abs_of_nonneg (by linarith)]
      rcases hm with hm | hm
      · rw [abs_of_nonpos (by linarith)]; linarith
      · rw [abs_of_nonneg (by linarith)]; linarith
  apply key
  unfold roundEven
  split
  · exact Or.inl ⟨rfl, by linarith⟩
  · rename_i h
    split
    · exact Or.inr ⟨rfl, by linarith⟩
    · rename_i h'
      split
      · exact Or.inl ⟨rfl, by linarith⟩
      · exact Or.inr ⟨rfl, by linarith⟩

theorem roundEven_err (q : ℚ) : |(roundEven q : ℚ) - q| ≤ 1 / 2 := by
  have h1 : (⌊q⌋ : ℚ) ≤ q := Int.floor_le q
  have h2 : q < ⌊q⌋ + 1 := Int.lt_floor_add_one q
  rcases le_total (q - ⌊q⌋) (1 / 2) with h | h
  · refine le_trans (roundEven_nearest q ⌊q⌋) ?_
    rw [abs_of_nonpos (by linarith)]; linarith
  · refine le_trans (roundEven_nearest q (⌊q⌋ + 1)) ?_
    push_cast
    rw [abs_of_nonneg (by linarith)]; linarith

/-- A number within less than a half of an integer is rounded to it. -/
theorem roundEven_eq {q : ℚ} {m : ℤ} (h : |q - m| < 1 / 2) : roundEven q = m := by
  have h1 := roundEven_err q
  have h2 : |(roundEven q : ℚ) - m| < 1 := by
    have : (roundEven q : ℚ) - m = (roundEven q - q) + (q - m) := by ring
    rw [this]
    exact lt_of_le_of_lt (abs_add_le _ _) (by linarith)
  have h3 : |roundEven q - m| < 1 := by exact_mod_cast h2
  have := Int.abs_lt_one_iff.1 h3
  omega

/-- A float: an integer below 2^53 times a power of two. -/
def IsFloat (x : ℚ) : Prop := ∃ m e : ℤ, |m| < 2 ^ 53 ∧ x = m * 2 ^ e

theorem toFloat_zero : toFloat 0 = 0 := by
  unfold toFloat
  rw [zero_mul]
  have : roundEven 0 = 0 := roundEven_eq (by norm_num)
  rw [this]; simp

/-- `toFloat` is the nearest float. -/
theorem toFloat_nearest (q : ℚ) {x : ℚ} (hx : IsFloat x) : |toFloat q - q| ≤ |x - q| := by
  by_cases hq : q = 0
  · subst hq; rw [toFloat_zero]; simp
  have hpos : 0 < |q| := abs_pos.2 hq
  have hlo := Int.zpow_log_le_self (b := 2) (by omega) hpos
  set e := Int.log 2 |q| with he
  have hlo : (2 : ℚ) ^ e ≤ |q| := by exact_mod_cast hlo
  have hg : (0 : ℚ) < 2 ^ (e - 52) := by positivity
  -- distance to a multiple of the spacing
  have hmul : ∀ m : ℤ, |toFloat q - q| ≤ |(m : ℚ) * 2 ^ (e - 52) - q| := by
    intro m
    have hq2 : q = q * 2 ^ (52 - e) * 2 ^ (e - 52) := by
      rw [mul_assoc, ← zpow_add₀ (by norm_num)]; simp
    have e1 : toFloat q - q = (roundEven (q * 2 ^ (52 - e)) - q * 2 ^ (52 - e)) * 2 ^ (e - 52) := by
      conv => lhs; rhs; rw [hq2]
      unfold toFloat
      rw [← he]; ring
    have e2 : (m : ℚ) * 2 ^ (e - 52) - q = (m - q * 2 ^ (52 - e)) * 2 ^ (e - 52) := by
      conv => lhs; rhs; rw [hq2]
      ring
    rw [e1, e2, abs_mul, abs_mul]
    exact mul_le_mul_of_nonneg_right (roundEven_nearest _ m) (abs_nonneg _)
  obtain ⟨m, j, hm, rfl⟩ := hx
  rcases le_or_gt (e - 52) j with hj | hj
  · have := hmul (m * 2 ^ (j - (e - 52)).toNat)
    refine le_trans this (le_of_eq ?_)
    congr 2
    push_cast
    rw [mul_assoc, ← zpow_natCast, ← zpow_add₀ (by norm_num)]
    congr 2
    rw [Int.toNat_of_nonneg (by omega)]; ring
  · -- the float is below 2^e, which is on the grid
    have hsmall : |(m : ℚ) * 2 ^ j| ≤ 2 ^ e := by
      rw [abs_mul, abs_of_pos (show (0 : ℚ) < 2 ^ j by positivity)]
      have h1 : |(m : ℚ)| ≤ 2 ^ (53 : ℤ) := by
        have : ((|m| : ℤ) : ℚ) ≤ ((2 ^ 53 : ℤ) : ℚ) := Int.cast_le.2 (le_of_lt hm)
        rw [Int.cast_abs] at this
        refine le_trans this (le_of_eq ?_)
        norm_num
      have h2 : (2 : ℚ) ^ j ≤ 2 ^ (e - 53) := zpow_le_zpow_right₀ (by norm_num) (by omega)
      calc |(m : ℚ)| * 2 ^ j ≤ 2 ^ (53 : ℤ) * 2 ^ (e - 53) :=
            mul_le_mul h1 h2 (by positivity) (by positivity)
        _ = 2 ^ e := by rw [← zpow_add₀ (by norm_num)]; congr 1; ring
    have hgrid : (2 : ℚ) ^ e = ((2 ^ 52 : ℤ) : ℚ) * 2 ^ (e - 52) := by
      rw [show ((2 ^ 52 : ℤ) : ℚ) = 2 ^ (52 : ℤ) by norm_num, ← zpow_add₀ (by norm_num)]
      congr 1; ring
    rcases lt_or_gt_of_ne hq with hneg | hpos'
    · have := hmul (-(2 ^ 52))
      refine le_trans this ?_
      rw [Int.cast_neg, neg_mul, ← hgrid]
      rw [abs_of_neg hneg] at hlo
      rw [abs_of_nonneg (by linarith), abs_of_nonneg]
      · have := neg_le_of_abs_le hsmall; linarith
      · have := neg_le_of_abs_le hsmall; linarith
    · have := hmul (2 ^ 52)
      refine le_trans this ?_
      rw [← hgrid]
      rw [abs_of_pos hpos'] at hlo
      have hle := le_of_abs_le hsmall
      rw [abs_of_nonpos (by linarith), abs_of_nonpos (by linarith)]
      linarith

theorem toFloat_err_log {q : ℚ} : |toFloat q - q| ≤ 2 ^ (Int.log 2 |q| - 53) := by
  set e := Int.log 2 |q| with he
  have hq2 : q = q * 2 ^ (52 - e) * 2 ^ (e - 52) := by
    rw [mul_assoc, ← zpow_add₀ (by norm_num)]; simp
  have e1 : toFloat q - q = (roundEven (q * 2 ^ (52 - e)) - q * 2 ^ (52 - e)) * 2 ^ (e - 52) := by
    conv => lhs; rhs; rw [hq2]
    unfold toFloat
    rw [← he]; ring
  rw [e1, abs_mul, abs_of_pos (show (0 : ℚ) < 2 ^ (e - 52) by positivity)]
  calc |(roundEven (q * 2 ^ (52 - e)) : ℚ) - q * 2 ^ (52 - e)| * 2 ^ (e - 52)
      ≤ 1 / 2 * 2 ^ (e - 52) := mul_le_mul_of_nonneg_right (roundEven_err _) (by positivity)
    _ = 2 ^ (e - 53) := by
        rw [show (1 / 2 : ℚ) = 2 ^ (-1 : ℤ) by norm_num, ← zpow_add₀ (by norm_num)]
        congr 1; ring

theorem toFloat_err (q : ℚ) : |toFloat q - q| ≤ |q| * 2 ^ (-53 : ℤ) := by
  by_cases hq : q = 0
  · subst hq; rw [toFloat_zero]; simp
  have hpos : 0 < |q| := abs_pos.2 hq
  have hlo : ((2 : ℕ) : ℚ) ^ Int.log 2 |q| ≤ |q| := Int.zpow_log_le_self (b := 2) (by omega) hpos
  have hlo : (2 : ℚ) ^ Int.log 2 |q| ≤ |q| := by exact_mod_cast hlo
  refine le_trans toFloat_err_log ?_
  rw [sub_eq_add_neg, zpow_add₀ (by norm_num)]
  exact mul_le_mul_of_nonneg_right hlo (by positivity)

theorem truncQ_abs (x : ℚ) : |x - truncQ x| < 1 := by
  unfold truncQ
  split
  · rw [abs_of_nonneg (by linarith [Int.floor_le x])]
    linarith [Int.lt_floor_add_one x]
  · rw [abs_of_nonpos (by linarith [Int.le_ceil x])]
    linarith [Int.ceil_lt_add_one x]

/-- `utcfromtimestamp` is off by at most half a microsecond (and the error of one
multiplication). -/
theorem floatMicros_err (x : ℚ) : |(floatMicros x : ℚ) - x * 1000000| ≤ 1 / 2 + 1 / 1000000 := by
  unfold floatMicros
  push_cast
  have h1 := roundEven_err (toFloat ((x - truncQ x) * 1000000))
  have h2 := toFloat_err ((x - truncQ x) * 1000000)
  have h3 := truncQ_abs x
  have h4 : |(x - truncQ x) * 1000000| * 2 ^ (-53 : ℤ) ≤ 1 / 1000000 := by
    rw [abs_mul, abs_of_pos (show (0 : ℚ) < 1000000 by norm_num)]
    have : |x - truncQ x| * 1000000 ≤ 1000000 := by linarith
    calc |x - ↑(truncQ x)| * 1000000 * 2 ^ (-53 : ℤ) ≤ 1000000 * 2 ^ (-53 : ℤ) :=
          mul_le_mul_of_nonneg_right this (by positivity)
      _ ≤ 1 / 1000000 := by norm_num
  have : (truncQ x : ℚ) * 1000000 + roundEven (toFloat ((x - truncQ x) * 1000000)) - x * 1000000 =
      (roundEven (toFloat ((x - truncQ x) * 1000000)) - toFloat ((x - truncQ x) * 1000000)) +
      (toFloat ((x - truncQ x) * 1000000) - (x - truncQ x) * 1000000) := by ring
  rw [this]
  exact le_trans (abs_add_le _ _) (add_le_add h1 (le_trans h2 h4))

/-- What is read back after a time is stored: the float of its microseconds. -/
theorem read_stored {x : ℚ} (h0 : 0 ≤ floatMicros x + epochMicros)
    (hy : FourDigitYear (floatMicros x + epochMicros).toNat) :
    (convertTimestamp x).bind convertEpoch = some (toFloat ((floatMicros x : ℚ) / 1000000)) := by
  have hlt : floatMicros x + epochMicros < (daysBeforeYear 10000 * 86400 * 1000000 : Nat) := by
    have := hy.2; omega
  unfold convertTimestamp
  dsimp only
  rw [if_pos ⟨h0, hlt⟩, Option.bind_some]
  unfold convertEpoch
  have := C39_fields_partial hy
  rw [Option.map_eq_some_iff] at this
  obtain ⟨d, hd, hf⟩ := this
  rw [hd, Option.map_some, hf]
  congr 3
  rw [Int.toNat_of_nonneg h0]
  push_cast
  ring

/-- A time that is a float, in the years 1000 to 9999, is stored, can be read, and
what is read differs from it by at most one microsecond (and a rounding error
below a millionth of that). -/
theorem C39_close_partial {x : ℚ} (hx : IsFloat x) (h0 : 0 ≤ floatMicros x + epochMicros)
    (hy : FourDigitYear (floatMicros x + epochMicros).toNat) :
    ∃ s y, convertTimestamp x = some s ∧ convertEpoch s = some y ∧
      |y - x| ≤ 1000002 / 1000000 / 1000000 := by
  have h := read_stored h0 hy
  rw [Option.bind_eq_some_iff] at h
  obtain ⟨s, hs, hy'⟩ := h
  refine ⟨s, _, hs, hy', ?_⟩
  have h1 := floatMicros_err x
  have h2 := toFloat_nearest ((floatMicros x : ℚ) / 1000000) hx
  have h3 : |(floatMicros x : ℚ) / 1000000 - x| ≤ (1 / 2 + 1 / 1000000) / 1000000 := by
    have : (floatMicros x : ℚ) / 1000000 - x = (floatMicros x - x * 1000000) / 1000000 := by ring
    rw [this, abs_div, abs_of_pos (show (0 : ℚ) < 1000000 by norm_num)]
    exact div_le_div_of_nonneg_right h1 (by norm_num)
  rw [abs_sub_comm x] at h2
  have : toFloat ((floatMicros x : ℚ) / 1000000) - x =
      (toFloat ((floatMicros x : ℚ) / 1000000) - (floatMicros x : ℚ) / 1000000) +
      ((floatMicros x : ℚ) / 1000000 - x) := by ring
  rw [this]
  refine le_trans (abs_add_le _ _) ?_
  linarith

/-- Within 2^33 seconds of the epoch (1697 to 2242) the float of every microsecond is
stored as that microsecond. -/
theorem floatMicros_exact {k : ℤ} (hk : |k| < 2 ^ 33 * 1000000) :
    floatMicros (toFloat ((k : ℚ) / 1000000)) = k := by
  set x := toFloat ((k : ℚ) / 1000000) with hxdef
  have hkq : |(k : ℚ) / 1000000| < 2 ^ 33 := by
    rw [abs_div, abs_of_pos (show (0 : ℚ) < 1000000 by norm_num), div_lt_iff₀ (by norm_num)]
    exact_mod_cast hk
  have h1 : |x - (k : ℚ) / 1000000| ≤ 2 ^ (-21 : ℤ) := by
    by_cases h0 : (k : ℚ) / 1000000 = 0
    · rw [hxdef, h0, toFloat_zero, sub_zero, abs_zero]; positivity
    · refine le_trans toFloat_err_log (zpow_le_zpow_right₀ (by norm_num) ?_)
      have hp : 0 < |(k : ℚ) / 1000000| := abs_pos.2 h0
      have : Int.log 2 |(k : ℚ) / 1000000| < 33 := by
        rw [← Int.lt_zpow_iff_log_lt (by omega) hp]
        exact_mod_cast hkq
      omega
  unfold floatMicros
  have h2 := truncQ_abs x
  have h3 := toFloat_err ((x - truncQ x) * 1000000)
  have h4 : |(x - truncQ x) * 1000000| * 2 ^ (-53 : ℤ) ≤ 1 / 1000000 := by
    rw [abs_mul, abs_of_pos (show (0 : ℚ) < 1000000 by norm_num)]
    have : |x - truncQ x| * 1000000 ≤ 1000000 := by linarith
    calc |x - ↑(truncQ x)| * 1000000 * 2 ^ (-53 : ℤ) ≤ 1000000 * 2 ^ (-53 : ℤ) :=
          mul_le_mul_of_nonneg_right this (by positivity)
      _ ≤ 1 / 1000000 := by norm_num
  have h5 : |x * 1000000 - k| ≤ 48 / 100 := by
    have : x * 1000000 - k = (x - (k : ℚ) / 1000000) * 1000000 := by ring
    rw [this, abs_mul, abs_of_pos (show (0 : ℚ) < 1000000 by norm_num)]
    have h6 : (2 : ℚ) ^ (-21 : ℤ) * 1000000 ≤ 48 / 100 := by norm_num
    exact le_trans (mul_le_mul_of_nonneg_right h1 (by norm_num)) h6
  have h6 : roundEven (toFloat ((x - truncQ x) * 1000000)) = k - truncQ x * 1000000 := by
    apply roundEven_eq
    push_cast
    have : toFloat ((x - truncQ x) * 1000000) - ((k : ℚ) - truncQ x * 1000000) =
        (toFloat ((x - truncQ x) * 1000000) - (x - truncQ x) * 1000000) + (x * 1000000 - k) := by ring
    rw [this]
    refine lt_of_le_of_lt (abs_add_le _ _) ?_
    have := le_trans h3 h4
    linarith
  rw [h6]; ring

/-- Every microsecond within 2^33 seconds of the epoch is stored and read back
exactly, as the float nearest to it. -/
theorem C39_exact_partial {k : ℤ} (hk : |k| < 2 ^ 33 * 1000000) :
    convertTimestamp (toFloat ((k : ℚ) / 1000000)) = some (strftime (toFields (k + epochMicros).toNat)) ∧
    (convertTimestamp (toFloat ((k : ℚ) / 1000000))).bind convertEpoch =
      some (toFloat ((k : ℚ) / 1000000)) := by
  have hb := abs_lt.1 hk
  have he : (epochMicros : ℤ) = 62135596800000000 := by decide +kernel
  have h1000 : daysBeforeYear 1000 * 86400 * 1000000 = 31525372800000000 := by decide +kernel
  have h10000 : daysBeforeYear 10000 * 86400 * 1000000 = 315537897600000000 := by decide +kernel
  have hm := floatMicros_exact hk
  have h0 : 0 ≤ floatMicros (toFloat ((k : ℚ) / 1000000)) + epochMicros := by rw [hm, he]; omega
  have hy : FourDigitYear (floatMicros (toFloat ((k : ℚ) / 1000000)) + epochMicros).toNat := by
    unfold FourDigitYear
    rw [hm, he, h1000, h10000]
    omega
  have hr := read_stored h0 hy
  rw [hm] at hr
  refine ⟨?_, hr⟩
  unfold convertTimestamp
  dsimp only
  rw [if_pos, hm]
  rw [hm]
  refine ⟨by rw [he]; omega, ?_⟩
  rw [h10000, he]
  push_cast
  omega

/-- A later sync time is stored as a larger text. -/
theorem C39_later_partial {x x' : ℚ} (h0 : 0 ≤ floatMicros x + epochMicros)
    (hy : FourDigitYear (floatMicros x + epochMicros).toNat)
    (hy' : FourDigitYear (floatMicros x' + epochMicros).toNat) (h : floatMicros x < floatMicros x') :
    ∃ s s', convertTimestamp x = some s ∧ convertTimestamp x' = some s' ∧ LexLt s s' := by
  have h0' : 0 ≤ floatMicros x' + epochMicros := by omega
  have h1 : floatMicros x + epochMicros < (daysBeforeYear 10000 * 86400 * 1000000 : Nat) := by
    have := hy.2; omega
  have h2 : floatMicros x' + epochMicros < (daysBeforeYear 10000 * 86400 * 1000000 : Nat) := by
    have := hy'.2; omega
  refine ⟨_, _, if_pos ⟨h0, h1⟩, if_pos ⟨h0', h2⟩, ?_⟩
  exact C39_order_partial hy hy' (by omega)

/-- 2018-02-03T04:05:06.000007. -/
def exInstant : Nat := (1517630706 * 1000000 + 7) + epochMicros

example : FourDigitYear exInstant := by unfold FourDigitYear; decide +kernel
example : strftime (toFields exInstant) = "2018-02-03T04:05:06.000007".toList := by decide +kernel
example : strftime (toFields (exInstant + 999993 + 53 * 1000000)) =
    "2018-02-03T04:06:00.000000".toList := by decide +kernel
example : strftime (toFields 0) = "1-01-01T00:00:00.000000".toList := by decide +kernel
example : strptime (strftime (toFields 0)) = none := by decide +kernel
example : IsFloat (3 / 2) := ⟨3, -1, by norm_num, by norm_num⟩
example : |(1517630706 * 1000000 + 7 : ℤ)| < 2 ^ 33 * 1000000 := by decide +kernel

end Verif
