import Verif.ProgressLine
/-
C82: the progress bar fills exactly one line of the terminal.
-/
namespace Verif

theorem rjust_length (s : Str) (n : Nat) : (rjust s n).length = max n s.length := by
  unfold rjust
  simp only [Int.toNat_natCast, List.length_append, List.length_replicate]
  omega

theorem natStr_percent : ∀ n < 101, (natStr n).length ≤ 3 ∧ 0 < (natStr n).length := by decide +kernel

theorem barStr_length {filled empty percent : Nat} (h : percent ≤ 100) :
    (barStr filled empty percent).length = filled + empty + 5 := by
  have h1 := (natStr_percent percent (by omega)).1
  have h2 := rjust_length (natStr percent) 3
  unfold barStr
  simp only [List.length_append, List.length_replicate, List.length_cons, List.length_nil] at h2 ⊢
  have h3 : (rjust (natStr percent) 3).length = 3 := by rw [show ((3 : Int)) = ((3 : Nat) : Int) from rfl, rjust_length]; omega
  omega

/-- A rounded part of a length is not longer than the length. -/
theorem Nearest.le {a b n m : Nat} (h : Nearest (m * a) b n) (hab : a ≤ b) (hb : 0 < b) : n ≤ m := by
  obtain ⟨h1, _⟩ := h
  rcases Nat.lt_or_ge m n with h2 | h2
  case inr => exact h2
  have h3 : 2 * b * (m + 1) ≤ 2 * b * n := Nat.mul_le_mul_left _ h2
  have h4 : m * a ≤ m * b := Nat.mul_le_mul_left _ hab
  have h5 : 2 * b * (m + 1) = 2 * (m * b) + 2 * b := by rw [Nat.mul_add, Nat.mul_comm m b, Nat.mul_assoc]; omega
  omega

theorem Nearest.self {b n m : Nat} (h : Nearest (m * b) b n) (hb : 0 < b) : n = m := by
  have h0 := h.le (Nat.le_refl b) hb
  obtain ⟨_, h2⟩ := h
  rcases Nat.lt_or_ge n m with h3 | h3
  case inr => omega
  have h4 : 2 * b * (n + 1) ≤ 2 * b * m := Nat.mul_le_mul_left _ h3
  have h5 : 2 * b * (n + 1) = 2 * b * n + 2 * b := by rw [Nat.mul_add]; omega
  have h6 : 2 * b * m = 2 * (m * b) := by rw [Nat.mul_comm m b, Nat.mul_assoc]
  omega

/-- C82: in a terminal of at least nine columns the progress bar is a line that has exactly the width of the terminal. It
is the beginning of the message, at least one space, the bar and the percentage. The bar covers 0.35 of the
width and `a / b` of it is filled. -/
theorem C82_partial {width bar a b filled percent : Nat} (message : Str) (hw : 9 ≤ width) (hb : 0 < b) (hab : a ≤ b)
    (h1 : Nearest (7 * width) 20 bar) (h2 : Nearest (bar * a) b filled) (h3 : Nearest (100 * a) b percent) :
    (progressLine width bar filled percent message).length = width ∧
    ∃ gap, 0 < gap ∧ progressLine width bar filled percent message =
      message.take (width - bar - 6) ++ List.replicate gap ' ' ++ List.replicate filled '█' ++
        List.replicate (bar - filled) '░' ++ ' ' :: (rjust (natStr percent) 3 ++ ['%']) := by
  have hf : filled ≤ bar := h2.le hab hb
  have hp : percent ≤ 100 := h3.le hab hb
  have hl : (barStr filled (bar - filled) percent).length = bar + 5 := by rw [barStr_length hp]; omega
  have hn : bar + 6 ≤ width := by obtain ⟨h, _⟩ := h1; omega
  have hs : sliceTo message ((width : Int) - ((barStr filled (bar - filled) percent).length : Nat) - 1) =
      message.take (width - bar - 6) := by
    rw [hl]
    unfold sliceTo
    rw [if_neg (by omega)]
    congr 1
    omega
  have hm : (message.take (width - bar - 6)).length ≤ width - bar - 6 := List.length_take_le _ _
  have hc : ((width : Int) - ((message.take (width - bar - 6)).length : Nat)) =
      ((width - (message.take (width - bar - 6)).length : Nat) : Int) := by omega
  unfold progressLine
  dsimp only
  rw [hs, hc]
  generalize message.take (width - bar - 6) = msg at hm
  refine ⟨?_, width - msg.length - (bar + 5), by omega, ?_⟩
  · rw [List.length_append, rjust_length, hl]; omega
  · have e : rjust (barStr filled (bar - filled) percent) ((width - msg.length : Nat) : Int) =
        List.replicate (width - msg.length - (bar + 5)) ' ' ++ barStr filled (bar - filled) percent := by
      rw [← hl]; rfl
    rw [e]
    unfold barStr
    simp only [List.append_assoc]

/-- C82: once everything is transferred, the bar is filled and 100 % is shown. -/
theorem C82_done {bar b filled percent : Nat} (hb : 0 < b) (h2 : Nearest (bar * b) b filled)
    (h3 : Nearest (100 * b) b percent) : filled = bar ∧ percent = 100 := ⟨h2.self hb, h3.self hb⟩

/-- C82 fails in a narrow terminal: the part of the message that is cut off is then counted from its end, so the line is
longer than the terminal by almost the whole message. -/
theorem C82_narrow_fails {width bar a b filled percent : Nat} (message : Str) (hw : width ≤ 8) (hb : 0 < b) (hab : a ≤ b)
    (h1 : Nearest (7 * width) 20 bar) (h2 : Nearest (bar * a) b filled) (h3 : Nearest (100 * a) b percent) :
    message.length + width ≤ (progressLine width bar filled percent message).length + 1 := by
  have hf : filled ≤ bar := h2.le hab hb
  have hp : percent ≤ 100 := h3.le hab hb
  have hl : (barStr filled (bar - filled) percent).length = bar + 5 := by rw [barStr_length hp]; omega
  have hn : width < bar + 6 ∧ bar ≤ width := by obtain ⟨h, h'⟩ := h1; omega
  unfold progressLine sliceTo rjust
  dsimp only
  have hneg : (-((width : Int) - ((bar + 5 : Nat) : Int) - 1)).toNat = bar + 6 - width := by omega
  rw [hl, if_pos (by omega), hneg]
  simp only [List.length_append, List.length_take, List.length_replicate, hl]
  omega

/-! ### Examples -/

example : Nearest (7 * 20) 20 7 ∧ Nearest (7 * 1) 2 4 ∧ Nearest (100 * 1) 2 50 := by unfold Nearest; decide

example : progressLine 20 7 4 50 "Updating remote files...".toList = "Updatin ████░░░  50%".toList := by decide +kernel

example : Nearest (7 * 8) 20 3 ∧ progressLine 8 3 3 100 "Updating".toList = "Updatin███ 100%".toList := by
  unfold Nearest; decide +kernel

/-- 100 % can also be shown before everything is transferred. -/
example : Nearest (100 * 399) 400 100 := by unfold Nearest; decide

end Verif
