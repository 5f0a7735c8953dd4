import Verif.PosixPath
/-
Python text: white space, `strip`, lines of a text file.
-/
namespace Verif

/-- `str.isspace` of one character, which is also what `\s` matches. -/
def pySpace (c : Char) : Bool :=
  let n := c.toNat
  (9 ≤ n && n ≤ 13) || (28 ≤ n && n ≤ 32) || n == 0x85 || n == 0xa0 || n == 0x1680 ||
    (0x2000 ≤ n && n ≤ 0x200a) || n == 0x2028 || n == 0x2029 || n == 0x202f || n == 0x205f ||
    n == 0x3000

/-- `str.strip()`. -/
def strip (s : Str) : Str := ((s.dropWhile pySpace).reverse.dropWhile pySpace).reverse

/-- What reading a text file does to line ends (universal newlines). -/
def univNewlines : Str → Str
  | '\r' :: '\n' :: s => '\n' :: univNewlines s
  | '\r' :: s => '\n' :: univNewlines s
  | c :: s => c :: univNewlines s
  | [] => []

/-- The lines of a text, each with its line end (`for line in file`). -/
def fileLines : Str → List Str
  | [] => []
  | c :: s =>
    if c = '\n' then ['\n'] :: fileLines s
    else match fileLines s with
      | [] => [[c]]
      | l :: ls => (c :: l) :: ls

/-! ### Lemmas -/

theorem dropWhile_none {P : Char → Bool} {s : Str} (h : ∀ c, s.head? = some c → P c = false) :
    s.dropWhile P = s := by
  cases s with
  | nil => rfl
  | cons c s => simp [List.dropWhile_cons, h c rfl]

theorem head_dropWhile {P : Char → Bool} (s : Str) :
    ∀ c, (s.dropWhile P).head? = some c → P c = false := by
  induction s with
  | nil => simp
  | cons a s ih =>
    intro c
    rw [List.dropWhile_cons]
    split
    · exact ih c
    · rename_i h
      simp only [List.head?_cons, Option.some.injEq]
      rintro rfl
      simpa using h

/-- A text that `strip` leaves alone. -/
def Stripped (s : Str) : Prop := strip s = s

instance (s : Str) : Decidable (Stripped s) := by unfold Stripped; infer_instance

theorem stripped_iff {s : Str} : Stripped s ↔
    (∀ c, s.head? = some c → pySpace c = false) ∧ (∀ c, s.getLast? = some c → pySpace c = false) := by
  constructor
  · intro h
    have h1 : ∀ c, s.getLast? = some c → pySpace c = false := by
      intro c hc
      have := head_dropWhile (P := pySpace) ((s.dropWhile pySpace).reverse) c
      apply this
      have h' : ((s.dropWhile pySpace).reverse.dropWhile pySpace).reverse = s := h
      rw [← h'] at hc
      simpa using hc
    refine ⟨?_, h1⟩
    intro c hc
    have h' : ((s.dropWhile pySpace).reverse.dropWhile pySpace).reverse = s := h
    have hlen : s.length ≤ (s.dropWhile pySpace).length := by
      have := congrArg List.length h'
      rw [List.length_reverse] at this
      rw [← this]
      exact Nat.le_trans (List.dropWhile_sublist _).length_le (by simp)
    have : s.dropWhile pySpace = s := (List.dropWhile_sublist _).eq_of_length_le hlen
    have h2 := head_dropWhile (P := pySpace) s c
    rw [this] at h2
    exact h2 hc
  · rintro ⟨h1, h2⟩
    unfold Stripped strip
    rw [dropWhile_none h1, dropWhile_none (by simpa using h2), List.reverse_reverse]

theorem stripped_strip (s : Str) : Stripped (strip s) := by
  rw [stripped_iff]
  unfold strip
  constructor
  · intro c hc
    have key : ∀ (t : Str), ((t.reverse.dropWhile pySpace).reverse) <+: t := by
      intro t
      have := List.dropWhile_suffix (l := t.reverse) pySpace
      have := List.reverse_prefix.2 this
      simpa using this
    obtain ⟨r, hr⟩ := key (s.dropWhile pySpace)
    refine head_dropWhile (P := pySpace) s c ?_
    rw [← hr]
    cases h : ((s.dropWhile pySpace).reverse.dropWhile pySpace).reverse with
    | nil => rw [h] at hc; simp at hc
    | cons a t => rw [h] at hc; simpa using hc
  · intro c hc
    rw [List.getLast?_reverse] at hc
    exact head_dropWhile _ c hc

theorem mem_strip {s : Str} {c : Char} (h : c ∈ strip s) : c ∈ s := by
  unfold strip at h
  rw [List.mem_reverse] at h
  have h := (List.dropWhile_sublist _).subset h
  rw [List.mem_reverse] at h
  exact (List.dropWhile_sublist _).subset h

/-- White space around a stripped text is stripped. -/
theorem strip_append_space {v w : Str} (hv : Stripped v) (hw : ∀ c ∈ w, pySpace c = true) :
    strip (v ++ w) = v := by
  obtain ⟨h1, h2⟩ := stripped_iff.1 hv
  have hdw : ∀ (w t : Str), (∀ c ∈ w, pySpace c = true) →
      (w ++ t).dropWhile pySpace = t.dropWhile pySpace := by
    intro w t hw
    induction w with
    | nil => rfl
    | cons a w ih =>
      rw [List.cons_append, List.dropWhile_cons, if_pos (hw a (by simp)),
        ih (fun c hc => hw c (by simp [hc]))]
  unfold strip
  by_cases hv0 : v = []
  · subst hv0
    have := hdw w [] hw
    rw [List.append_nil] at this
    simp [this]
  · have e1 : (v ++ w).dropWhile pySpace = v ++ w := by
      refine dropWhile_none (fun c hc => h1 c ?_)
      cases v with
      | nil => exact absurd rfl hv0
      | cons a v => simpa using hc
    rw [e1, List.reverse_append, hdw _ _ (by simpa using hw), dropWhile_none (by simpa using h2),
      List.reverse_reverse]

theorem flatten_fileLines (s : Str) : (fileLines s).flatten = s := by
  induction s with
  | nil => rfl
  | cons c s ih =>
    unfold fileLines
    split
    · rename_i h; subst h; simp [ih]
    · split
      · rename_i h; rw [h] at ih; simp at ih; subst ih; rfl
      · rename_i l ls h
        rw [h] at ih
        simp at ih ⊢
        exact ih

/-- A line that ends in the only line end in it. -/
def IsLine (l : Str) : Prop := ∃ t, l = t ++ ['\n'] ∧ '\n' ∉ t

theorem fileLines_line {t : Str} (ht : '\n' ∉ t) (s : Str) :
    fileLines (t ++ '\n' :: s) = (t ++ ['\n']) :: fileLines s := by
  induction t with
  | nil => simp [fileLines]
  | cons c t ih =>
    simp only [List.mem_cons, not_or] at ht
    rw [List.cons_append, fileLines, if_neg (fun h => ht.1 h.symm), ih ht.2]
    rfl

theorem fileLines_last {t : Str} (ht : '\n' ∉ t) (h0 : t ≠ []) : fileLines t = [t] := by
  induction t with
  | nil => exact absurd rfl h0
  | cons c t ih =>
    simp only [List.mem_cons, not_or] at ht
    rw [fileLines, if_neg (fun h => ht.1 h.symm)]
    by_cases ht0 : t = []
    · subst ht0; rfl
    · rw [ih ht.2 ht0]

/-- The lines of a text: full lines, then possibly one without a line end. -/
theorem fileLines_shape (s : Str) : ∃ ls t, fileLines s = ls ++ (if t = [] then [] else [t]) ∧
    (∀ l ∈ ls, IsLine l) ∧ '\n' ∉ t := by
  induction s with
  | nil => exact ⟨[], [], by simp [fileLines], by simp, by simp⟩
  | cons c s ih =>
    obtain ⟨ls, t, h1, h2, h3⟩ := ih
    unfold fileLines
    split
    · refine ⟨['\n'] :: ls, t, by rw [h1]; rfl, ?_, h3⟩
      intro l hl
      rcases List.mem_cons.1 hl with rfl | hl
      · exact ⟨[], rfl, by simp⟩
      · exact h2 l hl
    · rename_i hc
      rw [h1]
      cases ls with
      | nil =>
        refine ⟨[], c :: t, ?_, by simp, ?_⟩
        · by_cases ht : t = []
          · subst ht; simp
          · simp [ht]
        · simp only [List.mem_cons, not_or]; exact ⟨fun h => hc h.symm, h3⟩
      | cons l ls =>
        obtain ⟨u, rfl, hu⟩ := h2 l (by simp)
        refine ⟨(c :: u ++ ['\n']) :: ls, t, rfl, ?_, h3⟩
        intro l hl
        rcases List.mem_cons.1 hl with rfl | hl
        · exact ⟨c :: u, rfl, by simp only [List.mem_cons, not_or]; exact ⟨fun h => hc h.symm, hu⟩⟩
        · exact h2 l (by simp [hl])

/-- Splitting a concatenation of lines gives the lines back. -/
theorem fileLines_flatten {ls : List Str} (h : ∀ l ∈ ls, IsLine l) {t : Str} (ht : '\n' ∉ t) :
    fileLines (ls.flatten ++ t) = ls ++ (if t = [] then [] else [t]) := by
  induction ls with
  | nil =>
    by_cases h0 : t = []
    · subst h0; rfl
    · simp [h0, fileLines_last ht h0]
  | cons l ls ih =>
    obtain ⟨u, rfl, hu⟩ := h l (by simp)
    rw [List.flatten_cons, List.append_assoc, List.append_assoc]
    rw [show ['\n'] ++ (ls.flatten ++ t) = '\n' :: (ls.flatten ++ t) from rfl, fileLines_line hu,
      ih (fun l hl => h l (by simp [hl]))]
    rfl

theorem univNewlines_eq {s : Str} (h : '\r' ∉ s) : univNewlines s = s := by
  induction s with
  | nil => rfl
  | cons c s ih =>
    simp only [List.mem_cons, not_or] at h
    have hc : c ≠ '\r' := fun e => h.1 e.symm
    unfold univNewlines
    split
    · rename_i he; exact absurd (List.cons.inj he).1 hc
    · rename_i he; exact absurd (List.cons.inj he).1 hc
    · rename_i c' s' _ _ he
      obtain ⟨rfl, rfl⟩ := List.cons.inj he
      rw [ih h.2]
    · rename_i he; simp at he

theorem not_mem_univNewlines (s : Str) : '\r' ∉ univNewlines s := by
  fun_induction univNewlines s with
  | case1 s ih => simp [ih]
  | case2 s _ ih => simp [ih]
  | case3 c s h1 h2 ih =>
    simp only [List.mem_cons, not_or]
    exact ⟨fun h => h2 h.symm, ih⟩
  | case4 => simp

end Verif
