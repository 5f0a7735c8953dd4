import Verif.ConfigLemmas
import Verif.Spec.Config
/-
C38: defaults apply exactly to omitted options.
-/
namespace Verif

theorem white_iff {c : Char} : White c ↔ pySpace c = true := by
  unfold White pySpace whiteSpace
  generalize c.toNat = n
  simp only [List.mem_cons, List.not_mem_nil, or_false, Bool.or_eq_true, Bool.and_eq_true,
    decide_eq_true_eq, beq_iff_eq]
  omega

theorem dropWhile_space_append {w t : Str} (hw : ∀ c ∈ w, pySpace c = true) :
    (w ++ t).dropWhile pySpace = t.dropWhile pySpace := by
  induction w with
  | nil => rfl
  | cons a w ih =>
    rw [List.cons_append, List.dropWhile_cons, if_pos (hw a (by simp)),
      ih (fun c hc => hw c (by simp [hc]))]

theorem takeWhile_space (s : Str) : s = s.takeWhile pySpace ++ s.dropWhile pySpace ∧
    ∀ c ∈ s.takeWhile pySpace, pySpace c = true :=
  ⟨List.takeWhile_append_dropWhile.symm, fun _ hc => by
    have := List.all_takeWhile (p := pySpace) (l := s)
    exact List.all_eq_true.1 this _ hc⟩

theorem trims_iff {s t : Str} : Trims s t ↔ strip s = t := by
  constructor
  · rintro ⟨w, w', rfl, h1, h2, h3, h4⟩
    have ht : Stripped t := by
      rw [stripped_iff]
      refine ⟨fun c hc => ?_, fun c hc => ?_⟩
      · rw [Bool.eq_false_iff]; exact fun h => h3 c hc (white_iff.2 h)
      · rw [Bool.eq_false_iff]; exact fun h => h4 c hc (white_iff.2 h)
    have : strip (w ++ t ++ w') = strip (t ++ w') := by
      unfold strip
      rw [List.append_assoc, dropWhile_space_append (fun c hc => white_iff.1 (h1 c hc))]
    rw [this]
    exact strip_append_space ht (fun c hc => white_iff.1 (h2 c hc))
  · rintro rfl
    obtain ⟨e1, h1⟩ := takeWhile_space s
    obtain ⟨e2, h2⟩ := takeWhile_space (s.dropWhile pySpace).reverse
    have hs := stripped_iff.1 (stripped_strip s)
    refine ⟨s.takeWhile pySpace, ((s.dropWhile pySpace).reverse.takeWhile pySpace).reverse, ?_,
      fun c hc => white_iff.2 (h1 c hc), fun c hc => white_iff.2 (h2 c (by simpa using hc)), ?_, ?_⟩
    · have e3 := congrArg List.reverse e2
      rw [List.reverse_reverse, List.reverse_append] at e3
      unfold strip
      rw [List.append_assoc, ← e3]
      exact e1
    · intro c hc h; rw [white_iff, hs.1 c hc] at h; simp at h
    · intro c hc h; rw [white_iff, hs.2 c hc] at h; simp at h

theorem commentLine_iff {l : Str} : CommentLine l ↔ isComment l = true := by
  unfold CommentLine isComment
  constructor
  · rintro ⟨w, r, rfl, hw⟩
    rw [dropWhile_space_append (fun c hc => white_iff.1 (hw c hc)), List.dropWhile_cons]
    rw [if_neg (by decide)]
    rfl
  · intro h
    obtain ⟨e1, h1⟩ := takeWhile_space l
    cases hd : l.dropWhile pySpace with
    | nil => rw [hd] at h; simp at h
    | cons c r =>
      rw [hd] at h e1
      simp at h
      subst h
      exact ⟨_, r, e1, fun c hc => white_iff.2 (h1 c hc)⟩

theorem assigns_iff {l k v : Str} : Assigns l k v ↔ parseLine l = some (k, v) := by
  unfold Assigns
  rw [commentLine_iff, Bool.not_eq_true]
  constructor
  · rintro ⟨hc, a, b, rfl, ha, hk, hv⟩
    rw [parseLine_split ha, if_pos hc, trims_iff.1 hk, trims_iff.1 hv]
  · intro h
    rcases parseLine_cases l with h' | ⟨a, b, hl, ha, hc, h'⟩
    · rw [h'] at h; simp at h
    · rw [h'] at h
      simp only [Option.some.injEq, Prod.mk.injEq] at h
      exact ⟨hc, a, b, hl, ha, trims_iff.2 h.1, trims_iff.2 h.2⟩

theorem univNewlines_append {l : Str} (h : '\r' ∉ l) (t : Str) :
    univNewlines (l ++ t) = l ++ univNewlines t := by
  induction l with
  | nil => rfl
  | cons c l ih =>
    simp only [List.mem_cons, not_or] at h
    have hc : c ≠ '\r' := fun e => h.1 e.symm
    rw [List.cons_append]
    conv => lhs; unfold univNewlines
    split
    · rename_i he; exact absurd (List.cons.inj he).1 hc
    · rename_i he; exact absurd (List.cons.inj he).1 hc
    · rename_i c' s' _ _ he
      obtain ⟨rfl, rfl⟩ := List.cons.inj he
      rw [ih h.2]; rfl
    · rename_i he; simp at he

/-- A line end does not matter for what a line sets. -/
theorem parseLine_newline (l : Str) : parseLine (l ++ ['\n']) = parseLine l := by
  have hcom : isComment (l ++ ['\n']) = isComment l := by
    unfold isComment
    rw [List.dropWhile_append]
    split
    · rename_i h
      rw [List.isEmpty_iff] at h
      rw [h]
      decide
    · rename_i h
      cases hd : l.dropWhile pySpace with
      | nil => rw [hd] at h; simp at h
      | cons c r => rfl
  by_cases he : '=' ∈ l
  · obtain ⟨h1, h2⟩ := takeWhile_dropWhile_ne he
    generalize l.takeWhile (· != '=') = a at h1 h2
    generalize (l.dropWhile (· != '=')).drop 1 = b at h1
    subst h1
    have e : a ++ '=' :: b ++ ['\n'] = a ++ '=' :: (b ++ ['\n']) := by simp
    have hb : strip (b ++ ['\n']) = strip b := by
      obtain ⟨w, w', e, h1, h2, h3, h4⟩ := trims_iff.2 (rfl : strip b = strip b)
      refine trims_iff.1 ⟨w, w' ++ ['\n'], ?_, h1, ?_, h3, h4⟩
      · conv => lhs; rw [e]
        simp
      · intro c hc
        rcases List.mem_append.1 hc with hc | hc
        · exact h2 c hc
        · rw [List.mem_singleton.1 hc]; simp [White, whiteSpace]
    rw [e] at hcom ⊢
    rw [parseLine_split h2, parseLine_split h2, hcom, hb]
  · unfold parseLine
    rw [if_neg (c := _ ∧ '=' ∈ l) (fun h => he h.2), if_neg]
    rintro ⟨_, h⟩
    rcases List.mem_append.1 h with h | h
    · exact he h
    · simp at h

theorem assignments_linesOf {T : Str} {ls : List Str} (h : LinesOf T ls) :
    assignments T = ls.filterMap parseLine := by
  induction h with
  | @last l h1 h2 =>
    unfold assignments
    rw [univNewlines_eq h2]
    by_cases h0 : l = []
    · subst h0; decide +kernel
    · rw [fileLines_last h1 h0]
  | @cons l sep t ls h1 h2 h3 _ ih =>
    have : univNewlines (l ++ sep ++ t) = l ++ '\n' :: univNewlines t := by
      rw [List.append_assoc, univNewlines_append h2]
      congr 1
      rcases h3 with rfl | rfl | ⟨rfl, ht⟩
      · exact univNewlines_append (l := ['\n']) (by decide) t
      · rfl
      · cases t with
        | nil => rfl
        | cons c t =>
          have hc : c ≠ '\n' := by simpa using ht
          show univNewlines ('\r' :: c :: t) = _
          conv => lhs; unfold univNewlines
          split
          · rename_i he
            exact absurd (List.cons.inj (List.cons.inj he).2).1 hc
          · rename_i he
            rw [← (List.cons.inj he).2]
          · rename_i _ hne he
            exact absurd (List.cons.inj he).1.symm hne
          · rename_i he; simp at he
    unfold assignments at ih ⊢
    rw [this, fileLines_line h1, List.filterMap_cons, List.filterMap_cons, parseLine_newline, ih]

/-- Every text has lines. -/
theorem linesOf_exists (T : Str) : ∃ ls, LinesOf T ls := by
  suffices h : ∀ n, ∀ T : Str, T.length ≤ n → ∃ ls, LinesOf T ls from h _ T (Nat.le_refl _)
  intro n
  induction n with
  | zero => intro T hT; rw [List.length_eq_zero_iff.1 (Nat.le_zero.1 hT)]; exact ⟨_, .last (by simp) (by simp)⟩
  | succ n ih =>
    intro T hT
    let P : Char → Bool := fun c => c != '\n' && c != '\r'
    have e : T = T.takeWhile P ++ T.dropWhile P := List.takeWhile_append_dropWhile.symm
    have hl : ∀ c ∈ T.takeWhile P, P c = true := fun c hc =>
      List.all_eq_true.1 (List.all_takeWhile (p := P) (l := T)) _ hc
    have h1 : '\n' ∉ T.takeWhile P := fun h => by simpa [P] using hl _ h
    have h2 : '\r' ∉ T.takeWhile P := fun h => by simpa [P] using hl _ h
    generalize T.takeWhile P = l at e h1 h2
    have hh := head_dropWhile (P := P) T
    cases hd : T.dropWhile P with
    | nil =>
      rw [hd, List.append_nil] at e
      exact ⟨[T], LinesOf.last (by rw [e]; exact h1) (by rw [e]; exact h2)⟩
    | cons c t =>
      rw [hd] at e hh
      have hlen : t.length ≤ n := by
        have := congrArg List.length e
        simp at this; omega
      have hc := hh c rfl
      have hc : c = '\n' ∨ c = '\r' := by
        simp only [P, Bool.and_eq_false_iff, bne_eq_false_iff_eq] at hc
        exact hc
      rcases hc with rfl | rfl
      · obtain ⟨ls, hls⟩ := ih t hlen
        refine ⟨l :: ls, ?_⟩
        rw [e]
        have := LinesOf.cons h1 h2 (Or.inl rfl) hls
        simpa using this
      · cases t with
        | nil =>
          obtain ⟨ls, hls⟩ := ih [] (by simp)
          refine ⟨l :: ls, ?_⟩
          rw [e]
          have := LinesOf.cons h1 h2 (Or.inr (Or.inr ⟨rfl, by simp⟩)) hls
          simpa using this
        | cons d t =>
          by_cases hdn : d = '\n'
          · subst hdn
            obtain ⟨ls, hls⟩ := ih t (by simp at hlen; omega)
            refine ⟨l :: ls, ?_⟩
            rw [e]
            have := LinesOf.cons h1 h2 (Or.inr (Or.inl rfl)) hls
            simpa using this
          · obtain ⟨ls, hls⟩ := ih (d :: t) hlen
            refine ⟨l :: ls, ?_⟩
            rw [e]
            have := LinesOf.cons h1 h2 (Or.inr (Or.inr ⟨rfl, by simpa using hdn⟩)) hls
            simpa using this

theorem lastAssigns_iff {T : Str} {ls : List Str} (h : LinesOf T ls) (k v : Str) :
    (configRead [] T).get k = some v ↔ LastAssigns ls k v := by
  rw [configRead_eq, get_setAll, assignments_linesOf h]
  clear h
  induction ls using List.reverseRecOn with
  | nil =>
    simp only [List.filterMap_nil, List.reverse_nil, List.find?_nil, Dict.get_nil]
    constructor
    · simp
    · rintro ⟨l1, l, l2, h, _⟩; simp at h
  | append_singleton ls l ih =>
    rw [List.filterMap_append, List.reverse_append]
    have key : LastAssigns (ls ++ [l]) k v ↔
        (Assigns l k v ∨ ((∀ v', ¬ Assigns l k v') ∧ LastAssigns ls k v)) := by
      constructor
      · rintro ⟨l1, m, l2, e, h1, h2⟩
        rcases List.eq_nil_or_concat l2 with rfl | ⟨l2', x, rfl⟩
        · have e1 := List.append_inj_right' e rfl
          simp at e1
          subst e1
          exact Or.inl h1
        · rw [List.concat_eq_append] at e h2
          have e : ls ++ [l] = (l1 ++ m :: l2') ++ [x] := by rw [e]; simp
          have e1 := List.append_inj_right' e rfl
          have e2 := List.append_inj_left' e rfl
          simp at e1
          subst e1
          refine Or.inr ⟨h2 l (by simp), l1, m, l2', e2, h1, fun l' hl' => h2 l' (by simp [hl'])⟩
      · rintro (h | ⟨hn, l1, m, l2, e, h1, h2⟩)
        · exact ⟨ls, l, [], rfl, h, by simp⟩
        · refine ⟨l1, m, l2 ++ [l], by rw [e]; simp, h1, fun l' hl' => ?_⟩
          rcases List.mem_append.1 hl' with hl' | hl'
          · exact h2 l' hl'
          · rw [List.mem_singleton.1 hl']; exact hn
    rw [key]
    simp only [assigns_iff]
    cases hp : parseLine l with
    | none => simpa [hp] using ih
    | some e =>
      obtain ⟨k', v'⟩ := e
      simp only [List.filterMap_cons, hp, List.filterMap_nil, List.reverse_singleton,
        List.singleton_append, List.find?_cons, Option.some.injEq, Prod.mk.injEq]
      by_cases hk : k' = k
      · subst hk
        simp
      · simpa [hk] using ih

/-- An option that is set in a config file has the value its last line gives it,
for every text and every way its lines end. -/
theorem C38_last (T : Str) : ∃ ls, LinesOf T ls ∧
    ∀ k v, LastAssigns ls k v → vals (configRead [] T) k = some v := by
  obtain ⟨ls, h⟩ := linesOf_exists T
  refine ⟨ls, h, fun k v hk => ?_⟩
  unfold vals
  rw [(lastAssigns_iff h k v).2 hk]

theorem docDefault_iff (k v : Str) : DocDefault k v ↔ defaults.get k = some v := by
  constructor
  · intro h; cases h <;> decide +kernel
  · intro h
    have := (Dict.get_eq_some (d := defaults) (by unfold Dict.Nodup; decide +kernel)).1 h
    simp only [defaults, List.mem_cons, Prod.mk.injEq, List.not_mem_nil, or_false] at this
    rcases this with ⟨rfl, rfl⟩ | ⟨rfl, rfl⟩ | ⟨rfl, rfl⟩ | ⟨rfl, rfl⟩ | ⟨rfl, rfl⟩ | ⟨rfl, rfl⟩ <;>
      constructor

/-- The value of an option is the one of the last line that sets it; if there is
no such line, it is the documented default, and nothing if there is none. -/
theorem C38_value {T : Str} {ls : List Str} (h : LinesOf T ls) (k v : Str) :
    vals (configRead [] T) k = some v ↔
      LastAssigns ls k v ∨ ((∀ l ∈ ls, ∀ v', ¬ Assigns l k v') ∧ DocDefault k v) := by
  have hex : (∃ v', LastAssigns ls k v') ↔ ∃ l ∈ ls, ∃ v', Assigns l k v' := by
    constructor
    · rintro ⟨v', l1, l, l2, rfl, h1, _⟩
      exact ⟨l, by simp, v', h1⟩
    · rintro ⟨l, hl, v', hv⟩
      by_contra hn
      have h1 : (configRead [] T).get k = none := by
        cases hg : (configRead [] T).get k with
        | none => rfl
        | some w => exact absurd ⟨w, (lastAssigns_iff h k w).1 hg⟩ hn
      rw [configRead_eq, get_setAll, assignments_linesOf h] at h1
      have : (ls.filterMap parseLine).reverse.find? (fun e => decide (e.1 = k)) = none := by
        cases hf : (ls.filterMap parseLine).reverse.find? (fun e => decide (e.1 = k)) with
        | none => rfl
        | some e => rw [hf] at h1; simp at h1
      rw [List.find?_eq_none] at this
      have := this (k, v') (by
        rw [List.mem_reverse, List.mem_filterMap]; exact ⟨l, hl, assigns_iff.1 hv⟩)
      simp at this
  unfold vals
  cases hg : (configRead [] T).get k with
  | some w =>
    have hw := (lastAssigns_iff h k w).1 hg
    dsimp only
    constructor
    · rintro ⟨⟩; exact Or.inl hw
    · rintro (h1 | ⟨h1, _⟩)
      · rw [← (lastAssigns_iff h k v).2 h1, hg]
      · obtain ⟨l, hl, v', hv'⟩ := hex.1 ⟨w, hw⟩
        exact absurd hv' (h1 l hl v')
  | none =>
    dsimp only
    have hno : ∀ w, ¬ LastAssigns ls k w := fun w hw => by
      rw [(lastAssigns_iff h k w).2 hw] at hg; simp at hg
    rw [← docDefault_iff]
    constructor
    · intro h1
      refine Or.inr ⟨fun l hl v' hv' => ?_, h1⟩
      obtain ⟨w, hw⟩ := hex.2 ⟨l, hl, v', hv'⟩
      exact hno w hw
    · rintro (h1 | ⟨_, h1⟩)
      · exact absurd h1 (hno v)
      · exact h1

/-! ### check_all -/

theorem digits_iff {s : Str} : Digits s ↔ s ≠ [] ∧ s.all isDigit = true := by
  unfold Digits
  rw [List.all_eq_true]
  have : ∀ c : Char, c ∈ ['0', '1', '2', '3', '4', '5', '6', '7', '8', '9'] ↔ isDigit c = true := by
    intro c
    constructor
    · intro h
      simp only [List.mem_cons, List.not_mem_nil, or_false] at h
      rcases h with rfl | rfl | rfl | rfl | rfl | rfl | rfl | rfl | rfl | rfl <;> decide
    · intro h
      simp only [isDigit, Bool.and_eq_true, decide_eq_true_eq] at h
      have h' : c.toNat = 48 ∨ c.toNat = 49 ∨ c.toNat = 50 ∨ c.toNat = 51 ∨ c.toNat = 52 ∨
        c.toNat = 53 ∨ c.toNat = 54 ∨ c.toNat = 55 ∨ c.toNat = 56 ∨ c.toNat = 57 := by omega
      have e := Char.ofNat_toNat c
      rcases h' with h | h | h | h | h | h | h | h | h | h <;> (rw [h] at e; rw [← e]; decide)
  constructor
  · rintro ⟨h1, h2⟩; exact ⟨h1, fun c hc => (this c).1 (h2 c hc)⟩
  · rintro ⟨h1, h2⟩; exact ⟨h1, fun c hc => (this c).2 (h2 c hc)⟩

/-- `$` before a final line end plays no part in stripped values. -/
theorem dollar_stripped {s : Str} (h : Stripped s) : dollar s = s := by
  unfold dollar
  rw [if_neg]
  intro hl
  have := (stripped_iff.1 h).2 _ hl
  simp [pySpace] at this

theorem matchInt_iff {v : Str} (h : Stripped v) : matchInt v = true ↔ Digits v := by
  unfold matchInt
  rw [dollar_stripped h, digits_iff]
  simp

theorem stripped_cons {c : Char} {s : Str} (h : Stripped (c :: s)) (h0 : s ≠ []) :
    dollar s = s := by
  unfold dollar
  rw [if_neg]
  intro hl
  have := (stripped_iff.1 h).2 '\n' (by rw [List.getLast?_cons, hl]; rfl)
  simp [pySpace] at this

theorem matchSigned_iff {v : Str} (h : Stripped v) :
    matchSigned v = true ↔ (Digits v ∨ ∃ r, v = '-' :: r ∧ Digits r) := by
  unfold matchSigned
  split
  · rename_i s
    have h1 : ¬ Digits ('-' :: s) := by rw [digits_iff]; simp [isDigit]
    by_cases h0 : s = []
    · subst h0
      constructor
      · intro h; exact absurd h (by decide)
      · rintro (h | ⟨r, e, hr⟩)
        · exact absurd h h1
        · exact absurd (List.cons.inj e).2.symm hr.1
    · have : matchInt s = true ↔ Digits s := by
        unfold matchInt; rw [stripped_cons h h0, digits_iff]; simp
      rw [this]
      constructor
      · intro h; exact Or.inr ⟨s, rfl, h⟩
      · rintro (h | ⟨r, e, hr⟩)
        · exact absurd h h1
        · rw [(List.cons.inj e).2]; exact hr
  · rename_i hne
    rw [matchInt_iff h]
    constructor
    · exact Or.inl
    · rintro (h | ⟨r, rfl, hr⟩)
      · exact h
      · exact absurd rfl (hne r)

theorem matchAbs_iff {v : Str} : matchAbs v = true ↔ ∃ r, v = '/' :: r ∨ v = '~' :: '/' :: r := by
  unfold matchAbs
  split
  · rename_i r; exact ⟨fun _ => ⟨r, Or.inl rfl⟩, fun _ => rfl⟩
  · rename_i r; exact ⟨fun _ => ⟨r, Or.inr rfl⟩, fun _ => rfl⟩
  · rename_i h1 h2
    constructor
    · simp
    · rintro ⟨r, h | h⟩
      · exact absurd h (h1 r)
      · exact absurd h (h2 r)

theorem isPrefixChar_iff {p : Char} :
    isPrefixChar p = true ↔ p ∈ ['K', 'k', '\u212a', 'M', 'm', 'G', 'g'] := by
  unfold isPrefixChar
  have h : p.toNat = 0x212a ↔ p = '\u212a' := by
    constructor
    · intro h; rw [← Char.ofNat_toNat p, h]
    · rintro rfl; rfl
  simp only [Bool.or_eq_true, decide_eq_true_eq, beq_iff_eq, h, List.mem_cons, List.not_mem_nil,
    or_false]
  constructor
  · rintro ((h | h | h | h | h | h) | h) <;> simp [h]
  · rintro (h | h | h | h | h | h | h) <;> simp [h]

theorem isI_iff {p : Char} : isI p = true ↔ p ∈ ['i', 'I', 'İ', 'ı'] := by
  unfold isI
  have h : p.toNat = 0x130 ↔ p = 'İ' := by
    constructor
    · intro h; rw [← Char.ofNat_toNat p, h]
    · rintro rfl; rfl
  have h' : p.toNat = 0x131 ↔ p = 'ı' := by
    constructor
    · intro h; rw [← Char.ofNat_toNat p, h]
    · rintro rfl; rfl
  simp only [Bool.or_eq_true, decide_eq_true_eq, beq_iff_eq, h, h', List.mem_cons, List.not_mem_nil,
    or_false]
  constructor
  · rintro (((h | h) | h) | h) <;> simp [h]
  · rintro (h | h | h | h) <;> simp [h]

theorem isUnit_iff {u : Str} : isUnit u = true ↔
    (u = [] ∨ (∃ b, u = [b] ∧ b ∈ ['B', 'b']) ∨
      (∃ i b, u = [i, b] ∧ i ∈ ['i', 'I', 'İ', 'ı'] ∧ b ∈ ['B', 'b'])) := by
  unfold isUnit
  split
  · simp
  · simp
  · rename_i i b
    rw [Bool.and_eq_true, isI_iff]
    constructor
    · rintro ⟨h1, h2⟩; exact Or.inr (Or.inr ⟨i, b, rfl, h1, of_decide_eq_true h2⟩)
    · rintro (h | ⟨b', h, _⟩ | ⟨i', b', h, h1, h2⟩)
      · simp at h
      · simp at h
      · simp only [List.cons.injEq, and_true] at h
        obtain ⟨rfl, rfl⟩ := h
        exact ⟨h1, decide_eq_true h2⟩
  · rename_i h1 h2 h3
    constructor
    · simp
    · rintro (h | ⟨b, h, _⟩ | ⟨i, b, h, _⟩)
      · exact absurd h h1
      · exact absurd h (h2 b)
      · exact absurd h (h3 i b)

theorem digit_not_space {c : Char} (h : isDigit c = true) : pySpace c = false := by
  simp only [isDigit, Bool.and_eq_true, decide_eq_true_eq] at h
  rw [Bool.eq_false_iff]
  intro hs
  have := white_iff.2 hs
  simp only [White, whiteSpace, List.mem_cons, List.not_mem_nil, or_false] at this
  omega

theorem span_digits {num t : Str} (h : num.all isDigit = true)
    (ht : ∀ c, t.head? = some c → isDigit c = false) :
    (num ++ t).takeWhile isDigit = num ∧ (num ++ t).dropWhile isDigit = t := by
  induction num with
  | nil =>
    rw [List.nil_append]
    refine ⟨?_, dropWhile_none ht⟩
    cases t with
    | nil => rfl
    | cons c t => rw [List.takeWhile_cons, ht c rfl]; rfl
  | cons c num ih =>
    rw [List.all_cons, Bool.and_eq_true] at h
    obtain ⟨e1, e2⟩ := ih h.2
    rw [List.cons_append, List.takeWhile_cons, if_pos h.1, List.dropWhile_cons, if_pos h.1, e1, e2]
    exact ⟨rfl, rfl⟩

theorem prefix_plain {p : Char} (h : isPrefixChar p = true) : isDigit p = false ∧ pySpace p = false := by
  rw [isPrefixChar_iff] at h
  simp only [List.mem_cons, List.not_mem_nil, or_false] at h
  rcases h with rfl | rfl | rfl | rfl | rfl | rfl | rfl <;> decide

/-- The regular expression of the storage limit on stripped values. -/
theorem matchLimit_iff {v : Str} (hv : Stripped v) (num : Str) (p : Char) (u : Str) :
    matchLimit v = some (num, p, u) ↔ LimitValue v num p u := by
  unfold LimitValue
  rw [← isPrefixChar_iff, ← isUnit_iff]
  constructor
  · intro h
    unfold matchLimit at h
    dsimp only at h
    split at h
    · simp at h
    · rename_i hnum
      obtain ⟨e1, h1⟩ := takeWhile_space (v.dropWhile isDigit)
      split at h
      · simp at h
      · rename_i q rest hq
        rw [hq] at e1
        have hall : (v.takeWhile isDigit).all isDigit = true := List.all_takeWhile
        have ev : v = v.takeWhile isDigit ++ (v.dropWhile isDigit).takeWhile pySpace ++ q :: rest := by
          conv => lhs; rw [← List.takeWhile_append_dropWhile (p := isDigit) (l := v), e1]
          simp
        split at h
        · rename_i hp
          split at h
          · rename_i hu
            simp only [Option.some.injEq, Prod.mk.injEq] at h
            obtain ⟨rfl, rfl, rfl⟩ := h
            exact ⟨digits_iff.2 ⟨hnum, hall⟩, ⟨_, ev, fun c hc => white_iff.2 (h1 c hc)⟩, hp, hu⟩
          · exfalso
            rename_i hu
            have hd : dollar rest = rest := by
              by_cases h0 : rest = []
              · subst h0; rfl
              · unfold dollar
                rw [if_neg]
                intro hl
                have := (stripped_iff.1 hv).2 '\n' (by
                  rw [ev, List.getLast?_append, List.getLast?_cons, hl]; rfl)
                simp [pySpace] at this
            rw [hd, if_neg hu] at h
            simp at h
        · simp at h
  · rintro ⟨hnum, ⟨w, rfl, hw⟩, hp, hu⟩
    rw [digits_iff] at hnum
    have hplain := prefix_plain hp
    have hw' : ∀ c ∈ w, pySpace c = true := fun c hc => white_iff.1 (hw c hc)
    have hhead : ∀ c, (w ++ p :: u).head? = some c → isDigit c = false := by
      intro c hc
      cases w with
      | nil =>
        simp only [List.nil_append, List.head?_cons, Option.some.injEq] at hc
        subst hc
        exact hplain.1
      | cons d w =>
        simp at hc
        subst hc
        rw [Bool.eq_false_iff]
        intro hdg
        have := digit_not_space hdg
        rw [hw' d (by simp)] at this
        simp at this
    obtain ⟨e1, e2⟩ := span_digits hnum.2 hhead
    unfold matchLimit
    dsimp only
    rw [List.append_assoc, e1, e2, if_neg hnum.1, dropWhile_space_append hw',
      dropWhile_none (s := p :: u) (by simpa using hplain.2)]
    dsimp only
    rw [if_pos hp, if_pos hu]

theorem anyCase_iff (v : Str) {w : Str} (hw : ∀ c ∈ w, c ∈ "yestrunofal".toList) :
    AnyCase v w ↔ pyLower v = w := by
  have hchar : ∀ d ∈ "yestrunofal".toList, ∀ c : Char, (c = d ∨ c = d.toUpper) ↔
      ((if c.toNat = 0x212a then ['k'] else if c.toNat = 0x130 then ['i', Char.ofNat 0x307]
        else if 65 ≤ c.toNat ∧ c.toNat ≤ 90 then [Char.ofNat (c.toNat + 32)] else [c]) = [d]) := by
    intro d hd c
    constructor
    · intro h
      rcases h with rfl | rfl
      · revert hd; revert c; decide +kernel
      · revert hd; revert d; decide +kernel
    · intro h
      split at h
      · simp at h; subst h; exact absurd hd (by decide)
      · split at h
        · simp at h
        · split at h
          · rename_i hr
            simp only [List.cons.injEq, and_true] at h
            subst h
            right
            have e := Char.ofNat_toNat c
            obtain ⟨hn', hn⟩ := hr
            generalize c.toNat = n at *
            subst e
            have key : ∀ n, n < 91 → 65 ≤ n → Char.ofNat n = (Char.ofNat (n + 32)).toUpper := by
              decide +kernel
            exact key n (by omega) hn'
          · simp only [List.cons.injEq, and_true] at h
            exact Or.inl h
  unfold AnyCase
  induction v generalizing w with
  | nil =>
    constructor
    · intro h; cases h; rfl
    · rintro rfl; exact List.Forall₂.nil
  | cons c v ih =>
    have hone : pyLower (c :: v) = (if c.toNat = 0x212a then ['k'] else if c.toNat = 0x130 then
        ['i', Char.ofNat 0x307] else if 65 ≤ c.toNat ∧ c.toNat ≤ 90 then [Char.ofNat (c.toNat + 32)]
        else [c]) ++ pyLower v := by
      unfold pyLower; rw [List.flatMap_cons]
    constructor
    · intro h
      cases h with
      | @cons _ d _ w h1 h2 =>
        rw [hone, (hchar d (hw d (by simp)) c).1 h1,
          (ih (fun c hc => hw c (by simp [hc]))).1 h2]
        rfl
    · intro h
      rw [hone] at h
      have hx : ∃ x, (if c.toNat = 0x212a then ['k'] else if c.toNat = 0x130 then
        ['i', Char.ofNat 0x307] else if 65 ≤ c.toNat ∧ c.toNat ≤ 90 then [Char.ofNat (c.toNat + 32)]
        else [c]) = [x] := by
        split
        · exact ⟨_, rfl⟩
        · split
          · rename_i h1 h2
            rw [if_neg h1, if_pos h2] at h
            have := hw 'i' (by rw [← h]; simp)
            exact absurd this (by decide)
          · split <;> exact ⟨_, rfl⟩
      obtain ⟨x, hx⟩ := hx
      rw [hx] at h
      subst h
      refine List.Forall₂.cons ((hchar x (hw x (by simp)) c).2 hx) ?_
      exact (ih (fun c hc => hw c (List.mem_cons_of_mem x hc))).2 rfl

theorem boolValue_iff (v : Str) : (pyLower v ∈ trueVals ++ falseVals) ↔
    (AnyCase v "yes".toList ∨ AnyCase v "true".toList ∨ AnyCase v "no".toList ∨
      AnyCase v "false".toList) := by
  rw [anyCase_iff v (w := "yes".toList) (by decide), anyCase_iff v (w := "true".toList) (by decide),
    anyCase_iff v (w := "no".toList) (by decide), anyCase_iff v (w := "false".toList) (by decide)]
  simp [trueVals, falseVals]

/-- `check_value` finds no fault exactly in valid options, for the keys there are. -/
theorem checkValue_iff {k v : Str} (hk : k ∈ allKeys) (hv : Stripped v) :
    checkValue k v = none ↔ ValidOption k v := by
  have hm := fun num p u => matchLimit_iff hv num p u
  have inv : ∀ {k v}, ValidOption k v → ∀ k', k = k' →
      (k' = "LocalDir".toList → ∃ r, v = '/' :: r ∨ v = '~' :: '/' :: r) ∧
      (k' = "RemoteDir".toList → ∃ r, v = '/' :: r ∨ v = '~' :: '/' :: r) ∧
      (k' = "StorageLimit".toList → ∃ num p u, LimitValue v num p u) ∧
      (k' = "SyncInterval".toList → Digits v) ∧
      (k' = "PriorityHalfLife".toList → Digits v) ∧
      (k' = "TrashCleanupPeriod".toList → (Digits v ∨ ∃ r, v = '-' :: r ∧ Digits r)) ∧
      (k' ∈ boolKeys → (v = [] ∨ (AnyCase v "yes".toList ∨ AnyCase v "true".toList ∨
        AnyCase v "no".toList ∨ AnyCase v "false".toList))) := by
    rintro k v h k' rfl
    cases h with
    | localDir h => exact ⟨fun _ => h, fun e => absurd e (by decide), fun e => absurd e (by decide), fun e => absurd e (by decide), fun e => absurd e (by decide), fun e => absurd e (by decide), fun e => absurd e (by decide)⟩
    | remoteDir h => exact ⟨fun e => absurd e (by decide), fun _ => h, fun e => absurd e (by decide), fun e => absurd e (by decide), fun e => absurd e (by decide), fun e => absurd e (by decide), fun e => absurd e (by decide)⟩
    | limit h => exact ⟨fun e => absurd e (by decide), fun e => absurd e (by decide), fun _ => ⟨_, _, _, h⟩, fun e => absurd e (by decide), fun e => absurd e (by decide), fun e => absurd e (by decide), fun e => absurd e (by decide)⟩
    | interval h => exact ⟨fun e => absurd e (by decide), fun e => absurd e (by decide), fun e => absurd e (by decide), fun _ => h, fun e => absurd e (by decide), fun e => absurd e (by decide), fun e => absurd e (by decide)⟩
    | halfLife h => exact ⟨fun e => absurd e (by decide), fun e => absurd e (by decide), fun e => absurd e (by decide), fun e => absurd e (by decide), fun _ => h, fun e => absurd e (by decide), fun e => absurd e (by decide)⟩
    | cleanup h => exact ⟨fun e => absurd e (by decide), fun e => absurd e (by decide), fun e => absurd e (by decide), fun e => absurd e (by decide), fun e => absurd e (by decide), fun _ => h, fun e => absurd e (by decide)⟩
    | bool hk h =>
      have : ∀ s : Str, s ∈ ["LocalDir".toList, "RemoteDir".toList, "StorageLimit".toList,
          "SyncInterval".toList, "PriorityHalfLife".toList, "TrashCleanupPeriod".toList] → k ≠ s := by
        rintro s hs rfl
        simp only [List.mem_cons, List.not_mem_nil, or_false] at hk hs
        rcases hk with rfl | rfl | rfl <;> exact absurd hs (by decide)
      exact ⟨fun e => absurd e (this _ (by decide)), fun e => absurd e (this _ (by decide)),
        fun e => absurd e (this _ (by decide)), fun e => absurd e (this _ (by decide)),
        fun e => absurd e (this _ (by decide)), fun e => absurd e (this _ (by decide)), fun _ => h⟩
  simp only [allKeys, requiredKeys, optionalKeys, List.cons_append, List.nil_append, List.mem_cons,
    List.not_mem_nil, or_false] at hk
  rcases hk with rfl | rfl | rfl | rfl | rfl | rfl | rfl | rfl | rfl
  · have : checkValue "LocalDir".toList v = if v = [] then some .blank else
        if matchAbs v then none else some .absPath := by
      unfold checkValue; simp [requiredKeys, boolKeys]
    rw [this]
    constructor
    · intro h
      refine .localDir (matchAbs_iff.1 ?_)
      by_contra hn
      simp [hn] at h
      split at h <;> simp at h
    · intro h
      have h := (inv h _ rfl).1 rfl
      rw [if_pos (matchAbs_iff.2 h), if_neg]
      rintro rfl; simp at h
  · have : checkValue "RemoteDir".toList v = if v = [] then some .blank else
        if matchAbs v then none else some .absPath := by
      unfold checkValue; simp [requiredKeys, boolKeys]
    rw [this]
    constructor
    · intro h
      refine .remoteDir (matchAbs_iff.1 ?_)
      by_contra hn
      simp [hn] at h
      split at h <;> simp at h
    · intro h
      have h := (inv h _ rfl).2.1 rfl
      rw [if_pos (matchAbs_iff.2 h), if_neg]
      rintro rfl; simp at h
  · have : checkValue "StorageLimit".toList v = if v = [] then some .blank else
        if (matchLimit v).isSome then none else some .limit := by
      unfold checkValue; simp [requiredKeys, boolKeys]
    rw [this]
    constructor
    · intro h
      have : (matchLimit v).isSome = true := by
        by_contra hn
        simp [hn] at h
        split at h <;> simp at h
      obtain ⟨⟨num, p, u⟩, he⟩ := Option.isSome_iff_exists.1 this
      exact .limit ((hm num p u).1 he)
    · intro h
      obtain ⟨num, p, u, h⟩ := (inv h _ rfl).2.2.1 rfl
      rw [(hm num p u).2 h, if_neg]
      · rfl
      · rintro rfl
        obtain ⟨h1, ⟨w, e, _⟩, _⟩ := h
        simp at e
  · have : checkValue "SyncInterval".toList v = if matchInt v then none else some .int := by
      unfold checkValue; simp [requiredKeys, boolKeys]
    rw [this]
    constructor
    · intro h
      refine .interval ((matchInt_iff hv).1 ?_)
      by_contra hn; simp [hn] at h
    · intro h
      rw [if_pos ((matchInt_iff hv).2 ((inv h _ rfl).2.2.2.1 rfl))]
  · have : checkValue "PriorityHalfLife".toList v = if matchInt v then none else some .int := by
      unfold checkValue; simp [requiredKeys, boolKeys]
    rw [this]
    constructor
    · intro h
      refine .halfLife ((matchInt_iff hv).1 ?_)
      by_contra hn; simp [hn] at h
    · intro h
      rw [if_pos ((matchInt_iff hv).2 ((inv h _ rfl).2.2.2.2.1 rfl))]
  · have : checkValue "UseTrash".toList v = if v ≠ [] ∧ pyLower v ∉ trueVals ++ falseVals then
        some .bool else none := by
      unfold checkValue; simp [requiredKeys, boolKeys]
    rw [this]
    constructor
    · intro h
      refine .bool (by decide) ?_
      rw [← boolValue_iff]
      by_contra hn
      rw [not_or] at hn
      rw [if_pos hn] at h; simp at h
    · intro h
      rw [if_neg]
      rintro ⟨h1, h2⟩
      rcases (inv h _ rfl).2.2.2.2.2.2 (by decide) with h' | h'
      · exact h1 h'
      · exact h2 ((boolValue_iff v).2 h')
  · have : checkValue "TrashCleanupPeriod".toList v = if matchSigned v then none else some .int := by
      unfold checkValue; simp [requiredKeys, boolKeys]
    rw [this]
    constructor
    · intro h
      refine .cleanup ((matchSigned_iff hv).1 ?_)
      by_contra hn; simp [hn] at h
    · intro h
      rw [if_pos ((matchSigned_iff hv).2 ((inv h _ rfl).2.2.2.2.2.1 rfl))]
  · have : checkValue "InflatePriority".toList v = if v ≠ [] ∧ pyLower v ∉ trueVals ++ falseVals then
        some .bool else none := by
      unfold checkValue; simp [requiredKeys, boolKeys]
    rw [this]
    constructor
    · intro h
      refine .bool (by decide) ?_
      rw [← boolValue_iff]
      by_contra hn
      rw [not_or] at hn
      rw [if_pos hn] at h; simp at h
    · intro h
      rw [if_neg]
      rintro ⟨h1, h2⟩
      rcases (inv h _ rfl).2.2.2.2.2.2 (by decide) with h' | h'
      · exact h1 h'
      · exact h2 ((boolValue_iff v).2 h')
  · have : checkValue "AccountForSize".toList v = if v ≠ [] ∧ pyLower v ∉ trueVals ++ falseVals then
        some .bool else none := by
      unfold checkValue; simp [requiredKeys, boolKeys]
    rw [this]
    constructor
    · intro h
      refine .bool (by decide) ?_
      rw [← boolValue_iff]
      by_contra hn
      rw [not_or] at hn
      rw [if_pos hn] at h; simp at h
    · intro h
      rw [if_neg]
      rintro ⟨h1, h2⟩
      rcases (inv h _ rfl).2.2.2.2.2.2 (by decide) with h' | h'
      · exact h1 h'
      · exact h2 ((boolValue_iff v).2 h')

theorem lastAssigns_stripped {ls : List Str} {k v : Str} (h : LastAssigns ls k v) : Stripped v := by
  obtain ⟨_, l, _, _, ⟨_, a, b, _, _, _, hv⟩, _⟩ := h
  rw [trims_iff] at hv
  rw [← hv]
  exact stripped_strip b

/-- `check_all` accepts exactly the texts that set every required option, set no
unknown option, and whose last value of each option is valid. -/
theorem C38_checkAll {T : Str} {ls : List Str} (h : LinesOf T ls) :
    checkAll (configRead [] T) true = [] ↔
      (∀ k ∈ ["LocalDir".toList, "RemoteDir".toList, "StorageLimit".toList],
        ∃ l ∈ ls, ∃ v, Assigns l k v) ∧
      (∀ k v, LastAssigns ls k v →
        k ∈ ["LocalDir".toList, "RemoteDir".toList, "StorageLimit".toList, "SyncInterval".toList,
          "PriorityHalfLife".toList, "UseTrash".toList, "TrashCleanupPeriod".toList,
          "InflatePriority".toList, "AccountForSize".toList] ∧ ValidOption k v) := by
  have hnd : (configRead [] T).Nodup := nodup_configRead (by simp [Dict.Nodup, Dict.keys]) T
  have hlast := lastAssigns_iff h
  have hset : ∀ k, (∃ l ∈ ls, ∃ v, Assigns l k v) ↔ k ∈ (configRead [] T).keys := by
    intro k
    rw [← not_iff_not, ← Dict.get_eq_none]
    rw [configRead_eq, get_setAll, assignments_linesOf h]
    constructor
    · intro hn
      have : (ls.filterMap parseLine).reverse.find? (fun e => decide (e.1 = k)) = none := by
        rw [List.find?_eq_none]
        intro e he
        rw [List.mem_reverse, List.mem_filterMap] at he
        obtain ⟨l, hl, hp⟩ := he
        simp only [decide_eq_true_eq]
        rintro rfl
        exact hn ⟨l, hl, e.2, assigns_iff.2 hp⟩
      rw [this]; rfl
    · rintro hn ⟨l, hl, v, hv⟩
      have : (ls.filterMap parseLine).reverse.find? (fun e => decide (e.1 = k)) = none := by
        cases hf : (ls.filterMap parseLine).reverse.find? (fun e => decide (e.1 = k)) with
        | none => rfl
        | some e => rw [hf] at hn; simp at hn
      rw [List.find?_eq_none] at this
      have := this (k, v) (by
        rw [List.mem_reverse, List.mem_filterMap]; exact ⟨l, hl, assigns_iff.1 hv⟩)
      simp at this
  unfold checkAll
  rw [List.append_eq_nil_iff, List.append_eq_nil_iff, List.map_eq_nil_iff, List.map_eq_nil_iff,
    List.filter_eq_nil_iff, List.filter_eq_nil_iff, List.filterMap_eq_nil_iff]
  simp only [decide_eq_true_eq, not_not, Bool.true_or, if_true]
  constructor
  · rintro ⟨⟨h1, h2⟩, h3⟩
    refine ⟨fun k hk => (hset k).2 (h1 k hk), fun k v hkv => ?_⟩
    have hm := (Dict.get_eq_some hnd).1 ((hlast k v).2 hkv)
    have hk := h2 k (List.mem_map_of_mem (f := Prod.fst) hm)
    exact ⟨hk, (checkValue_iff hk (lastAssigns_stripped hkv)).1 (h3 _ hm)⟩
  · rintro ⟨h1, h2⟩
    refine ⟨⟨fun k hk => (hset k).1 (h1 k hk), fun k hk => ?_⟩, fun e he => ?_⟩
    · obtain ⟨⟨k', v⟩, hm, rfl⟩ := List.mem_map.1 hk
      exact (h2 k' v ((hlast k' v).1 ((Dict.get_eq_some hnd).2 hm))).1
    · obtain ⟨k, v⟩ := e
      have hl := (hlast k v).1 ((Dict.get_eq_some hnd).2 he)
      exact (checkValue_iff (h2 k v hl).1 (lastAssigns_stripped hl)).2 (h2 k v hl).2

/-- A config file that is accepted, with a comment, spaces and `\r\n`. -/
def exConfig : Str := "# c\r\nLocalDir = /a b \r\nRemoteDir=~/r\n\n StorageLimit = 10 GiB\rUseTrash=YES\nUseTrash=No".toList

example : checkAll (configRead [] exConfig) true = [] := by decide +kernel
example : vals (configRead [] exConfig) "UseTrash".toList = some "No".toList := by decide +kernel
example : vals (configRead [] exConfig) "SyncInterval".toList = some "20".toList := by decide +kernel
example : checkAll (configRead [] "LocalDir=/a\nRemoteDir=r\nX=1".toList) true =
    [.missing, .unknown, .absPath] := by decide +kernel
example : LinesOf "A=1\r\nB".toList ["A=1".toList, "B".toList] :=
  LinesOf.cons (l := "A=1".toList) (sep := ['\r', '\n']) (by decide) (by decide) (Or.inr (Or.inl rfl))
    (LinesOf.last (by decide) (by decide))

end Verif
