import Verif.Props.C91_Sets
/-!
C91: brackets with several characters and ranges, like `[a-zA-Z_]`.
-/
namespace Verif

/-- What can be between brackets: a character, or a range of characters. -/
abbrev Item := Char × Option Char

/-- How it is written. -/
def Item.text : Item → Str
  | (x, none) => [x]
  | (x, some y) => [x, '-', y]

/-- The characters that it stands for. -/
def Item.Has (c : Char) : Item → Prop
  | (x, none) => c = x
  | (x, some y) => x.toNat ≤ c.toNat ∧ c.toNat ≤ y.toNat

/-- No hyphens and brackets; ranges are not the wrong way round. -/
def Item.Ok : Item → Prop
  | (x, none) => x ≠ '-' ∧ x ≠ ']'
  | (x, some y) => (x ≠ '-' ∧ x ≠ ']') ∧ (y ≠ '-' ∧ y ≠ ']') ∧ x.toNat ≤ y.toNat

/-- How a list of those is written. -/
def itemsText (l : List Item) : Str := l.flatMap Item.text

/-- The text after `pre`, split at the hyphens of the ranges. -/
def chunksOf (pre : Str) : List Item → List Str
  | [] => [pre]
  | (x, none) :: l => chunksOf (pre ++ [x]) l
  | (x, some y) :: l => (pre ++ [x]) :: chunksOf [y] l

theorem chunksOf_append (a : Str) (l : List Item) : ∀ pre, ∃ d ds, chunksOf pre l = d :: ds ∧
    chunksOf (a ++ pre) l = (a ++ d) :: ds ∧ pre <+: d ∧ (l ≠ [] → d ≠ []) := by
  induction l with
  | nil => intro pre; exact ⟨pre, [], rfl, rfl, List.prefix_refl _, fun h => absurd rfl h⟩
  | cons i l ih =>
    intro pre
    obtain ⟨x, o⟩ := i
    cases o with
    | none =>
      obtain ⟨d, ds, h1, h2, h3, _⟩ := ih (pre ++ [x])
      refine ⟨d, ds, h1, by rw [← h2, ← List.append_assoc]; rfl, (List.prefix_append _ _).trans h3, fun _ h => ?_⟩
      subst h
      simp at h3
    | some y => exact ⟨pre ++ [x], chunksOf [y] l, rfl, by rw [← List.append_assoc]; rfl, List.prefix_append _ _, by simp⟩

theorem itemsText_length (i : Item) (l : List Item) : (itemsText l).length < (itemsText (i :: l)).length := by
  obtain ⟨x, o⟩ := i
  cases o <;> simp only [itemsText, List.flatMap_cons, Item.text, List.length_append, List.length_cons, List.length_nil] <;>
    omega

theorem chunks_items (l : List Item) : ∀ (pre : Str) (n skip : Nat), (∀ i ∈ l, i.Ok) → '-' ∉ pre →
    skip ≤ pre.length + 1 → (itemsText l).length ≤ n → chunks n skip (pre ++ itemsText l) = chunksOf pre l := by
  induction l with
  | nil =>
    intro pre n skip _ h1 _ _
    have : '-' ∉ pre.drop skip := fun h => h1 (List.mem_of_mem_drop h)
    cases n <;> simp [chunks, chunksOf, itemsText, this]
  | cons i l ih =>
    intro pre n skip ho h1 h2 h3
    have hlt := itemsText_length i l
    have hi := ho i List.mem_cons_self
    have hl : ∀ i ∈ l, i.Ok := fun j hj => ho j (List.mem_cons_of_mem _ hj)
    obtain ⟨x, o⟩ := i
    cases o with
    | none =>
      have e : pre ++ itemsText ((x, none) :: l) = (pre ++ [x]) ++ itemsText l := by simp [itemsText, Item.text]
      rw [e]
      exact ih (pre ++ [x]) n skip hl (by simp [h1, hi.1.symm]) (by simp; omega) (by omega)
    | some y =>
      have e : pre ++ itemsText ((x, some y) :: l) = (pre ++ [x]) ++ '-' :: y :: itemsText l := by
        simp [itemsText, Item.text]
      have hx : '-' ∉ pre ++ [x] := by simp [h1, hi.1.1.symm]
      have hlen : (pre ++ [x]).length = pre.length + 1 := by simp
      rw [e]
      obtain ⟨q, hq⟩ : ∃ q, q = pre ++ [x] := ⟨_, rfl⟩
      rw [← hq] at hx hlen ⊢
      cases n with
      | zero => omega
      | succ n =>
        have e1 : (q ++ '-' :: y :: itemsText l).drop skip = q.drop skip ++ '-' :: y :: itemsText l :=
          List.drop_append_of_le_length (by omega)
        have e2 : ∀ z ∈ q.drop skip, (z != '-') = true := by
          intro z hz; simp only [bne_iff_ne, ne_eq]; rintro rfl; exact hx (List.mem_of_mem_drop hz)
        have e3 : (q.drop skip ++ '-' :: y :: itemsText l).takeWhile (· != '-') = q.drop skip := by
          rw [List.takeWhile_append_of_pos e2]; simp
        have e4 : skip + (q.drop skip).length = q.length := by rw [List.length_drop]; omega
        have e5 : (q ++ '-' :: y :: itemsText l).drop (q.length + 1) = [y] ++ itemsText l := by
          rw [← List.drop_drop, List.drop_left]; rfl
        unfold chunks
        rw [if_pos (by rw [e1]; simp)]
        dsimp only
        rw [e1, e3, e4, e5, if_neg (by simp), List.take_left,
          ih [y] n 2 hl (by simp [hi.2.1.1.symm]) (by simp) (by omega), chunksOf, hq]

theorem fixRanges_items (l : List Item) : ∀ pre, (∀ i ∈ l, i.Ok) → fixRanges (chunksOf pre l) = chunksOf pre l := by
  induction l with
  | nil => intro pre _; rfl
  | cons i l ih =>
    intro pre ho
    have hi := ho i List.mem_cons_self
    have hl : ∀ i ∈ l, i.Ok := fun j hj => ho j (List.mem_cons_of_mem _ hj)
    obtain ⟨x, o⟩ := i
    cases o with
    | none => exact ih _ hl
    | some y =>
      obtain ⟨d, ds, h1, _, ⟨r, rfl⟩, _⟩ := chunksOf_append [] l [y]
      have h2 := ih [y] hl
      unfold chunksOf
      rw [h1] at h2 ⊢
      unfold fixRanges
      rw [h2]
      simp only [List.getLast?_append, List.getLast?_singleton, Option.some_or, List.cons_append, List.nil_append,
        List.head?_cons]
      rw [if_neg (by have := hi.2.2; omega)]

theorem inChunks_items {c : Char} (l : List Item) : ∀ pre, (∀ i ∈ l, i.Ok) →
    (inChunks c (chunksOf pre l) = true ↔ c ∈ pre ∨ ∃ i ∈ l, i.Has c) := by
  induction l with
  | nil => intro pre _; simp [chunksOf, inChunks]
  | cons i l ih =>
    intro pre ho
    have hi := ho i List.mem_cons_self
    have hl : ∀ i ∈ l, i.Ok := fun j hj => ho j (List.mem_cons_of_mem _ hj)
    obtain ⟨x, o⟩ := i
    cases o with
    | none =>
      rw [chunksOf, ih _ hl]
      simp [Item.Has, or_assoc]
    | some y =>
      obtain ⟨d, ds, h1, _, ⟨r, rfl⟩, _⟩ := chunksOf_append [] l [y]
      have h2 := ih [y] hl
      have hxy := hi.2.2
      unfold chunksOf
      rw [h1] at h2 ⊢
      unfold inChunks
      simp only [List.getLast?_append, List.getLast?_singleton, Option.some_or, List.cons_append, List.nil_append,
        List.head?_cons, Bool.or_eq_true, Bool.and_eq_true, decide_eq_true_eq, List.mem_append, List.mem_singleton] at h2 ⊢
      rw [h2]
      have e : (∃ i ∈ ((x, some y) :: l : List Item), Item.Has c i) ↔
          (x.toNat ≤ c.toNat ∧ c.toNat ≤ y.toNat) ∨ ∃ i ∈ l, i.Has c := by
        simp only [List.mem_cons, or_and_right, exists_or, exists_eq_left]
        rfl
      rw [e]
      constructor
      · rintro (((h | rfl) | h) | (rfl | h))
        · exact Or.inl h
        · exact Or.inr (Or.inl ⟨Nat.le_refl _, hxy⟩)
        · exact Or.inr (Or.inl h)
        · exact Or.inr (Or.inl ⟨hxy, Nat.le_refl _⟩)
        · exact Or.inr (Or.inr h)
      · rintro (h | h | h)
        · exact Or.inl (Or.inl (Or.inl h))
        · exact Or.inl (Or.inr h)
        · exact Or.inr (Or.inr h)

theorem split_items {pre : Str} {l : List Item} (ho : ∀ i ∈ l, i.Ok) (h1 : '-' ∉ pre) :
    (if '-' ∈ pre ++ itemsText l then fixRanges (chunks (pre ++ itemsText l).length (pre.length + 1) (pre ++ itemsText l))
      else [pre ++ itemsText l]) = chunksOf pre l := by
  have h2 := chunks_items l pre (pre ++ itemsText l).length (pre.length + 1) ho h1 (Nat.le_refl _) (by simp)
  split
  · rw [h2, fixRanges_items _ _ ho]
  · rename_i h3
    rw [← h2]
    have : '-' ∉ (pre ++ itemsText l).drop (pre.length + 1) := fun h => h3 (List.mem_of_mem_drop h)
    cases (pre ++ itemsText l).length with
    | zero => rfl
    | succ n => rw [chunks, if_neg this]

theorem items_closed {l : List Item} (ho : ∀ i ∈ l, i.Ok) : ']' ∉ itemsText l := by
  intro h
  obtain ⟨i, hi, h⟩ := List.mem_flatMap.1 h
  have := ho i hi
  obtain ⟨x, o⟩ := i
  cases o with
  | none => simp only [Item.text, List.mem_singleton] at h; exact this.2 h.symm
  | some y =>
    simp only [Item.text, List.mem_cons, List.not_mem_nil, or_false] at h
    rcases h with h | h | h
    · exact this.1.2 h.symm
    · exact absurd h (by decide)
    · exact this.2.1.2 h.symm

theorem items_ne {l : List Item} (h : l ≠ []) : itemsText l ≠ [] := by
  obtain ⟨i, l, rfl⟩ := List.exists_cons_of_ne_nil h
  have := itemsText_length i l
  intro h
  rw [h] at this
  simp at this

theorem items_head {l : List Item} (h : l ≠ []) : (itemsText l).head? = l.head?.map Prod.fst := by
  obtain ⟨⟨x, o⟩, l, rfl⟩ := List.exists_cons_of_ne_nil h
  cases o <;> rfl

theorem setTok_items {l : List Item} (h0 : l ≠ []) (ho : ∀ i ∈ l, i.Ok) (hb : l.head?.map Prod.fst ≠ some '!') :
    setTok (itemsText l) = .set false (chunksOf [] l) := by
  have h := split_items (pre := []) ho (by simp)
  simp only [List.nil_append, List.length_nil, Nat.zero_add] at h
  unfold setTok
  rw [if_neg (c := (itemsText l).head? = some '!') (by rw [items_head h0]; exact hb), h]
  have hh : ∀ d ds, chunksOf [] l = d :: ds → d ≠ [] ∧ d.head? ≠ some '!' := by
    intro d ds hd
    obtain ⟨⟨x, o⟩, l, rfl⟩ := List.exists_cons_of_ne_nil h0
    have hx : x ≠ '!' := by simpa using hb
    cases o with
    | none =>
      obtain ⟨d', ds', h1, _, ⟨r, rfl⟩, _⟩ := chunksOf_append [] l [x]
      rw [show chunksOf [] ((x, none) :: l) = chunksOf [x] l from rfl, h1] at hd
      cases hd
      simp [hx]
    | some y =>
      cases hd
      simp [hx]
  split
  · rename_i h; exact absurd rfl (hh _ _ h).1
  · rename_i h; exact absurd rfl (hh _ _ h).2
  · rename_i h; exact absurd rfl (hh _ _ h).2
  · rfl

theorem setTok_items_neg {l : List Item} (h0 : l ≠ []) (ho : ∀ i ∈ l, i.Ok) :
    setTok ('!' :: itemsText l) = .set true (chunksOf [] l) := by
  have h := split_items (pre := ['!']) ho (by decide)
  simp only [List.cons_append, List.nil_append, List.length_cons, List.length_nil, Nat.zero_add, Nat.reduceAdd] at h
  obtain ⟨d, ds, h1, h2, _, h3⟩ := chunksOf_append ['!'] l []
  simp only [List.append_nil, List.cons_append, List.nil_append] at h2
  unfold setTok
  rw [if_pos (c := ('!' :: itemsText l).head? = some '!') rfl]
  simp only [List.length_cons]
  rw [h, h1, h2]
  have := h3 h0
  cases d with
  | nil => exact absurd rfl this
  | cons x d => rfl

/-- `[a-zA-Z_]` matches one of the characters. -/
theorem C91_class {l : List Item} (h0 : l ≠ []) (ho : ∀ i ∈ l, i.Ok) (hb : l.head?.map Prod.fst ≠ some '!') {c : Char}
    {p s : Str} : fnmatch (c :: s) ('[' :: itemsText l ++ ']' :: p) = true ↔ (∃ i ∈ l, i.Has c) ∧ fnmatch s p = true := by
  have e := setTok_items h0 ho hb
  have h := fnmatch_bracket (c := c) (s := s) (bracket_plain (p := p) (items_ne h0) (items_closed ho)
    (by rw [items_head h0]; exact hb)) (by rw [e]; simp)
  rw [show ('[' :: itemsText l ++ ']' :: p) = '[' :: (itemsText l ++ ']' :: p) from rfl, h, e]
  simp only [tokChar, Bool.and_eq_true, bne_iff_ne, ne_eq, Bool.not_eq_false]
  rw [inChunks_items l [] ho]
  simp

/-- `[!a-zA-Z_]` matches one other character. -/
theorem C91_class_neg {l : List Item} (h0 : l ≠ []) (ho : ∀ i ∈ l, i.Ok) {c : Char} {p s : Str} :
    fnmatch (c :: s) ('[' :: '!' :: itemsText l ++ ']' :: p) = true ↔ (¬ ∃ i ∈ l, i.Has c) ∧ fnmatch s p = true := by
  have e := setTok_items_neg h0 ho
  have h := fnmatch_bracket (c := c) (s := s) (bracket_neg (p := p) (items_ne h0) (items_closed ho)) (by rw [e]; simp)
  rw [show ('[' :: '!' :: itemsText l ++ ']' :: p) = '[' :: ('!' :: itemsText l ++ ']' :: p) from rfl, h, e]
  have := inChunks_items (c := c) l [] ho
  simp only [List.not_mem_nil, false_or] at this
  simp only [tokChar, Bool.and_eq_true, bne_iff_ne, ne_eq]
  rw [this]

/-- `[a-zA-Z_]` and `[!a-c_]`. -/
example : fnmatch "Q".toList "[a-zA-Z_]".toList = true ∧ fnmatch "_".toList "[a-zA-Z_]".toList = true ∧
    fnmatch "1".toList "[a-zA-Z_]".toList = false ∧ fnmatch "b".toList "[!a-c_]".toList = false ∧
    fnmatch "d".toList "[!a-c_]".toList = true := by
  decide +kernel

/-- The hypotheses can be met. -/
example : itemsText [('a', some 'z'), ('A', some 'Z'), ('_', none)] = "a-zA-Z_".toList ∧
    ∀ i ∈ ([('a', some 'z'), ('A', some 'Z'), ('_', none)] : List Item), i.Ok := by
  refine ⟨by decide, ?_⟩
  simp [Item.Ok]

end Verif
