/-
Stable sorting by a key, written by structural recursion so that concrete
witnesses evaluate in the kernel. Models Python's `list.sort` / `sorted`
(stable in both directions).
-/
namespace Verif

/-- Insert `x` in front of the first element that `x` is allowed to precede.
Helper of `sortBy`. -/
def insertBy {α : Type _} (le : α → α → Bool) (x : α) : List α → List α
  | [] => [x]
  | y :: ys => if le x y then x :: y :: ys else y :: insertBy le x ys

/-- Models `list.sort(key=...)`: a stable sort, `le a b` meaning that `a` may
come before `b`. -/
def sortBy {α : Type _} (le : α → α → Bool) : List α → List α
  | [] => []
  | x :: xs => insertBy le x (sortBy le xs)

variable {α : Type _} {le : α → α → Bool}

theorem insertBy_perm (x : α) : ∀ l : List α, (insertBy le x l).Perm (x :: l)
  | [] => List.Perm.refl _
  | y :: ys => by
    unfold insertBy
    split
    · exact List.Perm.refl _
    · exact ((insertBy_perm x ys).cons y).trans (List.Perm.swap x y ys)

theorem sortBy_perm : ∀ l : List α, (sortBy le l).Perm l
  | [] => List.Perm.refl _
  | x :: xs => (insertBy_perm x _).trans ((sortBy_perm xs).cons x)

@[simp] theorem mem_sortBy {a : α} {l : List α} : a ∈ sortBy le l ↔ a ∈ l :=
  (sortBy_perm l).mem_iff

@[simp] theorem length_sortBy {l : List α} : (sortBy le l).length = l.length :=
  (sortBy_perm l).length_eq

theorem nodup_sortBy {l : List α} : (sortBy le l).Nodup ↔ l.Nodup :=
  (sortBy_perm l).nodup_iff

theorem insertBy_sorted (trans : ∀ a b c, le a b = true → le b c = true → le a c = true)
    (total : ∀ a b, le a b = true ∨ le b a = true) (x : α) :
    ∀ l : List α, l.Pairwise (fun a b => le a b = true) →
      (insertBy le x l).Pairwise (fun a b => le a b = true)
  | [], _ => by simp [insertBy]
  | y :: ys, h => by
    unfold insertBy
    split
    · rename_i hxy
      refine List.Pairwise.cons ?_ h
      intro z hz
      rcases List.mem_cons.1 hz with rfl | hz
      · exact hxy
      · exact trans _ _ _ hxy ((List.pairwise_cons.1 h).1 z hz)
    · rename_i hxy
      have hyx : le y x = true := by
        rcases total x y with h1 | h1
        · exact absurd h1 hxy
        · exact h1
      refine List.Pairwise.cons ?_ (insertBy_sorted trans total x ys (List.pairwise_cons.1 h).2)
      intro z hz
      rcases List.mem_cons.1 ((insertBy_perm x ys).mem_iff.1 hz) with rfl | hz
      · exact hyx
      · exact (List.pairwise_cons.1 h).1 z hz

/-- The output is ordered when the comparison is a total preorder. -/
theorem sortBy_sorted (trans : ∀ a b c, le a b = true → le b c = true → le a c = true)
    (total : ∀ a b, le a b = true ∨ le b a = true) :
    ∀ l : List α, (sortBy le l).Pairwise (fun a b => le a b = true)
  | [] => List.Pairwise.nil
  | x :: xs => insertBy_sorted trans total x _ (sortBy_sorted trans total xs)

theorem insertBy_sorted_lex {r : α → α → Prop}
    (trans : ∀ a b c, le a b = true → le b c = true → le a c = true)
    (total : ∀ a b, le a b = true ∨ le b a = true) (x : α) :
    ∀ l : List α, (∀ y ∈ l, r x y) →
      l.Pairwise (fun a b => le b a = false ∨ (le a b = true ∧ r a b)) →
      (insertBy le x l).Pairwise (fun a b => le b a = false ∨ (le a b = true ∧ r a b))
  | [], _, _ => by simp [insertBy]
  | y :: ys, hr, h => by
    unfold insertBy
    split
    · rename_i hxy
      refine List.Pairwise.cons ?_ h
      intro z hz
      have hle : le x z = true := by
        rcases List.mem_cons.1 hz with rfl | hz
        · exact hxy
        · rcases (List.pairwise_cons.1 h).1 z hz with h1 | h1
          · rcases total y z with h2 | h2
            · exact trans _ _ _ hxy h2
            · simp [h1] at h2
          · exact trans _ _ _ hxy h1.1
      exact Or.inr ⟨hle, hr z hz⟩
    · rename_i hxy
      refine List.Pairwise.cons ?_ (insertBy_sorted_lex trans total x ys
        (fun z hz => hr z (List.mem_cons_of_mem _ hz)) (List.pairwise_cons.1 h).2)
      intro z hz
      rcases List.mem_cons.1 ((insertBy_perm x ys).mem_iff.1 hz) with rfl | hz
      · left; simpa using hxy
      · exact (List.pairwise_cons.1 h).1 z hz

/-- Stability: sorting a list that is already ordered by `r` orders it by the
key first and by `r` among elements with equal keys. -/
theorem sortBy_sorted_lex {r : α → α → Prop}
    (trans : ∀ a b c, le a b = true → le b c = true → le a c = true)
    (total : ∀ a b, le a b = true ∨ le b a = true) :
    ∀ l : List α, l.Pairwise r →
      (sortBy le l).Pairwise (fun a b => le b a = false ∨ (le a b = true ∧ r a b))
  | [], _ => List.Pairwise.nil
  | x :: xs, h => by
    refine insertBy_sorted_lex trans total x _ ?_
      (sortBy_sorted_lex trans total xs (List.pairwise_cons.1 h).2)
    intro y hy
    exact (List.pairwise_cons.1 h).1 y (mem_sortBy.1 hy)

/-- A list ordered by an antisymmetric relation is determined by its elements. -/
theorem eq_of_perm_of_pairwise {r : α → α → Prop} (anti : ∀ a b, r a b → r b a → a = b) :
    ∀ {l₁ l₂ : List α}, l₁.Perm l₂ → l₁.Pairwise r → l₂.Pairwise r → l₁ = l₂
  | [], l₂, hp, _, _ => by rw [List.nil_perm.1 hp]
  | a :: as, [], hp, _, _ => by simp at hp
  | a :: as, b :: bs, hp, h₁, h₂ => by
    have hab : a = b := by
      have ha : a ∈ b :: bs := hp.mem_iff.1 (List.mem_cons_self ..)
      have hb : b ∈ a :: as := hp.mem_iff.2 (List.mem_cons_self ..)
      rcases List.mem_cons.1 ha with h | ha
      · exact h
      · rcases List.mem_cons.1 hb with h | hb
        · exact h.symm
        · exact anti _ _ ((List.pairwise_cons.1 h₁).1 b hb) ((List.pairwise_cons.1 h₂).1 a ha)
    subst hab
    rw [eq_of_perm_of_pairwise anti (List.Perm.cons_inv hp) (List.pairwise_cons.1 h₁).2
      (List.pairwise_cons.1 h₂).2]

end Verif
