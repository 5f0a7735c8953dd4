import Verif.Spec.Config
/-
What a dialogue on the terminal comes to, without reference to the loop that holds it.
-/
namespace Verif

/-- A line answers the question for `k` with `v`. -/
def Answers (k l v : Str) : Prop := Trims l v ∧ ValidOption k v

/-- `Dialogue ks ls r`: somebody who is asked for the options `ks` in this order and types the lines `ls` has given the
answers `r`. A question is repeated until a line answers it, and each line is used once. -/
inductive Dialogue : List Str → List Str → List (Str × Str) → Prop
  | nil {ls : List Str} : Dialogue [] ls []
  | ask {k a v : Str} {ks before after : List Str} {r : List (Str × Str)} :
      (∀ l ∈ before, ∀ v, ¬ Answers k l v) → Answers k a v → Dialogue ks after r →
      Dialogue (k :: ks) (before ++ a :: after) ((k, v) :: r)

end Verif
