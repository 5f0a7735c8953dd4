import Verif.DBAdd
/-
C09: the collision loop of `add_paths` ends.
-/
namespace Verif
variable {δ : Type}

theorem collLoop_rounds (h : Str → Int) (salt : Path → Str) (ns : List (Row δ)) (ps : List Path) :
    ∀ (fuel : Nat) (coll : List (Path × Str)), DB.unsalted ps coll < fuel →
    ∃ k ≤ DB.unsalted ps coll, DB.collRound h salt ns ps (Nat.repeat (DB.collRound h salt ns ps) k coll)
        = Nat.repeat (DB.collRound h salt ns ps) k coll ∧
      DB.collLoop h salt ns ps fuel coll = Nat.repeat (DB.collRound h salt ns ps) k coll := by
  intro fuel
  induction fuel with
  | zero => intro coll hf; omega
  | succ fuel ih =>
    intro coll hf
    by_cases hlen : (DB.collRound h salt ns ps coll).length = coll.length
    · have hsame : DB.collRound h salt ns ps coll = coll := by
        obtain ⟨extra, h1, _, _⟩ := DB.collRound_extra h salt ns ps coll
        have hex : extra = [] := by rw [h1] at hlen; simpa using hlen
        rw [h1, hex]; simp
      refine ⟨0, Nat.zero_le _, hsame, ?_⟩
      simp only [DB.collLoop, hlen, if_true, hsame]
      rfl
    · have hp := DB.collRound_progress h salt ns ps coll hlen
      obtain ⟨k, hk, h1, h2⟩ := ih (DB.collRound h salt ns ps coll) (by omega)
      have hrep : ∀ (k : Nat) (c : List (Path × Str)),
          Nat.repeat (DB.collRound h salt ns ps) k (DB.collRound h salt ns ps c)
          = Nat.repeat (DB.collRound h salt ns ps) (k + 1) c := by
        intro k c
        induction k with
        | zero => rfl
        | succ k ih =>
          show DB.collRound h salt ns ps _ = DB.collRound h salt ns ps _
          rw [ih]
      rw [hrep] at h1 h2
      refine ⟨k + 1, by omega, h1, ?_⟩
      simp only [DB.collLoop, hlen, if_false]
      exact h2

/-- Whatever the hash, the salts and the tables: after at most as many rounds
as the batch has paths, a further round inserts no row, which is when the
`while True` loop breaks; the model's loop, given any larger bound, returns
the table reached then. -/
theorem C09_terminates (h : Str → Int) (salt : Path → Str) (ns : List (Row δ)) (ps : List Path)
    (coll : List (Path × Str)) :
    ∃ k ≤ ps.length,
      DB.collRound h salt ns ps (Nat.repeat (DB.collRound h salt ns ps) k coll)
        = Nat.repeat (DB.collRound h salt ns ps) k coll ∧
      ∀ fuel, ps.length < fuel →
        DB.collLoop h salt ns ps fuel coll = Nat.repeat (DB.collRound h salt ns ps) k coll := by
  have hle := DB.unsalted_le ps coll
  obtain ⟨k, hk, h1, h2⟩ := collLoop_rounds h salt ns ps (ps.length + 1) coll (by omega)
  refine ⟨k, by omega, h1, fun fuel hf => ?_⟩
  rw [← h2]
  exact (DB.collLoop_fix h salt ns ps (ps.length + 1) coll (by omega)).2 fuel hf

/-- A bad hash: every text has the same value, so salting never helps, and the
loop still ends after one productive round. -/
example : DB.collLoop (δ := Int) (fun _ => 0) (fun _ => ['s']) [⟨0, [['a']], false, 1⟩]
    [[['b']], [['c']]] 3 [] = [([['b']], ['s']), ([['c']], ['s'])] := by
  decide +kernel

end Verif
