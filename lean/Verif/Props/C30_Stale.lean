import Verif.Props.C18_Deletions
/-
C30: stale files are exactly the known files outside the retained set.
-/
namespace Verif

/-- `q` is at or below a retained path. -/
def Retained (ret : List Path) (q : Path) : Prop := ∃ r ∈ ret, r <+: q

/-- The stale paths are the scanned known paths that are not at or below a
retained path and have no known path at or below a retained path below them. -/
theorem C30_stale (lkeys : List Path) (db : ALocal) (ret : List Path) (p : Path) :
    p ∈ computeStale lkeys db ret ↔ p ∈ lkeys ∧ p ∈ ADB.paths db ∧ ¬ Retained ret p ∧
      ¬ ∃ q ∈ ADB.paths db, p <+: q ∧ Retained ret q := by
  have hall : ∀ q, q ∈ ret.flatMap (fun p => ADB.paths (ADB.rows db p)) ↔
      q ∈ ADB.paths db ∧ Retained ret q := by
    intro q
    rw [List.mem_flatMap]
    constructor
    · rintro ⟨r, hr, hq⟩
      exact ⟨(mem_paths_rows.1 hq).1, r, hr, (mem_paths_rows.1 hq).2⟩
    · rintro ⟨hq, r, hr, hrq⟩
      exact ⟨r, hr, mem_paths_rows.2 ⟨hq, hrq⟩⟩
  unfold computeStale
  simp only [List.mem_filter, decide_eq_true_eq, Bool.not_eq_true', List.any_eq_false, hall]
  constructor
  · rintro ⟨⟨⟨h1, h2⟩, h3⟩, h4⟩
    refine ⟨h1, h2, fun hr => h3 ⟨h2, hr⟩, ?_⟩
    rintro ⟨q, hq, hpq, hr⟩
    exact h4 q (mem_paths_rows.2 ⟨hq, hpq⟩) ⟨hq, hr⟩
  · rintro ⟨h1, h2, h3, h4⟩
    refine ⟨⟨⟨h1, h2⟩, fun h => h3 h.2⟩, ?_⟩
    intro q hq hr
    exact h4 ⟨q, (mem_paths_rows.1 hq).1, (mem_paths_rows.1 hq).2, hr.2⟩

/-- `d/b` and `y` are stale when `d/a` and `x` are retained; `d` is not. -/
example : computeStale (ADB.paths exDelDB) exDelDB [["d".toList, "a".toList], ["x".toList]]
    = [["d".toList, "b".toList], ["y".toList]] := by decide +kernel

end Verif
