import Verif.PathsDiff
import Mathlib.Data.List.Induction
/-
C48: `PathsDiff` tracks renames. The specification follows one path at a time.
-/
namespace Verif
namespace PathsDiff

/-- What became of the starting path `p`: its current name, or `none` if it was
removed. A later rename of the starting path gives it a name again. -/
def curStep (p : PPath) (c : Option PPath) : Op → Option PPath
  | .rm ps => match c with
    | some q => if q ∈ ps then none else some q
    | none => none
  | .add _ => c
  | .rename prs => match prs.reverse.find? (fun pr => decide (pr.1 = p)) with
    | some pr => some pr.2
    | none => c

def current (ops : List Op) (p : PPath) : Option PPath := ops.foldl (curStep p) (some p)

/-- The paths that were added and not removed since. -/
def extraStep (q : PPath) (b : Bool) : Op → Bool
  | .rm ps => b && decide (q ∉ ps)
  | .add ps => b || decide (q ∈ ps)
  | .rename _ => b

def extra (ops : List Op) (q : PPath) : Bool := ops.foldl (extraStep q) false

theorem mem_rm {ps : List PPath} : ∀ {s : PairSet} {x : Option PPath × Option PPath},
    x ∈ rm s ps ↔ (x ∈ s ∧ ∀ p ∈ ps, x.2 ≠ some p) ∨
      (x.2 = none ∧ ∃ p ∈ ps, (x.1, some p) ∈ s) := by
  induction ps with
  | nil => intro s x; simp [rm]
  | cons p ps ih =>
    intro s x
    have : rm s (p :: ps) = rm (s.map (fun x => if x.2 = some p then (x.1, none) else x)) ps := rfl
    rw [this, ih]
    have hm : ∀ y : Option PPath × Option PPath,
        y ∈ s.map (fun x => if x.2 = some p then (x.1, none) else x) ↔
          (y ∈ s ∧ y.2 ≠ some p) ∨ (y.2 = none ∧ (y.1, some p) ∈ s) := by
      intro y
      rw [List.mem_map]
      constructor
      · rintro ⟨z, hz, rfl⟩
        split
        · rename_i h
          right
          refine ⟨rfl, ?_⟩
          simp only
          rw [← h]
          exact hz
        · rename_i h
          exact Or.inl ⟨hz, h⟩
      · rintro (⟨h1, h2⟩ | ⟨h1, h2⟩)
        · exact ⟨y, h1, if_neg h2⟩
        · refine ⟨_, h2, ?_⟩
          rw [if_pos rfl]
          obtain ⟨a, b⟩ := y
          simp only at h1
          rw [h1]
    rw [hm]
    simp only [hm, List.mem_cons, forall_eq_or_imp, exists_eq_or_imp]
    obtain ⟨a, b⟩ := x
    simp only
    constructor
    · rintro (⟨⟨h1, h2⟩ | ⟨h1, h2⟩, h3⟩ | ⟨h1, q, hq, h2 | h2⟩)
      · exact Or.inl ⟨h1, h2, h3⟩
      · exact Or.inr ⟨h1, Or.inl h2⟩
      · exact Or.inr ⟨h1, Or.inr ⟨q, hq, h2.1⟩⟩
      · simp at h2
    · rintro (⟨h1, h2, h3⟩ | ⟨h1, h2 | ⟨q, hq, h2⟩⟩)
      · exact Or.inl ⟨Or.inl ⟨h1, h2⟩, h3⟩
      · refine Or.inl ⟨Or.inr ⟨h1, h2⟩, ?_⟩
        intro q _; rw [h1]; simp
      · by_cases hqp : q = p
        · subst hqp
          refine Or.inl ⟨Or.inr ⟨h1, h2⟩, ?_⟩
          intro q _; rw [h1]; simp
        · exact Or.inr ⟨h1, q, hq, Or.inl ⟨h2, by simpa using hqp⟩⟩

theorem mem_rename {prs : List (PPath × PPath)} : ∀ {s : PairSet} {x : Option PPath × Option PPath},
    x ∈ rename s prs ↔ ∃ y ∈ s, x.1 = y.1 ∧
      x.2 = (match prs.reverse.find? (fun pr => decide (some pr.1 = y.1)) with
        | some pr => some pr.2 | none => y.2) := by
  induction prs with
  | nil =>
    intro s x
    simp only [rename, List.foldl_nil, List.reverse_nil, List.find?_nil]
    constructor
    · intro h; exact ⟨x, h, rfl, rfl⟩
    · rintro ⟨y, hy, h1, h2⟩
      have : x = y := Prod.ext h1 h2
      rw [this]; exact hy
  | cons pr prs ih =>
    intro s x
    have : rename s (pr :: prs) = rename (s.map (fun x => if x.1 = some pr.1 then (x.1, some pr.2)
      else x)) prs := rfl
    rw [this, ih]
    constructor
    · rintro ⟨y, hy, h1, h2⟩
      obtain ⟨z, hz, rfl⟩ := List.mem_map.1 hy
      refine ⟨z, hz, ?_, ?_⟩
      · rw [h1]; split <;> rfl
      · rw [h2]
        simp only [List.reverse_cons, List.find?_append]
        have e1 : (if z.1 = some pr.1 then (z.1, some pr.2) else z).1 = z.1 := by split <;> rfl
        rw [e1]
        cases h : prs.reverse.find? (fun pr => decide (some pr.1 = z.1)) with
        | some q => rfl
        | none =>
          simp only [Option.none_or]
          by_cases hz1 : z.1 = some pr.1
          · rw [if_pos hz1]; simp [hz1]
          · have : ¬ some pr.1 = z.1 := fun e => hz1 e.symm
            rw [if_neg hz1]; simp [this]
    · rintro ⟨z, hz, h1, h2⟩
      refine ⟨_, List.mem_map.2 ⟨z, hz, rfl⟩, ?_, ?_⟩
      · rw [h1]; split <;> rfl
      · rw [h2]
        simp only [List.reverse_cons, List.find?_append]
        have e1 : (if z.1 = some pr.1 then (z.1, some pr.2) else z).1 = z.1 := by split <;> rfl
        rw [e1]
        cases h : prs.reverse.find? (fun pr => decide (some pr.1 = z.1)) with
        | some q => rfl
        | none =>
          simp only [Option.none_or]
          by_cases hz1 : z.1 = some pr.1
          · rw [if_pos hz1]; simp [hz1]
          · have : ¬ some pr.1 = z.1 := fun e => hz1 e.symm
            rw [if_neg hz1]; simp [this]

/-- The three kinds of pairs that matter. -/
structure Tracks (start : List PPath) (ops : List Op) (s : PairSet) : Prop where
  fst : ∀ p o, (some p, o) ∈ s ↔ p ∈ start ∧ current ops p = o
  new : ∀ q, (none, some q) ∈ s ↔ extra ops q = true

theorem tracks (start : List PPath) (ops : List Op) : Tracks start ops (run start ops) := by
  induction ops using List.reverseRecOn with
  | nil =>
    refine ⟨fun p o => ?_, fun q => ?_⟩
    · simp only [run, List.foldl_nil, init, List.mem_map, Prod.mk.injEq, Option.some.injEq, current]
      constructor
      · rintro ⟨a, ha, rfl, rfl⟩; exact ⟨ha, rfl⟩
      · rintro ⟨h, rfl⟩; exact ⟨p, h, rfl, rfl⟩
    · simp [run, init, extra]
  | append_singleton ops op ih =>
    have hrun : run start (ops ++ [op]) = step (run start ops) op := by simp [run]
    have hcur : ∀ p, current (ops ++ [op]) p = curStep p (current ops p) op := by
      intro p; simp [current]
    have hex : ∀ q, extra (ops ++ [op]) q = extraStep q (extra ops q) op := by
      intro q; simp [extra]
    generalize run start ops = s at *
    rw [hrun]
    cases op with
    | rm ps =>
      refine ⟨fun p o => ?_, fun q => ?_⟩
      · rw [hcur]
        simp only [step, mem_rm, ih.fst, curStep]
        constructor
        · rintro (⟨⟨h1, h2⟩, h3⟩ | ⟨rfl, q, hq, h1, h2⟩)
          · refine ⟨h1, ?_⟩
            rw [h2]
            cases o with
            | none => rfl
            | some r =>
              have : r ∉ ps := fun hr => h3 r hr rfl
              simp [this]
          · refine ⟨h1, ?_⟩
            rw [h2]; simp [hq]
        · rintro ⟨h1, h2⟩
          cases hc : current ops p with
          | none =>
            rw [hc] at h2
            simp only at h2
            subst h2
            exact Or.inl ⟨⟨h1, rfl⟩, by simp⟩
          | some r =>
            rw [hc] at h2
            simp only at h2
            by_cases hr : r ∈ ps
            · rw [if_pos hr] at h2
              exact Or.inr ⟨h2.symm, r, hr, h1, rfl⟩
            · rw [if_neg hr] at h2
              subst h2
              exact Or.inl ⟨⟨h1, rfl⟩, by
                intro q hq e
                simp only [Option.some.injEq] at e
                exact hr (e ▸ hq)⟩
      · rw [hex]
        simp only [step, mem_rm, ih.new, extraStep, Bool.and_eq_true, decide_eq_true_eq]
        constructor
        · rintro (⟨h1, h2⟩ | ⟨h1, _⟩)
          · exact ⟨h1, fun hq => h2 q hq rfl⟩
          · simp at h1
        · rintro ⟨h1, h2⟩
          exact Or.inl ⟨h1, fun r hr e => h2 (by simp only [Option.some.injEq] at e; exact e ▸ hr)⟩
    | add ps =>
      refine ⟨fun p o => ?_, fun q => ?_⟩
      · rw [hcur]
        simp only [step, add, List.mem_append, ih.fst, curStep]
        constructor
        · rintro (h | h)
          · exact h
          · simp at h
        · exact Or.inl
      · rw [hex]
        simp only [step, add, List.mem_append, ih.new, extraStep, Bool.or_eq_true,
          decide_eq_true_eq]
        simp
    | rename prs =>
      refine ⟨fun p o => ?_, fun q => ?_⟩
      · rw [hcur]
        simp only [step, mem_rename, curStep]
        constructor
        · rintro ⟨⟨a, b⟩, hy, rfl, rfl⟩
          rw [ih.fst] at hy
          refine ⟨hy.1, ?_⟩
          rw [hy.2]
          simp only [Option.some.injEq]
        · rintro ⟨h1, rfl⟩
          refine ⟨(some p, current ops p), (ih.fst _ _).2 ⟨h1, rfl⟩, rfl, ?_⟩
          simp only [Option.some.injEq]
      · rw [hex]
        simp only [step, mem_rename, extraStep, ← ih.new]
        constructor
        · rintro ⟨⟨a, b⟩, hy, rfl, h⟩
          have : prs.reverse.find? (fun pr => decide (some pr.1 = (none : Option PPath))) = none := by
            rw [List.find?_eq_none]; simp
          rw [this] at h
          simp only at h
          rw [h]; exact hy
        · intro h
          refine ⟨_, h, rfl, ?_⟩
          have : prs.reverse.find? (fun pr => decide (some pr.1 = (none : Option PPath))) = none := by
            rw [List.find?_eq_none]; simp
          rw [this]

end PathsDiff
open PathsDiff

/-- `init_paths` is the starting set (the empty string is never a path). -/
theorem C48_init (start : List PPath) (ops : List PathsDiff.Op) (p : PPath) :
    p ∈ initPaths (run start ops) ↔ p ∈ start ∧ p ≠ [] := by
  have t := tracks start ops
  simp only [initPaths, List.mem_filterMap, List.mem_filter]
  constructor
  · rintro ⟨⟨a, b⟩, ⟨h1, h2⟩, rfl⟩
    exact ⟨((t.fst p b).1 h1).1, by simpa [truthy] using h2⟩
  · rintro ⟨h1, h2⟩
    exact ⟨(some p, current ops p), ⟨(t.fst p _).2 ⟨h1, rfl⟩, by simpa [truthy] using h2⟩, rfl⟩

/-- `res_paths` is the set of current names of the starting paths and of the
paths added since. -/
theorem C48_res (start : List PPath) (ops : List PathsDiff.Op) (q : PPath) (hq : q ≠ []) :
    q ∈ resPaths (run start ops) ↔
      (∃ p ∈ start, current ops p = some q) ∨ extra ops q = true := by
  have t := tracks start ops
  simp only [resPaths, List.mem_filterMap, List.mem_filter]
  constructor
  · rintro ⟨⟨a, b⟩, ⟨h1, h2⟩, rfl⟩
    cases a with
    | none => exact Or.inr ((t.new q).1 h1)
    | some p => exact Or.inl ⟨p, ((t.fst p _).1 h1).1, ((t.fst p _).1 h1).2⟩
  · rintro (⟨p, h1, h2⟩ | h)
    · exact ⟨(some p, some q), ⟨(t.fst p _).2 ⟨h1, h2⟩, by simpa [truthy] using hq⟩, rfl⟩
    · exact ⟨(none, some q), ⟨(t.new q).2 h, by simpa [truthy] using hq⟩, rfl⟩

/-- `mod_paths` lists exactly the starting paths whose current name differs. -/
theorem C48_mod (start : List PPath) (ops : List PathsDiff.Op) (p q : PPath) :
    (p, q) ∈ modPaths (run start ops) ↔
      p ∈ start ∧ current ops p = some q ∧ p ≠ q ∧ p ≠ [] ∧ q ≠ [] := by
  have t := tracks start ops
  simp only [modPaths, List.mem_filterMap]
  constructor
  · rintro ⟨⟨a, b⟩, h1, h2⟩
    split at h2
    · rename_i a' b' he
      obtain ⟨rfl, rfl⟩ := Prod.mk.injEq .. ▸ he
      split at h2
      · rename_i hc
        simp only [Option.some.injEq, Prod.mk.injEq] at h2
        obtain ⟨rfl, rfl⟩ := h2
        exact ⟨((t.fst _ _).1 h1).1, ((t.fst _ _).1 h1).2, hc.2.2, hc.1, hc.2.1⟩
      · simp at h2
    · simp at h2
  · rintro ⟨h1, h2, h3, h4, h5⟩
    exact ⟨(some p, some q), (t.fst _ _).2 ⟨h1, h2⟩, by simp [h3, h4, h5]⟩

def exDiff : PairSet := run [["a".toList], ["b".toList], ["c".toList]]
  [.rename [(["a".toList], ["a2".toList])], .rm [["c".toList]], .add [["d".toList]]]

example : initPaths exDiff = [["a".toList], ["b".toList], ["c".toList]] ∧
    resPaths exDiff = [["a2".toList], ["b".toList], ["d".toList]] ∧
    modPaths exDiff = [(["a".toList], ["a2".toList])] := by decide +kernel

end Verif
