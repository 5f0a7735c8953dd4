import Verif.FilesManager
import Verif.Trash
import Verif.Props.C20_ConflictNames
/-
Conflict names as paths.
-/
namespace Verif
open Posix

/-- A text of a time has neither dots nor slashes. -/
def GoodStamp (ts : Str) : Prop := '.' ∉ ts ∧ '/' ∉ ts

instance (ts : Str) : Decidable (GoodStamp ts) := by unfold GoodStamp; infer_instance

/-- A conflict name differs from the path in the last component only. -/
theorem conflictPath_concat {ts : Str} (hts : GoodStamp ts) {d : Path} {c : Str} (hd : GoodPath d) (hc : GoodName c) :
    ∃ c', conflictPath ts (d ++ [c]) = d ++ [c'] ∧ GoodName c' ∧ 10 ≤ c'.length ∧
      timestampPath (toStr (d ++ [c])) "conflict".toList ts = toStr (d ++ [c']) := by
  obtain ⟨name, ext, h1, h2, _, _, h3⟩ := timestampPath_shape ts (toStr (d ++ [c])) hts
  have hb := noSep_basename (conflictName ts (toStr (d ++ [c])))
  have hlen : (basename (conflictName ts (toStr (d ++ [c])))).length = c.length + 10 + ts.length := by
    have e1 := congrArg List.length (rawHead_append_basename (conflictName ts (toStr (d ++ [c]))))
    have e2 := congrArg List.length (rawHead_append_basename (toStr (d ++ [c])))
    rw [h3, h2] at e1
    rw [basename_toStr c hc] at e2
    conv at e2 => rhs; rw [h1]
    rw [h2]
    simp at e1 e2 ⊢
    omega
  generalize hbe : basename (conflictName ts (toStr (d ++ [c]))) = b at hb hlen
  have hgood : GoodName b := by
    refine ⟨?_, hb, ?_, ?_⟩ <;> (rintro rfl; simp at hlen; try omega)
  have hstr : timestampPath (toStr (d ++ [c])) "conflict".toList ts = toStr (d ++ [b]) := by
    have e1 := rawHead_append_basename (conflictName ts (toStr (d ++ [c])))
    rw [h3, hbe] at e1
    show conflictName ts (toStr (d ++ [c])) = _
    rw [← e1]
    by_cases hd0 : d = []
    · subst hd0
      have : rawHead (toStr ([] ++ [c])) = [] := by
        have := rawHead_append_basename (toStr ([] ++ [c]))
        rw [basename_toStr c hc] at this
        simp only [List.nil_append, toStr, intercalate] at this ⊢
        exact List.append_left_eq_self.1 this
      rw [this]
      simp [toStr, intercalate]
    · rw [rawHead_toStr hd0 c hc, toStr_concat hd0]
      simp
  refine ⟨b, ?_, hgood, by omega, hstr⟩
  unfold conflictPath
  rw [hstr]
  exact split_intercalate _ (by simp) (goodPath_append.2 ⟨hd, by
    intro x hx; simp at hx; subst hx; exact hgood⟩).noSep

section
variable {ts : Str} {p q : Path}

theorem conflictPath_eq (hts : GoodStamp ts) (hp : GoodPath p) (hp0 : p ≠ []) :
    ∃ c', conflictPath ts p = p.dropLast ++ [c'] ∧ GoodName c' ∧ 10 ≤ c'.length ∧
      timestampPath (toStr p) "conflict".toList ts = toStr (conflictPath ts p) := by
  have he := List.dropLast_concat_getLast hp0
  have := conflictPath_concat hts hp.dropLast (c := p.getLast hp0) (hp _ (List.getLast_mem hp0))
  rw [he] at this
  obtain ⟨c', h1, h2, h3, h4⟩ := this
  exact ⟨c', h1, h2, h3, by rw [h4, h1]⟩

theorem goodPath_conflictPath (hts : GoodStamp ts) (hp : GoodPath p) (hp0 : p ≠ []) :
    GoodPath (conflictPath ts p) := by
  obtain ⟨c', h1, h2, _⟩ := conflictPath_eq hts hp hp0
  rw [h1, goodPath_append]
  exact ⟨hp.dropLast, by intro x hx; simp at hx; subst hx; exact h2⟩

theorem conflictPath_ne_nil (hts : GoodStamp ts) (hp : GoodPath p) (hp0 : p ≠ []) : conflictPath ts p ≠ [] := by
  obtain ⟨c', h1, _⟩ := conflictPath_eq hts hp hp0
  rw [h1]; simp

theorem dropLast_conflictPath (hts : GoodStamp ts) (hp : GoodPath p) (hp0 : p ≠ []) :
    (conflictPath ts p).dropLast = p.dropLast := by
  obtain ⟨c', h1, _⟩ := conflictPath_eq hts hp hp0
  rw [h1]; simp

theorem conflictPath_ne (hts : GoodStamp ts) (hp : GoodPath p) (hp0 : p ≠ []) : conflictPath ts p ≠ p := by
  intro h
  obtain ⟨_, _, _, _, h1⟩ := conflictPath_eq hts hp hp0
  rw [h] at h1
  exact C20_changes_name ts _ hts h1

theorem conflictPath_inj (hts : GoodStamp ts) (hp : GoodPath p) (hp0 : p ≠ []) (hq : GoodPath q) (hq0 : q ≠ [])
    (h : conflictPath ts p = conflictPath ts q) : p = q := by
  obtain ⟨_, _, _, _, h1⟩ := conflictPath_eq hts hp hp0
  obtain ⟨_, _, _, _, h2⟩ := conflictPath_eq hts hq hq0
  apply toStr_injective hp hq
  apply C20_injective ts _ _ hts
  show timestampPath _ _ _ = timestampPath _ _ _
  rw [h1, h2, h]

theorem userPath_conflictPath (hts : GoodStamp ts) (hp : GoodPath p) (hu : UserPath p) :
    UserPath (conflictPath ts p) := by
  obtain ⟨c', h1, _, h3, _⟩ := conflictPath_eq hts hp hu.1
  refine ⟨conflictPath_ne_nil hts hp hu.1, ?_⟩
  rw [h1]
  cases hd : p.dropLast with
  | nil =>
    simp only [List.nil_append, List.head?_cons, ne_eq, Option.some.injEq]
    rintro rfl
    exact absurd h3 (by decide)
  | cons x d =>
    have : p.head? = some x := by
      have := List.dropLast_prefix p
      rw [hd] at this
      obtain ⟨t, ht⟩ := this
      rw [← ht]; rfl
    have h := hu.2
    rw [this] at h
    simpa using h

end

example : conflictPath "20170101-000000".toList ["d".toList, "a.txt".toList] =
    ["d".toList, "a_conflict-20170101-000000.txt".toList] := by decide +kernel

end Verif
