import Verif.Symlink
/-
C26: a symbolic link is safe exactly when its target is relative and, resolved
textually from the directory of the link, is the parent directory or lies
below it. The specification is `walk` together with "is a leading sequence of
components of".
-/
namespace Verif
open Posix

/-- Specification: `target` of the link at `parent/p` stays inside `parent`. -/
def SafeTarget (parent p : Path) (target : Str) : Prop :=
  isabs target = false ∧ parent <+: walk (parent ++ p.dropLast) (split target)

/-- `is_unsafe_symlink` decides `SafeTarget` for every link in the directory,
every target text and every normalised absolute directory; it never raises. -/
theorem C26_unsafe_iff {parent p : Path} (hP : GoodPath parent) (hp : GoodPath p) (hp0 : p ≠ [])
    (target : Str) :
    (SafeTarget parent p target →
      isUnsafeSymlink (join (absStr parent) (toStr p)) (some target) (absStr parent) = some false) ∧
    (¬ SafeTarget parent p target →
      isUnsafeSymlink (join (absStr parent) (toStr p)) (some target) (absStr parent) = some true) := by
  have hpp : GoodPath (parent ++ p) := goodPath_append.2 ⟨hP, hp⟩
  have hd : GoodPath (parent ++ p.dropLast) := goodPath_append.2 ⟨hP, hp.dropLast⟩
  cases habs : isabs target with
  | true => simp [SafeTarget, isUnsafeSymlink, habs]
  | false =>
    have hdir : dirname (join (absStr parent) (toStr p)) = absStr (parent ++ p.dropLast) := by
      rw [join_abs_toStr hP hp hp0, dirname_absStr hpp (by simp [hp0]),
        List.dropLast_append_of_ne_nil hp0]
    have hwg : GoodPath (walk (parent ++ p.dropLast) (split target)) :=
      walk_good hd (noSep_split target)
    have hcommon := commonpath_abs_eq_right hwg hP
    simp only [SafeTarget, isUnsafeSymlink, habs, hdir, normpath_join_abs hd habs]
    rw [← hcommon]
    simp only [commonpath, isabs_absStr, if_true, Option.some.injEq, true_and]
    constructor
    · intro h; simp [h]
    · intro h; simpa using h

/-- A path that is not a link is never unsafe. -/
theorem C26_nonlink_safe (linkPath parent : Str) :
    isUnsafeSymlink linkPath none parent = some false := rfl

/-- An absolute target is always unsafe, even one inside the directory. -/
theorem C26_absolute_unsafe (linkPath parent target : Str) (h : isabs target = true) :
    isUnsafeSymlink linkPath (some target) parent = some true := by
  simp [isUnsafeSymlink, h]

/-- Non-vacuity: `d/../../ab` seen from `/a/x/l` leaves `/a` although its text
starts with `/a`; `../y` does not. -/
example :
    ¬ SafeTarget ["a".toList] ["x".toList, "l".toList] "d/../../../ab".toList ∧
    SafeTarget ["a".toList] ["x".toList, "l".toList] ".././y".toList := by
  refine ⟨fun h => ?_, ?_⟩
  · have h2 := h.2
    rw [show walk (["a".toList] ++ ["x".toList, "l".toList].dropLast)
      (split "d/../../../ab".toList) = ["ab".toList] by decide +kernel] at h2
    revert h2; decide
  · refine ⟨by decide, ?_⟩
    rw [show walk (["a".toList] ++ ["x".toList, "l".toList].dropLast)
      (split ".././y".toList) = ["a".toList, "y".toList] by decide +kernel]
    decide

end Verif
