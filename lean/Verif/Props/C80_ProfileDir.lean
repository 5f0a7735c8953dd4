import Verif.XdgPaths
import Verif.Props.C46_Overlap
/-
C80: every profile has a directory of its own, wherever the program is started.
-/
namespace Verif
open Posix

/-- What is known about the character classes of Python's regular expressions. -/
structure CharClasses (space word : Char → Bool) : Prop where
  newline : space '\n' = true
  slash : word '/' = false
  dot : word '.' = false

/-- C80: the name of a profile that `init` accepts is the name of a file. -/
theorem C80_name {space word : Char → Bool} (hc : CharClasses space word) {name : Str}
    (h : acceptedName space word name = true) : GoodName name := by
  unfold acceptedName at h
  simp only [Bool.and_eq_true, Bool.not_eq_true', List.any_eq_false, decide_eq_true_eq, List.all_eq_true, Bool.or_eq_true,
    beq_iff_eq] at h
  obtain ⟨⟨h1, h2⟩, h3⟩ := h
  have hl : name.getLast? ≠ some '\n' := by
    intro e
    have := h1 _ (List.mem_of_getLast? e)
    exact this hc.newline
  rw [if_neg hl] at h2 h3
  refine ⟨h2, fun hm => ?_, ?_, ?_⟩
  · rcases h3 _ hm with h | h
    · rw [hc.slash] at h; cases h
    · exact absurd h (by decide)
  · rintro rfl
    rcases h3 '.' (by simp) with h | h
    · rw [hc.dot] at h; cases h
    · exact absurd h (by decide)
  · rintro rfl
    rcases h3 '.' (by simp) with h | h
    · rw [hc.dot] at h; cases h
    · exact absurd h (by decide)

theorem walk_good_str (cur : Path) {n : Str} (h : GoodName n) : walk cur (split n) = cur ++ [n] := by
  rw [split_noSep n h.2.1]
  exact walk_goodPath cur [n] (fun c hc => by rw [List.mem_singleton] at hc; subst hc; exact h)

theorem isabs_good {n : Str} (h : GoodName n) : isabs n = false := by
  cases n with
  | nil => rfl
  | cons c r =>
    have : c ≠ '/' := fun e => h.2.1 (by simp [e])
    simpa [isabs] using this

theorem denote_join {a n : Str} (h : GoodName n) (cwd : Str) (ha : a ≠ []) : denote cwd (join a n) = denote cwd a ++ [n] := by
  have hn := isabs_good h
  have hb : n.head? ≠ some '/' := by intro e; simp [isabs, e] at hn
  have habs : isabs (join a n) = isabs a := by
    unfold join
    rw [if_neg hb]
    cases a with
    | nil => exact absurd rfl ha
    | cons c r => split <;> rfl
  have hw : ∀ x : Str, walk [] (split (join x n)) = walk [] (split x) ++ [n] := fun x => by
    rw [walk_join hn, walk_good_str _ h]
  unfold denote
  rw [habs]
  cases hA : isabs a with
  | true => simp only [if_true]; exact hw a
  | false =>
    simp only [Bool.false_eq_true, if_false]
    rw [walk_join (by rw [habs]; exact hA), walk_join hA]
    have e1 : walk (walk [] (split cwd)) (split (join a n)) = walk (walk [] (split cwd)) (split a) ++ [n] := by
      unfold join
      rw [if_neg hb]
      split
      · rename_i h1
        rcases h1 with rfl | h1
        · exact absurd rfl ha
        · obtain ⟨a', rfl⟩ : ∃ a', a = a' ++ ['/'] := by
            rw [List.getLast?_eq_some_iff] at h1; exact h1
          rw [List.append_assoc, List.singleton_append, split_append, split_append, walk_append, walk_append,
            walk_good_str _ h]
          rfl
      · rw [split_append, walk_append, walk_good_str _ h]
    exact e1

theorem join_ne_nil {a n : Str} (h : n ≠ []) : join a n ≠ [] := by
  unfold join
  split
  · exact h
  · split
    · simp [h]
    · simp

theorem good_profiles : GoodName "profiles".toList := by decide +kernel
theorem good_zielen : GoodName "zielen".toList := by decide +kernel
theorem good_config : GoodName ".config".toList := by decide +kernel

/-- C80: the directory of a profile is an entry of the directory of the profiles, and different profiles have different
directories, in every working directory. -/
theorem C80_own {space word : Char → Bool} (hc : CharClasses space word) (e : PathEnv) {name name' : Str}
    (h : acceptedName space word name = true) (h' : acceptedName space word name' = true) (cwd : Str) :
    denote cwd (e.profilePath name) = denote cwd e.profilesDir ++ [name] ∧
    (denote cwd (e.profilePath name) = denote cwd (e.profilePath name') → name = name') := by
  have hp : e.profilesDir ≠ [] := join_ne_nil (by decide)
  have h1 := denote_join (C80_name hc h) cwd hp
  have h2 := denote_join (C80_name hc h') cwd hp
  refine ⟨h1, fun he => ?_⟩
  unfold PathEnv.profilePath at he
  rw [h1, h2] at he
  simpa using he

theorem rstrip_abs {s : Str} (h : isabs s = true) : isabs (rstripSep s ++ ['/']) = true := by
  cases hr : rstripSep s with
  | nil => rfl
  | cons c r =>
    have hp : rstripSep s <+: s := by
      unfold rstripSep
      have := List.dropWhile_suffix (l := s.reverse) (· == '/')
      have := List.reverse_prefix.2 this
      rwa [List.reverse_reverse] at this
    obtain ⟨t, ht⟩ := hp
    rw [hr] at ht
    rw [← ht] at h
    simpa [isabs] using h

theorem profilesDir_abs {e : PathEnv} (hh : isabs e.home = true) (hx : ∀ x, e.config = some x → isabs x = true) :
    isabs e.profilesDir = true := by
  refine isabs_join (isabs_join ?_)
  unfold PathEnv.configHome
  cases h : e.config with
  | some x => exact hx x h
  | none =>
    refine isabs_join ?_
    rw [homeDir_eq]
    exact rstrip_abs hh

/-- C80: the directory of a profile does not depend on the working directory, if `HOME` is an absolute path and
`XDG_CONFIG_HOME` is not set or an absolute path. -/
theorem C80_cwd_partial {e : PathEnv} (hh : isabs e.home = true) (hx : ∀ x, e.config = some x → isabs x = true)
    (name cwd cwd' : Str) : denote cwd (e.profilePath name) = denote cwd' (e.profilePath name) := by
  have h : isabs (e.profilePath name) = true := isabs_join (profilesDir_abs hh hx)
  rw [denote_abs h, denote_abs h]

/-- C80: where it is, if `XDG_CONFIG_HOME` is not set. -/
theorem C80_default {home : Path} (hg : GoodPath home) (user : Str → Option Str) (cwd : Str) :
    denote cwd (PathEnv.profilesDir ⟨absStr home, user, none⟩) =
      home ++ [".config".toList, "zielen".toList, "profiles".toList] := by
  have h1 : denote cwd (PathEnv.homeDir ⟨absStr home, user, none⟩) = home := by
    rw [homeDir_eq, denote_abs (rstrip_abs (isabs_absStr home))]
    by_cases h0 : home = []
    · subst h0; rfl
    · have hr : rstripSep (absStr home) = absStr home := by
        obtain ⟨s, c, hs, hc⟩ := toStr_getLast h0 hg
        unfold rstripSep absStr
        rw [hs]
        simp [hc]
      rw [hr, split_append, walk_append]
      have : split (absStr home) = [] :: home := by
        unfold absStr toStr
        rw [show split ('/' :: intercalate home) = [] :: split (intercalate home) by simp [split],
          split_intercalate home h0 hg.noSep]
      rw [this]
      have e : walk [] ([] :: home) = walk [] home := rfl
      rw [e, walk_goodPath _ _ hg]
      rfl
  have hne : PathEnv.homeDir ⟨absStr home, user, none⟩ ≠ [] := by rw [homeDir_eq]; simp
  have hj : PathEnv.configHome ⟨absStr home, user, none⟩ =
      join (PathEnv.homeDir ⟨absStr home, user, none⟩) ".config".toList := rfl
  unfold PathEnv.profilesDir PathEnv.programDir
  rw [hj, denote_join good_profiles cwd (join_ne_nil (by decide)),
    denote_join good_zielen cwd (join_ne_nil (by decide)), denote_join good_config cwd hne, h1]
  simp

/-- C80 fails if `XDG_CONFIG_HOME` is set to an empty string, which is to mean the same as if it was not set: the
directory of the profiles is then looked for in the working directory. -/
theorem C80_empty_fails : ∃ (e : PathEnv) (cwd cwd' name : Str), isabs e.home = true ∧ e.config = some [] ∧
    isabs cwd = true ∧ isabs cwd' = true ∧ denote cwd (e.profilePath name) ≠ denote cwd' (e.profilePath name) :=
  ⟨⟨"/root".toList, fun _ => none, some []⟩, "/a".toList, "/b".toList, "p".toList, rfl, rfl, rfl, rfl, by decide +kernel⟩

/-- In this case `init` always ends with a `ValueError`, because it compares the local directory with a relative path. -/
theorem C80_init_fails (home : Str) (user : Str → Option Str) (others : List Str) {dir : Str} (hd : isabs dir = true) :
    verifyLocalDir (PathEnv.programDir ⟨home, user, some []⟩) others dir = none := by
  have : PathEnv.programDir ⟨home, user, some []⟩ = "zielen".toList := rfl
  rw [this]
  unfold verifyLocalDir overlaps commonpath
  rw [hd]
  rfl

/-- A path that is not in its shortest form is enough for `init` to accept a local directory inside the directory of the
program, although it refuses those for every path in its shortest form (`C46_exact_partial`). -/
theorem C80_slashes_fails : ∃ (e : PathEnv) (dir : Str), isabs e.home = true ∧ e.config = some "/c//d".toList ∧
    verifyLocalDir e.programDir [] dir = some true ∧
    denote "/".toList dir = denote "/".toList e.programDir ++ ["x".toList] :=
  ⟨⟨"/root".toList, fun _ => none, some "/c//d".toList⟩, "/c/d/zielen/x".toList, rfl, rfl, by decide +kernel, by decide +kernel⟩

/-! ### Examples -/

/-- A few of the characters. -/
def exWord (c : Char) : Bool := c.isAlphanum || c == '_'
def exSpaceChar (c : Char) : Bool := c == ' ' || c == '\n' || c == '\t'

theorem exClasses : CharClasses exSpaceChar exWord := ⟨rfl, rfl, rfl⟩

example : acceptedName exSpaceChar exWord "my-docs_2".toList = true ∧ acceptedName exSpaceChar exWord "a/b".toList = false ∧
    acceptedName exSpaceChar exWord "..".toList = false ∧ acceptedName exSpaceChar exWord "a\n".toList = false ∧
    acceptedName exSpaceChar exWord [] = false := by decide +kernel

example : denote "/tmp".toList (PathEnv.profilePath ⟨"/home/u/".toList, fun _ => none, none⟩ "p".toList) =
    ["home".toList, "u".toList, ".config".toList, "zielen".toList, "profiles".toList, "p".toList] := by decide +kernel

end Verif
