import Verif.Symlink
import Verif.Overlap
/-
The directories of the program (zielen/paths.py) and the completion of paths (zielen/utils.py:108-144).
-/
namespace Verif
open Posix

/-- What the functions of `paths.py` read: the home directory, which `expanduser` gets from `HOME` or from the user
database, the home directories of other users, and the variable `XDG_CONFIG_HOME`. -/
structure PathEnv where
  home : Str
  user : Str → Option Str
  config : Option Str

/-- `get_home_dir` (zielen/paths.py:23-24). -/
def PathEnv.homeDir (e : PathEnv) : Str := expanduser e.home e.user ['~', '/']

/-- `get_xdg_config_home` (zielen/paths.py:27-29). `os.getenv` gives the default only if the variable is not set. -/
def PathEnv.configHome (e : PathEnv) : Str := e.config.getD (join e.homeDir ".config".toList)

/-- `get_program_dir` (zielen/paths.py:42-43). -/
def PathEnv.programDir (e : PathEnv) : Str := join e.configHome "zielen".toList

/-- `get_profiles_dir` (zielen/paths.py:46-47). -/
def PathEnv.profilesDir (e : PathEnv) : Str := join e.programDir "profiles".toList

/-- `Profile.path` (zielen/profile.py:63). -/
def PathEnv.profilePath (e : PathEnv) (name : Str) : Str := join e.profilesDir name

/-- The check of the name of a new profile (zielen/commands/init.py:77-82). `space` and `word` are the characters that
`\s` and `\w` match; `$` also matches before a line break at the end. -/
def acceptedName (space word : Char → Bool) (name : Str) : Bool :=
  let chars := if name.getLast? = some '\n' then name.dropLast else name
  !name.any space && decide (chars ≠ []) && chars.all (fun c => word c || c == '-')

/-- `posixpath.abspath`. -/
def abspath (cwd p : Str) : Str := normpath (if isabs p then p else join cwd p)

/-- `posixpath.relpath`; `none` is the `ValueError` for an empty path. -/
def osRelpath (cwd path start : Str) : Option Str :=
  if path = [] then none else
  let a := (split (abspath cwd start)).filter (· ≠ [])
  let b := (split (abspath cwd path)).filter (· ≠ [])
  let i := (lcp a b).length
  let rel := List.replicate (a.length - i) ['.', '.'] ++ b.drop i
  some (if rel = [] then ['.'] else intercalate rel)

/-- `contract_user` (zielen/utils.py:108-117). -/
def contractUser (e : PathEnv) (cwd path : Str) : Option Str :=
  (osRelpath cwd path e.homeDir).map (join ['~'])

/-- `autocomplete` (zielen/utils.py:122-134), the paths that it offers. `isdir` and `glob` are what `os.path.isdir` and
`glob.glob` say. `none` is a `ValueError`, which needs an empty path from `glob`. -/
def completions (e : PathEnv) (cwd : Str) (isdir : Str → Bool) (glob : Str → List Str) (text : Str) : Option (List Str) :=
  let x := expanduser e.home e.user text
  let ps := if isdir x then glob (join x ['*']) else glob (x ++ ['*'])
  if x ≠ text then ps.mapM (contractUser e cwd) else some ps

/-! ### Lemmas -/

/-- What a path denotes in a working directory if no symbolic links are in the way: the names from the root on. -/
def denote (cwd p : Str) : Path := walk [] (split (if isabs p then p else join cwd p))

theorem filter_good {p : Path} (h : GoodPath p) : p.filter (· ≠ []) = p := by
  rw [List.filter_eq_self]
  intro c hc
  simpa using (h c hc).1

theorem split_absStr {p : Path} (h : GoodPath p) : (split (absStr p)).filter (· ≠ []) = p := by
  unfold absStr toStr
  rw [show split ('/' :: intercalate p) = [] :: split (intercalate p) by simp [split]]
  by_cases hp : p = []
  · subst hp; rfl
  · rw [split_intercalate p hp h.noSep, List.filter_cons]
    simp only [ne_eq, not_true_eq_false, decide_false, Bool.false_eq_true, if_false]
    exact filter_good h

theorem denote_good (cwd p : Str) : GoodPath (denote cwd p) := walk_good (fun c hc => by cases hc) (noSep_split _)

theorem split_slashes (n : Nat) (p : Path) (h : GoodPath p) :
    (split (List.replicate n '/' ++ intercalate p)).filter (· ≠ []) = p := by
  induction n with
  | zero =>
    by_cases hp : p = []
    · subst hp; rfl
    · rw [List.replicate_zero, List.nil_append, split_intercalate p hp h.noSep, filter_good h]
  | succ n ih =>
    rw [List.replicate_succ, List.cons_append,
      show ∀ s, split ('/' :: s) = [] :: split s from fun s => by simp [split], List.filter_cons]
    simp only [ne_eq, not_true_eq_false, decide_false, Bool.false_eq_true, if_false]
    exact ih

theorem normStep_pos {n : Nat} (hn : n ≠ 0) : normStep n = normStep 1 := by
  funext acc c
  unfold normStep
  simp [hn]

/-- The names in a normalized absolute path. -/
theorem comps_normpath {v : Str} (h : isabs v = true) : (split (normpath v)).filter (· ≠ []) = walk [] (split v) := by
  have h0 : v ≠ [] := by rintro rfl; cases h
  have hn : initialSlashes v ≠ 0 := by
    cases v with
    | nil => cases h
    | cons c r =>
      have : c = '/' := by simpa [isabs] using h
      subst this
      unfold initialSlashes
      split <;> simp_all
  have hw : ((split v).foldl (normStep (initialSlashes v)) []).reverse = walk [] (split v) := by
    rw [normStep_pos hn]
    exact (normStep_walk [] (split v) (by simp)).1
  have hg : GoodPath (walk [] (split v)) := walk_good (fun c hc => by cases hc) (noSep_split _)
  unfold normpath
  rw [if_neg h0]
  simp only [hw]
  have hne : List.replicate (initialSlashes v) '/' ++ intercalate (walk [] (split v)) ≠ [] := by
    intro e
    have := congrArg List.length e
    simp at this
    exact hn this.1
  rw [if_neg hne]
  exact split_slashes _ _ hg

theorem isabs_join {a b : Str} (ha : isabs a = true) : isabs (join a b) = true := by
  unfold join
  split
  · rename_i h; simp [isabs, h]
  · cases a with
    | nil => cases ha
    | cons c r => split <;> exact ha

theorem comps_abspath {cwd p : Str} (hc : isabs cwd = true) :
    (split (abspath cwd p)).filter (· ≠ []) = denote cwd p := by
  unfold abspath denote
  refine comps_normpath ?_
  split
  · assumption
  · exact isabs_join hc

theorem walk_join {a b : Str} (hb : isabs b = false) :
    walk [] (split (join a b)) = walk (walk [] (split a)) (split b) := by
  have hb1 : b.head? ≠ some '/' := by intro h; simp [isabs, h] at hb
  unfold join
  rw [if_neg hb1]
  split
  · rename_i h
    rcases h with rfl | h
    · rfl
    · obtain ⟨a', rfl⟩ : ∃ a', a = a' ++ ['/'] := by
        rw [List.getLast?_eq_some_iff] at h
        exact h
      rw [List.append_assoc, List.singleton_append, split_append, split_append, walk_append, walk_append]
      rfl
  · rw [split_append, walk_append]

/-- The working directory matters only for relative paths. -/
theorem denote_abs {p : Str} (h : isabs p = true) (cwd : Str) : denote cwd p = walk [] (split p) := by
  unfold denote; rw [if_pos h]

theorem isabs_append_sep (a b c : Str) : isabs (a ++ '/' :: b) = isabs (a ++ '/' :: c) := by
  cases a <;> rfl

theorem denote_append {a b : Str} (cwd : Str) :
    denote cwd (a ++ '/' :: b) = walk (denote cwd (a ++ ['/'])) (split b) := by
  have e : split (a ++ '/' :: b) = split a ++ split b := split_append a b
  have e' : split (a ++ ['/']) = split a ++ [[]] := split_append a []
  have w0 : ∀ x, walk x [[]] = x := fun x => by simp [walk]
  unfold denote
  rw [isabs_append_sep a b []]
  cases h : isabs (a ++ ['/']) with
  | true =>
    simp only [if_true]
    rw [e, e', walk_append, walk_append, w0]
  | false =>
    simp only [Bool.false_eq_true, if_false]
    rw [walk_join (by rw [isabs_append_sep a b []]; exact h), walk_join h, e, e', walk_append, walk_append, w0]

theorem walk_ups (a : Path) (k : Nat) : walk a (List.replicate k ['.', '.']) = a.take (a.length - k) := by
  induction k generalizing a with
  | zero => simp [walk]
  | succ k ih =>
    rw [List.replicate_succ, walk]
    simp only [List.cons_ne_nil, List.cons.injEq, and_false, false_or, if_false, if_true, and_self]
    rw [ih, List.length_dropLast, List.dropLast_eq_take, List.take_take]
    congr 1
    omega

theorem lcp_prefix_left (a b : List Str) : lcp a b <+: a := by
  induction a generalizing b with
  | nil => unfold lcp; exact List.prefix_refl _
  | cons x a ih =>
    cases b with
    | nil => exact List.nil_prefix
    | cons y b =>
      unfold lcp
      split
      · exact (List.prefix_cons_inj x).2 (ih b)
      · exact List.nil_prefix

theorem lcp_prefix_right (a b : List Str) : lcp a b <+: b := by
  rw [lcp_comm]; exact lcp_prefix_left b a

/-- The components of the result of `relpath` lead from the one path to the other. -/
theorem walk_rel {a b : Path} (hb : GoodPath b) :
    walk a (List.replicate (a.length - (lcp a b).length) ['.', '.'] ++ b.drop (lcp a b).length) = b := by
  have h1 := List.prefix_iff_eq_take.1 (lcp_prefix_left a b)
  have h2 := List.prefix_iff_eq_take.1 (lcp_prefix_right a b)
  have hl := (lcp_prefix_left a b).length_le
  rw [walk_append, walk_ups, walk_goodPath _ _ (fun c hc => hb c (List.mem_of_mem_drop hc))]
  rw [show a.length - (a.length - (lcp a b).length) = (lcp a b).length by omega, ← h1]
  conv => lhs; lhs; rw [h2]
  exact List.take_append_drop _ _

theorem homeDir_eq (e : PathEnv) : e.homeDir = rstripSep e.home ++ ['/'] := by
  unfold PathEnv.homeDir expanduser
  simp

theorem rel_noSep {a b : Path} (hb : GoodPath b) :
    ∀ c ∈ List.replicate (a.length - (lcp a b).length) ['.', '.'] ++ b.drop (lcp a b).length, c ≠ [] ∧ '/' ∉ c := by
  intro c hc
  rcases List.mem_append.1 hc with h | h
  · rw [(List.mem_replicate.1 h).2]; decide
  · exact ⟨(hb c (List.mem_of_mem_drop h)).1, (hb c (List.mem_of_mem_drop h)).2.1⟩

theorem head_intercalate {l : List Str} (h : ∀ c ∈ l, c ≠ [] ∧ '/' ∉ c) : (intercalate l).head? ≠ some '/' := by
  cases l with
  | nil => simp [intercalate]
  | cons c l =>
    obtain ⟨h1, h2⟩ := h c List.mem_cons_self
    cases c with
    | nil => exact absurd rfl h1
    | cons x c =>
      have : x ≠ '/' := fun e => h2 (by simp [e])
      cases l with
      | nil => simpa [intercalate] using this
      | cons d l => simpa [intercalate] using this

/-- The result of `relpath` leads from the one path to the other. -/
theorem osRelpath_spec {cwd path start : Str} (hc : isabs cwd = true) (hp : path ≠ []) :
    ∃ r, osRelpath cwd path start = some r ∧ isabs r = false ∧ walk (denote cwd start) (split r) = denote cwd path := by
  have hb := denote_good cwd path
  unfold osRelpath
  rw [if_neg hp]
  refine ⟨_, rfl, ?_, ?_⟩
  · simp only [comps_abspath hc]
    split
    · rfl
    · have := head_intercalate (rel_noSep (a := denote cwd start) hb)
      unfold isabs
      simpa using this
  · simp only [comps_abspath hc]
    have hw := walk_rel (a := denote cwd start) hb
    split
    · rename_i h
      rw [h] at hw
      have : walk (denote cwd start) (split ['.']) = denote cwd start := by simp [split, walk]
      rw [this]
      simpa [walk] using hw
    · rename_i h
      rw [split_intercalate _ h (fun c hc => (rel_noSep hb c hc).2)]
      exact hw

end Verif
