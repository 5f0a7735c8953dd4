import Verif.XdgPaths
/-
C81: a path that is offered as a completion names the file that was found.
-/
namespace Verif
open Posix

theorem expand_tilde (e : PathEnv) (r : Str) : expanduser e.home e.user ('~' :: '/' :: r) = rstripSep e.home ++ '/' :: r := by
  unfold expanduser
  simp

/-- C81: `contract_user` gives a path in the home directory that names the same file as the one it was given, for every
path and every working directory. -/
theorem C81_contract (e : PathEnv) {cwd path : Str} (hc : isabs cwd = true) (hp : path ≠ []) :
    ∃ c, contractUser e cwd path = some ('~' :: '/' :: c) ∧
      denote cwd (expanduser e.home e.user ('~' :: '/' :: c)) = denote cwd path := by
  obtain ⟨r, h1, h2, h3⟩ := osRelpath_spec (start := e.homeDir) hc hp
  refine ⟨r, ?_, ?_⟩
  · unfold contractUser
    rw [h1]
    have : r.head? ≠ some '/' := by intro h; simp [isabs, h] at h2
    simp [join, this]
  · rw [expand_tilde, denote_append, ← homeDir_eq, h3]

/-- C81: a file in the home directory is named by its path in it. The result has no `..`, so it names the same file also if
the home directory is behind symbolic links. -/
theorem C81_inside (e : PathEnv) {cwd path : Str} {rest : Path} (hc : isabs cwd = true) (hp : path ≠ []) (hr : rest ≠ [])
    (h : denote cwd path = denote cwd e.homeDir ++ rest) :
    contractUser e cwd path = some ('~' :: '/' :: intercalate rest) := by
  have hg : GoodPath rest := fun c hm => denote_good cwd path c (by rw [h]; exact List.mem_append_right _ hm)
  have hl : lcp (denote cwd e.homeDir) (denote cwd e.homeDir ++ rest) = denote cwd e.homeDir := by
    generalize denote cwd e.homeDir = a
    induction a with
    | nil => unfold lcp; rfl
    | cons x a ih => simp only [List.cons_append]; unfold lcp; simp [ih]
  unfold contractUser osRelpath
  rw [if_neg hp]
  dsimp only
  rw [comps_abspath hc, comps_abspath hc, h, hl]
  have hh : (intercalate rest).head? ≠ some '/' := head_intercalate (fun c hm => ⟨(hg c hm).1, (hg c hm).2.1⟩)
  simp [hr, join, hh]

/-- C81: every completion names a file that `glob` found, and every file that it found is offered. -/
theorem C81_completions (e : PathEnv) {cwd : Str} (hc : isabs cwd = true) (isdir : Str → Bool) (glob : Str → List Str)
    (hg : ∀ x, ∀ p ∈ glob x, p ≠ []) (text : Str) :
    ∃ pat cs, completions e cwd isdir glob text = some cs ∧
      (pat = join (expanduser e.home e.user text) ['*'] ∨ pat = expanduser e.home e.user text ++ ['*']) ∧
      cs.length = (glob pat).length ∧
      ∀ i (h : i < cs.length) (h' : i < (glob pat).length),
        (cs[i] = (glob pat)[i] ∧ expanduser e.home e.user text = text) ∨
        denote cwd (expanduser e.home e.user cs[i]) = denote cwd (glob pat)[i] := by
  have hm : ∀ l : List Str, (∀ p ∈ l, p ≠ []) → ∃ cs, l.mapM (contractUser e cwd) = some cs ∧ cs.length = l.length ∧
      ∀ i (h : i < cs.length) (h' : i < l.length), denote cwd (expanduser e.home e.user cs[i]) = denote cwd l[i] := by
    intro l
    induction l with
    | nil => intro _; exact ⟨[], rfl, rfl, fun i h => absurd h (by simp)⟩
    | cons p l ih =>
      intro hne
      obtain ⟨c, h1, h2⟩ := C81_contract e hc (hne p List.mem_cons_self)
      obtain ⟨cs, h3, h4, h5⟩ := ih (fun q hq => hne q (List.mem_cons_of_mem _ hq))
      refine ⟨('~' :: '/' :: c) :: cs, by simp [List.mapM_cons, h1, h3], by simp [h4], ?_⟩
      intro i hi hi'
      cases i with
      | zero => exact h2
      | succ i => exact h5 i (by simpa using hi) (by simpa using hi')
  unfold completions
  dsimp only
  generalize hpat : (if isdir (expanduser e.home e.user text) = true then join (expanduser e.home e.user text) ['*']
    else expanduser e.home e.user text ++ ['*']) = pat
  have hps : (if isdir (expanduser e.home e.user text) = true then glob (join (expanduser e.home e.user text) ['*'])
    else glob (expanduser e.home e.user text ++ ['*'])) = glob pat := by rw [← hpat]; split <;> rfl
  have hp : pat = join (expanduser e.home e.user text) ['*'] ∨ pat = expanduser e.home e.user text ++ ['*'] := by
    rw [← hpat]; split
    · exact .inl rfl
    · exact .inr rfl
  rw [hps]
  split
  · obtain ⟨cs, h1, h2, h3⟩ := hm (glob pat) (hg pat)
    exact ⟨pat, cs, h1, hp, h2, fun i h h' => .inr (h3 i h h')⟩
  · rename_i hx
    exact ⟨pat, _, rfl, hp, rfl, fun i h h' => .inl ⟨rfl, by simpa using hx⟩⟩

/-! ### Examples -/

def exPathEnv : PathEnv := ⟨"/home/u/".toList, fun n => if n = "v".toList then some "/home/v".toList else none, none⟩

example : contractUser exPathEnv "/tmp".toList "/home/u/docs/a b".toList = some "~/docs/a b".toList ∧
    contractUser exPathEnv "/tmp".toList "/home/v/x".toList = some "~/../v/x".toList ∧
    contractUser exPathEnv "/home/u/w".toList "../y".toList = some "~/y".toList ∧
    contractUser exPathEnv "/tmp".toList "/home/u".toList = some "~/.".toList ∧
    contractUser exPathEnv "/tmp".toList [] = none := by decide +kernel

example : completions exPathEnv "/tmp".toList (fun _ => false)
    (fun x => if x = "/home/u/d*".toList then ["/home/u/da".toList, "/home/u/db".toList] else []) "~/d".toList =
    some ["~/da".toList, "~/db".toList] := by decide +kernel

example : contractUser exPathEnv "/tmp".toList "/home/u/docs/a".toList = some "~/docs/a".toList :=
  C81_inside (rest := ["docs".toList, "a".toList]) exPathEnv (by decide) (by decide) (by decide) (by decide +kernel)

end Verif
