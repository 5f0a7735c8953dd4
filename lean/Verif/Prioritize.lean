import Verif.ADB
import Verif.Sort
/-
The choice of what stays in the local directory
(zielen/filelogic.py:184-358).
-/
namespace Verif

/-- Python's `<=` on strings: by code points. -/
def strLe : Str → Str → Bool
  | [], _ => true
  | _ :: _, [] => false
  | a :: as, b :: bs => if a.toNat < b.toNat then true else if a = b then strLe as bs else false

/-- What the two functions read. `loc` and `rem` are the rows of the profile
and of the remote database in the order in which SQLite returns them, `stat`
is the fresh scan of the remote directory (`is a directory`, `st_blocks`),
`symlinkSize` is `st_blksize` of the local directory. -/
structure SelEnv where
  loc : ALocal
  rem : ARemote
  stat : Path → Option (Bool × Nat)
  accountForSize : Bool
  storageLimit : Int
  symlinkSize : Nat

/-- An element of `adjusted_priorities`. -/
structure Cand where
  path : Path
  prio : Rat
  size : Nat
deriving DecidableEq, Repr

/-- The priority adjusted for size (zielen/filelogic.py:222-230 and 285-292). -/
def adjustedPriority (accountForSize : Bool) (priority : Rat) (size : Nat) : Rat :=
  if accountForSize then (if size = 0 then 0 else priority / (size : Rat)) else priority

/-- The two sorts (zielen/filelogic.py:236-239 and 298-303); both are stable. -/
def rank (l : List Cand) : List Cand :=
  sortBy (fun a b => decide (b.prio ≤ a.prio))
    (sortBy (fun a b => strLe (toStr a.path) (toStr b.path)) l)

/-- A selection: remaining space and selected paths (`SelectedPaths`,
zielen/filelogic.py:37-39). -/
abbrev Selected := Int × List Path

/-- The candidates of `prioritize_files` (zielen/filelogic.py:206-230). `none`
is the `KeyError` for a file that the scan of the remote directory did not
find. The test `startswith(exclude + "/")` is a prefix test on components
(theorem `startsWith_sep_iff`). -/
def fileCands (env : SelEnv) (exclude : List Path) : Option (List Cand) :=
  (env.loc.filter (fun e => !e.directory && !exclude.any (fun x => x.isPrefixOf e.path))).mapM
    (fun e => match env.stat e.path with
      | some (false, blocks) =>
        some ⟨e.path, adjustedPriority env.accountForSize e.data.priority (blocks * 512), blocks * 512⟩
      | _ => none)

/-- The selection loop of `prioritize_files` (zielen/filelogic.py:247-251). -/
def selectFiles (symlinkSize : Nat) : List Cand → Selected → Selected
  | [], s => s
  | c :: cs, s =>
    let r := s.1 - c.size + symlinkSize
    selectFiles symlinkSize cs (if r > 0 then (r, s.2 ++ [c.path]) else s)

/-- `prioritize_files` (zielen/filelogic.py:184-253). -/
def prioritizeFiles (env : SelEnv) (spaceLimit : Int) (exclude : List Path) : Option Selected :=
  (fileCands env exclude).map (fun cs => selectFiles env.symlinkSize (rank cs) (spaceLimit, []))

/-- The disk usage of a directory (zielen/filelogic.py:279-283); `none` is the
`KeyError` for a path of the remote database that the scan did not find. -/
def dirSize (env : SelEnv) (dir : Path) : Option Nat :=
  ((ADB.rows env.rem dir).mapM (fun e => (env.stat e.path).map (fun s => s.2 * 512))).map List.sum

/-- The candidates of `prioritize_dirs` (zielen/filelogic.py:277-292). -/
def dirCands (env : SelEnv) : Option (List Cand) :=
  (env.loc.filter (fun e => e.directory)).mapM (fun e =>
    (dirSize env e.path).map (fun size =>
      ⟨e.path, adjustedPriority env.accountForSize e.data.priority size, size⟩))

/-- `dir_sizes[path]`. -/
def sizeOf (cs : List Cand) (p : Path) : Nat :=
  ((cs.find? (fun c => decide (c.path = p))).map Cand.size).getD 0

/-- The variables of the loop of `prioritize_dirs`. -/
structure DirSel where
  dirs : List Path
  subdirs : List Path
  files : List Path
  remaining : Int

/-- One round of the loop (zielen/filelogic.py:317-356). -/
def dirStep (env : SelEnv) (cs : List Cand) (st : DirSel) (c : Cand) : DirSel :=
  if c.path ∈ st.subdirs then st
  else if (c.size : Int) > env.storageLimit then st
  else
    let sub := ADB.rows env.loc c.path
    let containedFiles := (sub.filter (fun e => !e.directory)).map Entry.path
    let containedDirs := (sub.filter (fun e => e.directory)).map Entry.path
    let subdirsSize := (((sub.map Entry.path).filter (fun p => decide (p ∈ st.dirs))).map
      (sizeOf cs)).sum
    let newFiles := containedFiles.filter (fun p => decide (p ∉ st.files))
    let r := st.remaining - c.size + subdirsSize + newFiles.length * env.symlinkSize
    if r ≥ 0 then
      { dirs := st.dirs.filter (fun p => decide (p ∉ containedDirs)) ++ [c.path]
        subdirs := st.subdirs ++ containedDirs
        files := st.files ++ newFiles
        remaining := r }
    else st

/-- The number of known files, `len(local_files)`. -/
def nFiles (env : SelEnv) : Nat := (env.loc.filter (fun e => !e.directory)).length

/-- `prioritize_dirs` (zielen/filelogic.py:255-358). -/
def prioritizeDirs (env : SelEnv) (spaceLimit : Int) : Option Selected :=
  (dirCands env).map (fun cs =>
    let st := (rank cs).foldl (dirStep env cs)
      ⟨[], [], [], spaceLimit - nFiles env * env.symlinkSize⟩
    (st.remaining, st.dirs))

/-! ### The order -/

theorem strLe_refl (s : Str) : strLe s s = true := by
  induction s with
  | nil => rfl
  | cons a as ih => simp [strLe, ih]

theorem strLe_total (s t : Str) : strLe s t = true ∨ strLe t s = true := by
  induction s generalizing t with
  | nil => left; rfl
  | cons a as ih =>
    cases t with
    | nil => right; rfl
    | cons b bs =>
      simp only [strLe]
      by_cases h1 : a.toNat < b.toNat
      · simp [h1]
      · by_cases h2 : b.toNat < a.toNat
        · simp [h2]
        · have : a = b := Char.toNat_inj.1 (by omega)
          subst this
          simp only [Nat.lt_irrefl, if_false, if_true]
          exact ih bs

theorem strLe_trans (s t u : Str) (h1 : strLe s t = true) (h2 : strLe t u = true) :
    strLe s u = true := by
  induction s generalizing t u with
  | nil => rfl
  | cons a as ih =>
    cases t with
    | nil => simp [strLe] at h1
    | cons b bs =>
      cases u with
      | nil => simp [strLe] at h2
      | cons c cs =>
        simp only [strLe] at h1 h2 ⊢
        by_cases hab : a.toNat < b.toNat
        · by_cases hbc : b.toNat < c.toNat
          · simp [show a.toNat < c.toNat by omega]
          · by_cases hbc' : b = c
            · subst hbc'; simp [hab]
            · simp [hbc, hbc'] at h2
        · by_cases hab' : a = b
          · subst hab'
            by_cases hbc : a.toNat < c.toNat
            · simp [hbc]
            · by_cases hbc' : a = c
              · subst hbc'
                simp only [Nat.lt_irrefl, if_false, if_true] at h1 h2 ⊢
                exact ih bs cs h1 h2
              · simp [hbc, hbc'] at h2
          · simp [hab, hab'] at h1

theorem strLe_antisymm (s t : Str) (h1 : strLe s t = true) (h2 : strLe t s = true) : s = t := by
  induction s generalizing t with
  | nil => cases t with
    | nil => rfl
    | cons b bs => simp [strLe] at h2
  | cons a as ih =>
    cases t with
    | nil => simp [strLe] at h1
    | cons b bs =>
      simp only [strLe] at h1 h2
      by_cases hab : a.toNat < b.toNat
      · have : ¬ b.toNat < a.toNat := by omega
        have hne : ¬ b = a := by rintro rfl; omega
        simp [this, hne] at h2
      · by_cases hab' : a = b
        · subst hab'
          simp only [Nat.lt_irrefl, if_false, if_true] at h1 h2
          rw [ih bs h1 h2]
        · simp [hab, hab'] at h1

/-- `a` comes before `b` in the ranking. -/
def RankLe (a b : Cand) : Prop :=
  b.prio < a.prio ∨ (a.prio = b.prio ∧ strLe (toStr a.path) (toStr b.path) = true)

theorem rank_perm (l : List Cand) : (rank l).Perm l := (sortBy_perm _).trans (sortBy_perm _)

theorem rank_sorted (l : List Cand) : (rank l).Pairwise RankLe := by
  have h1 : (sortBy (fun a b : Cand => strLe (toStr a.path) (toStr b.path)) l).Pairwise
      (fun a b => strLe (toStr a.path) (toStr b.path) = true) :=
    sortBy_sorted (le := fun a b : Cand => strLe (toStr a.path) (toStr b.path))
      (fun a b c => strLe_trans _ _ _) (fun a b => strLe_total _ _) l
  have h2 := sortBy_sorted_lex (le := fun a b : Cand => decide (b.prio ≤ a.prio))
    (fun a b c hab hbc => by simp at *; exact Rat.le_trans hbc hab)
    (fun a b => by simp; exact Rat.le_total) _ h1
  refine List.Pairwise.imp ?_ h2
  intro a b hab
  simp only [decide_eq_false_iff_not, Rat.not_le, decide_eq_true_eq] at hab
  rcases hab with hab | ⟨hab, hs⟩
  · exact Or.inl hab
  · rcases Rat.le_iff_lt_or_eq.1 hab with h | h
    · exact Or.inl h
    · exact Or.inr ⟨h.symm, hs⟩

theorem rankLe_antisymm {a b : Cand} (h1 : RankLe a b) (h2 : RankLe b a) :
    toStr a.path = toStr b.path := by
  rcases h1 with h1 | ⟨h1, h1'⟩
  · rcases h2 with h2 | ⟨h2, _⟩
    · exact absurd h1 (Rat.not_lt.2 (Rat.le_of_lt h2))
    · exact absurd h1 (by rw [h2]; exact Rat.lt_irrefl)
  · rcases h2 with h2 | ⟨_, h2'⟩
    · exact absurd h2 (by rw [h1]; exact Rat.lt_irrefl)
    · exact strLe_antisymm _ _ h1' h2'

end Verif
