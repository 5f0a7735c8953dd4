import Verif.Path
/-
Model of zielen/fstools.py:197-221 `is_unsafe_symlink`.
-/
namespace Verif
open Posix

/-- zielen/fstools.py:197-221. `target` is what `os.readlink` returns; `none`
is its `OSError` (not a link). A result of `none` is the `ValueError` of
`commonpath`. -/
def isUnsafeSymlink (linkPath : Str) (target : Option Str) (parent : Str) : Option Bool :=
  match target with
  | none => some false
  | some dest =>
    if ¬ isabs dest then
      let absDest := normpath (join (dirname linkPath) dest)
      match commonpath absDest parent with
      | none => none
      | some c => if c = parent then some false else some true
    else some true

/-! ### Lemmas -/

theorem join_abs_toStr {a b : Path} (ha : GoodPath a) (hb : GoodPath b) (hb0 : b ≠ []) :
    join (absStr a) (toStr b) = absStr (a ++ b) := by
  have h1 : (toStr b).head? ≠ some '/' := by
    have := isabs_toStr hb
    intro h
    simp [isabs, h] at this
  by_cases ha0 : a = []
  · subst ha0
    rw [join, if_neg h1]
    simp [absStr, toStr, intercalate]
  · obtain ⟨s, c, hs, hc⟩ := toStr_getLast ha0 ha
    have h2 : ¬ (absStr a = [] ∨ (absStr a).getLast? = some '/') := by
      rw [absStr, hs, ← List.cons_append, List.getLast?_concat]
      simp [hc]
    rw [join, if_neg h1, if_neg h2]
    simp [absStr, toStr, intercalate_append _ _ ha0 hb0]

/-- `os.path.dirname` of a normalised absolute path. -/
theorem dirname_absStr {p : Path} (h : GoodPath p) (hp : p ≠ []) :
    dirname (absStr p) = absStr p.dropLast := by
  obtain ⟨q, c, rfl⟩ : ∃ q c, p = q ++ [c] :=
    ⟨p.dropLast, p.getLast hp, (List.dropLast_concat_getLast hp).symm⟩
  have hc : GoodName c := h c (by simp)
  have hq : GoodPath q := (goodPath_append.1 h).1
  have hc' : '/' ∉ c.reverse := by simpa using hc.2.1
  by_cases hq0 : q = []
  · subst hq0
    simp [dirname, rawHead, absStr, toStr, intercalate, dropWhile_append_sep _ _ hc']
  · obtain ⟨s, d, hs, hd⟩ := toStr_getLast hq0 hq
    have h1 : rawHead (absStr (q ++ [c])) = absStr q ++ ['/'] := by
      simp [rawHead, absStr, toStr_concat hq0, dropWhile_append_sep _ _ hc']
    simp only [dirname, h1, List.dropLast_concat]
    rw [if_pos]
    · simp [rstripSep, absStr, hs, hd]
    · refine ⟨by simp, ?_⟩
      simp [absStr, hs, hd]

/-- Textual resolution of a target from a directory: "." and empty components
are skipped, ".." goes up (and stays at the root), other names go down. -/
def walk : Path → List Str → Path
  | cur, [] => cur
  | cur, c :: cs =>
    if c = [] ∨ c = ['.'] then walk cur cs
    else if c = ['.', '.'] then walk cur.dropLast cs
    else walk (cur ++ [c]) cs

theorem normStep_walk (acc : List Str) (cs : List Str) (hacc : ['.', '.'] ∉ acc) :
    (cs.foldl (normStep 1) acc).reverse = walk acc.reverse cs ∧
      ['.', '.'] ∉ cs.foldl (normStep 1) acc := by
  induction cs generalizing acc with
  | nil => exact ⟨rfl, hacc⟩
  | cons c cs ih =>
    simp only [List.foldl_cons, walk]
    by_cases h1 : c = [] ∨ c = ['.']
    · simp only [normStep, h1, if_true]
      exact ih acc hacc
    · by_cases h2 : c = ['.', '.']
      · have hhead : acc.head? ≠ some ['.', '.'] := by
          intro h
          cases acc with
          | nil => simp at h
          | cons a as => simp at h; exact hacc (by simp [h])
        have hstep : normStep 1 acc c = acc.tail := by
          simp [normStep, h2, hhead]
        rw [hstep]
        have hrev : acc.tail.reverse = acc.reverse.dropLast := by
          cases acc <;> simp
        have := ih acc.tail (fun h => hacc (List.mem_of_mem_tail h))
        rw [hrev] at this
        simp only [h1, if_false, h2, if_true]
        exact this
      · have hstep : normStep 1 acc c = c :: acc := by
          simp [normStep, h1, h2]
        rw [hstep]
        have := ih (c :: acc) (by
          simp only [List.mem_cons, not_or]
          exact ⟨fun h => h2 h.symm, hacc⟩)
        simp only [h1, if_false, h2]
        simpa using this

theorem walk_good {cur : Path} {cs : List Str} (hcur : GoodPath cur) (hcs : ∀ c ∈ cs, '/' ∉ c) :
    GoodPath (walk cur cs) := by
  induction cs generalizing cur with
  | nil => exact hcur
  | cons c cs ih =>
    have hcs' : ∀ d ∈ cs, '/' ∉ d := fun d hd => hcs d (List.mem_cons_of_mem _ hd)
    unfold walk
    split
    · exact ih hcur hcs'
    · split
      · exact ih hcur.dropLast hcs'
      · rename_i h1 h2
        refine ih ?_ hcs'
        rw [goodPath_append]
        refine ⟨hcur, ?_⟩
        intro d hd
        simp at hd
        subst hd
        simp only [not_or] at h1
        exact ⟨h1.1, hcs d (by simp), h1.2, h2⟩

theorem walk_append (cur : Path) (a b : List Str) : walk cur (a ++ b) = walk (walk cur a) b := by
  induction a generalizing cur with
  | nil => rfl
  | cons c cs ih =>
    simp only [List.cons_append, walk]
    split
    · exact ih _
    · split
      · exact ih _
      · exact ih _

theorem walk_goodPath (cur : Path) (p : Path) (h : GoodPath p) : walk cur p = cur ++ p := by
  induction p generalizing cur with
  | nil => simp [walk]
  | cons c cs ih =>
    have hc := h.head
    simp only [walk, hc.1, hc.2.2.1, hc.2.2.2, or_self, if_false]
    rw [ih _ h.tail]
    simp

theorem noSep_split (s : Str) : ∀ c ∈ split s, '/' ∉ c := by
  induction s with
  | nil => simp [split]
  | cons d ds ih =>
    unfold split
    split
    · intro c hc
      rcases List.mem_cons.1 hc with rfl | hc
      · simp
      · exact ih c hc
    · rename_i hd
      cases hs : split ds with
      | nil => exact absurd hs (split_ne_nil _)
      | cons w ws =>
        rw [hs] at ih
        intro c hc
        rcases List.mem_cons.1 hc with rfl | hc
        · have := ih w (by simp)
          simp only [List.mem_cons, not_or]
          exact ⟨fun h => hd h.symm, this⟩
        · exact ih c (List.mem_cons_of_mem _ hc)

/-- `normpath(join(dir, target))` is the textual walk. -/
theorem normpath_join_abs {d : Path} {t : Str} (hd : GoodPath d) (ht : isabs t = false) :
    normpath (join (absStr d) t) = absStr (walk d (split t)) := by
  have ht1 : t.head? ≠ some '/' := by
    intro h; simp [isabs, h] at ht
  have key : ∀ s : Str, s.head? ≠ some '/' → normpath ('/' :: s) = absStr (walk [] (split s)) := by
    intro s hs
    have hn : initialSlashes ('/' :: s) = 1 := by
      cases s with
      | nil => rfl
      | cons c cs =>
        have : c ≠ '/' := by simpa using hs
        unfold initialSlashes
        split
        · rename_i h; simp at h; exact absurd h.1 this
        · rename_i h; simp at h; exact absurd h.1 this
        · rfl
        · rename_i h; simp at h
    have hsplit : split ('/' :: s) = [] :: split s := by simp [split]
    have h0 : normStep 1 [] [] = [] := by simp [normStep]
    have := (normStep_walk [] (split s) (by simp)).1
    simp only [normpath, hn, hsplit, List.foldl_cons, h0, this]
    simp [absStr, toStr]
  by_cases hd0 : d = []
  · subst hd0
    have : join (absStr []) t = '/' :: t := by simp [join, ht1, absStr, toStr, intercalate]
    rw [this, key t ht1]
  · obtain ⟨s, c, hs, hc⟩ := toStr_getLast hd0 hd
    have h2 : ¬ (absStr d = [] ∨ (absStr d).getLast? = some '/') := by
      rw [absStr, hs, ← List.cons_append, List.getLast?_concat]
      simp [hc]
    have hj : join (absStr d) t = '/' :: (toStr d ++ '/' :: t) := by
      rw [join, if_neg ht1, if_neg h2]; simp [absStr]
    have hhd : (toStr d ++ '/' :: t).head? ≠ some '/' := by
      have h3 := isabs_toStr hd
      have h4 := toStr_ne_nil hd hd0
      cases h5 : toStr d with
      | nil => exact absurd h5 h4
      | cons e es =>
        rw [h5] at h3
        simp [isabs] at h3
        simpa using h3
    rw [hj, key _ hhd, split_append, walk_append, toStr, split_intercalate d hd0 hd.noSep,
      walk_goodPath _ _ hd]
    simp

end Verif
