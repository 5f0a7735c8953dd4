import Verif.Path
import Verif.Sort
/-
Model of zielen/utils.py (timestamp_path, get_path_ancestry).
-/
namespace Verif
open Posix

/-- zielen/utils.py:50-68 `timestamp_path`. `ts` is the text that
`datetime.now().strftime("%Y%m%d-%H%M%S")` returns. -/
def timestampPath (path keyword ts : Str) : Str :=
  let keyword := keyword ++ (if keyword ≠ [] then ['-'] else keyword)
  let ne := splitext path
  ne.1 ++ '_' :: keyword ++ ts ++ ne.2

/-- Add to a Python set held as a duplicate-free list. -/
def setAdd {α : Type _} [DecidableEq α] (x : α) (s : List α) : List α :=
  if x ∈ s then s else s ++ [x]

/-- The loop of zielen/utils.py:82-88. The deque is held reversed, so `pop()`
takes the head and `appendleft` appends. `fuel` bounds the number of rounds;
`pathAncestry` passes enough (theorem `ancestryLoop_mem`). -/
def ancestryLoop : Nat → List Path → List Path → List Path
  | 0, _, out => out
  | _ + 1, [], out => out
  | fuel + 1, path :: queue, out =>
    let out := setAdd path out
    let parent := path.dropLast
    ancestryLoop fuel (if parent ≠ [] then queue ++ [parent] else queue) out

/-- Rounds the loop needs for a queue. -/
def ancestryFuel (queue : List Path) : Nat := (queue.map (fun p => p.length + 1)).sum

/-- zielen/utils.py:71-94 `get_path_ancestry`. Paths are component lists, so
`os.path.dirname` is `dropLast` (`dirname_toStr`) and `count(os.sep)` is the
length minus one (`countSep_toStr`). -/
def pathAncestry (paths : List Path) : List Path :=
  sortBy (fun a b => decide (b.length ≤ a.length))
    (ancestryLoop (ancestryFuel paths) paths.reverse [])

/-! ### Lemmas about `get_path_ancestry` -/

theorem mem_setAdd {α : Type _} [DecidableEq α] {x y : α} {s : List α} :
    y ∈ setAdd x s ↔ y = x ∨ y ∈ s := by
  unfold setAdd
  split
  · rename_i h
    constructor
    · exact Or.inr
    · rintro (rfl | h')
      · exact h
      · exact h'
  · simp [or_comm]

theorem nodup_setAdd {α : Type _} [DecidableEq α] {x : α} {s : List α} (h : s.Nodup) :
    (setAdd x s).Nodup := by
  unfold setAdd
  split
  · exact h
  · rename_i hx
    rw [List.nodup_append]
    refine ⟨h, by simp, ?_⟩
    intro a ha b hb
    simp at hb
    subst hb
    rintro rfl
    exact hx ha

theorem ancestryLoop_nodup : ∀ (fuel : Nat) (queue out : List Path), out.Nodup →
    (ancestryLoop fuel queue out).Nodup
  | 0, _, _, h => h
  | _ + 1, [], _, h => h
  | fuel + 1, _ :: _, _, h => ancestryLoop_nodup fuel _ _ (nodup_setAdd h)

/-- `a` is a non-empty ancestor-or-self of `p`, or `p` itself. -/
theorem mem_prefix_dropLast {a p : Path} :
    (a = p ∨ (a ≠ [] ∧ a <+: p)) ↔
      (a = p ∨ (p.dropLast ≠ [] ∧ (a = p.dropLast ∨ (a ≠ [] ∧ a <+: p.dropLast)))) := by
  constructor
  · rintro (h | ⟨h1, h2⟩)
    · exact Or.inl h
    · by_cases hap : a = p
      · exact Or.inl hap
      · right
        have hp : p ≠ [] := by rintro rfl; simp at h2; exact h1 h2
        have h3 : a <+: p.dropLast := by
          obtain ⟨t, rfl⟩ := h2
          have ht : t ≠ [] := by rintro rfl; simp at hap
          rw [List.dropLast_append_of_ne_nil ht]
          exact List.prefix_append _ _
        refine ⟨?_, Or.inr ⟨h1, h3⟩⟩
        intro h0
        rw [h0] at h3
        simp at h3
        exact h1 h3
  · rintro (h | ⟨h1, h2 | ⟨h2, h3⟩⟩)
    · exact Or.inl h
    · right
      rw [h2]
      exact ⟨h1, List.dropLast_prefix p⟩
    · exact Or.inr ⟨h2, h3.trans (List.dropLast_prefix p)⟩

theorem ancestryFuel_append (a b : List Path) :
    ancestryFuel (a ++ b) = ancestryFuel a + ancestryFuel b := by
  simp [ancestryFuel]

theorem ancestryLoop_mem (a : Path) : ∀ (fuel : Nat) (queue out : List Path),
    ancestryFuel queue ≤ fuel →
    (a ∈ ancestryLoop fuel queue out ↔
      a ∈ out ∨ ∃ p ∈ queue, a = p ∨ (a ≠ [] ∧ a <+: p))
  | 0, queue, out, h => by
    cases queue with
    | nil => simp [ancestryLoop]
    | cons p ps => simp [ancestryFuel] at h
  | fuel + 1, [], out, h => by simp [ancestryLoop]
  | fuel + 1, p :: queue, out, h => by
    unfold ancestryLoop
    have hlen : p.dropLast ≠ [] → p.dropLast.length + 1 ≤ p.length := by
      intro h0
      have : p ≠ [] := by rintro rfl; simp at h0
      have := List.length_pos_iff.2 this
      simp; omega
    have hf : ancestryFuel (if p.dropLast ≠ [] then queue ++ [p.dropLast] else queue) ≤ fuel := by
      split
      · rename_i h0
        have := hlen h0
        have h1 : ancestryFuel (p :: queue) = p.length + 1 + ancestryFuel queue := by
          simp [ancestryFuel]
        have h2 : ancestryFuel [p.dropLast] = p.dropLast.length + 1 := by
          simp [ancestryFuel]
        rw [ancestryFuel_append, h2]
        omega
      · simp [ancestryFuel] at h ⊢; omega
    rw [ancestryLoop_mem a fuel _ _ hf, mem_setAdd]
    simp only [List.mem_cons, exists_eq_or_imp]
    rw [mem_prefix_dropLast (a := a) (p := p)]
    by_cases h0 : p.dropLast = []
    · simp [h0, or_assoc, or_comm, or_left_comm]
    · simp only [ne_eq, h0, not_false_eq_true, if_true, List.mem_append, List.mem_singleton,
        true_and]
      constructor
      · rintro ((h | h) | ⟨q, hq | rfl, hq'⟩)
        · exact Or.inr (Or.inl (Or.inl h))
        · exact Or.inl h
        · exact Or.inr (Or.inr ⟨q, hq, hq'⟩)
        · exact Or.inr (Or.inl (Or.inr hq'))
      · rintro (h | (h | h) | ⟨q, hq, hq'⟩)
        · exact Or.inl (Or.inr h)
        · exact Or.inl (Or.inl h)
        · exact Or.inr ⟨_, Or.inr rfl, h⟩
        · exact Or.inr ⟨q, Or.inl hq, hq'⟩

theorem mem_pathAncestry {a : Path} {paths : List Path} :
    a ∈ pathAncestry paths ↔ ∃ p ∈ paths, a = p ∨ (a ≠ [] ∧ a <+: p) := by
  have hf : ancestryFuel paths.reverse ≤ ancestryFuel paths := by
    have : (paths.reverse.map (fun p => p.length + 1)).Perm (paths.map (fun p => p.length + 1)) :=
      (List.reverse_perm paths).map _
    simp only [ancestryFuel]
    rw [this.sum_nat]
    exact Nat.le_refl _
  rw [pathAncestry, mem_sortBy, ancestryLoop_mem a _ _ _ hf]
  simp

theorem pathAncestry_nodup (paths : List Path) : (pathAncestry paths).Nodup :=
  nodup_sortBy.2 (ancestryLoop_nodup _ _ _ List.nodup_nil)

theorem pathAncestry_sorted (paths : List Path) :
    (pathAncestry paths).Pairwise (fun a b => b.length ≤ a.length) := by
  have := sortBy_sorted (le := fun a b : Path => decide (b.length ≤ a.length))
    (fun a b c h1 h2 => by simp at *; omega) (fun a b => by simp; omega)
    (ancestryLoop (ancestryFuel paths) paths.reverse [])
  simpa [pathAncestry] using this

/-! ### Lemmas about `splitext` -/

theorem takeWhile_ne_append (d : Char) (w s : Str) (h : d ∉ w) :
    (w ++ d :: s).takeWhile (· != d) = w := by
  induction w with
  | nil => simp
  | cons c cs ih =>
    have hc : c ≠ d := fun h' => h (by simp [h'])
    have hcs : d ∉ cs := fun h' => h (by simp [h'])
    simp [hc, ih hcs]

theorem dropWhile_ne_append (d : Char) (w s : Str) (h : d ∉ w) :
    (w ++ d :: s).dropWhile (· != d) = d :: s := by
  induction w with
  | nil => simp
  | cons c cs ih =>
    have hc : c ≠ d := fun h' => h (by simp [h'])
    have hcs : d ∉ cs := fun h' => h (by simp [h'])
    simp [hc, ih hcs]

/-- `h` is a possible head: empty or ending in a slash. -/
def IsHead (h : Str) : Prop := h = [] ∨ ∃ s, h = s ++ ['/']

theorem basename_head {h b : Str} (hh : IsHead h) (hb : '/' ∉ b) : basename (h ++ b) = b := by
  have hb' : '/' ∉ b.reverse := by simpa using hb
  rcases hh with rfl | ⟨s, rfl⟩
  · simp [basename, takeWhile_noSep _ hb']
  · simp [basename, takeWhile_append_sep _ _ hb']

theorem rawHead_head {h b : Str} (hh : IsHead h) (hb : '/' ∉ b) : rawHead (h ++ b) = h := by
  have hb' : '/' ∉ b.reverse := by simpa using hb
  rcases hh with rfl | ⟨s, rfl⟩
  · simp [rawHead, dropWhile_noSep _ hb']
  · simp [rawHead, dropWhile_append_sep _ _ hb']

theorem not_mem_takeWhile_ne (d : Char) (s : Str) : d ∉ s.takeWhile (· != d) := by
  induction s with
  | nil => simp
  | cons c cs ih =>
    rw [List.takeWhile_cons]
    split
    · rename_i hc
      have : c ≠ d := by simpa using hc
      simp only [List.mem_cons, not_or]
      exact ⟨fun h => this h.symm, ih⟩
    · simp

theorem dropWhile_ne_head (d : Char) (s : Str) :
    s.dropWhile (· != d) = [] ∨ ∃ t, s.dropWhile (· != d) = d :: t := by
  induction s with
  | nil => simp
  | cons c cs ih =>
    rw [List.dropWhile_cons]
    split
    · exact ih
    · rename_i hc
      have : c = d := by simpa using hc
      exact Or.inr ⟨cs, by rw [this]⟩

theorem isHead_rawHead (p : Str) : IsHead (rawHead p) := by
  rcases dropWhile_ne_head '/' p.reverse with h | ⟨t, h⟩
  · left; simp [rawHead, h]
  · right; exact ⟨t.reverse, by simp [rawHead, h]⟩

theorem noSep_basename (p : Str) : '/' ∉ basename p := by
  have := not_mem_takeWhile_ne '/' p.reverse
  simpa [basename] using this

theorem rawHead_append_basename (p : Str) : rawHead p ++ basename p = p := by
  rw [rawHead, basename, ← List.reverse_append, List.takeWhile_append_dropWhile,
    List.reverse_reverse]

/-- Every name is either `stem.ext` with a non-dot in the stem, or has no
extension: it has no dot, or its last dot is preceded by dots only. -/
theorem base_cases (b : Str) :
    (∃ stem ext, b = stem ++ '.' :: ext ∧ '.' ∉ ext ∧ stem.any (· != '.') = true) ∨
    (∃ dots w, b = dots ++ w ∧ '.' ∉ w ∧ dots.all (· == '.') = true) := by
  by_cases hdot : '.' ∈ b
  · have h1 : (b.reverse.takeWhile (· != '.')) ++ (b.reverse.dropWhile (· != '.')) = b.reverse :=
      List.takeWhile_append_dropWhile
    have hnot := not_mem_takeWhile_ne '.' b.reverse
    rcases dropWhile_ne_head '.' b.reverse with h | ⟨t, h⟩
    · exfalso
      rw [h, List.append_nil] at h1
      rw [h1] at hnot
      simp [hdot] at hnot
    · rw [h] at h1
      have h2 : b = t.reverse ++ '.' :: (b.reverse.takeWhile (· != '.')).reverse := by
        have := congrArg List.reverse h1
        simpa using this.symm
      by_cases hs : t.reverse.any (· != '.') = true
      · exact Or.inl ⟨_, _, h2, by simpa using hnot, hs⟩
      · right
        refine ⟨t.reverse ++ ['.'], (b.reverse.takeWhile (· != '.')).reverse, ?_, ?_, ?_⟩
        · simpa using h2
        · simpa using hnot
        · simp at hs ⊢
          exact hs
  · exact Or.inr ⟨[], b, by simp, hdot, by simp⟩

theorem splitext_ext {h stem ext : Str} (hh : IsHead h) (hs : '/' ∉ stem) (he : '/' ∉ ext)
    (hd : '.' ∉ ext) (hn : stem.any (· != '.') = true) :
    splitext (h ++ (stem ++ '.' :: ext)) = (h ++ stem, '.' :: ext) := by
  have hb : '/' ∉ stem ++ '.' :: ext := by simp [hs, he]
  have hd' : '.' ∉ ext.reverse := by simpa using hd
  have h1 : (stem ++ '.' :: ext).reverse = ext.reverse ++ '.' :: stem.reverse := by simp
  simp only [splitext, basename_head hh hb, rawHead_head hh hb, h1,
    takeWhile_ne_append _ _ _ hd', dropWhile_ne_append _ _ _ hd', List.reverse_reverse,
    List.reverse_cons, List.dropLast_concat]
  rw [if_pos]
  exact ⟨by simp, hn⟩

theorem takeWhile_ne_none (d : Char) (w : Str) (h : d ∉ w) : w.takeWhile (· != d) = w := by
  induction w with
  | nil => rfl
  | cons c cs ih =>
    have hc : c ≠ d := fun h' => h (by simp [h'])
    have hcs : d ∉ cs := fun h' => h (by simp [h'])
    simp [hc, ih hcs]

theorem splitext_noext {h dots w : Str} (hh : IsHead h) (hw : '/' ∉ w)
    (hd : '.' ∉ w) (hn : dots.all (· == '.') = true) :
    splitext (h ++ (dots ++ w)) = (h ++ (dots ++ w), []) := by
  have hdots : '/' ∉ dots := by
    intro hm
    have := List.all_eq_true.1 hn _ hm
    simp at this
  have hb : '/' ∉ dots ++ w := by simp [hdots, hw]
  simp only [splitext, basename_head hh hb]
  rw [if_neg]
  rintro ⟨h1, h2⟩
  rcases List.eq_nil_or_concat dots with h0 | ⟨ds, c, h0⟩
  · subst h0
    simp at h1
    exact hd h1
  · subst h0
    have hc : c = '.' := by
      have := List.all_eq_true.1 hn c (by simp)
      simpa using this
    subst hc
    have hd' : '.' ∉ w.reverse := by simpa using hd
    have h3 : (ds ++ ['.'] ++ w).reverse = w.reverse ++ '.' :: ds.reverse := by simp
    rw [List.concat_eq_append, h3, dropWhile_ne_append _ _ _ hd'] at h2
    simp at h2 hn
    obtain ⟨x, hx, hx'⟩ := h2
    exact hx' (hn x hx)

end Verif
