import Verif.PosixPath
/-
Relative paths as lists of components, and the theorems that connect them to
the strings Python works with. The upper layers of the model use component
lists; these theorems say that this is the same as applying `os.path` to the
strings.
-/
namespace Verif

/-- A name the kernel can store in a directory (also excludes "." and ".."). -/
def GoodName (c : Str) : Prop := c ≠ [] ∧ '/' ∉ c ∧ c ≠ ['.'] ∧ c ≠ ['.', '.']

instance (c : Str) : Decidable (GoodName c) := by unfold GoodName; infer_instance

/-- A relative path as produced by `os.path.relpath` of a scanned entry. -/
def GoodPath (p : Path) : Prop := ∀ c ∈ p, GoodName c

instance (p : Path) : Decidable (GoodPath p) := by unfold GoodPath; infer_instance

/-- The string of a relative path. -/
def toStr (p : Path) : Str := Posix.intercalate p

/-- The string of an absolute path. -/
def absStr (p : Path) : Str := '/' :: toStr p

namespace Posix

theorem intercalate_cons (w : Str) (ws : List Str) (h : ws ≠ []) :
    intercalate (w :: ws) = w ++ '/' :: intercalate ws := by
  cases ws with
  | nil => exact absurd rfl h
  | cons a as => rfl

theorem intercalate_append (a b : List Str) (ha : a ≠ []) (hb : b ≠ []) :
    intercalate (a ++ b) = intercalate a ++ '/' :: intercalate b := by
  induction a with
  | nil => exact absurd rfl ha
  | cons x xs ih =>
    cases xs with
    | nil => simp [intercalate_cons, hb, intercalate]
    | cons y ys =>
      rw [List.cons_append, intercalate_cons x _ (by simp), ih (by simp),
        intercalate_cons x (y :: ys) (by simp)]
      simp

theorem split_ne_nil (s : Str) : split s ≠ [] := by
  cases s with
  | nil => simp [split]
  | cons c cs =>
    unfold split
    split
    · simp
    · split <;> simp

theorem split_noSep (w : Str) (h : '/' ∉ w) : split w = [w] := by
  induction w with
  | nil => rfl
  | cons c cs ih =>
    have hc : c ≠ '/' := fun h' => h (by simp [h'])
    have hcs : '/' ∉ cs := fun h' => h (by simp [h'])
    simp [split, hc, ih hcs]

theorem split_append_sep (w s : Str) (h : '/' ∉ w) : split (w ++ '/' :: s) = w :: split s := by
  induction w with
  | nil => simp [split]
  | cons c cs ih =>
    have hc : c ≠ '/' := fun h' => h (by simp [h'])
    have hcs : '/' ∉ cs := fun h' => h (by simp [h'])
    simp [split, hc, ih hcs]

theorem split_intercalate (p : List Str) (hp : p ≠ []) (h : ∀ c ∈ p, '/' ∉ c) :
    split (intercalate p) = p := by
  induction p with
  | nil => exact absurd rfl hp
  | cons x xs ih =>
    cases xs with
    | nil => exact split_noSep _ (h x (by simp))
    | cons y ys =>
      rw [intercalate_cons _ _ (by simp), split_append_sep _ _ (h x (by simp)),
        ih (by simp) (fun c hc => h c (List.mem_cons_of_mem _ hc))]

theorem intercalate_split (s : Str) : intercalate (split s) = s := by
  induction s with
  | nil => rfl
  | cons c cs ih =>
    unfold split
    split
    · rename_i hc
      rw [intercalate_cons _ _ (split_ne_nil _), ih, hc]
      simp
    · cases hs : split cs with
      | nil => exact absurd hs (split_ne_nil _)
      | cons w ws =>
        rw [hs] at ih
        cases ws with
        | nil => simpa [intercalate] using ih
        | cons v vs =>
          rw [intercalate_cons _ _ (by simp)] at ih ⊢
          simpa using ih

theorem split_append (s t : Str) : split (s ++ '/' :: t) = split s ++ split t := by
  induction s with
  | nil => simp [split]
  | cons c cs ih =>
    by_cases hc : c = '/'
    · simp [split, hc, ih]
    · simp only [List.cons_append, split, hc, if_false, ih]
      cases hs : split cs with
      | nil => exact absurd hs (split_ne_nil _)
      | cons w ws => simp

end Posix

open Posix

theorem GoodPath.tail {c : Str} {p : Path} (h : GoodPath (c :: p)) : GoodPath p :=
  fun x hx => h x (List.mem_cons_of_mem _ hx)

theorem GoodPath.head {c : Str} {p : Path} (h : GoodPath (c :: p)) : GoodName c :=
  h c (by simp)

theorem GoodPath.noSep {p : Path} (h : GoodPath p) : ∀ c ∈ p, '/' ∉ c :=
  fun c hc => (h c hc).2.1

theorem goodPath_append {a b : Path} : GoodPath (a ++ b) ↔ GoodPath a ∧ GoodPath b := by
  unfold GoodPath
  constructor
  · intro h
    exact ⟨fun c hc => h c (by simp [hc]), fun c hc => h c (by simp [hc])⟩
  · intro h c hc
    rcases List.mem_append.1 hc with hc | hc
    · exact h.1 c hc
    · exact h.2 c hc

theorem GoodPath.dropLast {p : Path} (h : GoodPath p) : GoodPath p.dropLast :=
  fun c hc => h c ((List.dropLast_subset p) hc)

theorem toStr_ne_nil {p : Path} (h : GoodPath p) (hp : p ≠ []) : toStr p ≠ [] := by
  cases p with
  | nil => exact absurd rfl hp
  | cons x xs =>
    have hx := h.head.1
    cases xs with
    | nil => simpa [toStr, intercalate] using hx
    | cons y ys => simp [toStr, intercalate_cons]

/-- Different good paths have different strings. -/
theorem toStr_injective {p q : Path} (hp : GoodPath p) (hq : GoodPath q)
    (h : toStr p = toStr q) : p = q := by
  by_cases hp0 : p = []
  · subst hp0
    by_cases hq0 : q = []
    · exact hq0.symm
    · exact absurd h.symm (by simpa [toStr, intercalate] using toStr_ne_nil hq hq0)
  · by_cases hq0 : q = []
    · subst hq0
      exact absurd h (by simpa [toStr, intercalate] using toStr_ne_nil hp hp0)
    · rw [← split_intercalate p hp0 hp.noSep, ← split_intercalate q hq0 hq.noSep]
      exact congrArg split h

theorem takeWhile_append_sep (w s : Str) (h : '/' ∉ w) :
    (w ++ '/' :: s).takeWhile (· != '/') = w := by
  induction w with
  | nil => simp
  | cons c cs ih =>
    have hc : c ≠ '/' := fun h' => h (by simp [h'])
    have hcs : '/' ∉ cs := fun h' => h (by simp [h'])
    simp [hc, ih hcs]

theorem dropWhile_append_sep (w s : Str) (h : '/' ∉ w) :
    (w ++ '/' :: s).dropWhile (· != '/') = '/' :: s := by
  induction w with
  | nil => simp
  | cons c cs ih =>
    have hc : c ≠ '/' := fun h' => h (by simp [h'])
    have hcs : '/' ∉ cs := fun h' => h (by simp [h'])
    simp [hc, ih hcs]

theorem takeWhile_noSep (w : Str) (h : '/' ∉ w) : w.takeWhile (· != '/') = w := by
  induction w with
  | nil => rfl
  | cons c cs ih =>
    have hc : c ≠ '/' := fun h' => h (by simp [h'])
    have hcs : '/' ∉ cs := fun h' => h (by simp [h'])
    simp [hc, ih hcs]

theorem dropWhile_noSep (w : Str) (h : '/' ∉ w) : w.dropWhile (· != '/') = [] := by
  induction w with
  | nil => rfl
  | cons c cs ih =>
    have hc : c ≠ '/' := fun h' => h (by simp [h'])
    have hcs : '/' ∉ cs := fun h' => h (by simp [h'])
    simp [hc, ih hcs]

theorem toStr_concat {p : Path} (hp : p ≠ []) (c : Str) :
    toStr (p ++ [c]) = toStr p ++ '/' :: c := by
  simp [toStr, intercalate_append _ _ hp, intercalate]

/-- `os.path.basename` of a good path is its last component. -/
theorem basename_toStr {p : Path} (c : Str) (hc : GoodName c) :
    basename (toStr (p ++ [c])) = c := by
  have hc' : '/' ∉ c.reverse := by simpa using hc.2.1
  by_cases hp : p = []
  · subst hp
    simp [basename, toStr, intercalate, takeWhile_noSep _ hc']
  · rw [toStr_concat hp]
    simp [basename, takeWhile_append_sep _ _ hc']

theorem rawHead_toStr {p : Path} (hp : p ≠ []) (c : Str) (hc : GoodName c) :
    rawHead (toStr (p ++ [c])) = toStr p ++ ['/'] := by
  have hc' : '/' ∉ c.reverse := by simpa using hc.2.1
  rw [toStr_concat hp]
  simp [rawHead, dropWhile_append_sep _ _ hc']

theorem toStr_getLast {p : Path} (hp : p ≠ []) (h : GoodPath p) :
    ∃ s c, toStr p = s ++ [c] ∧ c ≠ '/' := by
  obtain ⟨q, w, rfl⟩ : ∃ q w, p = q ++ [w] :=
    ⟨p.dropLast, p.getLast hp, (List.dropLast_concat_getLast hp).symm⟩
  have hw : GoodName w := h w (by simp)
  obtain ⟨v, c, rfl⟩ : ∃ v c, w = v ++ [c] :=
    ⟨w.dropLast, w.getLast hw.1, (List.dropLast_concat_getLast hw.1).symm⟩
  have hc : c ≠ '/' := fun h' => hw.2.1 (by simp [h'])
  by_cases hq : q = []
  · exact ⟨v, c, by simp [hq, toStr, intercalate], hc⟩
  · exact ⟨toStr q ++ '/' :: v, c, by rw [toStr_concat hq]; simp, hc⟩

theorem rstripSep_toStr {p : Path} (h : GoodPath p) : rstripSep (toStr p) = toStr p := by
  by_cases hp : p = []
  · subst hp; rfl
  · obtain ⟨s, c, hs, hc⟩ := toStr_getLast hp h
    simp [rstripSep, hs, hc]

theorem rstripSep_toStr_sep {p : Path} (hp : p ≠ []) (h : GoodPath p) :
    rstripSep (toStr p ++ ['/']) = toStr p := by
  obtain ⟨s, c, hs, hc⟩ := toStr_getLast hp h
  simp [rstripSep, hs, hc]

/-- `os.path.dirname` of a good relative path drops the last component; the
parent of a top-level path is the empty string. -/
theorem dirname_toStr {p : Path} (h : GoodPath p) : dirname (toStr p) = toStr p.dropLast := by
  by_cases hp : p = []
  · subst hp; rfl
  · obtain ⟨q, c, rfl⟩ : ∃ q c, p = q ++ [c] :=
      ⟨p.dropLast, p.getLast hp, (List.dropLast_concat_getLast hp).symm⟩
    have hc : GoodName c := h c (by simp)
    have hq : GoodPath q := (goodPath_append.1 h).1
    by_cases hq0 : q = []
    · subst hq0
      have hc' : '/' ∉ c.reverse := by simpa using hc.2.1
      simp [dirname, rawHead, toStr, intercalate, dropWhile_noSep _ hc']
    · obtain ⟨s, d, hs, hd⟩ := toStr_getLast hq0 hq
      have hall : ¬ (toStr q ++ ['/']).all (· == '/') = true := by
        simp [hs, hd]
      simp only [dirname, rawHead_toStr hq0 c hc, rstripSep_toStr_sep hq0 hq,
        List.dropLast_concat]
      rw [if_pos]
      exact ⟨by simp, by simpa using hall⟩

/-- `path.count(os.sep)` is the depth of the path minus one. -/
theorem countSep_toStr {p : Path} (h : GoodPath p) : countSep (toStr p) = p.length - 1 := by
  induction p with
  | nil => rfl
  | cons x xs ih =>
    have hx : x.count '/' = 0 := List.count_eq_zero.2 h.head.2.1
    cases xs with
    | nil => simpa [countSep, toStr, intercalate] using hx
    | cons y ys =>
      have := ih h.tail
      rw [toStr, intercalate_cons _ _ (by simp), countSep, List.count_append, hx,
        List.count_cons_self]
      simp only [toStr, countSep] at this
      rw [this]
      simp

/-- `os.path.join` of two non-empty good relative paths. -/
theorem join_toStr {a b : Path} (ha : GoodPath a) (hb : GoodPath b) (ha0 : a ≠ []) (hb0 : b ≠ []) :
    join (toStr a) (toStr b) = toStr (a ++ b) := by
  obtain ⟨s, c, hs, hc⟩ := toStr_getLast ha0 ha
  have h1 : (toStr b).head? ≠ some '/' := by
    cases b with
    | nil => exact absurd rfl hb0
    | cons x xs =>
      have hx := hb.head
      cases x with
      | nil => exact absurd rfl hx.1
      | cons d ds =>
        have hd : d ≠ '/' := fun h' => hx.2.1 (by simp [h'])
        cases xs <;> simp [toStr, intercalate, hd]
  have h2 : ¬ (toStr a = [] ∨ (toStr a).getLast? = some '/') := by
    simp [hs, hc]
  rw [join, if_neg h1, if_neg h2, toStr, toStr, toStr, intercalate_append _ _ ha0 hb0]

theorem noSep_prefix_cancel {w v s t : Str} (hw : '/' ∉ w) (hv : '/' ∉ v) :
    (w ++ '/' :: s) <+: (v ++ '/' :: t) ↔ w = v ∧ s <+: t := by
  induction w generalizing v with
  | nil =>
    cases v with
    | nil => simp
    | cons c cs =>
      have : '/' ≠ c := fun h => hv (by rw [h]; simp)
      simp [this]
  | cons c cs ih =>
    have hc : c ≠ '/' := fun h => hw (by simp [h])
    cases v with
    | nil => simp [hc]
    | cons d ds =>
      have := ih (v := ds) (fun h => hw (by simp [h])) (fun h => hv (by simp [h]))
      simp only [List.cons_append, List.cons_prefix_cons, this, List.cons.injEq, and_assoc]

/-- `file_path.startswith(e.rstrip(os.sep) + os.sep)` says that `e` is a proper
ancestor (zielen/filelogic.py:214-216). -/
theorem startsWith_sep_iff {e p : Path} (he : GoodPath e) (hp : GoodPath p) (he0 : e ≠ []) :
    (rstripSep (toStr e) ++ ['/']) <+: toStr p ↔ e <+: p ∧ e ≠ p := by
  rw [rstripSep_toStr he]
  induction e generalizing p with
  | nil => exact absurd rfl he0
  | cons x xs ih =>
    cases p with
    | nil =>
      constructor
      · intro h
        have := List.IsPrefix.length_le h
        simp [toStr, intercalate] at this
      · rintro ⟨h, -⟩
        simp at h
    | cons y ys =>
      have hx := he.head.2.1
      have hy := hp.head.2.1
      have key : ∀ (s : Str), (x ++ '/' :: s) <+: toStr (y :: ys) ↔
          x = y ∧ ys ≠ [] ∧ s <+: toStr ys := by
        intro s
        cases ys with
        | nil =>
          constructor
          · intro h
            exfalso
            apply hy
            have : '/' ∈ toStr [y] := List.IsPrefix.subset h (by simp)
            simpa [toStr, intercalate] using this
          · rintro ⟨-, h, -⟩
            exact absurd rfl h
        | cons z zs =>
          rw [toStr, intercalate_cons _ _ (by simp), noSep_prefix_cancel hx hy]
          simp [toStr]
      cases xs with
      | nil =>
        have := key []
        simp only [toStr, intercalate, List.nil_prefix, and_true] at this ⊢
        rw [this]
        simp only [List.cons_prefix_cons, List.nil_prefix, and_true, ne_eq, List.cons.injEq,
          not_and]
        constructor
        · rintro ⟨h1, h2⟩
          exact ⟨h1, fun _ h => h2 h.symm⟩
        · rintro ⟨h1, h2⟩
          exact ⟨h1, fun h => h2 h1 h.symm⟩
      | cons w ws =>
        have h1 : toStr (x :: w :: ws) ++ ['/'] = x ++ '/' :: (toStr (w :: ws) ++ ['/']) := by
          simp [toStr, intercalate_cons]
        rw [h1, key]
        have h2 := ih (p := ys) he.tail hp.tail (by simp)
        rw [h2]
        simp only [List.cons_prefix_cons, ne_eq, List.cons.injEq, not_and]
        constructor
        · rintro ⟨h3, -, h5, h6⟩
          exact ⟨⟨h3, h5⟩, fun _ => h6⟩
        · rintro ⟨⟨h3, h4⟩, h5⟩
          refine ⟨h3, ?_, h4, h5 h3⟩
          rintro rfl
          simp at h4

/-- Components used by `commonpath`. -/
theorem realComps_toStr {p : Path} (h : GoodPath p) : realComps (toStr p) = p := by
  by_cases hp : p = []
  · subst hp; rfl
  · rw [realComps, toStr, split_intercalate p hp h.noSep]
    apply List.filter_eq_self.2
    intro c hc
    simp [(h c hc).1, (h c hc).2.2.1]

theorem realComps_absStr {p : Path} (h : GoodPath p) : realComps (absStr p) = p := by
  have : realComps (absStr p) = realComps (toStr p) := by
    simp [realComps, absStr, split]
  rw [this, realComps_toStr h]

theorem lcp_eq_right {a b : List Str} : lcp a b = b ↔ b <+: a := by
  induction a generalizing b with
  | nil => cases b <;> simp [lcp]
  | cons x xs ih =>
    cases b with
    | nil => simp [lcp]
    | cons y ys =>
      by_cases h : x = y
      · subst h; simp [lcp, ih]
      · have h' : ¬ y = x := fun e => h e.symm
        simp [lcp, h, h']

theorem lcp_comm (a b : List Str) : lcp a b = lcp b a := by
  induction a generalizing b with
  | nil => cases b <;> simp [lcp]
  | cons x xs ih =>
    cases b with
    | nil => simp [lcp]
    | cons y ys =>
      by_cases h : x = y
      · subst h; simp [lcp, ih]
      · have h' : ¬ y = x := fun e => h e.symm
        simp [lcp, h, h']

theorem lcp_eq_left {a b : List Str} : lcp a b = a ↔ a <+: b := by
  rw [lcp_comm, lcp_eq_right]

theorem lcp_good {a b : Path} (ha : GoodPath a) : GoodPath (lcp a b) := by
  induction a generalizing b with
  | nil => cases b <;> simp [lcp, GoodPath]
  | cons x xs ih =>
    cases b with
    | nil => simp [lcp, GoodPath]
    | cons y ys =>
      by_cases h : x = y
      · subst h
        simp only [lcp, if_true]
        intro c hc
        rcases List.mem_cons.1 hc with rfl | hc
        · exact ha.head
        · exact ih ha.tail c hc
      · simp [lcp, h, GoodPath]

theorem isabs_absStr (p : Path) : isabs (absStr p) = true := by simp [isabs, absStr]

theorem isabs_toStr {p : Path} (h : GoodPath p) : isabs (toStr p) = false := by
  cases p with
  | nil => rfl
  | cons x xs =>
    have hx := h.head
    cases x with
    | nil => exact absurd rfl hx.1
    | cons d ds =>
      have hd : d ≠ '/' := fun h' => hx.2.1 (by simp [h'])
      cases xs <;> simp [isabs, toStr, intercalate, hd]

theorem absStr_injective {p q : Path} (hp : GoodPath p) (hq : GoodPath q)
    (h : absStr p = absStr q) : p = q :=
  toStr_injective hp hq (by simpa [absStr] using h)

/-- `commonpath([a, b]) == b` says that `b` is `a` or an ancestor of `a`. -/
theorem commonpath_abs_eq_right {a b : Path} (ha : GoodPath a) (hb : GoodPath b) :
    commonpath (absStr a) (absStr b) = some (absStr b) ↔ b <+: a := by
  simp only [commonpath, isabs_absStr, realComps_absStr ha, realComps_absStr hb, if_true,
    Option.some.injEq]
  rw [← lcp_eq_right]
  constructor
  · intro h
    exact absStr_injective (lcp_good ha) hb (by simpa [absStr, toStr] using h)
  · intro h
    rw [h]; rfl

theorem commonpath_abs_eq_left {a b : Path} (ha : GoodPath a) (hb : GoodPath b) :
    commonpath (absStr a) (absStr b) = some (absStr a) ↔ a <+: b := by
  have : commonpath (absStr a) (absStr b) = commonpath (absStr b) (absStr a) := by
    simp [commonpath, isabs_absStr, lcp_comm]
  rw [this, commonpath_abs_eq_right hb ha]

theorem commonpath_rel_eq_right {a b : Path} (ha : GoodPath a) (hb : GoodPath b) :
    commonpath (toStr a) (toStr b) = some (toStr b) ↔ b <+: a := by
  simp only [commonpath, isabs_toStr ha, isabs_toStr hb, realComps_toStr ha, realComps_toStr hb,
    if_true, Option.some.injEq]
  rw [← lcp_eq_right]
  constructor
  · intro h
    exact toStr_injective (lcp_good ha) hb (by simpa [toStr] using h)
  · intro h
    simp [h, toStr]

end Verif
