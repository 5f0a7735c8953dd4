import Verif.Props.C91_Classes
/-!
C91 with negated sets, ranges and brackets that are not closed. The manual does not mention them; they mean what users know
from shells.
-/
namespace Verif

/-- A name matches a part of a pattern that has no slash, with all that shells know. -/
inductive ShellLike : Str → Str → Prop
  | nil : ShellLike [] []
  /-- Other characters stand for themselves. -/
  | lit {c : Char} {p s : Str} : c ≠ '*' → c ≠ '?' → c ≠ '[' → ShellLike p s → ShellLike (c :: p) (c :: s)
  /-- A question mark matches any single character. -/
  | any {c : Char} {p s : Str} : ShellLike p s → ShellLike ('?' :: p) (c :: s)
  /-- An asterisk matches anything. -/
  | skip {p s : Str} : ShellLike p s → ShellLike ('*' :: p) s
  | more {c : Char} {p s : Str} : ShellLike ('*' :: p) s → ShellLike ('*' :: p) (c :: s)
  /-- `[abc]` or `[a-zA-Z_]` -/
  | set {c : Char} {l : List Item} {p s : Str} : (∀ i ∈ l, i.Ok) → l.head?.map Prod.fst ≠ some '!' →
      (∃ i ∈ l, i.Has c) → ShellLike p s → ShellLike ('[' :: itemsText l ++ ']' :: p) (c :: s)
  /-- `[!abc]` or `[!a-zA-Z_]` -/
  | neg {c : Char} {l : List Item} {p s : Str} : l ≠ [] → (∀ i ∈ l, i.Ok) → (¬ ∃ i ∈ l, i.Has c) → ShellLike p s →
      ShellLike ('[' :: '!' :: itemsText l ++ ']' :: p) (c :: s)
  /-- `[a-z]`, also the wrong way round -/
  | range {x y c : Char} {p s : Str} : (x ≠ '!' ∧ x ≠ ']' ∧ x ≠ '-') → (y ≠ ']' ∧ y ≠ '-') → x.toNat ≤ c.toNat →
      c.toNat ≤ y.toNat → ShellLike p s → ShellLike ('[' :: x :: '-' :: y :: ']' :: p) (c :: s)
  /-- A bracket that is not closed stands for itself. -/
  | unclosed {p s : Str} : ']' ∉ p → ShellLike p s → ShellLike ('[' :: p) ('[' :: s)

/-- Between brackets there are characters and ranges, or a negation of those, or one range that may be the wrong way
round. -/
inductive ShellName : Str → Prop
  | nil : ShellName []
  | char {c : Char} {p : Str} : c ≠ '[' → ShellName p → ShellName (c :: p)
  | set {l : List Item} {p : Str} : l ≠ [] → (∀ i ∈ l, i.Ok) → l.head?.map Prod.fst ≠ some '!' → ShellName p →
      ShellName ('[' :: itemsText l ++ ']' :: p)
  | neg {l : List Item} {p : Str} : l ≠ [] → (∀ i ∈ l, i.Ok) → ShellName p →
      ShellName ('[' :: '!' :: itemsText l ++ ']' :: p)
  | range {x y : Char} {p : Str} : (x ≠ '!' ∧ x ≠ ']' ∧ x ≠ '-') → (y ≠ ']' ∧ y ≠ '-') → ShellName p →
      ShellName ('[' :: x :: '-' :: y :: ']' :: p)
  | unclosed {p : Str} : ']' ∉ p → ShellName p → ShellName ('[' :: p)

/-- Hidden files are only matched if the pattern has the dot. -/
def ShellMatches (c n : Str) : Prop := ShellLike c n ∧ (Hidden n → Hidden c)

theorem fnmatch_nil {s : Str} : fnmatch s [] = true ↔ s = [] := by
  simp [fnmatch, toks, matchToks]

theorem fnmatch_star {p s : Str} : fnmatch s ('*' :: p) = true ↔ ∃ a b, s = a ++ b ∧ fnmatch b p = true := by
  unfold fnmatch
  rw [show toks ('*' :: p).length ('*' :: p) = .star :: toks p.length p from rfl, matchStar]

theorem fnmatch_any {p s : Str} : fnmatch s ('?' :: p) = true ↔ ∃ c t, s = c :: t ∧ fnmatch t p = true := by
  unfold fnmatch
  rw [show toks ('?' :: p).length ('?' :: p) = .any :: toks p.length p from rfl]
  cases s <;> simp [matchToks, tokChar]

theorem fnmatch_lit {x : Char} {p s : Str} (h1 : x ≠ '*') (h2 : x ≠ '?') (h3 : x ≠ '[') :
    fnmatch s (x :: p) = true ↔ ∃ t, s = x :: t ∧ fnmatch t p = true := by
  have e : toks (x :: p).length (x :: p) = .lit x :: toks p.length p := by
    rw [List.length_cons, toks, if_neg h1, if_neg h2, if_neg h3]
  unfold fnmatch
  rw [e]
  cases s <;> simp [matchToks, tokChar, and_assoc]

theorem setTok_ne_star (b : Str) : setTok b ≠ .star := by
  unfold setTok
  split <;> simp

theorem fnmatch_bracket_nil {q : Str} : fnmatch [] ('[' :: q) = false := by
  unfold fnmatch
  rw [List.length_cons, toks, if_neg (by decide), if_neg (by decide), if_pos rfl]
  cases hb : bracket q with
  | none => rfl
  | some x =>
    obtain ⟨a, r⟩ := x
    dsimp only
    have := setTok_ne_star a
    generalize setTok a = t at this ⊢
    cases t with
    | star => exact absurd rfl this
    | _ => rfl

/-- What the matcher of the library does. -/
theorem shellLike_iff {p : Str} (hp : ShellName p) (s : Str) : fnmatch s p = true ↔ ShellLike p s := by
  constructor
  · induction hp generalizing s with
    | nil => intro h; rw [fnmatch_nil.1 h]; exact .nil
    | @char c p hc _ ih =>
      intro h
      by_cases h1 : c = '*'
      · subst h1
        obtain ⟨a, b, hs, hk⟩ := fnmatch_star.1 h
        have hk := ShellLike.skip (ih _ hk)
        clear h
        subst hs
        induction a with
        | nil => exact hk
        | cons x a ih' => exact .more ih'
      · by_cases h2 : c = '?'
        · subst h2
          obtain ⟨x, t, rfl, hk⟩ := fnmatch_any.1 h
          exact .any (ih _ hk)
        · obtain ⟨t, rfl, hk⟩ := (fnmatch_lit h1 h2 hc).1 h
          exact .lit h1 h2 hc (ih _ hk)
    | set h0 h1 h2 _ ih =>
      intro h
      cases s with
      | nil => rw [List.cons_append, fnmatch_bracket_nil] at h; cases h
      | cons c s =>
        have h := (C91_class h0 h1 h2).1 h
        exact .set h1 h2 h.1 (ih _ h.2)
    | neg h0 h1 _ ih =>
      intro h
      cases s with
      | nil => rw [List.cons_append, fnmatch_bracket_nil] at h; cases h
      | cons c s =>
        have h := (C91_class_neg h0 h1).1 h
        exact .neg h0 h1 h.1 (ih _ h.2)
    | range hx hy _ ih =>
      intro h
      cases s with
      | nil => rw [fnmatch_bracket_nil] at h; cases h
      | cons c s =>
        have h := (C91_range hx hy).1 h
        exact .range hx hy h.1 h.2.1 (ih _ h.2.2)
    | unclosed hb _ ih =>
      intro h
      cases s with
      | nil => rw [fnmatch_bracket_nil] at h; cases h
      | cons c s =>
        obtain ⟨rfl, hk⟩ := (C91_unclosed hb).1 h
        exact .unclosed hb (ih _ hk)
  · intro h
    clear hp
    induction h with
    | nil => rfl
    | lit h1 h2 h3 _ ih => exact (fnmatch_lit h1 h2 h3).2 ⟨_, rfl, ih⟩
    | any _ ih => exact fnmatch_any.2 ⟨_, _, rfl, ih⟩
    | skip _ ih => exact fnmatch_star.2 ⟨[], _, rfl, ih⟩
    | @more c p s _ ih =>
      obtain ⟨a, b, rfl, h⟩ := fnmatch_star.1 ih
      exact fnmatch_star.2 ⟨c :: a, b, rfl, h⟩
    | set h1 h2 hc _ ih => exact (C91_class (by rintro rfl; obtain ⟨i, hi, _⟩ := hc; cases hi) h1 h2).2 ⟨hc, ih⟩
    | neg h0 h1 hc _ ih => exact (C91_class_neg h0 h1).2 ⟨hc, ih⟩
    | range hx hy h1 h2 _ ih => exact (C91_range hx hy).2 ⟨h1, h2, ih⟩
    | unclosed hb _ ih => exact (C91_unclosed hb).2 ⟨rfl, ih⟩

/-- The library agrees about one component. -/
theorem libName_shell {c n : Str} (h : ShellName c) : LibName c n ↔ ShellMatches c n := by
  unfold LibName ShellMatches
  by_cases hm : hasMagic c = true
  · rw [if_pos hm, shellLike_iff h, hidden_iff, hidden_iff]
    refine and_congr_right fun _ => ?_
    cases isHidden c <;> cases isHidden n <;> simp
  · have hm : hasMagic c = false := by simpa using hm
    have e : ShellLike c n ↔ c = n := by
      rw [← shellLike_iff h, ← nameLike_noMagic hm]
      exact matchToks_iff (plain_of_noMagic hm) _ _ (Nat.le_refl _)
    rw [if_neg (by simp [hm]), e]
    constructor
    · rintro rfl; exact ⟨rfl, id⟩
    · exact fun h => h.1

theorem shell_stars : ShellName ['*', '*'] := .char (by decide) (.char (by decide) .nil)

/-- The exclude file excludes what it says, also with negated sets, ranges and brackets that are not closed. Missing:
wildcards in the path of the sync directory (C91_wild_fails), double asterisks that are not a component of their own
(C91_stars_fails), and brackets that have other hyphens than those of ranges, a closing bracket as their first character, or
several ranges of which one is the wrong way round. -/
theorem C91_shell_partial {fs : FS} (wf : fs.WF) {loc : Path} (hl : ∀ c ∈ loc, NoWild c) {T : Str} {ls : List Str}
    (hT : LinesOf T ls)
    (hp : ∀ t, Counts ls t → ∃ rooted cs dirs, IsPattern t rooted cs dirs ∧ ∀ c ∈ cs, ShellName c) (p : Path) :
    p ∈ textMatches fs loc T ↔ ∃ t rooted cs dirs n d, Counts ls t ∧ IsPattern t rooted cs dirs ∧
      fs.get (loc ++ p) = some n ∧ PathLike ShellMatches (if rooted then cs else ['*', '*'] :: cs) p d ∧
      ((d || dirs) = true → n.isDir = true) := by
  have key : ∀ t rooted cs dirs, IsPattern t rooted cs dirs → (∀ c ∈ cs, ShellName c) →
      (p ∈ lineMatches fs loc t ↔ ∃ n d, fs.get (loc ++ p) = some n ∧
        PathLike ShellMatches (if rooted then cs else ['*', '*'] :: cs) p d ∧ ((d || dirs) = true → n.isDir = true)) := by
    intro t rooted cs dirs hi hc
    obtain ⟨h1, h2, h3⟩ := isPattern_det hi
    have h4 : lineComps loc t = loc ++ (if rooted then cs else ['*', '*'] :: cs) := by
      unfold lineComps
      rw [h1]
      cases rooted with
      | false =>
        have h2 : ¬ t.head? = some '/' := by simpa using h2
        simp [h2]
      | true =>
        have h2 : t.head? = some '/' := by simpa using h2
        simp [h2]
    have h5 : ∀ c ∈ (if rooted then cs else ['*', '*'] :: cs), ShellName c := by
      intro c hm
      cases rooted with
      | true => exact hc c hm
      | false =>
        rcases List.mem_cons.1 hm with rfl | hm
        · exact shell_stars
        · exact hc c hm
    rw [mem_lineMatches, mem_glob wf, h3, h4]
    generalize (if rooted then cs else ['*', '*'] :: cs) = cs at h5
    constructor
    · rintro ⟨n, d, h6, h7, h8⟩
      obtain ⟨q, h9, h10⟩ := (pathLike_literal (fun c hc => noWild_magic (hl c hc))).1 h7
      rw [List.append_cancel_left h9]
      exact ⟨n, d, List.append_cancel_left h9 ▸ h6, pathLike_congr (fun c hc n => (libName_shell (h5 c hc)).1) h10, h8⟩
    · rintro ⟨n, d, h6, h7, h8⟩
      exact ⟨n, d, h6, (pathLike_literal (fun c hc => noWild_magic (hl c hc))).2
        ⟨p, rfl, pathLike_congr (fun c hc n => (libName_shell (h5 c hc)).2) h7⟩, h8⟩
  unfold textMatches
  rw [List.mem_flatMap]
  constructor
  · rintro ⟨t, ht, hm⟩
    have ht := (mem_patternLines hT t).1 ht
    obtain ⟨rooted, cs, dirs, hi, hc⟩ := hp t ht
    obtain ⟨n, d, h⟩ := (key t rooted cs dirs hi hc).1 hm
    exact ⟨t, rooted, cs, dirs, n, d, ht, hi, h⟩
  · rintro ⟨t, rooted, cs, dirs, n, d, ht, hi, h⟩
    obtain ⟨rooted', cs', dirs', hi', hc⟩ := hp t ht
    have : cs = cs' := (isPattern_det hi).1.symm.trans (isPattern_det hi').1
    subst this
    exact ⟨t, (mem_patternLines hT t).2 ht, (key t rooted cs dirs hi hc).2 ⟨n, d, h⟩⟩


/-- `/[!x]*`, `[_a-c]?` and `/[q`. -/
def exShellPatterns : Str := "/[!x]*\n[_a-c]?\n/[q".toList

def exShellTree : FS :=
  [(["l".toList], .dir 1 8), (["l".toList, "x".toList], .dir 1 8), (["l".toList, "x".toList, "b1".toList], .file 7 1 1),
    (["l".toList, "x".toList, "d1".toList], .file 7 1 1), (["l".toList, "y".toList], .file 7 1 1),
    (["l".toList, "[q".toList], .file 7 1 1)]

/-- What is matched. -/
example : textMatches exShellTree ["l".toList] exShellPatterns =
    [["y".toList], ["[q".toList], ["x".toList, "b1".toList], ["[q".toList]] := by decide +kernel

/-- The hypotheses of `C91_shell_partial` can be met. -/
example : exShellTree.WF ∧ (∀ c ∈ ["l".toList], NoWild c) ∧
    ∃ ls, LinesOf exShellPatterns ls ∧
      ∀ t, Counts ls t → ∃ rooted cs dirs, IsPattern t rooted cs dirs ∧ ∀ c ∈ cs, ShellName c := by
  refine ⟨⟨by decide +kernel, by decide +kernel, by decide +kernel, by decide +kernel⟩, by simp [NoWild], ?_⟩
  obtain ⟨ls, h⟩ := linesOf_exists exShellPatterns
  refine ⟨ls, h, ?_⟩
  intro t ht
  rw [← mem_patternLines h] at ht
  have h1 : patternLines exShellPatterns = ["/[!x]*".toList, "[_a-c]?".toList, "/[q".toList] := by decide +kernel
  rw [h1] at ht
  have g : ∀ c ∈ ["[!x]*".toList, "[_a-c]?".toList, "[q".toList], GoodName c := by decide +kernel
  simp only [List.mem_cons, List.not_mem_nil, or_false] at ht
  rcases ht with rfl | rfl | rfl
  · refine ⟨true, ["[!x]*".toList], false, ⟨by decide +kernel, by simp, fun c hc => g c (by simp_all)⟩, ?_⟩
    intro c hc
    rw [List.mem_singleton.1 hc]
    exact .neg (l := [('x', none)]) (by simp) (by simp [Item.Ok]) (.char (by decide) .nil)
  · refine ⟨false, ["[_a-c]?".toList], false, ⟨by decide +kernel, by simp, fun c hc => g c (by simp_all)⟩, ?_⟩
    intro c hc
    rw [List.mem_singleton.1 hc]
    exact .set (l := [('_', none), ('a', some 'c')]) (by simp) (by simp [Item.Ok]) (by simp) (.char (by decide) .nil)
  · refine ⟨true, ["[q".toList], false, ⟨by decide +kernel, by simp, fun c hc => g c (by simp_all)⟩, ?_⟩
    intro c hc
    rw [List.mem_singleton.1 hc]
    exact .unclosed (by decide) (.char (by decide) .nil)

end Verif
