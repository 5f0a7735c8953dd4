import Verif.Overlap
/-
C46: profiles never overlap.
-/
namespace Verif
open Posix

/-- `a` is `b` or a directory above it. -/
def Covers (a b : Path) : Prop := ∃ rest, b = a ++ rest

theorem covers_iff {a b : Path} : Covers a b ↔ a <+: b :=
  ⟨fun ⟨r, h⟩ => ⟨r, h.symm⟩, fun ⟨r, h⟩ => ⟨r, h.symm⟩⟩

theorem overlaps_abs {a b : Path} (ha : GoodPath a) (hb : GoodPath b) :
    overlaps (absStr a) (absStr b) = some true ∧ (Covers a b ∨ Covers b a) ∨
    overlaps (absStr a) (absStr b) = some false ∧ ¬ (Covers a b ∨ Covers b a) := by
  unfold overlaps
  have hl := commonpath_abs_eq_left ha hb
  have hr := commonpath_abs_eq_right ha hb
  cases h : commonpath (absStr a) (absStr b) with
  | none => simp [commonpath, isabs_absStr] at h
  | some c =>
    rw [h, Option.some.injEq] at hl hr
    rw [Option.map_some, covers_iff, covers_iff, ← hl, ← hr]
    by_cases hc : c = absStr a ∨ c = absStr b
    · left; exact ⟨by simp [hc], hc⟩
    · right; exact ⟨by simp only [hc, decide_false], hc⟩

theorem foldl_overlaps {others : List Path} {d : Path} (ho : ∀ o ∈ others, GoodPath o)
    (hd : GoodPath d) (n : Nat) : ∃ m, (others.map absStr).foldl (countOverlap (absStr d)) (some n) = some m ∧ n ≤ m ∧
      (m = n ↔ ∀ o ∈ others, ¬ (Covers o d ∨ Covers d o)) := by
  induction others generalizing n with
  | nil => exact ⟨n, rfl, Nat.le_refl _, by simp⟩
  | cons o os ih =>
    rw [List.map_cons, List.foldl_cons]
    rcases overlaps_abs (ho o (by simp)) hd with ⟨h, hov⟩ | ⟨h, hov⟩
    · rw [show countOverlap (absStr d) (some n) (absStr o) = some (n + 1) by unfold countOverlap; rw [h]]
      obtain ⟨m, h1, h2, h3⟩ := ih (fun o h => ho o (by simp [h])) (n + 1)
      refine ⟨m, h1, by omega, ?_⟩
      constructor
      · intro e; omega
      · intro hall; exact absurd hov (hall o (by simp))
    · rw [show countOverlap (absStr d) (some n) (absStr o) = some n by unfold countOverlap; rw [h]]
      obtain ⟨m, h1, h2, h3⟩ := ih (fun o h => ho o (by simp [h])) n
      refine ⟨m, h1, h2, ?_⟩
      rw [h3]
      constructor
      · intro hall q hq
        rcases List.mem_cons.1 hq with rfl | hq
        · exact hov
        · exact hall q hq
      · intro hall q hq
        exact hall q (by simp [hq])

/-- For absolute paths in normal form (with one leading slash), init accepts a local
directory exactly if it is not equal to, above or below the program directory or
another profile's local directory, and it never raises. -/
theorem C46_exact_partial {prog d : Path} {others : List Path} (hp : GoodPath prog)
    (ho : ∀ o ∈ others, GoodPath o) (hd : GoodPath d) :
    ∃ b, verifyLocalDir (absStr prog) (others.map absStr) (absStr d) = some b ∧
      (b = true ↔ ∀ q ∈ prog :: others, ¬ Covers q d ∧ ¬ Covers d q) := by
  unfold verifyLocalDir
  rcases overlaps_abs hd hp with ⟨h, hov⟩ | ⟨h, hov⟩
  · rw [h]
    refine ⟨false, rfl, ?_⟩
    constructor
    · simp
    · intro hall
      have := hall prog (by simp)
      rcases hov with h | h
      · exact absurd h this.2
      · exact absurd h this.1
  · rw [h]
    obtain ⟨m, h1, _, h3⟩ := foldl_overlaps ho hd 0
    dsimp only
    rw [h1, Option.map_some]
    refine ⟨decide (m = 0), rfl, ?_⟩
    rw [decide_eq_true_eq, h3]
    rw [not_or] at hov
    constructor
    · intro hall q hq
      rcases List.mem_cons.1 hq with rfl | hq
      · exact ⟨hov.2, hov.1⟩
      · exact not_or.1 (hall q hq)
    · intro hall q hq
      exact not_or.2 (hall q (by simp [hq]))

/-! ### Where the local path comes from -/

/-- After the component loop of `normpath`: `..` only at the front, and not at all
after a slash. -/
theorem norm_fold {n : Nat} {l : List Str} (hl : ∀ c ∈ l, '/' ∉ c) :
    ∃ k good, (l.foldl (normStep n) []).reverse = List.replicate k ['.', '.'] ++ good ∧
      GoodPath good ∧ (n ≠ 0 → k = 0) := by
  have key : ∀ (l acc : List Str), (∀ c ∈ l, '/' ∉ c) →
      (∃ k good, acc = good ++ List.replicate k ['.', '.'] ∧ GoodPath good ∧ (n ≠ 0 → k = 0)) →
      ∃ k good, l.foldl (normStep n) acc = good ++ List.replicate k ['.', '.'] ∧ GoodPath good ∧
        (n ≠ 0 → k = 0) := by
    intro l
    induction l with
    | nil => intro acc _ h; exact h
    | cons c l ih =>
      intro acc hl h
      rw [List.foldl_cons]
      refine ih _ (fun c hc => hl c (by simp [hc])) ?_
      obtain ⟨k, good, rfl, hg, hk⟩ := h
      unfold normStep
      split
      · exact ⟨k, good, rfl, hg, hk⟩
      · rename_i hc
        rw [not_or] at hc
        by_cases hdd : c = ['.', '.']
        · subst hdd
          cases good with
          | nil =>
            rw [List.nil_append]
            split
            · rename_i hcond
              refine ⟨k + 1, [], by simp [List.replicate_succ], by simp [GoodPath], ?_⟩
              intro hn
              exfalso
              have hk0 := hk hn
              subst hk0
              rcases hcond with h | ⟨h, _⟩ | h
              · exact h rfl
              · exact hn h
              · simp at h
            · rename_i hcond
              cases k with
              | zero => exact ⟨0, [], by simp, by simp [GoodPath], fun _ => rfl⟩
              | succ k => exact absurd (Or.inr (Or.inr (by simp [List.replicate_succ]))) hcond
          | cons g gs =>
            have hg1 := hg.head
            rw [if_neg]
            · exact ⟨k, gs, by simp, hg.tail, hk⟩
            · rintro (h | ⟨_, h⟩ | h)
              · exact h rfl
              · simp at h
              · simp only [List.cons_append, List.head?_cons, Option.some.injEq] at h
                exact hg1.2.2.2 h
        · rw [if_pos (Or.inl hdd)]
          refine ⟨k, c :: good, by simp, ?_, hk⟩
          intro x hx
          rcases List.mem_cons.1 hx with rfl | hx
          · exact ⟨hc.1, hl x (by simp), hc.2, hdd⟩
          · exact hg x hx
  obtain ⟨k, good, h, hg, hk⟩ := key l [] hl ⟨0, [], by simp, by simp [GoodPath], fun _ => rfl⟩
  refine ⟨k, good.reverse, ?_, fun c hc => hg c (by simpa using hc), hk⟩
  rw [h, List.reverse_append, List.reverse_replicate]

theorem split_noSlash (s : Str) : ∀ c ∈ split s, '/' ∉ c := by
  induction s with
  | nil => simp [split]
  | cons a s ih =>
    intro c hc
    unfold split at hc
    split at hc
    · rcases List.mem_cons.1 hc with rfl | hc
      · simp
      · exact ih c hc
    · rename_i ha
      split at hc
      · rename_i h; exact absurd h (split_ne_nil s)
      · rename_i w ws h
        rw [h] at ih
        rcases List.mem_cons.1 hc with rfl | hc
        · simp only [List.mem_cons, not_or]
          exact ⟨fun e => ha e.symm, ih w (by simp)⟩
        · exact ih c (by simp [hc])

/-- A path with exactly two leading slashes. -/
def TwoSlashes (v : Str) : Prop := ∃ r, v = '/' :: '/' :: r ∧ r.head? ≠ some '/'

theorem normpath_abs {v : Str} (h : v.head? = some '/') (h2 : ¬ TwoSlashes v) :
    ∃ p, GoodPath p ∧ normpath v = absStr p := by
  cases v with
  | nil => simp at h
  | cons c r =>
    simp only [List.head?_cons, Option.some.injEq] at h
    subst h
    have hn : initialSlashes ('/' :: r) = 1 := by
      unfold initialSlashes
      split
      · rfl
      · rename_i s hne he
        obtain rfl := (List.cons.inj he).2
        exfalso
        apply h2
        refine ⟨s, rfl, ?_⟩
        intro hs
        cases s with
        | nil => simp at hs
        | cons d s =>
          simp only [List.head?_cons, Option.some.injEq] at hs
          subst hs
          exact hne s rfl
      · rfl
      · rename_i hne
        exact absurd rfl (hne r)
    obtain ⟨k, good, e, hg, hk⟩ := norm_fold (n := 1) (split_noSlash ('/' :: r))
    have hk0 := hk (by omega)
    subst hk0
    refine ⟨good, hg, ?_⟩
    unfold normpath
    rw [if_neg (by simp)]
    dsimp only
    rw [hn, e]
    simp [absStr, toStr]

theorem rstripSep_absStr {h : Path} (hg : GoodPath h) (h0 : h ≠ []) : rstripSep (absStr h) = absStr h := by
  unfold rstripSep
  rw [dropWhile_none, List.reverse_reverse]
  intro c hc
  have hl := toStr_getLast h0 hg
  rw [List.head?_reverse] at hc
  have : (absStr h).getLast? = (toStr h).getLast? := by
    unfold absStr
    cases ht : toStr h with
    | nil => exact absurd ht (toStr_ne_nil hg h0)
    | cons a t => rw [List.getLast?_cons_cons]
  rw [this] at hc
  obtain ⟨s, c', hs, hne⟩ := hl
  rw [hs, List.getLast?_concat, Option.some.injEq] at hc
  subst hc
  simpa using hne

/-- The home directory followed by good components. -/
theorem home_join {h p : Path} (hg : GoodPath h) (hp : GoodPath p) (rest : Str)
    (hrest : rest = if p = [] then [] else '/' :: toStr p) :
    (let r := rstripSep (absStr h) ++ rest
     if r = [] then ['/'] else r) = absStr (h ++ p) := by
  dsimp only
  by_cases h0 : h = []
  · subst h0
    have : rstripSep (absStr []) = [] := by decide
    rw [this, List.nil_append]
    by_cases hp0 : p = []
    · subst hp0; subst hrest; rfl
    · rw [if_neg hp0] at hrest
      rw [hrest, if_neg (by simp)]
      rfl
  · rw [rstripSep_absStr hg h0]
    by_cases hp0 : p = []
    · rw [if_pos hp0] at hrest
      subst hrest hp0
      rw [List.append_nil, List.append_nil, if_neg (by simp [absStr])]
    · rw [if_neg hp0] at hrest
      rw [hrest, if_neg (by simp [absStr])]
      unfold absStr toStr
      rw [intercalate_append h p h0 hp0]
      simp

theorem expanduser_tilde (home : Str) (user : Str → Option Str) (s : Str) :
    expanduser home user ('~' :: s) =
      match (if s.takeWhile (· != '/') = [] then some home else user (s.takeWhile (· != '/'))) with
      | none => '~' :: s
      | some h => let r := rstripSep h ++ s.dropWhile (· != '/')
        if r = [] then ['/'] else r := rfl

/-- The local path of every accepted config value (it starts with `/` or `~/`), unless
it has exactly two leading slashes, is an absolute path in normal form or not
absolute at all (such as `~/../x`). -/
theorem C46_localPath {home : Path} {user : Str → Option Str} (hh : GoodPath home)
    (hu : ∀ u h, user u = some h → ∃ p, GoodPath p ∧ h = absStr p) {v : Str}
    (hv : ∃ r, v = '/' :: r ∨ v = '~' :: '/' :: r) (h2 : ¬ TwoSlashes v) :
    (∃ p, GoodPath p ∧ localPath (absStr home) user v = absStr p) ∨
      isabs (localPath (absStr home) user v) = false := by
  obtain ⟨r, rfl | rfl⟩ := hv
  · left
    obtain ⟨p, hp, e⟩ := normpath_abs (v := '/' :: r) rfl h2
    refine ⟨p, hp, ?_⟩
    unfold localPath
    rw [e]
    rfl
  · have hn : initialSlashes ('~' :: '/' :: r) = 0 := rfl
    obtain ⟨k, good, e, hg, _⟩ := norm_fold (n := 0) (split_noSlash ('~' :: '/' :: r))
    have en : normpath ('~' :: '/' :: r) = (if intercalate (List.replicate k ['.', '.'] ++ good) = [] then
        ['.'] else intercalate (List.replicate k ['.', '.'] ++ good)) := by
      unfold normpath
      rw [if_neg (by simp)]
      dsimp only
      rw [hn, e]
      rfl
    unfold localPath
    rw [en]
    cases k with
    | succ k =>
      right
      have : ∃ t, intercalate (List.replicate (k + 1) ['.', '.'] ++ good) = '.' :: t := by
        rw [List.replicate_succ, List.cons_append]
        cases hx : List.replicate k ['.', '.'] ++ good with
        | nil => exact ⟨_, rfl⟩
        | cons a b => exact ⟨_, rfl⟩
      obtain ⟨t, ht⟩ := this
      rw [ht]
      rfl
    | zero =>
      rw [List.replicate_zero, List.nil_append]
      cases good with
      | nil => right; rfl
      | cons c p =>
        have hne := toStr_ne_nil hg (by simp)
        rw [if_neg (show ¬ intercalate (c :: p) = [] from hne)]
        have hc := hg.head
        have hrel := isabs_toStr hg
        by_cases ht : ∃ s, c = '~' :: s
        · obtain ⟨s, rfl⟩ := ht
          have hs : '/' ∉ s := fun h => hc.2.1 (by simp [h])
          have eqi : intercalate (('~' :: s) :: p) = '~' :: (s ++ if p = [] then [] else '/' :: toStr p) := by
            by_cases hp0 : p = []
            · subst hp0; simp [intercalate]
            · rw [intercalate_cons _ _ hp0, if_neg hp0]; rfl
          have e1 : (s ++ if p = [] then [] else '/' :: toStr p).takeWhile (· != '/') = s := by
            by_cases hp0 : p = []
            · rw [if_pos hp0, List.append_nil]; exact takeWhile_noSep s hs
            · rw [if_neg hp0]; exact takeWhile_append_sep s _ hs
          have e2 : (s ++ if p = [] then [] else '/' :: toStr p).dropWhile (· != '/') =
              if p = [] then [] else '/' :: toStr p := by
            by_cases hp0 : p = []
            · rw [if_pos hp0, List.append_nil]; exact dropWhile_noSep s hs
            · rw [if_neg hp0]; exact dropWhile_append_sep s _ hs
          rw [eqi, expanduser_tilde, e1, e2]
          by_cases hs0 : s = []
          · rw [if_pos hs0]
            left
            exact ⟨home ++ p, goodPath_append.2 ⟨hh, hg.tail⟩, home_join hh hg.tail _ rfl⟩
          · rw [if_neg hs0]
            cases hus : user s with
            | none => right; rfl
            | some h =>
              left
              obtain ⟨q, hq, rfl⟩ := hu s h hus
              exact ⟨q ++ p, goodPath_append.2 ⟨hq, hg.tail⟩, home_join hq hg.tail _ rfl⟩
        · right
          have : expanduser (absStr home) user (intercalate (c :: p)) = intercalate (c :: p) := by
            unfold expanduser
            split
            · rename_i s hs
              exfalso
              cases c with
              | nil => exact hc.1 rfl
              | cons d ds =>
                have : d = '~' := by
                  cases p with
                  | nil => exact (List.cons.inj hs).1
                  | cons a b =>
                    rw [intercalate_cons _ _ (by simp)] at hs
                    exact (List.cons.inj hs).1
                exact ht ⟨ds, by rw [this]⟩
            · rfl
          rw [this]
          exact hrel

/-- A relative local path is never accepted: comparing it raises. -/
theorem C46_relative {prog : Path} {others : List Str} {d : Str} (h : isabs d = false) :
    verifyLocalDir (absStr prog) others d = none := by
  unfold verifyLocalDir overlaps commonpath
  rw [h, isabs_absStr]
  rfl

/-- Missing from C46: a path with two leading slashes keeps them in `normpath` and
escapes the comparison. `//home/u/x` is accepted although it lies in another
profile's directory. -/
theorem C46_two_slashes_fails :
    normpath "//home/u/x".toList = "//home/u/x".toList ∧
    verifyLocalDir "/home/u/.config/zielen".toList ["/home/u".toList] "//home/u/x".toList = some false ∧
    verifyLocalDir "/home/u/.config/zielen".toList ["/home/u/x/y".toList] "//home/u/x".toList = some true ∧
    verifyLocalDir "/home/u/.config/zielen".toList ["/home/u/x/y".toList] "/home/u/x".toList = some false := by
  decide +kernel

example : verifyLocalDir "/c".toList ["/a/b".toList, "/d".toList] "/a".toList = some false := by decide +kernel
example : verifyLocalDir "/c".toList ["/a/b".toList, "/d".toList] "/a/bb".toList = some true := by decide +kernel
example : localPath "/home/u".toList (fun _ => none) "~/x/../y".toList = "/home/u/y".toList := by decide +kernel
example : localPath "/home/u".toList (fun _ => none) "~/../y".toList = "y".toList := by decide +kernel

end Verif
