import Verif.Watch
import Verif.Daemon
import Verif.OSM
import Verif.Path
/-
C74: an opening is counted for the file that was opened.
-/
namespace Verif
open Posix

theorem normStep_good (n : Nat) {p : Path} (h : GoodPath p) (acc : List Str) :
    p.foldl (normStep n) acc = p.reverse ++ acc := by
  induction p generalizing acc with
  | nil => rfl
  | cons c p ih =>
    have hc := h.head
    have : normStep n acc c = c :: acc := by
      unfold normStep
      rw [if_neg (by rintro (e | e); exact hc.1 e; exact hc.2.2.1 e), if_pos (Or.inl hc.2.2.2)]
    rw [List.foldl_cons, this, ih h.tail]
    simp

theorem normpath_absStr {p : Path} (h : GoodPath p) : normpath (absStr p) = absStr p := by
  have hs : initialSlashes (absStr p) = 1 := by
    cases p with
    | nil => rfl
    | cons c p =>
      have hr := isabs_toStr h
      have hne := toStr_ne_nil h (by simp)
      unfold absStr
      cases hq : toStr (c :: p) with
      | nil => exact absurd hq hne
      | cons d ds =>
        rw [hq] at hr
        have hd : d ≠ '/' := by rintro rfl; simp [isabs] at hr
        unfold initialSlashes
        split
        · next he => simp only [List.cons.injEq] at he; exact absurd he.2.1 hd
        · next he => simp only [List.cons.injEq] at he; exact absurd he.2.1 hd
        · rfl
        · next he => exact absurd rfl (he _)
  have e : (split (absStr p)).foldl (normStep 1) [] = p.reverse := by
    by_cases hp : p = []
    · subst hp; rfl
    · have : split (absStr p) = [] :: p := by
        rw [absStr, show ('/' :: toStr p) = ([] : Str) ++ '/' :: toStr p from rfl, split_append_sep _ _ (by simp), toStr,
          split_intercalate p hp h.noSep]
      rw [this, List.foldl_cons, show normStep 1 [] [] = [] from rfl, normStep_good 1 h]
      simp
  unfold normpath
  rw [if_neg (by simp [absStr])]
  dsimp only
  rw [hs, e, List.reverse_reverse]
  rw [if_neg (by simp)]
  rfl

theorem comps_absStr {p : Path} (h : GoodPath p) :
    (split (normpath (absStr p))).filter (fun c => decide (c ≠ [])) = p := by
  rw [normpath_absStr h]
  by_cases hp : p = []
  · subst hp; rfl
  · rw [absStr, show ('/' :: toStr p) = ([] : Str) ++ '/' :: toStr p from rfl, split_append_sep _ _ (by simp), toStr,
      split_intercalate p hp h.noSep]
    rw [List.filter_cons_of_neg (by simp)]
    exact List.filter_eq_self.2 (fun c hc => by simp [(h c hc).1])

theorem relpath_below {r p : Path} (hr : GoodPath r) (hp : GoodPath p) :
    relpath (absStr (r ++ p)) (absStr r) = if p = [] then ['.'] else toStr p := by
  unfold relpath
  rw [comps_absStr (goodPath_append.2 ⟨hr, hp⟩), comps_absStr hr]
  have : lcp r (r ++ p) = r := lcp_eq_left.2 (List.prefix_append r p)
  simp [this, toStr]

/-- Where something happens: in the local directory, or in the remote one and not in the local one. -/
inductive Place (loc rem : Path)
  | atLocal (p : Path) (good : GoodPath p)
  | atRemote (p : Path) (good : GoodPath p) (apart : ¬ loc <+: rem ++ p)

namespace Place
variable {loc rem : Path}

/-- The path relative to the directory. -/
def path : Place loc rem → Path
  | atLocal p _ => p
  | atRemote p _ _ => p

/-- The path that the system reports. -/
def pathname : Place loc rem → Str
  | atLocal p _ => absStr (loc ++ p)
  | atRemote p _ _ => absStr (rem ++ p)

theorem good : (e : Place loc rem) → GoodPath e.path
  | atLocal _ h => h
  | atRemote _ h _ => h
end Place

/-- Something that happens in one of the directories. The directories themselves are directories. -/
structure Happens (loc rem : Path) where
  place : Place loc rem
  dir : Bool
  time : Int
  root : place.path = [] → dir = true

variable {loc rem : Path}

theorem relPathOf_place (hl : GoodPath loc) (hr : GoodPath rem) (e : Place loc rem) (rel : Option Str) :
    relPathOf rel e.pathname [absStr loc, absStr rem] = .ok (some (if e.path = [] then ['.'] else toStr e.path)) := by
  cases e with
  | atLocal p hp =>
    have : commonpath (absStr (loc ++ p)) (absStr loc) = some (absStr loc) :=
      (commonpath_abs_eq_right (goodPath_append.2 ⟨hl, hp⟩) hl).2 (List.prefix_append _ _)
    simp only [relPathOf, Place.pathname, Place.path, this, if_true, relpath_below hl hp]
    by_cases h0 : p = [] <;> simp [h0]
  | atRemote p hp ha =>
    have h1 : commonpath (absStr (rem ++ p)) (absStr loc) ≠ some (absStr loc) := fun h =>
      ha ((commonpath_abs_eq_right (goodPath_append.2 ⟨hr, hp⟩) hl).1 h)
    have h2 : commonpath (absStr (rem ++ p)) (absStr rem) = some (absStr rem) :=
      (commonpath_abs_eq_right (goodPath_append.2 ⟨hr, hp⟩) hr).2 (List.prefix_append _ _)
    simp only [relPathOf, Place.pathname, Place.path]
    cases h : commonpath (absStr (rem ++ p)) (absStr loc) with
    | none => simp [commonpath, isabs_absStr] at h
    | some c =>
      rw [h] at h1
      simp only
      rw [if_neg (fun e => h1 (by rw [e])), h2]
      simp only [if_true, relpath_below hr hp]
      by_cases h0 : p = [] <;> simp [h0]

theorem watchRound_places (hl : GoodPath loc) (hr : GoodPath rem) (known : Str → Bool) (es : List (Happens loc rem))
    (rel : Option Str) :
    ∃ r, watchRound [absStr loc, absStr rem] known rel
        (es.map (fun e => ⟨e.place.pathname, e.dir, e.time⟩)) =
      .ok (r, (accessed (fun p => known (toStr p)) (es.map (fun e => ⟨e.place.path, e.dir, e.time⟩))).map
        (fun x => (toStr x.1, x.2))) := by
  induction es generalizing rel with
  | nil => exact ⟨rel, rfl⟩
  | cons e es ih =>
    obtain ⟨r, h⟩ := ih (some (if e.place.path = [] then ['.'] else toStr e.place.path))
    refine ⟨r, ?_⟩
    simp only [List.map_cons, watchRound, relPathOf_place hl hr]
    by_cases hd : e.dir = true
    · rw [if_pos hd, h]
      simp [accessed, hd]
    · have hp : e.place.path ≠ [] := fun x => hd (e.root x)
      rw [if_neg hd, h]
      simp only [if_neg hp]
      by_cases hk : known (toStr e.place.path) = true
      · simp [accessed, hd, hk]
      · simp [accessed, hd, hk]

/-- C74: if both directories are given by absolute paths in normal form, then whatever is opened in them, in any order
and over any number of rounds, the daemon goes on, and the openings it considers are those of files that the database
knows, each with the path relative to the directory in which it has happened. -/
theorem C74_partial (hl : GoodPath loc) (hr : GoodPath rem) (rounds : List ((Str → Bool) × List (Happens loc rem))) :
    watchRounds [absStr loc, absStr rem] none
        (rounds.map (fun b => (b.1, b.2.map (fun e => ⟨e.place.pathname, e.dir, e.time⟩)))) =
      .ok (rounds.map (fun b => (b.2.filter (fun e => !e.dir && b.1 (toStr e.place.path))).map
        (fun e => (toStr e.place.path, e.time)))) := by
  suffices H : ∀ rel, watchRounds [absStr loc, absStr rem] rel
        (rounds.map (fun b => (b.1, b.2.map (fun e => ⟨e.place.pathname, e.dir, e.time⟩)))) =
      .ok (rounds.map (fun b => (b.2.filter (fun e => !e.dir && b.1 (toStr e.place.path))).map
        (fun e => (toStr e.place.path, e.time)))) from H none
  induction rounds with
  | nil => exact fun _ => rfl
  | cons b bs ih =>
    intro rel
    obtain ⟨r, h⟩ := watchRound_places hl hr b.1 b.2 rel
    simp only [List.map_cons, watchRounds, h, ih r]
    congr 2
    simp [accessed, List.filter_map, Function.comp_def]

/-- `commonpath` never gives a path with two leading slashes. -/
theorem commonpath_one_slash (a : Str) (r : Str) : commonpath a ('/' :: '/' :: r) ≠ some ('/' :: '/' :: r) := by
  intro h
  unfold commonpath at h
  split at h
  · next ha =>
    rw [show isabs ('/' :: '/' :: r) = true from rfl] at ha
    rw [ha] at h
    simp only [if_true, List.cons_append, List.nil_append, Option.some.injEq, List.cons.injEq, true_and] at h
    cases hl : lcp (realComps a) (realComps ('/' :: '/' :: r)) with
    | nil => rw [hl] at h; simp [intercalate] at h
    | cons c cs =>
      rw [hl] at h
      have hc : c ∈ realComps a := by
        cases hx : realComps a with
        | nil => rw [hx] at hl; simp [lcp] at hl
        | cons x xs =>
          rw [hx] at hl
          cases hy : realComps ('/' :: '/' :: r) with
          | nil => rw [hy] at hl; simp [lcp] at hl
          | cons y ys =>
            rw [hy] at hl
            unfold lcp at hl
            split at hl
            · obtain ⟨rfl, -⟩ := List.cons.inj hl; exact List.mem_cons_self
            · cases hl
      have hc2 := List.mem_filter.1 hc
      have hne : c ≠ [] := by have := hc2.2; simp at this; exact this.1
      have hns : '/' ∉ c := by
        have : ∀ s : Str, ∀ c ∈ split s, '/' ∉ c := by
          intro s
          induction s with
          | nil => intro c hc; simp [split] at hc; subst hc; simp
          | cons x s ih =>
            intro c hc
            unfold split at hc
            split at hc
            · rcases List.mem_cons.1 hc with rfl | hc
              · simp
              · exact ih c hc
            · next hx =>
              cases hs : split s with
              | nil => exact absurd hs (split_ne_nil s)
              | cons w ws =>
                rw [hs] at hc ih
                rcases List.mem_cons.1 hc with rfl | hc
                · simp only [List.mem_cons, not_or]
                  refine ⟨fun e => hx ?_, ih w List.mem_cons_self⟩
                  simp [← e]
                · exact ih c (List.mem_cons_of_mem w hc)
        exact this a c hc2.1
      cases c with
      | nil => exact hne rfl
      | cons d ds =>
        have : d = '/' := by cases cs <;> simp [intercalate] at h <;> exact h.1
        exact hns (by simp [this])
  · cases h

/-- C74 fails if the config file names the local directory with two leading slashes, which `normpath` keeps: nothing
that happens is found to be in it. The first opening of a file in it ends the daemon, wherever the remote directory
is, if nothing has been opened in the remote directory before. -/
theorem C74_two_slashes_fails (l : Str) (path remote : Str) (known : Str → Bool) (t : Int) (es : List WatchEvent)
    (hp : isabs path = true) (hr : isabs remote = true) (h : commonpath path remote ≠ some remote) :
    watchRound ['/' :: '/' :: l, remote] known none (⟨path, false, t⟩ :: es) = .error .unbound := by
  have ha : relPathOf none path ['/' :: '/' :: l, remote] = .ok none := by
    unfold relPathOf
    have h1 := commonpath_one_slash path l
    cases hc : commonpath path ('/' :: '/' :: l) with
    | none =>
      have : isabs ('/' :: '/' :: l) = true := rfl
      simp [commonpath, hp, this] at hc
    | some c =>
      rw [hc] at h1
      simp only
      rw [if_neg (fun e => h1 (by rw [e]))]
      unfold relPathOf
      cases hc2 : commonpath path remote with
      | none => simp [commonpath, hp, hr] at hc2
      | some d =>
        rw [hc2] at h
        simp only
        rw [if_neg (fun e => h (by rw [e]))]
        rfl
  simp [watchRound, ha]

/-- Otherwise an opening is counted for the file that was last opened in the remote directory: here `b` is opened and
`a` is counted. -/
theorem C74_stale_fails :
    watchRound ["//l".toList, "/r".toList] (fun p => p == "a".toList || p == "b".toList) none
      [⟨"/r/a".toList, false, 5⟩, ⟨"//l/b".toList, false, 7⟩] =
    .ok (some "a".toList, [("a".toList, 5), ("a".toList, 7)]) := by decide +kernel

/-- C74 fails if the remote directory is inside the local one: the remote `a` is taken for `r/a`. -/
theorem C74_inside_fails :
    watchRound ["/l".toList, "/l/r".toList] (fun p => p == "a".toList) none
      [⟨"/l/r/a".toList, false, 5⟩] = .ok (some "r/a".toList, []) := by decide +kernel

/-- The hypotheses of `C74_partial`: a known file is opened in the local directory, a directory and another file in the
remote one. -/
example : watchRounds ["/home/l".toList, "/r".toList] none
      [(fun p => p == "d/a".toList, [⟨"/home/l/d/a".toList, false, 5⟩, ⟨"/r/d".toList, true, 6⟩, ⟨"/r/x".toList, false, 7⟩]),
        (fun _ => true, [⟨"/home/l".toList, true, 8⟩, ⟨"/r/d/a".toList, false, 9⟩])] =
    .ok [[("d/a".toList, 5)], [("d/a".toList, 9)]] := by decide +kernel

example : GoodPath ["home".toList, "l".toList] ∧ GoodPath ["r".toList] ∧ GoodPath ["d".toList, "a".toList] ∧
    ¬ ["home".toList, "l".toList] <+: ["r".toList] ++ ["d".toList, "a".toList] := by
  unfold GoodPath GoodName; decide

/-- The hypotheses of `C74_two_slashes_fails`. -/
example : commonpath "//l/b".toList "/r".toList ≠ some "/r".toList := by decide +kernel

end Verif
