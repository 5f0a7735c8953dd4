import Verif.ExampleWorlds
import Verif.SyncSteps
import Verif.ExampleSync
/-
C63: a file that another client has deleted does not keep a profile from being synced.

Not so if the profile excludes it and has a link to it: `_glob` walks every match (zielen/profile.py:342-374), and
walking a link that leads nowhere raises FileNotFoundError. This is before the sync removes the link, so no later sync
gets further.
-/
namespace Verif
open Prog OSM Call FSTools WM

/-- The profile's patterns match `p` itself. -/
def OwnMatch (env : Env) (fs : FS) (p : Path) : Prop :=
  ∃ c m b, fs.get env.excl = some (.file c m b) ∧ (env.patsOf c).any (fun g => g p) = true

/-- A profile that can be synced, with a link to the remote file of `p`, which has been deleted and is excluded. -/
structure Dangling (env : Env) (fs : FS) (p : Path) : Prop where
  wf : fs.WF
  apart : Apart env.loc env.rem
  goodId : GoodName env.id
  goodRem : GoodPath env.rem
  loc_dir : fs.isDir env.loc = true
  rem_dir : fs.isDir env.rem = true
  slot : ∀ n, fs.get (env.exclDir ++ [env.id]) = some n → ∃ c m b, n = .file c m b
  excl_slot : env.excl ≠ env.exclDir ++ [env.id]
  user : UserPath p
  matched : OwnMatch env fs p
  link : ∃ m, fs.get (env.loc ++ p) = some (.link (absStr (env.rem ++ p)) m)
  gone : fs.get (env.rem ++ p) = none
  parents : ∀ a, a <+: p → fs.get (env.rem ++ a) = none ∨ fs.isDir (env.rem ++ a) = true

theorem pathErr_notFound {fs : FS} {p : Path} (h : ∀ a, a <+: p → fs.get a = none ∨ fs.isDir a = true) :
    fs.pathErr p = none ∨ fs.pathErr p = some .notFound := by
  rcases Option.eq_none_or_eq_some (fs.pathErr p) with h1 | ⟨e, h1⟩
  · exact Or.inl h1
  · right
    rw [h1]
    unfold FS.pathErr at h1
    obtain ⟨a, ha, h2⟩ := List.exists_of_findSome?_eq_some h1
    obtain ⟨k, _, rfl⟩ := List.mem_map.1 ha
    rcases h _ (List.take_prefix k p) with h3 | h3
    · rw [h3] at h2; exact h2.symm
    · obtain ⟨m, b, h4⟩ := FS.isDir_iff.1 h3
      rw [h4] at h2; cases h2

theorem stat_notFound {fs : FS} {p : Path} (h : ∀ a, a <+: p → fs.get a = none ∨ fs.isDir a = true)
    (hg : fs.get p = none) (k : Nat) : fs.follow (k + 1) p = .error .notFound ∨ fs.follow (k + 1) p = .ok p := by
  rcases pathErr_notFound h with h1 | h1
  · right; exact FS.follow_nonlink h1 (by simp [hg]) k
  · left; rw [FS.follow]; simp [h1]

section
variable {env : Env} {fs : FS} {p : Path}

theorem Dangling.rem_parents (d : Dangling env fs p) :
    ∀ a, a <+: env.rem ++ p → fs.get a = none ∨ fs.isDir a = true := by
  intro a ha
  rcases List.prefix_or_prefix_of_prefix ha (List.prefix_append env.rem p) with h | h
  · right
    by_cases he : a = env.rem
    · rw [he]; exact d.rem_dir
    · obtain ⟨m, b, h1⟩ := FS.isDir_iff.1 d.rem_dir
      exact d.wf.isDir_prefix h1 a h he
  · obtain ⟨c, rfl⟩ := h
    exact d.parents c (by rwa [List.prefix_append_right_inj] at ha)

theorem Dangling.stat (d : Dangling env fs p) : fs.stat (env.loc ++ p) = .error .notFound := by
  obtain ⟨m, hl⟩ := d.link
  have hg : GoodPath (env.rem ++ p) :=
    goodPath_append.2 ⟨d.goodRem, (goodPath_append.1 (d.wf.goodPath hl)).2⟩
  unfold FS.stat
  rw [FS.follow_link (d.wf.pathErr hl) hl, FS.linkDest_abs hg]
  rcases stat_notFound d.rem_parents d.gone 38 with h | h
  · rw [h]
  · rw [h]; dsimp only; rw [d.gone]

theorem Dangling.globMatches (d : Dangling env fs p) {c : Nat} {m : Int} {b : Nat}
    (he : fs.get env.excl = some (.file c m b)) :
    ∃ e, Verif.globMatches fs env.loc (env.patsOf c) = .error e := by
  obtain ⟨c', m', b', h1, h2⟩ := d.matched
  rw [he] at h1
  cases h1
  unfold Verif.globMatches
  split
  · exact ⟨_, rfl⟩
  · rename_i h
    rw [List.findSome?_eq_none_iff] at h
    obtain ⟨ml, hl⟩ := d.link
    have := h p ((mem_keys_below d.wf).2 ⟨d.user.1, _, hl⟩)
    rw [if_pos h2, d.stat] at this
    cases this

theorem Dangling.of_only (d : Dangling env fs p) {fs' : FS} (h : OnlyAt (env.exclDir ++ [env.id]) fs fs') (wf : fs'.WF)
    (hs : ∀ n, fs'.get (env.exclDir ++ [env.id]) = some n → ∃ c m b, n = .file c m b) : Dangling env fs' p := by
  have hloc : ∀ q, fs'.get (env.loc ++ q) = fs.get (env.loc ++ q) := fun q => h _ (loc_ne_slot' d.apart q)
  have hrem : ∀ a, a <+: p → fs'.get (env.rem ++ a) = fs.get (env.rem ++ a) := by
    intro a ha
    refine h _ (fun he => ?_)
    unfold Env.exclDir Env.util at he
    simp only [List.append_assoc, List.append_cancel_left_eq] at he
    subst he
    obtain ⟨c, rfl⟩ := ha
    exact d.user.2 rfl
  refine ⟨wf, d.apart, d.goodId, d.goodRem, ?_, ?_, hs, d.excl_slot, d.user, ?_, ?_, ?_, ?_⟩
  · rw [FS.isDir_congr (by simpa using hloc [])]; exact d.loc_dir
  · rw [FS.isDir_congr (by simpa using hrem [] (List.nil_prefix))]; exact d.rem_dir
  · obtain ⟨c, m, b, h1, h2⟩ := d.matched
    exact ⟨c, m, b, by rw [h _ d.excl_slot]; exact h1, h2⟩
  · rw [hloc]; exact d.link
  · rw [hrem p (List.prefix_refl _)]; exact d.gone
  · intro a ha
    rw [FS.isDir_congr (hrem a ha), hrem a ha]
    exact d.parents a ha

theorem Dangling.slot_good (d : Dangling env fs p) : GoodPath (env.exclDir ++ [env.id]) := by
  have h1 : GoodName Env.utilName := by decide
  have h2 : GoodName "exclude".toList := by decide
  unfold Env.exclDir Env.util
  simp only [goodPath_append]
  refine ⟨⟨⟨d.goodRem, ?_⟩, ?_⟩, ?_⟩ <;> intro c hc <;> simp at hc <;> subst hc
  · exact h1
  · exact h2
  · exact d.goodId

/-- The sync raises; it changes at most its copy of the exclude file, and saves nothing. -/
theorem Dangling.sync {w : World} (d : Dangling env w.os.fs p) (hm : w.matches_ = none) :
    wp (Verif.sync env) (fun _ _ => False)
      (fun _ w' => OnlyAt (env.exclDir ++ [env.id]) w.os.fs w'.os.fs ∧ Dangling env w'.os.fs p ∧
        w'.dbSaved = w.dbSaved ∧ w'.rdbSaved = w.rdbSaved ∧ w'.lastSaved = w.lastSaved) w := by
  obtain ⟨lm, lb, hlg⟩ := FS.isDir_iff.1 d.loc_dir
  unfold Verif.sync syncScan
  rw [wp_bind, wp_bind, wp_sys]
  refine wp_mono (wp_makedirs_dir d.wf hlg) ?_
    (fun _ s' h => by dsimp only; rw [h.1]; exact ⟨OnlyAt.refl _ _, d, rfl, rfl, rfl⟩)
  intro _ s0 h0
  rw [wp_bind, wp_sys]
  refine wp_mono (wp_addExcludeFile (by rw [h0]; exact d.wf) d.slot_good (by rw [h0]; exact d.slot)) ?_ ?_
  · rintro _ s1 ⟨h1, wf1, q, k, m, b, now, _, hs1⟩
    rw [h0] at h1
    have d1 : Dangling env s1.fs p := d.of_only h1 wf1 (by rw [hs1]; rintro n ⟨⟩; exact ⟨_, _, _, rfl⟩)
    dsimp only
    rw [wp_bind]
    have hx : ∀ w1 : World, w1.os.fs = s1.fs → w1.matches_ = none → w1.dbSaved = w.dbSaved →
        w1.rdbSaved = w.rdbSaved → w1.lastSaved = w.lastSaved → wp (exclMatches env) (fun _ _ => False)
        (fun _ w' => OnlyAt (env.exclDir ++ [env.id]) w.os.fs w'.os.fs ∧ Dangling env w'.os.fs p ∧
          w'.dbSaved = w.dbSaved ∧ w'.rdbSaved = w.rdbSaved ∧ w'.lastSaved = w.lastSaved) w1 := by
      intro w1 e1 e2 e3 e4 e5
      unfold exclMatches
      rw [wp_bind, wp_gets, e2]
      dsimp only
      rw [wp_bind, wp_sys, wp_query]
      refine ⟨?_, fun e _ => ⟨by rw [e1]; exact h1, by rw [e1]; exact d1, e3, e4, e5⟩⟩
      intro pats hp
      rw [e1] at hp
      obtain ⟨c, mc, bc, he, _⟩ := d1.matched
      obtain ⟨q', k', m', b', hq, rfl⟩ := readPatterns_ok.1 hp
      rw [FS.stat_nonlink (d1.wf.pathErr he) he rfl] at hq
      cases hq
      obtain ⟨er, her⟩ := d1.globMatches he
      rw [wp_bind, wp_sys, wp_query]
      refine ⟨?_, fun e _ => ⟨by rw [e1]; exact h1, by rw [e1]; exact d1, e3, e4, e5⟩⟩
      intro l hl
      rw [e1, her] at hl
      cases hl
    refine wp_scanLocal (fun _ => ?_) (fun _ => ?_) (fun _ => ⟨h1, d1, rfl, rfl, rfl⟩)
    all_goals
      rw [wp_bind]
      refine wp_scanRemote (fun _ => ?_) (fun _ => ?_) (fun _ => ⟨h1, d1, rfl, rfl, rfl⟩)
      all_goals
        rw [wp_bind]
        refine wp_mono (hx _ rfl hm rfl rfl rfl) (fun _ _ h => h.elim) (fun _ _ h => h)
  · rintro e s1 ⟨h1, wf1, hs1⟩
    rw [h0] at h1
    exact ⟨h1, d.of_only h1 wf1 hs1, rfl, rfl, rfl⟩

end

/-- Any number of syncs, one after the other; the numbers say after how many operations each is killed. -/
def syncs (env : Env) : List Nat → World → World
  | [], w => w
  | f :: fs, w => syncs env fs (Verif.sync env (w.restart f)).2

/-- A link to a deleted remote file that the profile excludes: no sync ever succeeds again, whatever else there is to
sync; the user's files, both databases and the time of the last sync stay as they are. -/
theorem C63_dangling_fails {env : Env} {p : Path} (l : List Nat) : ∀ {w : World}, Dangling env w.os.fs p → ∀ f,
    (sync env ((syncs env l w).restart f)).1 ≠ .ok () ∧
    OnlyAt (env.exclDir ++ [env.id]) w.os.fs (sync env ((syncs env l w).restart f)).2.os.fs ∧
    (sync env ((syncs env l w).restart f)).2.dbSaved = w.dbSaved ∧
    (sync env ((syncs env l w).restart f)).2.rdbSaved = w.rdbSaved ∧
    (sync env ((syncs env l w).restart f)).2.lastSaved = w.lastSaved := by
  have one : ∀ {w : World}, Dangling env w.os.fs p → ∀ f, (sync env (w.restart f)).1 ≠ .ok () ∧
      OnlyAt (env.exclDir ++ [env.id]) w.os.fs (sync env (w.restart f)).2.os.fs ∧
      Dangling env (sync env (w.restart f)).2.os.fs p ∧ (sync env (w.restart f)).2.dbSaved = w.dbSaved ∧
      (sync env (w.restart f)).2.rdbSaved = w.rdbSaved ∧ (sync env (w.restart f)).2.lastSaved = w.lastSaved := by
    intro w d f
    have h := Dangling.sync (w := w.restart f) d rfl
    unfold wp at h
    generalize sync env (w.restart f) = r at h ⊢
    obtain ⟨r, w'⟩ := r
    cases r with
    | ok a => exact h.elim
    | error e =>
      obtain ⟨h1, h2, h3⟩ := h
      exact ⟨(fun h => by cases h), h1, h2, h3⟩
  induction l with
  | nil =>
    intro w d f
    obtain ⟨h1, h2, _, h3⟩ := one d f
    exact ⟨h1, h2, h3⟩
  | cons a l ih =>
    intro w d f
    obtain ⟨_, h2, d2, h3, h4, h5⟩ := one d a
    obtain ⟨i1, i2, i3, i4, i5⟩ := ih d2 f
    exact ⟨i1, fun q hq => (i2 q hq).trans (h2 q hq), i3.trans h3, i4.trans h4, i5.trans h5⟩

/-- `e` was known, with a link in the local directory; another client has deleted it, and the user excludes it now.
The new file `a` is never uploaded. -/
def exDangling : World := exWorld exEnvE
  [(["l".toList, "e".toList], .link "/r/e".toList 3), (["l".toList, "a".toList], .file 9 45 1)]
  [exRow ["e".toList] false 1 false] [exRRow ["e".toList] false] 1000

example : (sync exEnvE exDangling).1 = .error .notFound := by decide +kernel

theorem exDangling_dangling : Dangling exEnvE exDangling.os.fs ["e".toList] := by
  have wf : exDangling.os.fs.WF := ⟨by decide +kernel, by decide +kernel, by decide +kernel, by decide +kernel⟩
  refine ⟨wf, by unfold Apart; decide +kernel, by decide, by decide, by decide +kernel, by decide +kernel, ?_, by decide +kernel,
    by decide, ⟨1, 1, 1, by decide +kernel, by decide +kernel⟩, ⟨3, by decide +kernel⟩, by decide +kernel, ?_⟩
  · intro n hn
    have : exDangling.os.fs.get (exEnvE.exclDir ++ [exEnvE.id]) = none := by decide +kernel
    rw [this] at hn; cases hn
  · intro a ha
    rcases List.prefix_cons_iff.1 ha with rfl | ⟨t, rfl, ht⟩
    · right; decide +kernel
    · rw [List.prefix_nil.1 ht]; left; decide +kernel

/-- Three syncs, the first of which is killed at once. -/
example : (sync exEnvE ((syncs exEnvE [1, 500] exDangling).restart 1000)).2.os.fs.get ["r".toList, "a".toList] = none :=
  ((C63_dangling_fails [1, 500] exDangling_dangling 1000).2.1 _ (by decide +kernel)).trans (by decide +kernel)

/-- If every local entry that the patterns match can be followed, or is a link into what is now a file, the patterns
match what is excluded: it does not matter what has been deleted from the remote directory. -/
theorem C63_matches_partial {env : Env} {fs : FS} (wf : fs.WF) {c : Nat} {m : Int} {b : Nat}
    (he : fs.get env.excl = some (.file c m b))
    (hs : ∀ p n, fs.get (env.loc ++ p) = some n → OwnMatch env fs p →
      (∃ r, fs.stat (env.loc ++ p) = .ok r) ∨ fs.stat (env.loc ++ p) = .error .notDir) :
    ∃ l, globMatches fs env.loc (env.patsOf c) = .ok l ∧ ∀ p, p ∈ l ↔ OwnExcludes env fs p := by
  refine ⟨allMatches (env.patsOf c) ((fs.below env.loc).map Prod.fst), ?_, ?_⟩
  · unfold globMatches
    rw [List.findSome?_eq_none_iff.2]
    intro p hp
    obtain ⟨_, n, hn⟩ := (mem_keys_below wf).1 hp
    split
    · rename_i hm
      rcases hs p n hn ⟨c, m, b, he, hm⟩ with ⟨r, hr⟩ | hr
      · rw [hr]
      · rw [hr]; rfl
    · rfl
  · intro p
    rw [mem_allMatches_fs wf]
    unfold OwnExcludes
    rw [FS.stat_nonlink (wf.pathErr he) he rfl]
    constructor
    · intro h; exact ⟨_, c, m, b, rfl, h⟩
    · rintro ⟨q', k', m', b', h1, h2⟩; cases h1; exact h2

/-- The same with the remote file: the link can be followed, and the sync succeeds. -/
example : (sync exEnvE (exWorld exEnvE
    [(["l".toList, "e".toList], .link "/r/e".toList 3), (["l".toList, "a".toList], .file 9 45 1),
      (["r".toList, "e".toList], .file 8 3 1)]
    [exRow ["e".toList] false 1 false] [exRRow ["e".toList] false] 1000)).1 = .ok () := by decide +kernel

/-- A link into what is now a file: the error is caught. -/
example : (sync exEnvE (exWorld exEnvE
    [(["l".toList, "e".toList], .link "/r/d/e".toList 3), (["l".toList, "a".toList], .file 9 45 1),
      (["r".toList, "d".toList], .file 8 45 1)] [] [] 1000)).1 = .ok () := by decide +kernel

end Verif
