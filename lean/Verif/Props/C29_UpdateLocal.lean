import Verif.UpdateLocal
import Verif.ExampleWorlds
import Verif.ExampleTools
/-
C29: after update_local every remote file is reachable locally.

What the theorems assume beyond the claim (`UpdReady`): neither directory is in the other, both exist, the remote
database says of each path correctly whether it is a directory, no file is above a retained path, and where the
local directory has something at a path that is to be copied it is clean in the sense of C27 (a regular file, a
directory over a directory, the link to the remote file or a link over a link).
-/
namespace Verif
open Prog OSM Call FSTools WM

variable {env : Env} {w : World} {ps : List Path}

/-- C29: what is at or below a retained path is a copy of the remote file. -/
theorem C29_copied_partial (h : UpdReady env w (setOf ps)) {w' : World} (hr : updateLocal env ps w = (.ok (), w'))
    {f p : Path} (hf : f ∈ ps) (hp : f <+: p) (hp0 : p ≠ []) {n : Node}
    (hn : w.os.fs.get (env.rem ++ p) = some n) (hd : n.isDir = false) :
    w'.os.fs.get (env.loc ++ p) = some n :=
  (wp_ok (wp_updateLocal h) hr).2.1.copied p n ⟨⟨n, hn⟩, hp0, f, mem_setOf.2 hf, hp⟩ hn hd

/-- C29: any other file of the remote database is what it was locally, or a link to the remote file. -/
theorem C29_linked_partial (h : UpdReady env w (setOf ps)) {w' : World} (hr : updateLocal env ps w = (.ok (), w'))
    {e : Entry Int} (he : e ∈ w.rdb) (hd : e.directory = false) (hx : ∀ f ∈ ps, ¬ f <+: e.path) :
    (∃ n, w.os.fs.get (env.loc ++ e.path) = some n ∧ w'.os.fs.get (env.loc ++ e.path) = some n) ∨
    ∃ t m, w'.os.fs.get (env.loc ++ e.path) = some (.link t m) ∧ FS.linkDest (env.loc ++ e.path) t = env.rem ++ e.path := by
  rcases (wp_ok (wp_updateLocal h) hr).2.1.files e he hd
    (fun ⟨_, _, f, hf, hpre⟩ => hx f (mem_setOf.1 hf) hpre) with h1 | ⟨m, h1⟩
  · exact Or.inl h1
  · refine Or.inr ⟨_, m, h1, FS.linkDest_abs (goodPath_append.2 ⟨?_, (h.rows e he).2.1⟩) _⟩
    obtain ⟨m, b, h2⟩ := FS.isDir_iff.1 h.rem_dir
    exact h.wf.goodPath h2

/-- C29: a directory of the remote database is a directory, unless something else was in its place. -/
theorem C29_dirs_partial (h : UpdReady env w (setOf ps)) {w' : World} (hr : updateLocal env ps w = (.ok (), w'))
    {e : Entry Int} (he : e ∈ w.rdb) (hd : e.directory = true)
    (hl : ∀ n, w.os.fs.get (env.loc ++ e.path) = some n → n.isDir = true) :
    w'.os.fs.isDir (env.loc ++ e.path) = true :=
  (wp_ok (wp_updateLocal h) hr).2.1.dirs e he hd hl

/-- C29: every path of the remote database is there. -/
theorem C29_present_partial (h : UpdReady env w (setOf ps)) {w' : World} (hr : updateLocal env ps w = (.ok (), w'))
    {p : Path} (hp : p ∈ ADB.paths w.rdb) : ∃ n, w'.os.fs.get (env.loc ++ p) = some n := by
  obtain ⟨e, he, rfl⟩ := List.mem_map.1 hp
  exact (wp_ok (wp_updateLocal h) hr).2.1.present e he

/-- C29: the space of a known regular file that is not retained is freed: the file is gone, and if the remote database
has it a link to the remote file has taken its place. -/
theorem C29_freed_partial (h : UpdReady env w (setOf ps)) {w' : World} (hr : updateLocal env ps w = (.ok (), w'))
    (hlm : w.lmemo = []) (hm : w.matches_ = none) {p : Path} (hp : p ∈ ADB.paths w.db) {c : Nat} {m : Int} {b : Nat}
    (hn : w.os.fs.get (env.loc ++ p) = some (.file c m b)) (hx : ¬ OwnExcludes env w.os.fs p)
    (hret : ∀ q ∈ ADB.paths w.db, p <+: q → ∀ f ∈ ps, ¬ f <+: q) :
    w'.os.fs.get (env.loc ++ p) ≠ some (.file c m b) ∧
    ∀ e ∈ w.rdb, e.path = p → e.directory = false →
      ∃ t m, w'.os.fs.get (env.loc ++ p) = some (.link t m) ∧ FS.linkDest (env.loc ++ p) t = env.rem ++ p := by
  have hnr : ∀ f ∈ ps, ¬ f <+: p := hret p hp (List.prefix_refl _)
  have hst : StalePath env w (setOf ps) p := by
    refine ⟨Or.inr ⟨hlm, h.known p hp, _, hn⟩, ?_, hp, ?_, ?_⟩
    · rintro (⟨l, h1, _⟩ | ⟨_, h1⟩)
      · rw [hm] at h1; cases h1
      · exact hx h1
    · rintro ⟨f, hf, hpre⟩; exact hnr f (mem_setOf.1 hf) hpre
    · rintro ⟨q, hq, hpq, f, hf, hpre⟩; exact hret q hq hpq f (mem_setOf.1 hf) hpre
  have hfr := (wp_ok (wp_updateLocal h) hr).2.1.freed p c m b hst hn
    (fun ⟨_, _, f, hf, hpre⟩ => hnr f (mem_setOf.1 hf) hpre)
  refine ⟨hfr, ?_⟩
  rintro e he rfl hd
  rcases C29_linked_partial h hr he hd hnr with ⟨n, h1, h2⟩ | h1
  · rw [hn] at h1; cases h1; exact absurd h2 hfr
  · exact h1

/-- C29: a directory of which the profile knows everything and retains nothing is removed with all that is in it, if the
remote directory does not have it any more. -/
theorem C29_emptied_partial (h : UpdReady env w (setOf ps)) {w' : World} (hr : updateLocal env ps w = (.ok (), w'))
    (hlm : w.lmemo = []) (hm : w.matches_ = none) {p : Path} (hp0 : p ≠ [])
    (hall : ∀ q n, p <+: q → w.os.fs.get (env.loc ++ q) = some n →
      q ∈ ADB.paths w.db ∧ ¬ OwnExcludes env w.os.fs q ∧ n.isLink = false)
    (hret : ∀ q, p <+: q → ∀ f ∈ ps, ¬ f <+: q) (hrem : ∀ q, p <+: q → w.os.fs.get (env.rem ++ q) = none)
    (hrow : p ∉ ADB.paths w.rdb) : w'.os.fs.get (env.loc ++ p) = none := by
  refine (wp_ok (wp_updateLocal h) hr).2.1.emptied p ?_ hrow ?_
  · intro q n hq hn
    obtain ⟨h1, h2, h3⟩ := hall q n hq hn
    refine ⟨⟨Or.inr ⟨hlm, h.known q h1, _, hn⟩, ?_, h1, ?_, ?_⟩, h3⟩
    · rintro (⟨l, h4, _⟩ | ⟨_, h4⟩)
      · rw [hm] at h4; cases h4
      · exact h2 h4
    · rintro ⟨f, hf, hpre⟩; exact hret q hq f (mem_setOf.1 hf) hpre
    · rintro ⟨q', _, hqq, f, hf, hpre⟩; exact hret q' (hq.trans hqq) f (mem_setOf.1 hf) hpre
  · rintro q ⟨⟨n, hn⟩, _⟩ hpq
    rw [hrem q hpq] at hn; cases hn

/-- C29: however it ends, nothing outside the local directory changes. -/
theorem C29_outside_partial (h : UpdReady env w (setOf ps)) {q : Path} (hq : ¬ env.loc <+: q) :
    (updateLocal env ps w).2.os.fs.get q = w.os.fs.get q :=
  wp_state (I := fun w' : World => w'.os.fs.get q = w.os.fs.get q)
    (wp_mono (wp_updateLocal h) (fun _ _ h1 => h1.1.out q (fun h2 => hq h2.1)) (fun _ _ h1 => h1.out q (fun h2 => hq h2.1)))

/-- C29: however it ends, a local path that the profile does not know, or excludes, and that is not at or below a retained
path of the remote directory, is what it was. -/
theorem C29_kept_partial (h : UpdReady env w (setOf ps)) (hm : w.matches_ = none) {p : Path} {n : Node}
    (hn : w.os.fs.get (env.loc ++ p) = some n) (hk : p ∉ ADB.paths w.db ∨ OwnExcludes env w.os.fs p)
    (hx : w.os.fs.get (env.rem ++ p) = none ∨ ∀ f ∈ ps, ¬ f <+: p) :
    (updateLocal env ps w).2.os.fs.get (env.loc ++ p) = some n := by
  have key : ∀ fs', UpdKept env w (setOf ps) fs' → fs'.get (env.loc ++ p) = some n := by
    intro fs' h1
    rcases h1.loc p n hn with h2 | ⟨h2, _⟩ | ⟨⟨⟨n', h2⟩, _, f, hf, hpre⟩, _⟩
    · exact h2
    · rcases hk with hk | hk
      · exact absurd h2.2.2.1 hk
      · exact absurd (Or.inr ⟨hm, hk⟩) h2.2.1
    · rcases hx with hx | hx
      · rw [hx] at h2; cases h2
      · exact absurd hpre (hx f (mem_setOf.1 hf))
  exact wp_state (I := fun w' : World => w'.os.fs.get (env.loc ++ p) = some n)
    (wp_mono (wp_updateLocal h) (fun _ _ h1 => key _ h1.1) (fun _ _ h1 => key _ h1))

/-! ### Examples -/

/-- `d/a` is stale, `b` is retained and is a link, `k` is new in the remote directory, `u` is unknown. -/
def exUpdFS : FS := exBase exEnvE ++
  [(["l".toList, "d".toList], .dir 3 8), (["l".toList, "d".toList, "a".toList], .file 7 3 1),
    (["l".toList, "b".toList], .link "/r/b".toList 4), (["l".toList, "u".toList], .file 5 45 1),
    (["r".toList, "d".toList], .dir 3 8), (["r".toList, "d".toList, "a".toList], .file 7 3 1),
    (["r".toList, "b".toList], .file 9 4 1), (["r".toList, "k".toList], .file 6 4 1)]

def exUpd (fuel : Nat) : World := { exWorld exEnvE []
  [exRow ["d".toList] true 1 true, exRow ["d".toList, "a".toList] false 1 true, exRow ["b".toList] false 1 false,
    exRow ["k".toList] false 1 true]
  [exRRow ["d".toList] true, exRRow ["d".toList, "a".toList] false, exRRow ["b".toList] false,
    exRRow ["k".toList] false] fuel with
  os := ⟨exUpdFS, fuel, 0, fun n => n + 50⟩ }

theorem exUpd_ready (fuel : Nat) : UpdReady exEnvE (exUpd fuel) (setOf [["b".toList]]) where
  wf := (⟨by decide +kernel, by decide +kernel, by decide +kernel, by decide +kernel⟩ : exUpdFS.WF)
  apart := by unfold Apart; decide +kernel
  order l := List.Perm.refl l
  loc_dir := (by decide +kernel : exUpdFS.isDir exEnvE.loc = true)
  rem_dir := (by decide +kernel : exUpdFS.isDir exEnvE.rem = true)
  sel f hf := by
    have hf : f = ["b".toList] := by simpa using mem_setOf.1 hf
    subst hf
    intro q n h1 h2 hg
    have h3 : q ∈ (List.range (["b".toList] : Path).length).map (["b".toList] : Path).take := FS.mem_takes.2 ⟨h1, h2⟩
    have h4 : ∀ q ∈ (List.range (["b".toList] : Path).length).map (["b".toList] : Path).take,
      exUpdFS.isDir (exEnvE.rem ++ q) = true := by decide +kernel
    have h5 : exUpdFS.get (exEnvE.rem ++ q) = some n := hg
    rw [← isDir_iff_false h5]; exact h4 q h3
  known p hp := by
    have hp : p ∈ [["d".toList], ["d".toList, "a".toList], ["b".toList], ["k".toList]] := hp
    have h : ∀ p ∈ ([["d".toList], ["d".toList, "a".toList], ["b".toList], ["k".toList]] : List Path), p ≠ [] := by
      decide +kernel
    exact h p hp
  nodup := by
    show ([["d".toList], ["d".toList, "a".toList], ["b".toList], ["k".toList]] : List Path).Nodup
    decide +kernel
  rows e he := by
    have h : ∀ e ∈ (exUpd 0).rdb, e.path ≠ [] ∧ GoodPath e.path ∧
      ∀ n ∈ exUpdFS.get (exEnvE.rem ++ e.path), n.isDir = e.directory := by decide +kernel
    exact h e he
  clean p hp q hq := by
    have wf : exUpdFS.WF := ⟨by decide +kernel, by decide +kernel, by decide +kernel, by decide +kernel⟩
    obtain ⟨n, hn, _⟩ := Listed.some wf hp hq
    exact clean_of_allClean (by decide +kernel : allClean exUpdFS exEnvE.rem exEnvE.loc = true) (by decide +kernel) hn

/-- The whole update. -/
example : (updateLocal exEnvE [["b".toList]] (exUpd 100)).1 = .ok () ∧
    (updateLocal exEnvE [["b".toList]] (exUpd 100)).2.os.fs.get ["l".toList, "b".toList] = some (.file 9 4 1) ∧
    (∃ m, (updateLocal exEnvE [["b".toList]] (exUpd 100)).2.os.fs.get ["l".toList, "d".toList, "a".toList] =
      some (.link "/r/d/a".toList m)) ∧
    (∃ m, (updateLocal exEnvE [["b".toList]] (exUpd 100)).2.os.fs.get ["l".toList, "k".toList] =
      some (.link "/r/k".toList m)) ∧
    (updateLocal exEnvE [["b".toList]] (exUpd 100)).2.os.fs.get ["l".toList, "u".toList] = some (.file 5 45 1) :=
  ⟨by decide +kernel, by decide +kernel, ⟨57, by decide +kernel⟩, ⟨56, by decide +kernel⟩, by decide +kernel⟩

/-- The hypotheses of `C29_freed_partial`. -/
example (fuel : Nat) : (exUpd fuel).lmemo = [] ∧ (exUpd fuel).matches_ = none ∧
    ["d".toList, "a".toList] ∈ ADB.paths (exUpd fuel).db ∧
    (exUpd fuel).os.fs.get (exEnvE.loc ++ ["d".toList, "a".toList]) = some (.file 7 3 1) ∧
    (∀ q ∈ ADB.paths (exUpd fuel).db, ["d".toList, "a".toList] <+: q → ∀ f ∈ ([["b".toList]] : List Path), ¬ f <+: q) := by
  refine ⟨rfl, rfl, ?_, ?_, ?_⟩
  · show _ ∈ [["d".toList], ["d".toList, "a".toList], ["b".toList], ["k".toList]]; simp
  · exact (by decide +kernel : exUpdFS.get (exEnvE.loc ++ ["d".toList, "a".toList]) = some (.file 7 3 1))
  · show ∀ q ∈ ([["d".toList], ["d".toList, "a".toList], ["b".toList], ["k".toList]] : List Path), _
    decide +kernel

example (fuel : Nat) : ¬ OwnExcludes exEnvE (exUpd fuel).os.fs ["d".toList, "a".toList] := by
  rintro ⟨q, k, m, b, h1, h2⟩
  have wf : exUpdFS.WF := ⟨by decide +kernel, by decide +kernel, by decide +kernel, by decide +kernel⟩
  have h3 : exUpdFS.stat exEnvE.excl = .ok (["x".toList], .file 1 1 1) := by decide +kernel
  have h1 : exUpdFS.stat exEnvE.excl = _ := h1
  rw [h3] at h1
  cases h1
  have h4 := (mem_allMatches_fs wf).2 h2
  revert h4
  decide +kernel

/-- The hypotheses of `C29_kept_partial`. -/
example (fuel : Nat) : ["u".toList] ∉ ADB.paths (exUpd fuel).db := by
  show _ ∉ [["d".toList], ["d".toList, "a".toList], ["b".toList], ["k".toList]]
  decide +kernel

/-- The remote directory does not have `d` any more. -/
def exUpdGone : World := exWorld exEnvE
  [(["l".toList, "d".toList], .dir 3 8), (["l".toList, "d".toList, "g".toList], .dir 3 8),
    (["l".toList, "d".toList, "g".toList, "a".toList], .file 7 3 1), (["r".toList, "b".toList], .file 9 4 1)]
  [exRow ["b".toList] false 1 true, exRow ["d".toList] true 1 true, exRow ["d".toList, "g".toList] true 1 true,
    exRow ["d".toList, "g".toList, "a".toList] false 1 true] [exRRow ["b".toList] false] 100

theorem exUpdGone_ready : UpdReady exEnvE exUpdGone (setOf []) where
  wf := (⟨by decide +kernel, by decide +kernel, by decide +kernel, by decide +kernel⟩ : exUpdGone.os.fs.WF)
  apart := by unfold Apart; decide +kernel
  order l := List.Perm.refl l
  loc_dir := by decide +kernel
  rem_dir := by decide +kernel
  sel f hf := by cases hf
  known := by decide +kernel
  nodup := by decide +kernel
  rows e he := by
    have h : ∀ e ∈ exUpdGone.rdb, e.path ≠ [] ∧ GoodPath e.path ∧
      ∀ n ∈ exUpdGone.os.fs.get (exEnvE.rem ++ e.path), n.isDir = e.directory := by decide +kernel
    exact h e he
  clean := by rintro p ⟨_, _, f, hf, _⟩; cases hf

/-- `d` is removed. -/
example : ((updateLocal exEnvE [] exUpdGone).2).os.fs.get (exEnvE.loc ++ ["d".toList]) = none := by
  have hok : (updateLocal exEnvE [] exUpdGone).1 = .ok () := by decide +kernel
  have wf : exUpdGone.os.fs.WF := exUpdGone_ready.wf
  have h1 : updateLocal exEnvE [] exUpdGone = (.ok (), (updateLocal exEnvE [] exUpdGone).2) := by rw [← hok]
  have hb : ∀ x ∈ exUpdGone.os.fs.below exEnvE.loc, x.1 ∈ ADB.paths exUpdGone.db ∧ x.2.isLink = false ∧
      x.1 ∉ allMatches (exEnvE.patsOf 1) (Scan.keys (exUpdGone.os.fs.below exEnvE.loc)) := by decide +kernel
  have hr : ∀ x ∈ exUpdGone.os.fs.below exEnvE.rem, ¬ ["d".toList] <+: x.1 := by decide +kernel
  have h3 : exUpdGone.os.fs.stat exEnvE.excl = .ok (["x".toList], .file 1 1 1) := by decide +kernel
  refine C29_emptied_partial exUpdGone_ready h1 rfl rfl (by decide) ?_ (fun _ _ f hf => by cases hf) ?_ (by decide +kernel)
  · intro q n hq hn
    have hq0 : q ≠ [] := by rintro rfl; exact absurd (List.prefix_nil.1 hq) (by decide)
    obtain ⟨h4, h5, h6⟩ := hb (q, n) (wf.mem_below_iff.2 ⟨hn, hq0⟩)
    refine ⟨h4, ?_, h5⟩
    rintro ⟨q', k, m, b, h7, h8⟩
    rw [h3] at h7
    cases h7
    exact h6 ((mem_allMatches_fs wf).2 h8)
  · intro q hq
    have hq0 : q ≠ [] := by rintro rfl; exact absurd (List.prefix_nil.1 hq) (by decide)
    rcases Option.eq_none_or_eq_some (exUpdGone.os.fs.get (exEnvE.rem ++ q)) with h | ⟨n, h⟩
    · exact h
    · exact absurd hq (hr (q, n) (wf.mem_below_iff.2 ⟨h, hq0⟩))

/-- The local `a`, which the profile does not know, is a link to the local `b`; a file `a` has appeared in the remote
directory and is retained. -/
def exUpdLink : World := exWorld exEnvE
  [(["l".toList, "a".toList], .link "b".toList 45), (["l".toList, "b".toList], .file 9 4 1),
    (["r".toList, "a".toList], .file 7 3 1), (["r".toList, "b".toList], .file 9 4 1)]
  [exRow ["b".toList] false 1 true] [exRRow ["a".toList] false, exRRow ["b".toList] false] 100

/-- C29 in full is false: the remote `a` is copied through the local link `a` and the link that has just replaced `b`
over the remote `b`. The retained path is not a regular copy, and the content of `b` is in no file any more. -/
theorem C29_link_fails :
    (updateLocal exEnvE [["a".toList]] exUpdLink).1 = .ok () ∧
    (updateLocal exEnvE [["a".toList]] exUpdLink).2.os.fs.get ["l".toList, "a".toList] = some (.link "b".toList 45) ∧
    (∀ e ∈ (updateLocal exEnvE [["a".toList]] exUpdLink).2.os.fs, ∀ m b, e.2 ≠ .file 9 m b) := by
  refine ⟨by decide +kernel, by decide +kernel, ?_⟩
  have h : (updateLocal exEnvE [["a".toList]] exUpdLink).2.os.fs.all
      (fun e => match e.2 with | .file c _ _ => c != 9 | _ => true) = true := by decide +kernel
  intro e he m b hc
  have := List.all_eq_true.1 h e he
  rw [hc] at this
  simp at this

end Verif
