import Verif.SyncSpace
import Verif.SyncResult
import Verif.ExampleSync
import Verif.ExampleOrderly
import Verif.Props.SyncEffects
/-
C77: after a sync the local directory does not take more space than the storage limit.
-/
namespace Verif
open Prog OSM Call FSTools WM

/-- C77: after a sync without an error the regular files in the local directory, excluded or not, and the links to
remote files together take at most the space that the profile allows, if one of these files is not excluded. `F` is
any list of such files and `K` any list of such links, so the claim holds for all of them together. Missing: a conflict
in which the local version is the older one, and excluded files that the remote directory has. There it is wrong. -/
theorem C77_partial {env : Env} {w : World} (r : SyncReady env w) (c : Calm env w) (h : (sync env w).1 = .ok ())
    (hc : ∀ p a b, ChangedLocally env w p → ChangedRemotely env w p → w.os.fs.get (env.loc ++ p) = some a →
      w.os.fs.get (env.rem ++ p) = some b → a.isDir = false → ¬ a.mtime < b.mtime)
    (hx : ∀ p, OwnExcludes env w.os.fs p → p ∉ ADB.paths w.db ∧ w.os.fs.get (env.rem ++ p) = none)
    {F K : List Path} (hF : F.Nodup) (hK : K.Nodup)
    (hFl : ∀ p ∈ F, p ≠ [] ∧ ∃ k m b, (sync env w).2.os.fs.get (env.loc ++ p) = some (.file k m b))
    (hKl : ∀ p ∈ K, UserPath p ∧ (∃ k m b, (sync env w).2.os.fs.get (env.rem ++ p) = some (.file k m b)) ∧
      ∃ t m, (sync env w).2.os.fs.get (env.loc ++ p) = some (.link t m))
    (hne : ∃ p ∈ F, ¬ OwnExcludes env w.os.fs p) :
    (usedIn (sync env w).2.os.fs env.loc F + K.length * env.symlinkSize : Int) ≤ env.storageLimit := by
  have h1 : sync env w = (.ok (), (sync env w).2) := by rw [← h]
  exact space_of_done_all r c (wp_ok (wp_sync r) h1).2 hc hx hF hK hFl hKl hne

/-- C77: an excluded file that is not in the remote directory and not known is after a sync what it was, if it is there. -/
theorem C77_excluded_partial {env : Env} {w : World} (r : SyncReady env w) (c : Calm env w) (h : (sync env w).1 = .ok ())
    (hc : ∀ p a b, ChangedLocally env w p → ChangedRemotely env w p → w.os.fs.get (env.loc ++ p) = some a →
      w.os.fs.get (env.rem ++ p) = some b → a.isDir = false → ¬ a.mtime < b.mtime)
    (hx : ∀ p, OwnExcludes env w.os.fs p → p ∉ ADB.paths w.db ∧ w.os.fs.get (env.rem ++ p) = none)
    {p : Path} (ho : OwnExcludes env w.os.fs p) {n : Node} (hd : n.isDir = false)
    (hn : (sync env w).2.os.fs.get (env.loc ++ p) = some n) : w.os.fs.get (env.loc ++ p) = some n := by
  have h1 : sync env w = (.ok (), (sync env w).2) := by rw [← h]
  obtain ⟨del, new, mod, w1, w2, upd, w3, cp, DL, DR, l, w4, sel, rex, w5, w6, S, T, D⟩ := (wp_ok (wp_sync r) h1).2
  exact S.excluded_kept r c T D hc hx ho hd hn

/-- There are 2000 bytes of space, and a link takes 100. -/
def exEnvS : Env := { exEnvE with storageLimit := 2000, symlinkSize := 100 }

/-- `a` has been changed and takes two blocks, `b` takes four, `c` is a link, `e` is excluded. -/
def exSpace : World := exWorld exEnvS
  [(["l".toList, "a".toList], .file 7 45 2), (["r".toList, "a".toList], .file 6 3 3),
    (["l".toList, "b".toList], .file 9 3 4), (["r".toList, "b".toList], .file 9 3 4),
    (["l".toList, "c".toList], .link "/r/c".toList 3), (["r".toList, "c".toList], .file 12 4 1),
    (["l".toList, "e".toList], .file 14 45 1)]
  [exRow ["a".toList] false 2 true, exRow ["b".toList] false 1 true, exRow ["c".toList] false 1 false]
  [exRRow ["a".toList] false, exRRow ["b".toList] false, exRRow ["c".toList] false] 1000

theorem exEnvS_not_excluded {fs : FS} (hf : fs.stat ["x".toList] = .ok (["x".toList], .file 1 1 1)) {p : Path}
    (hp : p.all (fun c => decide (c ≠ "e".toList)) = true) : ¬ OwnExcludes exEnvS fs p := by
  rintro ⟨q, k, m, b, h1, h2, _, x, h3, h4, g, h5, h6⟩
  rw [show exEnvS.excl = ["x".toList] by rfl, hf] at h1
  cases h1
  rw [show exEnvS.patsOf 1 = [fun p => decide (p.getLastD [] = "e".toList)] by rfl, List.mem_singleton] at h5
  subst h5
  rw [decide_eq_true_eq] at h6
  have h7 : x.getLastD [] ∈ p := by
    refine h4.subset ?_
    cases x with
    | nil => exact absurd rfl h3
    | cons a x => rw [List.getLastD_cons, ← List.getLast_eq_getLastD]; exact List.getLast_mem (by simp)
  exact absurd h6 (of_decide_eq_true (List.all_eq_true.1 hp _ h7))

theorem exSpace_ready : SyncReady exEnvS exSpace :=
  syncReady_of_readyB (by decide +kernel) (fun _ => List.Perm.refl _) (by unfold Apart; decide +kernel)
    (fun _ => by show GoodStamp "19700101-000000".toList; decide +kernel) rfl

theorem exSpace_calm : Calm exEnvS exSpace :=
  calm_of_calmB (clear := fun p => p.all (fun c => decide (c ≠ "e".toList))) (by simp [exEnvS, exEnvE])
    (fun _ h => exEnvS_not_excluded (by decide +kernel) h) (by decide +kernel)

theorem exSpace_excluded : ∀ p, OwnExcludes exEnvS exSpace.os.fs p →
    p ∉ ADB.paths exSpace.db ∧ exSpace.os.fs.get (exEnvS.rem ++ p) = none := by
  intro p ho
  obtain ⟨h0, n, h1⟩ := ownExcludes_exists ho
  have h2 := mem_localEntries (env := exEnvS) (by decide) h1
  have h3 : ∀ x ∈ localEntries exEnvS exSpace.os.fs, x.1.all (fun c => decide (c ≠ "e".toList)) = true ∨
      x.1 ∉ ADB.paths exSpace.db ∧ exSpace.os.fs.get (exEnvS.rem ++ x.1) = none := by decide +kernel
  rcases h3 _ h2 with h4 | h4
  · exact absurd ho (exEnvS_not_excluded (by decide +kernel) h4)
  · exact h4

theorem exSpace_older : ∀ p a b, ChangedLocally exEnvS exSpace p → ChangedRemotely exEnvS exSpace p →
    exSpace.os.fs.get (exEnvS.loc ++ p) = some a → exSpace.os.fs.get (exEnvS.rem ++ p) = some b → a.isDir = false →
    ¬ a.mtime < b.mtime := by
  intro p a b _ h
  have h1 : chR exEnvS exSpace = [] := by decide +kernel
  have := mem_chR (by decide) h
  rw [h1] at this; cases this

theorem exSpace_sync : (sync exEnvS exSpace).1 = .ok () ∧
    (sync exEnvS exSpace).2.os.fs.get (exEnvS.loc ++ ["a".toList]) = some (.file 7 45 2) ∧
    (sync exEnvS exSpace).2.os.fs.get (exEnvS.loc ++ ["e".toList]) = some (.file 14 45 1) ∧
    (sync exEnvS exSpace).2.os.fs.get (exEnvS.rem ++ ["b".toList]) = some (.file 9 3 4) ∧
    (sync exEnvS exSpace).2.os.fs.get (exEnvS.rem ++ ["c".toList]) = some (.file 12 4 1) ∧
    ((sync exEnvS exSpace).2.os.fs.get (exEnvS.loc ++ ["b".toList])).any Node.isLink = true ∧
    ((sync exEnvS exSpace).2.os.fs.get (exEnvS.loc ++ ["c".toList])).any Node.isLink = true := by decide +kernel

theorem link_of_any {o : Option Node} (h : o.any Node.isLink = true) : ∃ t m, o = some (.link t m) := by
  cases o with
  | none => cases h
  | some n =>
    cases n with
    | link t m => exact ⟨t, m, rfl⟩
    | _ => cases h

theorem exSpace_files : ∀ p ∈ [["a".toList], ["e".toList]],
    p ≠ [] ∧ ∃ k m b, (sync exEnvS exSpace).2.os.fs.get (exEnvS.loc ++ p) = some (.file k m b) := by
  obtain ⟨h0, ha, he, hb, hc, lb, lc⟩ := exSpace_sync
  generalize (sync exEnvS exSpace).2 = w at *
  intro p hp
  rcases List.mem_cons.1 hp with rfl | hp
  · exact ⟨by decide, _, _, _, ha⟩
  · rw [List.mem_singleton] at hp
    subst hp
    exact ⟨by decide, _, _, _, he⟩

theorem exSpace_links : ∀ p ∈ [["b".toList], ["c".toList]],
    UserPath p ∧ (∃ k m b, (sync exEnvS exSpace).2.os.fs.get (exEnvS.rem ++ p) = some (.file k m b)) ∧
      ∃ t m, (sync exEnvS exSpace).2.os.fs.get (exEnvS.loc ++ p) = some (.link t m) := by
  obtain ⟨h0, ha, he, hb, hc, lb, lc⟩ := exSpace_sync
  generalize (sync exEnvS exSpace).2 = w at *
  intro p hp
  rcases List.mem_cons.1 hp with rfl | hp
  · exact ⟨by decide, ⟨_, _, _, hb⟩, link_of_any lb⟩
  · rw [List.mem_singleton] at hp
    subst hp
    exact ⟨by decide, ⟨_, _, _, hc⟩, link_of_any lc⟩

/-- `b` does not fit and becomes a link. `a`, the excluded `e` and the links to `b` and `c` take 1736 bytes. -/
theorem exSpace_limit : (usedIn (sync exEnvS exSpace).2.os.fs exEnvS.loc [["a".toList], ["e".toList]] +
    [["b".toList], ["c".toList]].length * exEnvS.symlinkSize : Int) ≤ exEnvS.storageLimit :=
  C77_partial (env := exEnvS) (w := exSpace) (F := [["a".toList], ["e".toList]]) (K := [["b".toList], ["c".toList]])
    exSpace_ready exSpace_calm exSpace_sync.1 exSpace_older exSpace_excluded (by decide) (by decide)
    exSpace_files exSpace_links
    ⟨["a".toList], List.mem_cons_self, exEnvS_not_excluded (by decide +kernel) (by decide)⟩

/-- `a` fits. `e` has been excluded since the last sync, and the local directory has only a link to the remote `e`. -/
def exSpaceX : World := exWorld exEnvS
  [(["l".toList, "a".toList], .file 7 3 3), (["r".toList, "a".toList], .file 7 3 3),
    (["l".toList, "e".toList], .link "/r/e".toList 3), (["r".toList, "e".toList], .file 12 4 4)]
  [exRow ["a".toList] false 2 true, exRow ["e".toList] false 1 false]
  [exRRow ["a".toList] false, exRRow ["e".toList] false] 1000

/-- The local version of `a` is older than the remote one, and both have been changed. -/
def exSpaceC : World := exWorld exEnvS
  [(["l".toList, "a".toList], .file 7 44 4), (["r".toList, "a".toList], .file 6 46 3)]
  [exRow ["a".toList] false 2 true] [⟨["a".toList], false, 46⟩] 1000

theorem exSpaceX_ready : SyncReady exEnvS exSpaceX :=
  syncReady_of_readyB (by decide +kernel) (fun _ => List.Perm.refl _) (by unfold Apart; decide +kernel)
    (fun _ => by show GoodStamp "19700101-000000".toList; decide +kernel) rfl

theorem exSpaceC_ready : SyncReady exEnvS exSpaceC :=
  syncReady_of_readyB (by decide +kernel) (fun _ => List.Perm.refl _) (by unfold Apart; decide +kernel)
    (fun _ => by show GoodStamp "19700101-000000".toList; decide +kernel) rfl

/-- C77 fails for an excluded file that is only a link: the size of the link is counted, but the remote file is
copied. 3584 bytes are taken, and 2000 are allowed. -/
theorem C77_excluded_fails : ∃ (env : Env) (w : World), SyncReady env w ∧ (sync env w).1 = .ok () ∧
    (∃ p, ¬ OwnExcludes env w.os.fs p ∧ ∃ q k m b k' m' b', p ≠ q ∧
      (sync env w).2.os.fs.get (env.loc ++ p) = some (.file k m b) ∧
      (sync env w).2.os.fs.get (env.loc ++ q) = some (.file k' m' b') ∧
      env.storageLimit < ((b + b') * 512 : Nat)) := by
  have h : (sync exEnvS exSpaceX).1 = .ok () ∧
      (sync exEnvS exSpaceX).2.os.fs.get (exEnvS.loc ++ ["a".toList]) = some (.file 7 3 3) ∧
      (sync exEnvS exSpaceX).2.os.fs.get (exEnvS.loc ++ ["e".toList]) = some (.file 12 4 4) := by decide +kernel
  exact ⟨exEnvS, exSpaceX, exSpaceX_ready, h.1, ["a".toList], exEnvS_not_excluded (by decide +kernel) (by decide), ["e".toList],
    7, 3, 3, 12, 4, 4, by decide, h.2.1, h.2.2, by decide⟩

/-- C77 fails after a conflict: the older local version is renamed and stays, although there is no space for it. -/
theorem C77_conflict_fails : ∃ (env : Env) (w : World), SyncReady env w ∧ (sync env w).1 = .ok () ∧
    (∀ p, ¬ OwnExcludes env w.os.fs p) ∧ ∃ p q k m b k' m' b', p ≠ q ∧
      (sync env w).2.os.fs.get (env.loc ++ p) = some (.file k m b) ∧
      (sync env w).2.os.fs.get (env.loc ++ q) = some (.file k' m' b') ∧
      env.storageLimit < ((b + b') * 512 : Nat) := by
  have h : (sync exEnvS exSpaceC).1 = .ok () ∧
      (sync exEnvS exSpaceC).2.os.fs.get (exEnvS.loc ++ ["a".toList]) = some (.file 6 46 3) ∧
      (sync exEnvS exSpaceC).2.os.fs.get (exEnvS.loc ++ ["a_conflict-19700101-000000".toList]) = some (.file 7 44 4) := by
    decide +kernel
  refine ⟨exEnvS, exSpaceC, exSpaceC_ready, h.1, ?_, ["a".toList], ["a_conflict-19700101-000000".toList],
    6, 46, 3, 7, 44, 4, by decide, h.2.1, h.2.2, by decide⟩
  intro p ho
  obtain ⟨h0, n, h1⟩ := ownExcludes_exists ho
  have h2 := mem_localEntries (env := exEnvS) (by decide) h1
  have h3 : ∀ x ∈ localEntries exEnvS exSpaceC.os.fs, x.1.all (fun c => decide (c ≠ "e".toList)) = true := by decide +kernel
  exact exEnvS_not_excluded (by decide +kernel) (h3 _ h2) ho

end Verif
