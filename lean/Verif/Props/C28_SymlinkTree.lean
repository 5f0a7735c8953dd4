import Verif.SymlinkTree
/-
C28: what `symlink_tree` creates, replaces and leaves alone.
-/
namespace Verif
open Prog OSM Call FSTools

/-- C28: without `overwrite`, whatever exists anywhere in the file system is unchanged, however the
call ends (also if the process is killed half-way). -/
theorem C28_existing_kept (src dest : Path) (files dirs : List Path) (s : OS) :
    ∀ q n, s.fs.get q = some n →
      (symlinkTree src dest files dirs false s).2.fs.get q = some n := by
  intro q n hq
  refine wp_state (I := fun s' : OS => s'.fs.get q = some n) ?_
  unfold symlinkTree
  rw [wp_bind]
  refine wp_mono (wp_makedirs dest s) ?_ (fun _ s' h => h.keeps _ _ hq)
  rintro _ s1 ⟨h1, _⟩
  refine wp_linkLoop_inv src dest dirs false _ (fun fs => fs.get q = some n) ?_ ?_ s1 (h1.keeps _ _ hq)
  · intro p _ fs now hi hnone _
    have : q ≠ dest ++ p := by rintro rfl; rw [hnone] at hi; cases hi
    rw [FS.get_set_ne _ this]; exact hi
  · intro h; cases h

/-- C28: directories are never removed or changed, with or without `overwrite`, however the call
ends. -/
theorem C28_directories_kept (src dest : Path) (files dirs : List Path) (ow : Bool) (s : OS) :
    ∀ q m b, s.fs.get q = some (.dir m b) →
      (symlinkTree src dest files dirs ow s).2.fs.get q = some (.dir m b) := by
  intro q m b hq
  refine wp_state (I := fun s' : OS => s'.fs.get q = some (.dir m b)) ?_
  unfold symlinkTree
  rw [wp_bind]
  refine wp_mono (wp_makedirs dest s) ?_ (fun _ s' h => h.keeps _ _ hq)
  rintro _ s1 ⟨h1, _⟩
  refine wp_linkLoop_inv src dest dirs ow _ (fun fs => fs.get q = some (.dir m b)) ?_ ?_ s1
    (h1.keeps _ _ hq)
  · intro p _ fs now hi hnone _
    have : q ≠ dest ++ p := by rintro rfl; rw [hnone] at hi; cases hi
    rw [FS.get_set_ne _ this]; exact hi
  · intro _ p _ _ fs fs' hi h
    obtain ⟨n, _, h2, h3, rfl⟩ := FS.remove_ok h
    have : q ≠ dest ++ p := by
      rintro rfl
      rw [h2] at hi; cases hi; simp [Node.isDir] at h3
    rw [FS.get_rm_ne _ this]; exact hi

theorem symlinkTree_ok {src dest : Path} {files dirs : List Path} {ow : Bool} {s s' : OS}
    {new : List Path} (hd : dirs.Nodup) (hne : ∀ p ∈ files ++ dirs, p ≠ [])
    (h : symlinkTree src dest files dirs ow s = (.ok new, s')) :
    ∃ f1, Grow (fun q => q ≠ [] ∧ q <+: dest) s.fs f1 ∧
      LoopEff src dest dirs ow (DB.sortDepth id (files.foldl (fun acc p => setAdd p acc) dirs)) f1
        new s'.fs := by
  refine wp_ok (m := symlinkTree src dest files dirs ow) (s := s) (E := fun _ _ => True)
    (Q := fun new s' => ∃ f1, Grow (fun q => q ≠ [] ∧ q <+: dest) s.fs f1 ∧
      LoopEff src dest dirs ow (DB.sortDepth id (files.foldl (fun acc p => setAdd p acc) dirs)) f1
        new s'.fs) ?_ h
  unfold symlinkTree
  rw [wp_bind]
  refine wp_mono (wp_makedirs dest s) ?_ (fun _ _ _ => trivial)
  rintro _ s1 ⟨h1, _⟩
  refine wp_mono (wp_linkLoop src dest dirs ow _ (nodup_sortDepth (nodup_foldl_setAdd hd)) ?_ s1) ?_
    (fun _ _ _ => trivial)
  · intro p hp
    refine hne p ?_
    rw [mem_sortDepth, mem_foldl_setAdd] at hp
    rw [List.mem_append]
    exact hp.symm
  · intro l s2 h2
    exact ⟨s1.fs, h1, h2⟩

theorem grow_below {dest p : Path} {fs f1 : FS} (hp : p ≠ [])
    (h : Grow (fun q => q ≠ [] ∧ q <+: dest) fs f1) : f1.get (dest ++ p) = fs.get (dest ++ p) := by
  apply h.get_eq
  rintro ⟨_, hq⟩
  have := hq.length_le
  have h' := List.length_pos_iff.2 hp
  simp at this
  omega

/-- C28: after a successful call without `overwrite`, each listed directory that was missing is a
directory, each listed file that was missing is a link with the absolute path of the source as
its target, the result lists exactly the paths that were missing, and nothing else has
appeared except directories on the way to `dest`. -/
theorem C28_creates {src dest : Path} {files dirs : List Path} {s s' : OS} {new : List Path}
    (hd : dirs.Nodup) (hne : ∀ p ∈ files ++ dirs, p ≠ [])
    (h : symlinkTree src dest files dirs false s = (.ok new, s')) :
    (∀ p ∈ dirs, s.fs.get (dest ++ p) = none → s'.fs.isDir (dest ++ p) = true) ∧
    (∀ p ∈ files, p ∉ dirs → s.fs.get (dest ++ p) = none →
      ∃ m, s'.fs.get (dest ++ p) = some (.link (absStr (src ++ p)) m)) ∧
    (∀ p, p ∈ new ↔ (p ∈ files ∨ p ∈ dirs) ∧ s.fs.get (dest ++ p) = none) ∧
    (∀ q, s.fs.get q = none → s'.fs.get q ≠ none →
      (q <+: dest ∧ s'.fs.isDir q = true) ∨ ∃ p ∈ files ++ dirs, q = dest ++ p) := by
  obtain ⟨f1, hg, hl⟩ := symlinkTree_ok hd hne h
  have hmem : ∀ p, p ∈ DB.sortDepth id (files.foldl (fun acc p => setAdd p acc) dirs) ↔
      p ∈ files ∨ p ∈ dirs := fun p => by rw [mem_sortDepth, mem_foldl_setAdd, or_comm]
  have hnn : ∀ p, p ∈ files ∨ p ∈ dirs → p ≠ [] := fun p hp => hne p (List.mem_append.2 hp)
  refine ⟨?_, ?_, ?_, ?_⟩
  · intro p hp hnone
    rcases hl.at_ p ((hmem p).2 (Or.inr hp)) with ⟨now, h1, _⟩ | ⟨_, h2, _⟩
    · rw [linkNode, if_pos hp] at h1
      exact FS.isDir_iff.2 ⟨_, _, h1⟩
    · rw [grow_below (hnn p (Or.inr hp)) hg, hnone] at h2
      simp at h2
  · intro p hp hpd hnone
    rcases hl.at_ p ((hmem p).2 (Or.inl hp)) with ⟨now, h1, _⟩ | ⟨_, h2, _⟩
    · rw [linkNode, if_neg hpd] at h1
      exact ⟨now, h1⟩
    · rw [grow_below (hnn p (Or.inl hp)) hg, hnone] at h2
      simp at h2
  · intro p
    rw [hl.new p, hmem]
    constructor
    · rintro ⟨h1, h2 | ⟨h2, _⟩⟩
      · rw [grow_below (hnn p h1) hg] at h2
        exact ⟨h1, h2⟩
      · cases h2
    · rintro ⟨h1, h2⟩
      exact ⟨h1, Or.inl (by rw [grow_below (hnn p h1) hg]; exact h2)⟩
  · intro q hq hq'
    by_cases hx : ∃ p ∈ files ++ dirs, q = dest ++ p
    · exact Or.inr hx
    · left
      have hq1 := hl.other q (fun p hp he => hx ⟨p, List.mem_append.2 ((hmem p).1 hp), he⟩)
      rcases hg.new q hq with h1 | ⟨h1, h2⟩
      · rw [hq1] at hq'; exact absurd h1 hq'
      · exact ⟨h1.2, by rw [FS.isDir_congr hq1]; exact h2⟩

/-- C28: after a successful call with `overwrite`, each listed file is a link to its source; it was
missing, a file or a link before; each listed directory that existed is unchanged; the result
lists exactly the links and the directories that were missing; and whatever existed
elsewhere is unchanged. -/
theorem C28_overwrite {src dest : Path} {files dirs : List Path} {s s' : OS} {new : List Path}
    (hd : dirs.Nodup) (hne : ∀ p ∈ files ++ dirs, p ≠ [])
    (h : symlinkTree src dest files dirs true s = (.ok new, s')) :
    (∀ p ∈ files, p ∉ dirs → s.fs.isDir (dest ++ p) = false ∧
      ∃ m, s'.fs.get (dest ++ p) = some (.link (absStr (src ++ p)) m)) ∧
    (∀ p ∈ dirs, (s.fs.get (dest ++ p) = none → s'.fs.isDir (dest ++ p) = true) ∧
      (∀ n, s.fs.get (dest ++ p) = some n → s'.fs.get (dest ++ p) = some n)) ∧
    (∀ p, p ∈ new ↔ (p ∈ files ∧ p ∉ dirs) ∨ (p ∈ dirs ∧ s.fs.get (dest ++ p) = none)) ∧
    (∀ q n, s.fs.get q = some n → (∀ p ∈ files ++ dirs, q ≠ dest ++ p) → s'.fs.get q = some n) := by
  obtain ⟨f1, hg, hl⟩ := symlinkTree_ok hd hne h
  have hmem : ∀ p, p ∈ DB.sortDepth id (files.foldl (fun acc p => setAdd p acc) dirs) ↔
      p ∈ files ∨ p ∈ dirs := fun p => by rw [mem_sortDepth, mem_foldl_setAdd, or_comm]
  have hnn : ∀ p, p ∈ files ∨ p ∈ dirs → p ≠ [] := fun p hp => hne p (List.mem_append.2 hp)
  refine ⟨?_, ?_, ?_, ?_⟩
  · intro p hp hpd
    have he := grow_below (hnn p (Or.inl hp)) hg
    rcases hl.at_ p ((hmem p).2 (Or.inl hp)) with ⟨now, h1, h2⟩ | ⟨_, _, h2⟩
    · rw [linkNode, if_neg hpd] at h1
      rw [he] at h2
      refine ⟨?_, now, h1⟩
      unfold FS.isDir
      rcases h2 with h2 | ⟨_, _, n, h2, h3⟩
      · rw [h2]; rfl
      · rw [h2]; simpa using h3
    · rcases h2 with h2 | h2
      · exact absurd h2 hpd
      · cases h2
  · intro p hp
    have he := grow_below (hnn p (Or.inr hp)) hg
    rcases hl.at_ p ((hmem p).2 (Or.inr hp)) with ⟨now, h1, h2⟩ | ⟨h1, h2, _⟩
    · rw [linkNode, if_pos hp] at h1
      rw [he] at h2
      refine ⟨fun _ => FS.isDir_iff.2 ⟨_, _, h1⟩, ?_⟩
      intro n hn
      rcases h2 with h2 | ⟨_, h2, _⟩
      · rw [h2] at hn; cases hn
      · exact absurd hp h2
    · rw [he] at h1 h2
      refine ⟨?_, ?_⟩
      · intro hn; rw [hn] at h2; simp at h2
      · intro n hn; rw [h1, hn]
  · intro p
    rw [hl.new p, hmem]
    constructor
    · rintro ⟨h1, h2⟩
      by_cases hpd : p ∈ dirs
      · rcases h2 with h2 | ⟨_, h2⟩
        · rw [grow_below (hnn p h1) hg] at h2
          exact Or.inr ⟨hpd, h2⟩
        · exact absurd hpd h2
      · exact Or.inl ⟨h1.resolve_right hpd, hpd⟩
    · rintro (⟨h1, h2⟩ | ⟨h1, h2⟩)
      · exact ⟨Or.inl h1, Or.inr ⟨rfl, h2⟩⟩
      · exact ⟨Or.inr h1, Or.inl (by rw [grow_below (hnn p (Or.inr h1)) hg]; exact h2)⟩
  · intro q n hq hx
    rw [hl.other q (fun p hp => hx p (List.mem_append.2 ((hmem p).1 hp)))]
    exact hg.keeps _ _ hq

/-! ### The hypotheses can be met -/

/-- A destination with a file, a directory and an old link. -/
def exLinkFS : FS :=
  [(["l".toList], .dir 1 8), (["l".toList, "a".toList], .file 7 3 1),
    (["l".toList, "d".toList], .dir 2 8), (["l".toList, "d".toList, "x".toList], .link "/old".toList 2)]

def exLinkFiles : List Path := [["a".toList], ["d".toList, "x".toList], ["e".toList, "y".toList]]
def exLinkDirs : List Path := [["d".toList], ["e".toList]]

def exLink (ow : Bool) : Except Err (List Path) × OS :=
  symlinkTree ["r".toList] ["l".toList] exLinkFiles exLinkDirs ow ⟨exLinkFS, 100, 0, fun n => n + 10⟩

example : (exLink false).1 = .ok [["e".toList], ["e".toList, "y".toList]] ∧
    (exLink false).2.fs.get ["l".toList, "a".toList] = some (.file 7 3 1) ∧
    (exLink false).2.fs.get ["l".toList, "e".toList, "y".toList] = some (.link "/r/e/y".toList 15) := by
  decide +kernel

example : (exLink true).1 = .ok [["e".toList], ["a".toList], ["d".toList, "x".toList],
      ["e".toList, "y".toList]] ∧
    (exLink true).2.fs.get ["l".toList, "a".toList] = some (.link "/r/a".toList 15) := by
  decide +kernel

example : exLinkDirs.Nodup ∧ ∀ p ∈ exLinkFiles ++ exLinkDirs, p ≠ [] := by decide +kernel

end Verif
