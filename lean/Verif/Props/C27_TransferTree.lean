import Verif.Transfer
/-
C27: `transfer_tree` copies content and metadata and nothing else.

The full claim fails: a destination path that is a symbolic link is written
through, so that a file that was not listed is overwritten (`C27_fails`). The
theorems therefore assume that the destination of each listed path is clean:
missing, a regular file, a directory over a directory, or, for a path that is
not a directory, a link that leads to the source file itself or that is to be
replaced by a link. What remains assumed as well: the listed files exist (a
missing one raises `FileNotFoundError` although the docstring says that missing
files are ignored), and neither directory is in the other.
-/
namespace Verif
open Prog OSM Call FSTools

/-- Where the theorems below apply. -/
structure TransferCase (fs : FS) (source dest : Path) (files : Option (List Path)) (exclude : List Path) :
    Prop where
  wf : fs.WF
  apart : Apart source dest
  source_dir : fs.isDir source = true
  dest_dir : fs.isDir dest = true
  exist : ∀ fl, files = some fl → ∀ f ∈ fl, ∃ n, fs.get (source ++ f) = some n
  clean : ∀ p, Listed fs source files p → p ∉ exclude →
    ∀ q, q <+: p → Clean fs (source ++ q) (dest ++ q)

section
variable {s : OS} {source dest : Path} {files : Option (List Path)} {exclude : List Path} {rm : Bool}

/-- After a success there is a copy of each listed file, with content, size and mtime, and a copy of
each listed link. -/
theorem C27_copies_partial (h : TransferCase s.fs source dest files exclude) {s' : OS}
    (hr : transferTree source dest files exclude rm s = (.ok (), s'))
    {p : Path} (hp : Listed s.fs source files p) (hx : p ∉ exclude) {n : Node}
    (hn : s.fs.get (source ++ p) = some n) :
    (n.isDir = false → s'.fs.get (dest ++ p) = some n) ∧
      (n.isDir = true → (∀ fl, files = some fl → p ∉ fl) → s'.fs.isDir (dest ++ p) = true) := by
  obtain ⟨l, hm, _, hall⟩ := wp_ok (wp_transferTree (rm := rm) h.apart h.wf h.source_dir h.dest_dir
    h.exist h.clean) hr
  rcases hall p hp hx with hl | ⟨fl, h1, h2, h3⟩
  · have := hm.copied p hl n hn
    unfold Copied at this
    cases n with
    | dir m b => exact ⟨fun h => by (cases h), fun _ _ => this⟩
    | _ => exact ⟨fun _ => this, fun h => by (cases h)⟩
  · refine ⟨?_, fun _ h => absurd h2 (h fl h1)⟩
    intro hnd
    unfold FS.isDir at h3
    rw [hn] at h3
    simp [hnd] at h3

/-- However `transfer_tree` ends, each path outside the source that is not the destination of a listed
path is as before, except that missing parents of such destinations may have been made. -/
theorem C27_frame_partial (h : TransferCase s.fs source dest files exclude) {q : Path}
    (hq : ¬ source <+: q) (hx : ∀ p, Listed s.fs source files p → p ∉ exclude → q ≠ dest ++ p) :
    (∀ n, s.fs.get q = some n → (transferTree source dest files exclude rm s).2.fs.get q = some n) ∧
    (s.fs.get q = none → (transferTree source dest files exclude rm s).2.fs.get q = none ∨
      ((transferTree source dest files exclude rm s).2.fs.isDir q = true ∧
        ∃ p, Listed s.fs source files p ∧ p ∉ exclude ∧ q <+: dest ++ p)) := by
  refine wp_state (I := fun s' : OS => (∀ n, s.fs.get q = some n → s'.fs.get q = some n) ∧
    (s.fs.get q = none → s'.fs.get q = none ∨ (s'.fs.isDir q = true ∧
        ∃ p, Listed s.fs source files p ∧ p ∉ exclude ∧ q <+: dest ++ p))) ?_
  have key : ∀ s' : OS, (∃ l, Moving source dest rm s.fs l s'.fs ∧
      (∀ p ∈ l, Listed s.fs source files p ∧ p ∉ exclude)) →
      (∀ n, s.fs.get q = some n → s'.fs.get q = some n) ∧
      (s.fs.get q = none → s'.fs.get q = none ∨ (s'.fs.isDir q = true ∧
        ∃ p, Listed s.fs source files p ∧ p ∉ exclude ∧ q <+: dest ++ p)) := by
    rintro s' ⟨l, hm, hl⟩
    have hx' : ∀ p ∈ l, q ≠ dest ++ p := fun p hp => hx p (hl p hp).1 (hl p hp).2
    refine ⟨hm.keeps q hq hx', fun hn => ?_⟩
    rcases hm.new q hq hx' hn with h1 | ⟨h1, p, h2, h3⟩
    · exact Or.inl h1
    · exact Or.inr ⟨h1, p, (hl p h2).1, (hl p h2).2, h3⟩
  exact wp_mono (wp_transferTree h.apart h.wf h.source_dir h.dest_dir h.exist h.clean)
    (fun _ s' ⟨l, h1, h2, _⟩ => key s' ⟨l, h1.toMoving, h2⟩) (fun _ s' h1 => key s' h1)

/-- However it ends, the source is unchanged if `rm_source` is not given. -/
theorem C27_source_partial (h : TransferCase s.fs source dest files exclude) {q : Path}
    (hq : source <+: q) : (transferTree source dest files exclude false s).2.fs.get q = s.fs.get q := by
  refine wp_state (I := fun s' : OS => s'.fs.get q = s.fs.get q) ?_
  obtain ⟨p, rfl⟩ := hq
  have key : ∀ s' : OS, (∃ l, Moving source dest false s.fs l s'.fs) →
      s'.fs.get (source ++ p) = s.fs.get (source ++ p) := by
    rintro s' ⟨l, hm⟩
    rcases hm.src p with h1 | ⟨h1, _⟩
    · exact h1
    · cases h1
  exact wp_mono (wp_transferTree h.apart h.wf h.source_dir h.dest_dir h.exist h.clean)
    (fun _ s' ⟨l, h1, _⟩ => key s' ⟨l, h1.toMoving⟩) (fun _ s' ⟨l, h1, _⟩ => key s' ⟨l, h1⟩)

/-- With `rm_source`, at every point of the run each source path is unchanged, or it is gone and its copy
is complete; after a success each listed file is gone. -/
theorem C27_move_partial (h : TransferCase s.fs source dest files exclude) {p : Path} {n : Node}
    (hn : s.fs.get (source ++ p) = some n) :
    ((transferTree source dest files exclude true s).2.fs.get (source ++ p) = some n ∨
      ((transferTree source dest files exclude true s).2.fs.get (source ++ p) = none ∧
        (n.isDir = false → (transferTree source dest files exclude true s).2.fs.get (dest ++ p) = some n))) ∧
    ((transferTree source dest files exclude true s).1 = .ok () → Listed s.fs source files p → p ∉ exclude →
      n.isDir = false → (transferTree source dest files exclude true s).2.fs.get (source ++ p) = none) := by
  have hcop : ∀ s' : OS, Copied n s'.fs (dest ++ p) → n.isDir = false → s'.fs.get (dest ++ p) = some n := by
    intro s' hc hd
    unfold Copied at hc
    cases n with
    | dir m b => cases hd
    | _ => exact hc
  have key : ∀ s' : OS, (∃ l, Moving source dest true s.fs l s'.fs) →
      s'.fs.get (source ++ p) = some n ∨ (s'.fs.get (source ++ p) = none ∧
        (n.isDir = false → s'.fs.get (dest ++ p) = some n)) := by
    rintro s' ⟨l, hm⟩
    rcases hm.src p with h1 | ⟨_, _, h2, h3⟩
    · rw [h1]; exact Or.inl hn
    · exact Or.inr ⟨h2, hcop s' (h3 n hn)⟩
  have hw := wp_transferTree (rm := true) h.apart h.wf h.source_dir h.dest_dir h.exist h.clean
  constructor
  · refine wp_state (I := fun s' : OS => s'.fs.get (source ++ p) = some n ∨
      (s'.fs.get (source ++ p) = none ∧ (n.isDir = false → s'.fs.get (dest ++ p) = some n))) ?_
    exact wp_mono hw (fun _ s' ⟨l, h1, _⟩ => key s' ⟨l, h1.toMoving⟩) (fun _ s' ⟨l, h1, _⟩ => key s' ⟨l, h1⟩)
  · intro hok hl hx hd
    obtain ⟨l, hm, _, hall⟩ := wp_ok hw (Prod.ext hok rfl)
    rcases hall p hl hx with h1 | ⟨_, _, _, h3⟩
    · exact hm.gone rfl p h1
    · unfold FS.isDir at h3
      rw [hn] at h3
      simp [hd] at h3

end

/-! ### The full claim fails -/

/-- The destination has a link to one of its own files, at a path that is a regular file in the source. -/
def exThroughFS : FS :=
  [(["s".toList], .dir 1 8), (["s".toList, "l".toList], .file 7 3 1),
    (["d".toList], .dir 1 8), (["d".toList, "l".toList], .link "x".toList 2),
    (["d".toList, "x".toList], .file 9 4 1)]

/-- A successful `transfer_tree` overwrites a file that was not listed: it writes through a link. -/
theorem C27_fails : ¬ ∀ (s s' : OS) (source dest : Path) (files : List Path), s.fs.WF →
    Apart source dest → (∀ f ∈ files, ∃ n, s.fs.get (source ++ f) = some n) →
    transferTree source dest (some files) [] false s = (.ok (), s') →
    ∀ q, (∀ p, (∃ f ∈ files, f <+: p) → q ≠ dest ++ p) → ¬ source <+: q →
      (s.fs.get q).isSome → s'.fs.get q = s.fs.get q := by
  intro h
  have h1 := h ⟨exThroughFS, 100, 0, fun n => n + 10⟩
    (transferTree ["s".toList] ["d".toList] (some [["l".toList]]) [] false
      ⟨exThroughFS, 100, 0, fun n => n + 10⟩).2 ["s".toList] ["d".toList] [["l".toList]]
    ⟨by decide +kernel, by decide +kernel, by decide +kernel, by decide +kernel⟩
    ⟨by decide +kernel, by decide +kernel⟩
    (by intro f hf
        rw [List.mem_singleton] at hf
        subst hf
        exact ⟨.file 7 3 1, by decide +kernel⟩)
    (Prod.ext (by decide +kernel) rfl) ["d".toList, "x".toList]
    (by
      rintro p ⟨f, hf, hp⟩ he
      rw [List.mem_singleton] at hf
      subst hf
      have : p = ["x".toList] := by
        have : ["d".toList] ++ ["x".toList] = ["d".toList] ++ p := he
        exact (List.append_cancel_left this).symm
      subst this
      revert hp
      decide +kernel)
    (by decide +kernel) (by decide +kernel)
  revert h1
  decide +kernel

/-! ### The hypotheses can be met -/

/-- A source with a file, a directory with a file and a link; a destination with an older copy of the
file, a file of its own and a link to a source file. -/
def exTransferFS : FS :=
  [(["s".toList], .dir 1 8), (["s".toList, "a".toList], .file 7 3 1),
    (["s".toList, "d".toList], .dir 2 8), (["s".toList, "d".toList, "x".toList], .file 8 4 2),
    (["s".toList, "d".toList, "y".toList], .link "x".toList 5),
    (["t".toList], .dir 1 8), (["t".toList, "a".toList], .file 6 2 1),
    (["t".toList, "own".toList], .file 5 1 1), (["t".toList, "d".toList], .dir 2 8),
    (["t".toList, "d".toList, "x".toList], .link "/s/d/x".toList 2)]

theorem exTransfer_case : TransferCase exTransferFS ["s".toList] ["t".toList]
    (some [["a".toList], ["d".toList]]) [["d".toList, "y".toList]] := by
  refine ⟨⟨by decide +kernel, by decide +kernel, by decide +kernel, by decide +kernel⟩,
    ⟨by decide +kernel, by decide +kernel⟩, by decide +kernel, by decide +kernel, ?_, ?_⟩
  · intro fl hfl f hf
    cases hfl
    simp only [List.mem_cons, List.not_mem_nil, or_false] at hf
    rcases hf with rfl | rfl
    · exact ⟨.file 7 3 1, by decide +kernel⟩
    · exact ⟨.dir 2 8, by decide +kernel⟩
  · have hw : exTransferFS.WF :=
      ⟨by decide +kernel, by decide +kernel, by decide +kernel, by decide +kernel⟩
    have hcl : ∀ q : Path, q = [] ∨ q = ["a".toList] ∨ q = ["d".toList] ∨ q = ["d".toList, "x".toList] ∨
        q = ["d".toList, "y".toList] → Clean exTransferFS (["s".toList] ++ q) (["t".toList] ++ q) := by
      rintro q (rfl | rfl | rfl | rfl | rfl)
      · exact (by decide +kernel : exTransferFS.isDir ["s".toList] = true)
      · exact trivial
      · exact (by decide +kernel : exTransferFS.isDir ["s".toList, "d".toList] = true)
      · exact ⟨by decide +kernel, Or.inl (by decide +kernel)⟩
      · exact trivial
    rintro p ⟨⟨n, hn⟩, hp, _⟩ _ q hq
    have hp' : p ∈ (exTransferFS.below ["s".toList]).map Prod.fst := (mem_keys_below hw).2 ⟨hp, n, hn⟩
    have hb : (exTransferFS.below ["s".toList]).map Prod.fst =
        [["a".toList], ["d".toList], ["d".toList, "x".toList], ["d".toList, "y".toList]] := by decide +kernel
    rw [hb] at hp'
    apply hcl
    simp only [List.mem_cons, List.not_mem_nil, or_false] at hp'
    rcases hp' with rfl | rfl | rfl | rfl <;>
      simp only [List.prefix_cons_iff, List.prefix_nil] at hq <;>
      rcases hq with rfl | ⟨t, rfl, hq⟩ <;> (try rcases hq with rfl | ⟨t, rfl, rfl⟩) <;> simp_all

def exTransfer (rm : Bool) : Except Err Unit × OS :=
  transferTree ["s".toList] ["t".toList] (some [["a".toList], ["d".toList]]) [["d".toList, "y".toList]] rm
    ⟨exTransferFS, 100, 0, fun n => n + 10⟩

example : (exTransfer false).1 = .ok () ∧
    (exTransfer false).2.fs.get ["t".toList, "a".toList] = some (.file 7 3 1) ∧
    (exTransfer false).2.fs.get ["t".toList, "d".toList, "x".toList] = some (.file 8 4 2) ∧
    (exTransfer false).2.fs.get ["t".toList, "own".toList] = some (.file 5 1 1) ∧
    (exTransfer false).2.fs.get ["s".toList, "d".toList, "x".toList] = some (.file 8 4 2) := by
  decide +kernel

/-- Moving: `d` keeps the excluded link, so that it cannot be removed. -/
example : (exTransfer true).1 = .ok () ∧
    (exTransfer true).2.fs.get ["t".toList, "d".toList, "x".toList] = some (.file 8 4 2) ∧
    (exTransfer true).2.fs.get ["s".toList, "d".toList, "x".toList] = none ∧
    (exTransfer true).2.fs.get ["s".toList, "d".toList, "y".toList] = some (.link "x".toList 5) := by
  decide +kernel

end Verif
