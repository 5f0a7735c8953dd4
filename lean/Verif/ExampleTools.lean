import Verif.Transfer
/-
Checks of the hypotheses of theorems in concrete cases.
-/
namespace Verif

/-- A test that implies `Clean`. -/
def cleanB (fs : FS) (src dst : Path) : Bool :=
  match fs.get dst with
  | none => true
  | some (.file ..) => true
  | some (.dir ..) => fs.isDir src
  | some (.link t _) => !fs.isDir src && (decide (FS.linkDest dst t = src) ||
      match fs.get src with
      | some (.link ..) => true
      | _ => false)

theorem clean_of_cleanB {fs : FS} {src dst : Path} (h : cleanB fs src dst = true) : Clean fs src dst := by
  unfold cleanB at h
  unfold Clean
  rcases Option.eq_none_or_eq_some (fs.get dst) with h1 | ⟨n, h1⟩
  · rw [h1]; trivial
  · rw [h1] at h ⊢
    cases n with
    | file c m b => trivial
    | dir m b => exact h
    | link t m =>
      simp only [Bool.and_eq_true, Bool.not_eq_true', Bool.or_eq_true, decide_eq_true_eq] at h ⊢
      refine ⟨h.1, ?_⟩
      rcases h.2 with h2 | h2
      · exact Or.inl h2
      · right
        split at h2
        · rename_i t' m' h3; exact ⟨t', m', h3⟩
        · cases h2

/-- Whether everything in `source` has a clean destination in `dest`. -/
def allClean (fs : FS) (source dest : Path) : Bool :=
  fs.all fun e => !(source.isPrefixOf e.1) || cleanB fs e.1 (dest ++ e.1.drop source.length)

theorem clean_of_allClean {fs : FS} {source dest : Path} (h : allClean fs source dest = true) (hs : source ≠ [])
    {q : Path} {n : Node} (hq : fs.get (source ++ q) = some n) : Clean fs (source ++ q) (dest ++ q) := by
  have hm := FS.mem_of_get (by simp [hs]) hq
  have := List.all_eq_true.1 h _ hm
  simp only [Bool.or_eq_true, Bool.not_eq_true', List.drop_left] at this
  rcases this with h1 | h1
  · have : source.isPrefixOf (source ++ q) = true := List.isPrefixOf_iff_prefix.2 (List.prefix_append _ _)
    rw [this] at h1; cases h1
  · exact clean_of_cleanB h1

end Verif
