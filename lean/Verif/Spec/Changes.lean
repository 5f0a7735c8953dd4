import Verif.Diff
import Verif.Props.C26_SymlinkSafety
/-
What it means for a file to be new, changed, or gone; stated on the scans and
the database without the functions of `Verif.Diff`.
-/
namespace Verif

/-- `p` is a symbolic link whose target is absolute or leads out of `root`. -/
def UnsafeLink (root p : Path) (n : Node) : Prop :=
  ∃ t m, n = .link t m ∧ ¬ SafeTarget root p t

/-- `q` is a proper, non-empty ancestor of `p`. -/
def Above (q p : Path) : Prop := q <+: p ∧ q ≠ p ∧ q ≠ []

/-- Paths that can occur in a scan. -/
def GoodScan (s : Scan) : Prop := (∀ e ∈ s, GoodPath e.1 ∧ e.1 ≠ []) ∧ s.keys.Nodup

instance (s : Scan) : Decidable (GoodScan s) := by unfold GoodScan; infer_instance

end Verif
