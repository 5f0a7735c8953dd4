import Verif.Props.C35_Config
import Verif.Props.C38_Options
/-
C65: a running daemon uses the config file as it is.

The daemon reads the config file again in every pass (zielen/daemon.py:141-153), but `ConfigFile.read` never clears
`raw_vals` (zielen/containerbase.py:49-60).
-/
namespace Verif

/-- The options of a process that has read the config file again and again; the first text is the first that was
read. -/
def rereads (texts : List Str) : Dict Str := texts.foldl configRead []

/-- The value of an option after any number of reads is its value in the last text that sets it. -/
theorem C65_value_partial (texts : List Str) (T : Str) (k : Str) :
    (rereads (texts ++ [T])).get k = ((configRead [] T).get k).or ((rereads texts).get k) := by
  unfold rereads
  rw [List.foldl_append, List.foldl_cons, List.foldl_nil, configRead_eq, configRead_eq, get_setAll, get_setAll]
  cases (assignments T).reverse.find? (fun e => decide (e.1 = k)) <;> simp [Dict.get_nil]

/-- So an option that the current text sets has its value there. -/
theorem C65_set_partial (texts : List Str) {T : Str} {ls : List Str} (hl : LinesOf T ls) {k v : Str}
    (h : LastAssigns ls k v) : vals (rereads (texts ++ [T])) k = some v := by
  unfold vals
  rw [C65_value_partial, (lastAssigns_iff hl k v).2 h]
  rfl

/-- And an option that no text has set has its default. -/
theorem C65_default_partial (texts : List Str) {k : Str} (h : ∀ T ∈ texts, ∀ ls, LinesOf T ls → ∀ v, ¬ LastAssigns ls k v) :
    vals (rereads texts) k = defaults.get k := by
  have : (rereads texts).get k = none := by
    induction texts using List.reverseRecOn with
    | nil => exact Dict.get_nil k
    | append_singleton ts T ih =>
      rw [C65_value_partial, ih (fun T' hT' => h T' (List.mem_append_left _ hT'))]
      obtain ⟨ls, hl⟩ := linesOf_exists T
      rcases Option.eq_none_or_eq_some ((configRead [] T).get k) with h1 | ⟨v, h1⟩
      · rw [h1]; rfl
      · exact absurd ((lastAssigns_iff hl k v).1 h1) (h T (by simp) ls hl v)
  unfold vals
  rw [this]

/-- The full claim C65: after reading again, every option has the value that the current text gives it. -/
def C65Claim : Prop := ∀ texts T k, vals (rereads (texts ++ [T])) k = vals (configRead [] T) k

/-- The user comments an option out to return to the default, as the config file and the code say they may
(zielen/profile.py:836-841): the running daemon goes on with the old value. -/
theorem C65_commented_fails : ¬ C65Claim := by
  intro h
  have := h ["SyncInterval=1\n".toList] "#SyncInterval=1\n".toList "SyncInterval".toList
  revert this
  decide +kernel

example : vals (rereads ["SyncInterval=1\n".toList, "SyncInterval=5\n".toList]) "SyncInterval".toList =
    some "5".toList := by decide +kernel

end Verif
