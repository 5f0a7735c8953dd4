import Mathlib.Algebra.Order.Field.Rat
import Verif.Props.C100_Configured
import Verif.Props.C101_Ranking
import Verif.Props.C11_Sync
/-
C100: the options InflatePriority and AccountForSize of the config file.
-/
namespace Verif
open Prog OSM Call FSTools WM Posix

section
variable {h : Host} {T : Str} {ls : List Str} {w : World} {v : Str} {p : Path} {n : Node}

/-- C100: with `InflatePriority=yes` or `true`, or without the option, a new local file has the highest priority of all
files after a sync that has succeeded. What is assumed is what C11 assumes. -/
theorem C100_inflate_partial (t : TextReady h T ls w) (c : Calm (h.env T) w) (hs : SumsOfEntries w.db)
    (hv : ValueIn ls "InflatePriority".toList v) (hy : v = "yes".toList ∨ v = "true".toList)
    (ok : (syncText h T w).1 = .ok ()) (h0 : p ≠ []) (hl : w.os.fs.get ((h.env T).loc ++ p) = some n)
    (hd : n.isDir = false) (hn : p ∉ ADB.paths w.db) (hu : ¬ UnsafeLink (h.env T).loc p n)
    (hx : ¬ OwnExcludes (h.env T) w.os.fs p) (hg : ∀ d, GoneRemotely (h.env T) w d → ¬ d <+: p)
    (hr : ¬ ChangedRemotely (h.env T) w p) :
    ∃ e' ∈ (syncText h T w).2.db, e'.path = p ∧ (∀ e ∈ w.db, e.directory = false → e.data.priority ≤ e'.data.priority) ∧
      ∃ e ∈ w.db, e.directory = false ∧ e.data.priority = e'.data.priority := by
  rw [t.eq] at *
  exact C11_sync_partial t.ready c ok hs ((truth_iff t.lines hv).2 hy) h0 hl hd hn hu hx hg hr

/-- C100: with any other value, such as `no` or `false`, it has the priority 0. The value `Yes` is one of them, see
C37. -/
theorem C100_no_inflate_partial (t : TextReady h T ls w) (c : Calm (h.env T) w) (hs : SumsOfEntries w.db)
    (hv : ValueIn ls "InflatePriority".toList v) (hy : ¬ (v = "yes".toList ∨ v = "true".toList))
    (ok : (syncText h T w).1 = .ok ()) (h0 : p ≠ []) (hl : w.os.fs.get ((h.env T).loc ++ p) = some n)
    (hd : n.isDir = false) (hn : p ∉ ADB.paths w.db) (hu : ¬ UnsafeLink (h.env T).loc p n)
    (hx : ¬ OwnExcludes (h.env T) w.os.fs p) (hg : ∀ d, GoneRemotely (h.env T) w d → ¬ d <+: p)
    (hr : ¬ ChangedRemotely (h.env T) w p) :
    ∃ e' ∈ (syncText h T w).2.db, e'.path = p ∧ e'.data.priority = 0 := by
  rw [t.eq] at *
  exact C11_plain_partial t.ready c ok hs (Bool.eq_false_iff.2 (mt (truth_iff t.lines hv).1 hy)) h0 hl hd hn hu hx hg hr

/-- C100: of two files the one that counts for more is a local copy if the other
one is and it is not larger. Without `AccountForSize`, that is with a value other than `yes` and `true`, a file counts for
its priority; with it, for its priority in relation to its size. What is assumed is what C101 assumes. -/
theorem C100_ranking_partial (t : TextReady h T ls w) (c : Calm (h.env T) w) (hs : SumsOfEntries w.db)
    (hv : ValueIn ls "AccountForSize".toList v) (ok : (syncText h T w).1 = .ok ())
    (hc : ∀ p a b, ChangedLocally (h.env T) w p → ChangedRemotely (h.env T) w p →
      w.os.fs.get ((h.env T).loc ++ p) = some a →
      w.os.fs.get ((h.env T).rem ++ p) = some b → a.isDir = false → ¬ a.mtime < b.mtime)
    (hx : ∀ p, OwnExcludes (h.env T) w.os.fs p → p ∉ ADB.paths w.db ∧ w.os.fs.get ((h.env T).rem ++ p) = none)
    (big : ∀ e ∈ (syncText h T w).2.db, e.directory = false →
      h.symlinkSize ≤ usedAt (syncText h T w).2.os.fs ((h.env T).rem ++ e.path))
    {a b : Entry PData} (ha : a ∈ (syncText h T w).2.db) (had : a.directory = false) (hb : b ∈ (syncText h T w).2.db)
    (hbd : b.directory = false)
    (hbl : ∃ k m s, (syncText h T w).2.os.fs.get ((h.env T).loc ++ b.path) = some (.file k m s))
    (hd : ∀ d, d ≠ [] → d <+: b.path → d ≠ b.path → ∃ e ∈ (syncText h T w).2.db, e.directory = false ∧ d <+: e.path ∧
      (syncText h T w).2.os.fs.get ((h.env T).loc ++ e.path) ≠ (syncText h T w).2.os.fs.get ((h.env T).rem ++ e.path))
    {sa sb : Nat} (hsa : usedAt (syncText h T w).2.os.fs ((h.env T).rem ++ a.path) = sa)
    (hsb : usedAt (syncText h T w).2.os.fs ((h.env T).rem ++ b.path) = sb) (h0 : 0 < sa)
    (hw : if v = "yes".toList ∨ v = "true".toList then b.data.priority * sa < a.data.priority * sb
      else b.data.priority < a.data.priority) (hle : sa ≤ sb) :
    ∃ n, n.isDir = false ∧ (syncText h T w).2.os.fs.get ((h.env T).rem ++ a.path) = some n ∧
      (syncText h T w).2.os.fs.get ((h.env T).loc ++ a.path) = some n := by
  rw [t.eq] at *
  refine C101_wins_partial t.ready c ok hc hx hs big ha had hb hbd hbl hd ?_ (by omega)
  have ht := truth_iff t.lines hv
  unfold worth
  have n1 : ¬ sa = 0 := by omega
  have n2 : ¬ sb = 0 := by omega
  rw [hsa, hsb]
  by_cases hy : v = "yes".toList ∨ v = "true".toList
  · rw [if_pos hy] at hw
    have : (h.env T).accountForSize = true := ht.2 hy
    rw [this, if_pos rfl, if_pos rfl, if_neg n1, if_neg n2]
    have p1 : (0 : Rat) < sa := by exact_mod_cast h0
    have p2 : (0 : Rat) < sb := by exact_mod_cast Nat.lt_of_lt_of_le h0 hle
    rw [div_lt_div_iff₀ p2 p1]
    exact hw
  · rw [if_neg hy] at hw
    have : (h.env T).accountForSize = false := Bool.eq_false_iff.2 (mt ht.1 hy)
    rw [this]
    exact hw

end

/-! ### Examples -/

/-- Neither InflatePriority nor UseTrash is set. -/
def exConfInfl : Str := "LocalDir=/l\nRemoteDir=/r\nStorageLimit=100kB\nTrashCleanupPeriod=-1\nAccountForSize=no\n".toList

theorem exConfInfl_read : configRead [] exConfInfl =
    [("LocalDir".toList, "/l".toList),
      ("RemoteDir".toList, "/r".toList),
      ("StorageLimit".toList, "100kB".toList),
      ("TrashCleanupPeriod".toList, "-1".toList),
      ("AccountForSize".toList, "no".toList)] := by
  decide +kernel

theorem exConfInfl_env : (exHost 0).env exConfInfl = exEnvI := by
  have h1 : (exHost 0).loc exConfInfl = some ["l".toList] := by unfold Host.loc optVal; rw [exConfInfl_read]; decide +kernel
  have h2 : (exHost 0).rem exConfInfl = some ["r".toList] := by unfold Host.rem optVal; rw [exConfInfl_read]; decide +kernel
  have h3 : truth exConfInfl "UseTrash".toList = true := by unfold truth optVal; rw [exConfInfl_read]; decide +kernel
  have h4 : truth exConfInfl "InflatePriority".toList = true := by unfold truth optVal; rw [exConfInfl_read]; decide +kernel
  have h5 : truth exConfInfl "AccountForSize".toList = false := by unfold truth optVal; rw [exConfInfl_read]; decide +kernel
  have h6 : storageLimit (optVal exConfInfl "StorageLimit".toList) = some 100000 := by unfold optVal; rw [exConfInfl_read]; decide +kernel
  have h7 : optVal exConfInfl "TrashCleanupPeriod".toList = "-1".toList := by unfold optVal; rw [exConfInfl_read]; decide +kernel
  unfold Host.env
  rw [h1, h2, h3, h4, h5, h6, h7]
  rfl

/-- The new file `d/n` gets the priority 5 of `p`. -/
example : ∃ e' ∈ (syncText (exHost 0) exConfInfl exInflate).2.db, e'.path = ["d".toList, "n".toList] ∧
    (∀ e ∈ exInflate.db, e.directory = false → e.data.priority ≤ e'.data.priority) ∧
    ∃ e ∈ exInflate.db, e.directory = false ∧ e.data.priority = e'.data.priority := by
  obtain ⟨ls, hl⟩ := linesOf_exists exConfInfl
  have t : TextReady (exHost 0) exConfInfl ls exInflate :=
    textReady_of hl (by rw [exConfInfl_read]; decide +kernel)
      (by unfold Host.loc optVal; rw [exConfInfl_read]; decide +kernel)
      (by unfold Host.rem optVal; rw [exConfInfl_read]; decide +kernel)
      (v := "100kB".toList) (num := "100".toList) (p := 'k') (u := "B".toList) (by rw [exConfInfl_read]; decide +kernel)
      (by decide +kernel) (by decide +kernel) (by decide) (by decide) (by rw [exConfInfl_env]; exact exInflate_ready (.inl rfl))
  refine C100_inflate_partial (n := .file 6 45 4) (v := "yes".toList) t ?_ exInflate_sums
    ((C38_value hl _ _).1 (by rw [exConfInfl_read]; decide +kernel)) (.inl rfl) ?_ (by simp) ?_ rfl (by decide +kernel)
    (by rintro ⟨t, m, h, _⟩; cases h) ?_ ?_ ?_
  · rw [exConfInfl_env]; exact exInflate_calm (.inl rfl)
  · rw [t.eq, exConfInfl_env]; decide +kernel
  · rw [exConfInfl_env]; decide +kernel
  · rw [exConfInfl_env]; exact exInflate_own (by decide +kernel)
  · rw [exConfInfl_env]; exact exInflate_gone
  · rw [exConfInfl_env]; exact exInflate_remote _

/-- There is little space, and files are ranked by priority: `p` is kept because `d/q` is. -/
example : ∃ n, n.isDir = false ∧ (syncText (exHost 100) exConfSmall exRank).2.os.fs.get
      (((exHost 100).env exConfSmall).rem ++ ["p".toList]) = some n ∧
    (syncText (exHost 100) exConfSmall exRank).2.os.fs.get
      (((exHost 100).env exConfSmall).loc ++ ["p".toList]) = some n := by
  obtain ⟨ls, hl⟩ := linesOf_exists exConfSmall
  have t : TextReady (exHost 100) exConfSmall ls exRank :=
    textReady_of hl (by rw [exConfSmall_read]; decide +kernel)
      (by unfold Host.loc optVal; rw [exConfSmall_read]; decide +kernel)
      (by unfold Host.rem optVal; rw [exConfSmall_read]; decide +kernel)
      (v := "2 kB".toList) (num := "2".toList) (p := 'k') (u := "B".toList) (by rw [exConfSmall_read]; decide +kernel)
      (by decide +kernel) (by decide +kernel) (by decide) (by decide) (by rw [exConfSmall_env]; exact exRank_ready)
  have e := exConfSmall_env
  obtain ⟨h1, h2, h3, h4, _, h6, h7, h8⟩ := exRank_sync
  have hv : ValueIn ls "AccountForSize".toList "no".toList :=
    (C38_value hl _ _).1 (by rw [exConfSmall_read]; decide +kernel)
  have hb := exRank_big
  have he : syncText (exHost 100) exConfSmall exRank = sync exEnvS exRank := by rw [t.eq, e]
  refine C100_ranking_partial (a := exRow ["p".toList] false 5 true) (b := exRow ["d".toList, "q".toList] false 1 true)
    (sa := 512) (sb := 1024) (v := "no".toList)
    t (by rw [e]; exact exRank_calm) exRank_sums hv (by rw [he]; exact h1) (by rw [e]; exact exRank_older)
    (fun p hp => absurd (by rw [e] at hp; exact hp) (exRank_excluded p)) (by rw [he, e]; exact hb)
    (by rw [he, h2]; simp) rfl (by rw [he, h2]; simp) rfl ⟨7, 3, 2, by rw [he, e]; exact h3⟩ ?_ ?_ ?_ (by decide) ?_ (by decide)
  · rw [he, e]
    intro d h0 hp hne
    refine ⟨exRow ["d".toList, "z".toList] false 0 false, by rw [h2]; simp, rfl, ?_, h4⟩
    obtain ⟨t, ht⟩ := hp
    rcases d with _ | ⟨x, _ | ⟨y, _ | ⟨z, d⟩⟩⟩
    · exact absurd rfl h0
    · simp only [exRow, List.cons_append, List.cons.injEq] at ht
      rw [ht.1]
      exact ⟨["z".toList], rfl⟩
    · simp only [exRow, List.cons_append, List.cons.injEq, List.nil_append] at ht
      exact absurd (by rw [ht.1, ht.2.1]; rfl) hne
    · simp [exRow] at ht
  · rw [he, e]
    generalize (sync exEnvS exRank).2.os.fs = fs at *
    unfold usedAt
    rw [show exEnvS.rem ++ (exRow ["p".toList] false 5 true).path = ["r".toList, "p".toList] from rfl, h8]
    decide
  · rw [he, e]
    generalize (sync exEnvS exRank).2.os.fs = fs at *
    unfold usedAt
    rw [show exEnvS.rem ++ (exRow ["d".toList, "q".toList] false 1 true).path = ["r".toList, "d".toList, "q".toList] from rfl, h6]
    decide
  · rw [if_neg (by decide)]
    show (1 : Rat) < 5
    decide +kernel

end Verif
