import Verif.Props.C102_Priorities
import Verif.Props.C11_Inflate
/-
C11 for whole syncs: the priority that a sync records for a new local file.
-/
namespace Verif
open Prog OSM Call FSTools WM ADB ALocal

/-- A new path of a batch gets the priority of the batch, if nothing of the batch is below it. -/
theorem prio_new {a : ALocal} {p : Path} {b : List (Path × Bool)} (hp : p ∈ b.map Prod.fst) (ha : p ∉ ADB.paths a)
    (hn : ∀ q ∈ b.map Prod.fst, ¬ p <+: q.dropLast) (x : Rat) (l : Bool) : (p, x) ∈ vPrio (addPaths a b x l) := by
  unfold addPaths
  refine col_refresh prioColumn ?_ (not_parent ?_)
  · obtain ⟨news, h1, h2⟩ := addCore_eq a b ⟨x, l⟩
    rw [h1]
    rw [view_mark]
    unfold view
    rw [List.map_append]
    obtain ⟨e, he, h3⟩ := List.mem_map.1 ((h2.all p hp).resolve_left ha)
    refine List.mem_append_right _ (List.mem_map.2 ⟨e, he, ?_⟩)
    rw [h3, (h2.mem e he).2.2]
  · intro q hq
    obtain ⟨z, hz, rfl⟩ := List.mem_map.1 hq
    exact hn _ (List.mem_map_of_mem (mem_sortDepth.1 hz))

section
variable {env : Env} {w w1 : World} {del : DeletedPaths} {new mod : UpdatedPaths} {p : Path} {n : Node}

/-- The priority that the scan records for a new local file. -/
theorem Scanned.prio_new (sc : Scanned env w del new mod w1) (h0 : p ≠ []) (hp : p ∈ new.loc)
    (hl : w.os.fs.get (env.loc ++ p) = some n) (hd : n.isDir = false) :
    (env.inflate = true → ∃ x, ALocal.maxPriority w.db = some x ∧ (p, x) ∈ vPrio w1.db) ∧
    (env.inflate = false → (p, 0) ∈ vPrio w1.db) := by
  have leaf := sc.leaf hl hd
  have hnew : p ∉ ADB.paths w.db := by
    obtain ⟨_, _, _, h, _⟩ := (sc.newLocIff p).1 hp
    exact h
  obtain ⟨db0, b0, b1, e1, hb0, hb1, h⟩ := sc.top
  have n0 : ∀ q ∈ b0.map Prod.fst, ¬ p <+: q.dropLast := fun q hq =>
    leaf_parent h0 (leaf q (sc.newLoc q ((hb0 q).1 hq)).1)
  have n1 : ∀ q ∈ b1.map Prod.fst, ¬ p <+: q.dropLast := fun q hq => leaf_parent h0 (leaf q (by
    rcases (hb1 q).1 hq with h | h
    · exact (sc.newLoc q h).1
    · exact (sc.newRem q h).2.2.1))
  rw [e1]
  rcases h with ⟨hi, rfl⟩ | ⟨hi, x, rfl, hx | rfl⟩
  · exact ⟨fun h => (by rw [hi] at h; cases h), fun _ => Verif.prio_new ((hb1 p).2 (Or.inl hp)) hnew n1 0 true⟩
  · refine ⟨fun _ => ⟨x, hx, ?_⟩, fun h => by rw [hi] at h; cases h⟩
    exact col_add prioColumn (Verif.prio_new ((hb0 p).2 hp) hnew n0 x true) n1 _ _
  · exact absurd ((hb0 p).2 hp) (by simp)

/-- C11 for whole syncs: with InflatePriority, a new local file has after the sync the highest priority of the files that
were known before. What is missing in comparison with C11: profiles without any file (see `C11_sync_fails`), and files that
are also new in the remote directory. -/
theorem C11_sync_partial (r : SyncReady env w) (c : Calm env w) (h : (sync env w).1 = .ok ())
    (hs : SumsOfEntries w.db) (hi : env.inflate = true) (h0 : p ≠ []) (hl : w.os.fs.get (env.loc ++ p) = some n)
    (hd : n.isDir = false) (hn : p ∉ ADB.paths w.db) (hu : ¬ UnsafeLink env.loc p n) (hx : ¬ OwnExcludes env w.os.fs p)
    (hg : ∀ d, GoneRemotely env w d → ¬ d <+: p) (hr : ¬ ChangedRemotely env w p) :
    ∃ e' ∈ (sync env w).2.db, e'.path = p ∧ (∀ e ∈ w.db, e.directory = false → e.data.priority ≤ e'.data.priority) ∧
      ∃ e ∈ w.db, e.directory = false ∧ e.data.priority = e'.data.priority := by
  have h1 : sync env w = (.ok (), (sync env w).2) := by rw [← h]
  obtain ⟨del, new, mod, w1, w2, upd, w3, cp, DL, DR, l, w4, sel, rex, w5, w6, S, T, D⟩ := (wp_ok (wp_sync r) h1).2
  generalize (sync env w).2 = w' at *
  obtain ⟨x, hm, k1⟩ := (S.sc.prio_new h0 ((S.sc.newLocIff p).2 ⟨h0, n, hl, hn, hu, hx⟩) hl hd).1 hi
  obtain ⟨e, he, h2, h3⟩ := S.keeps47 r c T D hs h0 hl hd hx (S.keeps14 prioColumn r h0 hl hd hg (fun h => hr h.2) k1)
  obtain ⟨m1, m2⟩ := max?_ge hm
  refine ⟨e, he, h2, ?_, ?_⟩
  · intro b hb hbd
    rw [h3]
    exact m2 _ (List.mem_map.2 ⟨b, List.mem_filter.2 ⟨hb, by simp [hbd]⟩, rfl⟩)
  · obtain ⟨b, hb, hbm⟩ := List.mem_map.1 m1
    obtain ⟨h4, h5⟩ := List.mem_filter.1 hb
    exact ⟨b, h4, by simpa using h5, by rw [h3]; exact hbm⟩

/-- Without InflatePriority a new local file has the priority 0 after the sync. -/
theorem C11_plain_partial (r : SyncReady env w) (c : Calm env w) (h : (sync env w).1 = .ok ())
    (hs : SumsOfEntries w.db) (hi : env.inflate = false) (h0 : p ≠ []) (hl : w.os.fs.get (env.loc ++ p) = some n)
    (hd : n.isDir = false) (hn : p ∉ ADB.paths w.db) (hu : ¬ UnsafeLink env.loc p n) (hx : ¬ OwnExcludes env w.os.fs p)
    (hg : ∀ d, GoneRemotely env w d → ¬ d <+: p) (hr : ¬ ChangedRemotely env w p) :
    ∃ e' ∈ (sync env w).2.db, e'.path = p ∧ e'.data.priority = 0 := by
  have h1 : sync env w = (.ok (), (sync env w).2) := by rw [← h]
  obtain ⟨del, new, mod, w1, w2, upd, w3, cp, DL, DR, l, w4, sel, rex, w5, w6, S, T, D⟩ := (wp_ok (wp_sync r) h1).2
  generalize (sync env w).2 = w' at *
  exact S.keeps47 r c T D hs h0 hl hd hx (S.keeps14 prioColumn r h0 hl hd hg (fun h => hr h.2)
    ((S.sc.prio_new h0 ((S.sc.newLocIff p).2 ⟨h0, n, hl, hn, hu, hx⟩) hl hd).2 hi))

/-- With InflatePriority, no sync succeeds as long as the profile knows no file and there is a new file in the local
directory. -/
theorem C11_never_fails (r : SyncReady env w) (hi : env.inflate = true) (h0 : p ≠ [])
    (hl : w.os.fs.get (env.loc ++ p) = some n) (hd : n.isDir = false) (hu : ¬ UnsafeLink env.loc p n)
    (hx : ¬ OwnExcludes env w.os.fs p) (hn : ∀ e ∈ w.db, e.directory = true) : (sync env w).1 ≠ .ok () := by
  intro h
  have h1 : sync env w = (.ok (), (sync env w).2) := by rw [← h]
  obtain ⟨del, new, mod, w1, w2, upd, w3, cp, DL, DR, l, w4, sel, rex, w5, w6, S, T, D⟩ := (wp_ok (wp_sync r) h1).2
  have hnew : p ∉ ADB.paths w.db := by
    intro hp
    obtain ⟨e, he, rfl⟩ := List.mem_map.1 hp
    have := (r.db e he).loc n hl
    rw [hd, hn e he] at this
    cases this
  obtain ⟨x, hm, _⟩ := (S.sc.prio_new h0 ((S.sc.newLocIff p).2 ⟨h0, n, hl, hnew, hu, hx⟩) hl hd).1 hi
  obtain ⟨b, hb, _⟩ := List.mem_map.1 (max?_ge hm).1
  obtain ⟨h4, h5⟩ := List.mem_filter.1 hb
  rw [hn b h4] at h5
  cases h5

end

/-! ### Examples -/

def exEnvI : Env := { exEnvE with inflate := true }

/-- `d/n` is new in the local directory. -/
def exInflate : World := exWorld exEnvI
  [(["l".toList, "d".toList], .dir 1 1), (["r".toList, "d".toList], .dir 1 1),
    (["l".toList, "d".toList, "q".toList], .file 7 3 2), (["r".toList, "d".toList, "q".toList], .file 7 3 2),
    (["l".toList, "d".toList, "n".toList], .file 6 45 4),
    (["l".toList, "p".toList], .file 9 4 1), (["r".toList, "p".toList], .file 9 4 1)]
  [exRow ["d".toList] true 1 true, exRow ["d".toList, "q".toList] false 1 true, exRow ["p".toList] false 5 true]
  [exRRow ["d".toList] true, exRRow ["d".toList, "q".toList] false, exRRow ["p".toList] false] 1000

theorem exInflate_own {p : Path} (hp : p.all (fun c => decide (c ≠ "e".toList)) = true) :
    ¬ OwnExcludes exEnvI exInflate.os.fs p :=
  exEnvS_not_excluded (fs := exInflate.os.fs) (by decide +kernel) hp

theorem exInflate_ready {env : Env} (h : env = exEnvI ∨ env = exEnvE) : SyncReady env exInflate := by
  rcases h with rfl | rfl <;>
  exact syncReady_of_readyB (by decide +kernel) (fun _ => List.Perm.refl _) (by unfold Apart; decide +kernel)
    (fun _ => by show GoodStamp "19700101-000000".toList; decide +kernel) rfl

theorem exInflate_calm {env : Env} (h : env = exEnvI ∨ env = exEnvE) : Calm env exInflate := by
  rcases h with rfl | rfl <;>
  exact calm_of_calmB (clear := fun p => p.all (fun c => decide (c ≠ "e".toList))) (by simp [exEnvI, exEnvE])
    (fun _ h => exInflate_own h) (by decide +kernel)

theorem exInflate_sums : SumsOfEntries exInflate.db := by
  intro d hd
  simp only [exInflate, exWorld, exRow, List.mem_cons, List.not_mem_nil, or_false] at hd
  rcases hd with rfl | rfl | rfl
  · intro _; decide +kernel
  all_goals
    rintro ⟨e, he, h⟩
    revert e
    decide +kernel

theorem exInflate_gone (d : Path) (h : GoneRemotely exEnvI exInflate d) : ¬ d <+: ["d".toList, "n".toList] := by
  have : ∀ d ∈ ADB.paths exInflate.db, exInflate.os.fs.get (exEnvI.rem ++ d) ≠ none := by decide +kernel
  exact absurd h.2 (this d h.1)

theorem exInflate_remote (p : Path) : ¬ ChangedRemotely exEnvI exInflate p := by
  intro h
  have h1 : chR exEnvI exInflate = [] := by decide +kernel
  have := mem_chR (by decide) h
  rw [h1] at this; cases this

/-- `d/n` gets the priority 5 of `p`. -/
example : ∃ e' ∈ (sync exEnvI exInflate).2.db, e'.path = ["d".toList, "n".toList] ∧
    (∀ e ∈ exInflate.db, e.directory = false → e.data.priority ≤ e'.data.priority) ∧
    ∃ e ∈ exInflate.db, e.directory = false ∧ e.data.priority = e'.data.priority :=
  C11_sync_partial (n := .file 6 45 4) (exInflate_ready (.inl rfl)) (exInflate_calm (.inl rfl)) (by decide +kernel)
    exInflate_sums rfl (by simp) (by decide +kernel) rfl (by decide +kernel) (by rintro ⟨t, m, h, _⟩; cases h)
    (exInflate_own (by decide +kernel)) exInflate_gone (exInflate_remote _)

/-- Without InflatePriority it gets the priority 0. -/
example : ∃ e' ∈ (sync exEnvE exInflate).2.db, e'.path = ["d".toList, "n".toList] ∧ e'.data.priority = 0 :=
  C11_plain_partial (n := .file 6 45 4) (exInflate_ready (.inr rfl)) (exInflate_calm (.inr rfl)) (by decide +kernel)
    exInflate_sums rfl (by simp) (by decide +kernel) rfl (by decide +kernel) (by rintro ⟨t, m, h, _⟩; cases h)
    (exInflate_own (by decide +kernel)) exInflate_gone (exInflate_remote _)

/-! ### What does not hold -/

/-- A profile that does not know any file, and a new file `n` in the local directory. -/
def exInflateEmpty : World := exWorld exEnvI [(["l".toList, "n".toList], .file 6 45 4)] [] [] 1000

theorem exInflateEmpty_ready : SyncReady exEnvI exInflateEmpty :=
  syncReady_of_readyB (by decide +kernel) (fun _ => List.Perm.refl _) (by unfold Apart; decide +kernel)
    (fun _ => by show GoodStamp "19700101-000000".toList; decide +kernel) rfl

example : (sync exEnvI exInflateEmpty).1 ≠ .ok () :=
  C11_never_fails (p := ["n".toList]) (n := .file 6 45 4) exInflateEmpty_ready rfl (by simp) (by decide +kernel) rfl
    (by rintro ⟨t, m, h, _⟩; cases h)
    (exEnvS_not_excluded (fs := exInflateEmpty.os.fs) (by decide +kernel) (by decide +kernel)) (by simp [exInflateEmpty, exWorld])

/-- C11 fails for a profile that has no files yet: the sync of the first file stops with an error, and the file is not
copied to the remote directory. -/
theorem C11_sync_fails : SyncReady exEnvI exInflateEmpty ∧ (sync exEnvI exInflateEmpty).1 = .error .integrity ∧
    (sync exEnvI exInflateEmpty).2.os.fs.get (exEnvI.rem ++ ["n".toList]) = none :=
  ⟨exInflateEmpty_ready, by decide +kernel, by decide +kernel⟩

end Verif
