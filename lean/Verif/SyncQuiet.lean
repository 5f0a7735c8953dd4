import Verif.SafeSync
import Verif.SyncRest
import Verif.Aged
import Verif.Props.SyncEffects
/-
What a sync leaves behind if it starts in an orderly state: a state in which the next sync has nothing to do.
-/
namespace Verif
open Prog OSM Call FSTools WM

namespace TimelyW

theorem syncSave : TimelyW Verif.syncSave := by
  refine bind (save (fun _ => rfl) (fun _ => rfl)) (fun _ => bind (sys (fun t => ?_)) (fun _ =>
    bind (same (fun _ => rfl) (fun _ => rfl)) (fun _ => bind (save (fun _ => rfl) (fun _ => rfl)) (fun _ =>
      save (fun _ => rfl) (fun _ => rfl)))))
  intro s c k hk h
  rw [wp_time]
  exact h

theorem sync (env : Env) : TimelyW (Verif.sync env) :=
  bind (syncScan env) (fun _ => bind (syncRemote env _ _ _) (fun _ => bind (syncSelect env) (fun _ =>
    bind (updateLocal env _) (fun _ => bind (rmExcludedFiles env _) (fun _ => bind (syncCleanup env) (fun _ =>
      syncSave))))))

end TimelyW

section
variable {env : Env} {w : World}

/-- What a sync leaves behind if it starts in an orderly state. -/
structure Quiet (env : Env) (w : World) : Prop where
  rest : AtRest env w
  tended : Tended env w.os.fs
  settled : Settled w
  known : ∀ p n, p ≠ [] → w.os.fs.get (env.loc ++ p) = some n →
    p ∈ ADB.paths w.db ∨ UnsafeLink env.loc p n ∨ OwnExcludes env w.os.fs p
  excl : ∃ c m b, w.os.fs.get env.excl = some (.file c m b)

theorem quiet_of_sync (r : SyncReady env w) (o : Orderly env w) {c : Nat → Int} {k : Nat} (ag : AgedW c k w)
    (hx : ¬ env.loc <+: env.excl) (hx' : ¬ env.rem <+: env.excl) (h : (sync env w).1 = .ok ()) :
    Quiet env (sync env w).2 := by
  have h1 : sync env w = (.ok (), (sync env w).2) := by rw [← h]
  obtain ⟨a, m, b, he⟩ := r.excl
  have he' := (C56_outside_partial r hx hx').2 _ he rfl
  exact ⟨rest_of_sync r o.toCalm h, wp_ok (tended_sync r o) h1, wp_ok (settled_sync env ag) h1,
    (known_of_done r o.toCalm (wp_ok (wp_sync r) h1).2 ⟨a, m, b, he, he'⟩).2, a, m, b, he'⟩

/-- A path of the databases is in both directories, and it is a directory, or not, in both of them. -/
theorem AtRest.both (a : AtRest env w) {p : Path} {n : Node} (hu : UserPath p)
    (hn : w.os.fs.get (env.rem ++ p) = some n) : ∃ n', w.os.fs.get (env.loc ++ p) = some n' ∧ n'.isDir = n.isDir := by
  obtain ⟨h1, h2⟩ := a.loc p n hu hn
  cases hd : n.isDir with
  | true =>
    obtain ⟨x, y, h3⟩ := FS.isDir_iff.1 (h1 hd)
    exact ⟨_, h3, rfl⟩
  | false =>
    rcases h2 hd with h3 | ⟨t, m, h3, _⟩
    · exact ⟨_, h3, hd⟩
    · exact ⟨_, h3, rfl⟩

theorem Quiet.old (q : Quiet env w) {p : Path} {n : Node} (hp : p ≠ []) (hn : w.os.fs.get p = some n) :
    ¬ w.lastSaved < n.mtime := by
  have := q.settled.1 _ (FS.mem_of_get hp hn)
  dsimp only at this
  omega

theorem Quiet.not_gone (q : Quiet env w) {p : Path} (hp : p ∈ ADB.paths w.db) :
    (∃ n, w.os.fs.get (env.loc ++ p) = some n) ∧ ∃ n, w.os.fs.get (env.rem ++ p) = some n := by
  obtain ⟨hu, n, hn⟩ := q.rest.there ((q.rest.same p).1 hp)
  obtain ⟨n', h1, _⟩ := q.rest.both hu hn
  exact ⟨⟨n', h1⟩, n, hn⟩

theorem Quiet.unchangedL (q : Quiet env w) (fuel : Nat) (p : Path) : ¬ ChangedLocally env (w.restart fuel) p := by
  rintro ⟨h0, n, hn, h1, ⟨h2, h3⟩ | ⟨_, _, h2⟩⟩
  · rcases q.known p n h0 hn with h4 | h4 | h4
    · apply h2
      show p ∈ ADB.paths w.dbSaved
      rw [q.rest.dbSaved]; exact h4
    · exact h1 h4
    · exact h3 h4
  · exact q.old (by simp [h0]) hn h2

theorem Quiet.unchangedR (q : Quiet env w) (fuel : Nat) (p : Path) : ¬ ChangedRemotely env (w.restart fuel) p := by
  rintro (⟨hu, n, hn, h1 | ⟨_, h1⟩⟩ | ⟨e, he, rfl, _, h1⟩)
  · apply h1
    show p ∈ ADB.paths w.dbSaved
    rw [q.rest.dbSaved, q.rest.same, q.rest.remote p hu]
    exact ⟨n, hn⟩
  · exact q.old (by simp [hu.1]) hn h1
  · have h2 : e.data ≤ w.lastSaved := q.settled.2 e he
    have h3 : w.lastSaved < e.data := h1
    omega

theorem Quiet.goneL (q : Quiet env w) (fuel : Nat) (p : Path) : ¬ GoneLocally env (w.restart fuel) p := by
  rintro ⟨h1, h2⟩
  have h3 : p ∈ ADB.paths w.dbSaved := h1
  rw [q.rest.dbSaved] at h3
  obtain ⟨⟨n, h4⟩, _⟩ := q.not_gone h3
  have h5 : w.os.fs.get (env.loc ++ p) = none := h2
  rw [h4] at h5; cases h5

theorem Quiet.goneR (q : Quiet env w) (fuel : Nat) (p : Path) : ¬ GoneRemotely env (w.restart fuel) p := by
  rintro ⟨h1, h2⟩
  have h3 : p ∈ ADB.paths w.dbSaved := h1
  rw [q.rest.dbSaved] at h3
  obtain ⟨_, ⟨n, h4⟩⟩ := q.not_gone h3
  have h5 : w.os.fs.get (env.rem ++ p) = none := h2
  rw [h4] at h5; cases h5

/-- The next sync starts with what this one has left. -/
theorem Quiet.resumes (q : Quiet env w) (fuel : Nat)
    (stamp : ∀ k, w.os.tick ≤ k → GoodStamp (env.stamp (w.os.clk k)))
    (free : ∀ k p, w.os.tick ≤ k → UserPath p → GoodPath p →
      w.os.fs.get (env.loc ++ conflictPath (env.stamp (w.os.clk k)) p) = none ∧
      w.os.fs.get (env.rem ++ conflictPath (env.stamp (w.os.clk k)) p) = none) :
    Resumes env w (w.restart fuel) := by
  have remDir : w.os.fs.isDir env.rem = true := by
    obtain ⟨m, b, h⟩ := FS.isDir_iff.1 q.tended.exclDir
    refine q.rest.wf.isDir_prefix h env.rem ?_ ?_
    · unfold Env.exclDir Env.util
      rw [List.append_assoc]; exact List.prefix_append _ _
    · unfold Env.exclDir Env.util
      intro h
      have := congrArg List.length h
      simp at this
  refine ⟨⟨.none, rfl, rfl, rfl, rfl, q.rest.wf, q.tended.loc_dir, ?_, q.tended.clients env.id, q.excl, q.tended.no_util,
    ⟨?_, ?_, ?_⟩, ?_, fun f hf => absurd hf (q.unchangedL fuel f), stamp, free, fun k p h1 h2 h3 => (free k p h1 h2 h3).2⟩,
    Or.inl rfl⟩
  · intro n hn
    rw [← isDir_iff_false hn]; exact remDir
  · intro p hp a b ha hb
    by_cases h0 : p = []
    · subst h0
      rw [List.append_nil] at ha hb
      rw [← isDir_iff_false ha, ← isDir_iff_false hb]
      exact q.tended.loc_dir.trans remDir.symm
    · obtain ⟨n', h1, h2⟩ := q.rest.both (hp.user h0) hb
      have h3 : some a = some n' := ha.symm.trans h1
      cases h3
      exact h2
  · intro p hp a b ha hb hl
    by_cases h0 : p = []
    · subst h0
      rw [List.append_nil] at hb
      have := isDir_iff_false hb
      rw [isDir_of_isLink hl] at this
      exact absurd (remDir.symm.trans this) (by simp)
    · rw [q.tended.plain p b (hp.user h0) hb] at hl; cases hl
  · intro p hp t m b ha hb
    by_cases h0 : p = []
    · subst h0
      rw [List.append_nil] at ha
      have := isDir_iff_false ha
      exact absurd (q.tended.loc_dir.symm.trans this) (by simp [Node.isDir])
    · have hu := hp.user h0
      obtain ⟨n', h1, h2⟩ := q.rest.both hu hb
      have h3 : w.os.fs.get (env.loc ++ p) = some (.link t m) := ha
      rw [h3] at h1; cases h1
      rcases (q.rest.loc p b hu hb).2 h2.symm with h4 | ⟨t', m', h4, h5⟩
      · rw [h3] at h4; cases h4; exact Or.inr rfl
      · rw [h3] at h4; cases h4; exact h5
  · rintro p n n' hu hn (h1 | h1)
    · obtain ⟨n'', h2, h3⟩ := q.rest.both hu hn
      have h4 : some n' = some n'' := h1.symm.trans h2
      cases h4; exact h3
    · have h4 : some n' = some n := h1.symm.trans hn
      cases h4; rfl

/-- The next sync starts in an orderly state. -/
theorem Quiet.orderly (q : Quiet env w) {fuel : Nat} (rs : Resumes env w (w.restart fuel))
    (inflate : env.inflate = true → ∃ e ∈ w.db, e.directory = false) : Orderly env (w.restart fuel) := by
  refine ⟨rs.calm q.rest, q.tended.exclDir, q.tended.clients, ?_, fun p t m h0 h => (q.tended.own p t m h0 h).1,
    q.tended.plain, fun p t m h0 h => Or.inl (q.tended.own p t m h0 h).2, fun p h => absurd h (q.goneL fuel p),
    fun p h => absurd h (q.goneR fuel p), ?_, fun f d h => absurd h (q.unchangedL fuel f),
    fun f h => absurd h (q.unchangedR fuel f), fun f h => absurd h (q.unchangedL fuel f),
    fun p a b h => absurd h (q.unchangedL fuel p), fun p _ h => absurd h (q.goneL fuel p), q.tended.tidyTrash⟩
  · intro n hn
    rw [← isDir_iff_false hn]; exact q.tended.trash
  · intro hi
    obtain ⟨e, he, hd⟩ := inflate hi
    obtain ⟨h1, h2⟩ := q.not_gone (List.mem_map.2 ⟨e, he, rfl⟩)
    refine ⟨e, ?_, hd, q.unchangedL fuel _, h1, h2⟩
    show e ∈ w.dbSaved
    rw [q.rest.dbSaved]; exact he

theorem AgedW.restart {c : Nat → Int} {k : Nat} (h : AgedW c k w) (a : AtRest env w) (fuel : Nat) :
    AgedW c k (w.restart fuel) := by
  refine ⟨h.1, ?_⟩
  intro e he
  have h1 : e ∈ w.rdbSaved := he
  rw [a.rdbSaved] at h1
  exact h.2 e h1

end

end Verif
