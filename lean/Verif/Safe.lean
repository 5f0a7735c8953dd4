import Verif.SyncSteps
import Verif.Props.C63_DanglingExclude
/-
Programs that end without an exception unless they are killed.
-/
namespace Verif
open Prog OSM Call FSTools WM

/-- The program raises nothing; it can only be killed. -/
def Safe {σ α : Type} (m : Prog σ α) (s : σ) : Prop := wp m (fun _ _ => True) (fun e _ => e = .killed) s

section
variable {σ α β γ : Type} {s : σ}

theorem Safe.and {m : Prog σ α} (h : Safe m s) {Q : α → σ → Prop} {E : Err → σ → Prop} (h' : wp m Q E s) :
    wp m Q (fun e _ => e = .killed) s :=
  wp_mono (wp_and h h') (fun _ _ h => h.2) (fun _ _ h => h.1)

theorem Safe.of {m : Prog σ α} {Q : α → σ → Prop} (h : wp m Q (fun e _ => e = .killed) s) : Safe m s :=
  wp_mono h (fun _ _ _ => trivial) (fun _ _ h => h)

theorem Safe.bind {m : Prog σ α} {f : α → Prog σ β} (hm : Safe m s) {Q : α → σ → Prop} {E : Err → σ → Prop}
    (h' : wp m Q E s) (hf : ∀ a s', Q a s' → Safe (f a) s') : Safe (m >>= f) s := by
  unfold Safe
  rw [wp_bind]
  exact wp_mono (hm.and h') (fun a s' h => hf a s' h) (fun _ _ h => h)

theorem Safe.bindW {m : Prog σ α} {f : α → Prog σ β} (hm : Safe m s) {Q : α → σ → Prop} {E : Err → σ → Prop}
    {R : β → σ → Prop} (h' : wp m Q E s) (hf : ∀ a s', Q a s' → wp (f a) R (fun e _ => e = .killed) s') :
    wp (m >>= f) R (fun e _ => e = .killed) s := by
  rw [wp_bind]
  exact wp_mono (hm.and h') (fun a s' h => hf a s' h) (fun _ _ h => h)

theorem Safe.pure (a : α) : Safe (Pure.pure a : Prog σ α) s := trivial

/-- A program that is safe ends normally if it is not killed. -/
theorem Safe.ok {m : Prog σ α} (h : Safe m s) (hk : (m s).1 ≠ .error .killed) : ∃ a, (m s).1 = .ok a := by
  unfold Safe wp at h
  cases hm : m s with
  | mk r s' =>
    rw [hm] at h hk
    cases r with
    | ok a => exact ⟨a, rfl⟩
    | error e => exact absurd (congrArg Except.error h) hk

theorem Safe.sys {m : OSM α} {w : World} (h : Safe m w.os) : Safe (WM.sys m) w := by
  unfold Safe
  rw [wp_sys]
  exact h

/-- A loop with an invariant, every round of which is safe. -/
theorem Safe.each {f : γ → Prog σ Unit} (I : List γ → σ → Prop) (l : List γ)
    (hs : ∀ done x rest, l = done ++ x :: rest → ∀ s, I done s → Safe (f x) s)
    {E : Err → σ → Prop} (hi : ∀ done x rest, l = done ++ x :: rest → ∀ s, I done s → wp (f x) (fun _ s' => I (done ++ [x]) s') E s)
    (h0 : I [] s) : Safe (Prog.each f l) s :=
  Safe.of (wp_each I l (fun done x rest hl s h => (hs done x rest hl s h).and (hi done x rest hl s h)) h0)

end

theorem safe_op {f : FS → Int → Except Err FS} {s : OS} (h : ∀ now, ∃ fs', f s.fs now = .ok fs') : Safe (op f) s := by
  refine wp_op rfl (fun _ _ => trivial) (fun e he => ?_)
  obtain ⟨fs', h'⟩ := h (s.clk s.tick)
  rw [h'] at he; cases he

theorem safe_query {α : Type} {f : FS → Except Err α} {s : OS} (h : ∃ a, f s.fs = .ok a) : Safe (query f) s := by
  unfold Safe
  rw [wp_query]
  refine ⟨fun _ _ => trivial, fun e he => ?_⟩
  obtain ⟨a, h'⟩ := h
  rw [h'] at he; cases he

theorem safe_orRemote {α : Type} {env : Env} {m : OSM α} {s : OS} (h : Safe m s) : Safe (orRemote env m) s := by
  unfold orRemote Safe
  rw [wp_tryCatch]
  refine wp_mono h (fun _ _ h => h) (fun e s' h => ?_)
  subst h
  simp

theorem safe_save {f : World → World} {w : World} : Safe (save f) w := by
  unfold save
  exact Safe.bind (Safe.sys (safe_op (fun now => ⟨_, rfl⟩))) (Q := fun _ _ => True) (E := fun _ _ => True)
    (by unfold wp; split <;> trivial) (fun _ _ _ => trivial)

/-- A run that ends in any way. -/
theorem wp_anyway {σ α : Type} (m : Prog σ α) (s : σ) : wp m (fun _ _ => True) (fun _ _ => True) s := by
  unfold wp; split <;> trivial

theorem Safe.then {σ α β : Type} {m : Prog σ α} {f : α → Prog σ β} {s : σ} (hm : Safe m s)
    (hf : ∀ a s', Safe (f a) s') : Safe (m >>= f) s :=
  hm.bind (wp_anyway m s) (fun a s' _ => hf a s')

/-! ### The start of a sync -/

theorem safe_makedirs {p : Path} {s : OS} (wf : s.fs.WF) (h : s.fs.isDir p = true) : Safe (makedirs p) s := by
  obtain ⟨m, b, hg⟩ := FS.isDir_iff.1 h
  exact Safe.of (wp_mono (wp_makedirs_dir wf hg) (fun _ _ h => h) (fun _ _ h => h.2))

theorem sameFile_false {fs : FS} {p q : Path} (hp : ∀ t m, fs.get p ≠ some (.link t m))
    (hq : ∀ t m, fs.get q ≠ some (.link t m)) (hne : p ≠ q) : sameFile fs p q = false := by
  unfold sameFile
  split
  · rename_i a n b k h1 h2
    rw [decide_eq_false_iff_not]
    rintro rfl
    have f : ∀ {x y : Path} {n : Node}, (∀ t m, fs.get x ≠ some (.link t m)) → fs.stat x = .ok (y, n) → y = x := by
      intro x y n hx h
      unfold FS.stat at h
      rcases Option.eq_none_or_eq_some (fs.pathErr x) with hpe | ⟨e, hpe⟩
      · rw [FS.follow_nonlink hpe hx] at h
        dsimp only at h
        split at h
        · cases h; rfl
        · cases h
      · rw [FS.follow] at h
        simp [hpe] at h
    exact hne ((f hp h1).symm.trans (f hq h2))
  · rfl

theorem safe_addExcludeFile {env : Env} {s : OS} (wf : s.fs.WF) (hd : s.fs.isDir env.exclDir = true)
    (hslot : ∀ n, s.fs.get (env.exclDir ++ [env.id]) = some n → ∃ c m b, n = .file c m b)
    (hx : ∃ c m b, s.fs.get env.excl = some (.file c m b)) (hne : env.excl ≠ env.exclDir ++ [env.id]) :
    Safe (addExcludeFile env) s := by
  obtain ⟨k, m, b, hx⟩ := hx
  have hpe : s.fs.pathErr (env.exclDir ++ [env.id]) = none :=
    pathErr_of_parent wf (by simp) (by simpa using hd)
  generalize hDe : env.exclDir ++ [env.id] = D at hslot hne hpe
  have hnl : ∀ t m, s.fs.get D ≠ some (.link t m) := by
    intro t m h
    obtain ⟨c, m', b, h'⟩ := hslot _ h
    cases h'
  have hpid : s.fs.pathIsDir D = false := by
    unfold FS.pathIsDir
    rcases Option.eq_none_or_eq_some (s.fs.get D) with h | ⟨n, h⟩
    · obtain ⟨e, he⟩ := FS.stat_none h
      rw [he]
    · obtain ⟨c, m, b, rfl⟩ := hslot _ h
      rw [FS.stat_nonlink (wf.pathErr h) h rfl]
      rfl
  have hD0 : D ≠ [] := by
    rintro rfl
    obtain ⟨c, m, b, h⟩ := hslot _ (FS.get_nil _)
    cases h
  apply safe_orRemote
  unfold copyPlain Safe
  rw [hDe, wp_bind, wp_ask]
  simp only [hpid, Bool.false_eq_true, if_false]
  rw [wp_bind, wp_ask, sameFile_false (by rw [hx]; rintro t m ⟨⟩) hnl hne]
  simp only [Bool.false_eq_true, if_false]
  rw [wp_bind, wp_query]
  refine ⟨?_, ?_⟩
  · rintro ⟨q, n⟩ h
    rw [stat_file wf hx] at h
    cases h
    dsimp only
    rw [wp_bind, wp_query, FS.follow_nonlink hpe hnl]
    refine ⟨?_, fun e h => by cases h⟩
    rintro _ ⟨rfl⟩
    have hcase : ∀ now, ∃ fs', (match s.fs.get D with
        | some (.dir ..) => Except.error Err.isDir
        | some (.link ..) => .error .loop
        | _ => .ok (s.fs.set D (.file 0 now 0)) : Except Err FS) = .ok fs' := by
      intro now
      rcases Option.eq_none_or_eq_some (s.fs.get D) with h | ⟨n, h⟩
      · rw [h]; exact ⟨_, rfl⟩
      · obtain ⟨c, m, b, rfl⟩ := hslot _ h
        rw [h]; exact ⟨_, rfl⟩
    rw [wp_bind]
    unfold truncate
    refine wp_op rfl ?_ ?_
    · intro fs1 h1
      have h1' : fs1.get D ≠ none := by
        split at h1
        · cases h1
        · cases h1
        · cases h1
          rw [FS.get_set_self _ hD0]; simp
      refine safe_op (fun now => ?_)
      show ∃ fs', (match fs1.get D with
        | some n => .ok (fs1.set D _)
        | none => .error .notFound : Except Err FS) = _
      rcases Option.eq_none_or_eq_some (fs1.get D) with h | ⟨n, h⟩
      · exact absurd h h1'
      · rw [h]; exact ⟨_, rfl⟩
    · intro e h1
      obtain ⟨fs', h'⟩ := hcase (s.clk s.tick)
      exact absurd (h1.symm.trans h') (by simp)
  · intro e h
    rw [stat_file wf hx] at h
    cases h

theorem scandir_ok {fs : FS} (wf : fs.WF) {p : Path} (h : fs.isDir p = true) :
    scandir fs p = .ok (((fs.below p).map Prod.fst).filter (fun e => decide (e.length = 1))) := by
  obtain ⟨m, b, hg⟩ := FS.isDir_iff.1 h
  unfold scandir scanTree
  rw [FS.stat_nonlink (wf.pathErr hg) hg rfl]
  simp

theorem safe_scanLocal {env : Env} {w : World} (wf : w.os.fs.WF) (h : w.os.fs.isDir env.loc = true) :
    Safe (scanLocal env) w := by
  unfold scanLocal Safe
  rw [wp_bind, wp_gets]
  split
  · rw [wp_bind, wp_sys, wp_query, scanNodes_of wf h]
    exact ⟨fun _ _ => trivial, fun e h => by cases h⟩
  · trivial

theorem safe_rescanRemote {env : Env} {w : World} (wf : w.os.fs.WF) (h : w.os.fs.isDir env.rem = true) :
    Safe (rescanRemote env) w := by
  unfold rescanRemote Safe
  rw [wp_bind, wp_sys, wp_query, scanNodes_of wf h]
  exact ⟨fun _ _ => trivial, fun e h => by cases h⟩

theorem safe_scanRemote {env : Env} {w : World} (wf : w.os.fs.WF) (h : w.os.fs.isDir env.rem = true) :
    Safe (scanRemote env) w := by
  unfold scanRemote Safe
  rw [wp_bind, wp_gets]
  split
  · exact safe_rescanRemote wf h
  · trivial

/-- Every local entry that the patterns match can be followed, or is a link into what is now a file. -/
def Followable (fs : FS) (loc : Path) (pats : Patterns) : Prop :=
  ∀ p n, p ≠ [] → fs.get (loc ++ p) = some n → pats.any (fun g => g p) = true →
    (∃ r, fs.stat (loc ++ p) = .ok r) ∨ fs.stat (loc ++ p) = .error .notDir

theorem globMatches_of {fs : FS} (wf : fs.WF) {loc : Path} {pats : Patterns} (h : Followable fs loc pats) :
    globMatches fs loc pats = .ok (allMatches pats ((fs.below loc).map Prod.fst)) := by
  unfold globMatches
  rw [List.findSome?_eq_none_iff.2]
  intro p hp
  obtain ⟨h0, n, hn⟩ := (mem_keys_below wf).1 hp
  split
  · rename_i hm
    rcases h p n h0 hn hm with ⟨r, hr⟩ | hr
    · rw [hr]
    · rw [hr]; rfl
  · rfl

theorem safe_exclMatches {env : Env} {w : World} (wf : w.os.fs.WF) {c : Nat} {m : Int} {b : Nat}
    (hx : w.os.fs.get env.excl = some (.file c m b)) (hf : Followable w.os.fs env.loc (env.patsOf c)) :
    Safe (exclMatches env) w := by
  unfold exclMatches Safe
  rw [wp_bind, wp_gets]
  split
  · trivial
  · have hr : readPatterns env w.os.fs env.excl = .ok (env.patsOf c) := by
      unfold readPatterns; rw [stat_file wf hx]
    rw [wp_bind, wp_sys, wp_query, hr]
    refine ⟨?_, fun e h => by cases h⟩
    rintro _ ⟨rfl⟩
    rw [wp_bind, wp_sys, wp_query]
    show (∀ a, globMatches w.os.fs env.loc (env.patsOf c) = .ok a → _) ∧
      (∀ e, globMatches w.os.fs env.loc (env.patsOf c) = .error e → _)
    rw [globMatches_of wf hf]
    exact ⟨fun _ _ => trivial, fun e h => by cases h⟩

/-- `compute_deleted` does not raise if every known path that is missing locally is in the remote database. -/
theorem dropSubs_some {subs : Path → List Path} : ∀ {l : List Path}, (∀ q ∈ l, q ∈ subs q) → ∀ del,
    ∃ r, dropSubs subs l del = some r
  | [], _, del => ⟨del, rfl⟩
  | q :: qs, h, del => by
    unfold dropSubs
    rw [if_pos (h q (by simp))]
    exact dropSubs_some (fun x hx => h x (by simp [hx])) _

theorem computeDeleted_some {lkeys rkeys : List Path} {db : ALocal} {rdb : ARemote} {t : Bool}
    (h : ∀ p ∈ ADB.paths db, p ∉ lkeys → p ∈ ADB.paths rdb) : ∃ d, computeDeleted lkeys rkeys db rdb t = some d := by
  have self : ∀ {β : Type} (a : List (Entry β)) (p : Path), p ∈ ADB.paths a → p ∈ ADB.paths (ADB.rows a p) := by
    intro β a p hp
    obtain ⟨e, he, rfl⟩ := List.mem_map.1 hp
    refine List.mem_map.2 ⟨e, ?_, rfl⟩
    unfold ADB.rows
    rw [List.mem_filter]
    exact ⟨he, by simp⟩
  unfold computeDeleted
  dsimp only
  obtain ⟨r1, h1⟩ := dropSubs_some (subs := fun q => ADB.paths (ADB.rows db q))
    (l := (ADB.paths db).filter (fun p => decide (p ∉ rkeys)))
    (fun q hq => self db q (List.mem_filter.1 hq).1) ((ADB.paths db).filter (fun p => decide (p ∉ rkeys)))
  obtain ⟨r2, h2⟩ := dropSubs_some (subs := fun q => ADB.paths (ADB.rows rdb q))
    (l := (ADB.paths db).filter (fun p => decide (p ∉ lkeys)))
    (fun q hq => self rdb q (h q (List.mem_filter.1 hq).1 (by simpa using (List.mem_filter.1 hq).2)))
    ((ADB.paths db).filter (fun p => decide (p ∉ lkeys)))
  rw [h1, h2]
  exact ⟨_, rfl⟩

end Verif
