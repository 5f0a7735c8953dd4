import Verif.Commands
import Verif.Props.C72_Progress
/-
Programs that end: after a number of changes that depends on the state only, whatever the limit on the number of
changes (`fuel`) is; and with a lower limit they are killed.
-/
namespace Verif
open Prog OSM Call FSTools WM

/-- States with a limit on the number of changes. -/
class Fueled (σ : Type) where
  setFuel : Nat → σ → σ

export Fueled (setFuel)

instance : Fueled OS := ⟨fun n s => { s with fuel := n }⟩
instance : Fueled World := ⟨fun n w => { w with os := { w.os with fuel := n } }⟩

/-- The program ends after `n` changes with a result and a state that do not depend on the limit, and is killed if the
limit is lower. -/
def Ends {σ α : Type} [Fueled σ] (m : Prog σ α) : Prop :=
  ∀ s : σ, ∃ (n : Nat) (r : Except Err α) (s' : σ), r ≠ .error .killed ∧
    (∀ k, m (setFuel (n + k) s) = (r, setFuel k s')) ∧ ∀ k, k < n → (m (setFuel k s)).1 = .error .killed

/-- A result that is not the end of the process. -/
def NotKilled {α : Type} (r : Except Err α) : Prop := r ≠ .error .killed

section
variable {σ α β γ : Type} [Fueled σ]

theorem Ends.pure (a : α) : Ends (pure a : Prog σ α) := fun s =>
  ⟨0, .ok a, s, nofun, fun k => by rw [Nat.zero_add]; rfl, fun k h => absurd h (Nat.not_lt_zero _)⟩

theorem Ends.throw {e : Err} (h : e ≠ .killed) : Ends (throw e : Prog σ α) := fun s =>
  ⟨0, .error e, s, fun h1 => h (Except.error.inj h1), fun k => by rw [Nat.zero_add]; rfl,
    fun k h => absurd h (Nat.not_lt_zero _)⟩

theorem killed_bind {m : Prog σ α} {f : α → Prog σ β} {s : σ} (h : (m s).1 = .error .killed) :
    ((m >>= f) s).1 = .error .killed := by
  rw [bind_error (Prod.ext h rfl)]

theorem Ends.bind {m : Prog σ α} {f : α → Prog σ β} (hm : Ends m) (hf : ∀ a, Ends (f a)) : Ends (m >>= f) := by
  intro s
  obtain ⟨n, r, s', h1, h2, h3⟩ := hm s
  cases r with
  | error e =>
    refine ⟨n, .error e, s', fun h => h1 (by rw [Except.error.inj h]), fun k => bind_error (h2 k),
      fun k hk => killed_bind (h3 k hk)⟩
  | ok a =>
    obtain ⟨n', r', s'', h4, h5, h6⟩ := hf a s'
    refine ⟨n + n', r', s'', h4, fun k => ?_, fun k hk => ?_⟩
    · rw [Nat.add_assoc, bind_ok (h2 _), h5]
    · by_cases h : k < n
      · exact killed_bind (h3 k h)
      · obtain ⟨j, rfl⟩ : ∃ j, k = n + j := ⟨k - n, by omega⟩
        rw [bind_ok (h2 _)]
        exact h6 j (by omega)

theorem Ends.tryCatch {m : Prog σ α} {h : Err → Option (Prog σ α)} (hm : Ends m)
    (hh : ∀ e k, e ≠ .killed → h e = some k → Ends k) : Ends (Prog.tryCatch m h) := by
  intro s
  obtain ⟨n, r, s', h1, h2, h3⟩ := hm s
  have hlow : ∀ k, k < n → (Prog.tryCatch m h (setFuel k s)).1 = .error .killed := by
    intro k hk
    have := h3 k hk
    unfold Prog.tryCatch
    rcases hr : m (setFuel k s) with ⟨r1, s1⟩
    rw [hr] at this
    dsimp only at this
    subst this
    rfl
  cases r with
  | ok a =>
    refine ⟨n, .ok a, s', nofun, fun k => ?_, hlow⟩
    unfold Prog.tryCatch
    rw [h2]
  | error e =>
    have hne : e ≠ .killed := fun he => h1 (by rw [he])
    cases hc : h e with
    | none =>
      refine ⟨n, .error e, s', fun he => h1 (by rw [Except.error.inj he]), fun k => ?_, hlow⟩
      unfold Prog.tryCatch
      rw [h2]
      dsimp only
      rw [if_neg hne, hc]
    | some c =>
      obtain ⟨n', r', s'', h4, h5, h6⟩ := hh e c hne hc s'
      have hc' : ∀ k, Prog.tryCatch m h (setFuel (n + k) s) = c (setFuel k s') := by
        intro k
        unfold Prog.tryCatch
        rw [h2]
        dsimp only
        rw [if_neg hne, hc]
      refine ⟨n + n', r', s'', h4, fun k => ?_, fun k hk => ?_⟩
      · rw [Nat.add_assoc, hc', h5]
      · by_cases h : k < n
        · exact hlow k h
        · obtain ⟨j, rfl⟩ : ∃ j, k = n + j := ⟨k - n, by omega⟩
          rw [hc']
          exact h6 j (by omega)

theorem Ends.each {f : γ → Prog σ Unit} (h : ∀ x, Ends (f x)) : ∀ l, Ends (Prog.each f l)
  | [] => Ends.pure ()
  | x :: l => Ends.bind (h x) (fun _ => Ends.each h l)

theorem Ends.ite {p : Prop} [Decidable p] {m m' : Prog σ α} (h1 : Ends m) (h2 : Ends m') :
    Ends (if p then m else m') := by
  split
  · exact h1
  · exact h2

end

section
variable {α : Type}

theorem Ends.query {f : FS → Except Err α} (h : ∀ fs, NotKilled (f fs)) : Ends (query f) := fun s =>
  ⟨0, f s.fs, s, h _, fun k => by rw [Nat.zero_add]; rfl, fun k h => absurd h (Nat.not_lt_zero _)⟩

theorem Ends.ask {f : FS → α} : Ends (ask f) := fun s =>
  ⟨0, .ok (f s.fs), s, nofun, fun k => by rw [Nat.zero_add]; rfl, fun k h => absurd h (Nat.not_lt_zero _)⟩

theorem Ends.time : Ends time := fun s =>
  ⟨0, .ok (s.clk s.tick), s, nofun, fun k => by rw [Nat.zero_add]; rfl, fun k h => absurd h (Nat.not_lt_zero _)⟩

theorem Ends.op {f : FS → Int → Except Err FS} (h : ∀ fs now, NotKilled (f fs now)) : Ends (op f) := by
  intro s
  cases hr : f s.fs (s.clk s.tick) with
  | ok fs =>
    refine ⟨1, .ok (), { s with fs := fs, tick := s.tick + 1 }, nofun, fun k => ?_, fun k hk => ?_⟩
    · unfold OSM.op
      rw [Nat.add_comm]
      dsimp only [setFuel]
      rw [hr]
    · obtain rfl : k = 0 := by omega
      rfl
  | error e =>
    refine ⟨1, .error e, { s with tick := s.tick + 1 }, fun he => h _ _ (by rw [hr, Except.error.inj he]), fun k => ?_,
      fun k hk => ?_⟩
    · unfold OSM.op
      rw [Nat.add_comm]
      dsimp only [setFuel]
      rw [hr]
    · obtain rfl : k = 0 := by omega
      rfl

theorem Ends.sys {m : OSM α} (h : Ends m) : Ends (sys m) := by
  intro w
  obtain ⟨n, r, s', h1, h2, h3⟩ := h w.os
  refine ⟨n, r, { w with os := s' }, h1, fun k => ?_, fun k hk => ?_⟩
  · have : m (setFuel (n + k) w).os = _ := h2 k
    unfold WM.sys
    rw [this]
    rfl
  · exact h3 k hk

theorem Ends.gets {f : World → α} (h : ∀ k w, f (setFuel k w) = f w) : Ends (gets f) := fun w =>
  ⟨0, .ok (f w), w, nofun, fun k => by rw [Nat.zero_add, ← h k w]; rfl, fun k h => absurd h (Nat.not_lt_zero _)⟩

theorem Ends.modify {f : World → World} (h : ∀ k w, f (setFuel k w) = setFuel k (f w)) : Ends (modify f) := fun w =>
  ⟨0, .ok (), f w, nofun, fun k => by rw [Nat.zero_add, ← h k w]; rfl, fun k h => absurd h (Nat.not_lt_zero _)⟩

theorem Ends.get? {e : Err} (h : e ≠ .killed) : ∀ o : Option α, Ends (get? e o)
  | some a => Ends.pure a
  | none => Ends.throw h

end

/-! ### System calls do not end the process -/

section
variable (fs : FS)

theorem pathErr_notKilled (p : Path) : fs.pathErr p ≠ some .killed := by
  unfold FS.pathErr
  intro h
  obtain ⟨q, _, h⟩ := List.exists_of_findSome?_eq_some h
  split at h <;> cases h

theorem lstat_notKilled (p : Path) : NotKilled (fs.lstat p) := by
  intro h
  unfold FS.lstat at h
  split at h
  · rename_i e he
    exact pathErr_notKilled fs p (by rw [he, Except.error.inj h])
  · split at h <;> cases h

theorem follow_notKilled : ∀ n p, NotKilled (fs.follow n p)
  | 0, _ => nofun
  | n + 1, p => by
    intro h
    unfold FS.follow at h
    split at h
    · rename_i e he
      exact pathErr_notKilled fs p (by rw [he, Except.error.inj h])
    · split at h
      · exact follow_notKilled n _ h
      · cases h

theorem stat_notKilled (p : Path) : NotKilled (fs.stat p) := by
  intro h
  unfold FS.stat at h
  split at h
  · rename_i e he
    exact follow_notKilled fs 40 p (by rw [he, Except.error.inj h])
  · split at h <;> cases h

theorem remove_notKilled (p : Path) : NotKilled (fs.remove p) := by
  intro h
  unfold FS.remove at h
  split at h
  · rename_i e he
    exact lstat_notKilled fs p (by rw [he, Except.error.inj h])
  all_goals cases h

theorem rmdir_notKilled (p : Path) : NotKilled (fs.rmdir p) := by
  intro h
  unfold FS.rmdir at h
  split at h
  · rename_i e he
    exact lstat_notKilled fs p (by rw [he, Except.error.inj h])
  · split at h <;> cases h
  · cases h

theorem create_notKilled (p : Path) (n : Node) : NotKilled (fs.create p n) := by
  intro h
  unfold FS.create at h
  split at h
  · cases h
  · rename_i e he
    split at h
    · exact lstat_notKilled fs p (by rw [he, Except.error.inj h])
    · cases h

theorem rename_notKilled (p q : Path) : NotKilled (fs.rename p q) := by
  intro h
  unfold FS.rename at h
  split at h
  · rename_i e he
    exact lstat_notKilled fs p (by rw [he, Except.error.inj h])
  · split at h
    · rename_i e he
      exact pathErr_notKilled fs q (by rw [he, Except.error.inj h])
    · repeat' split at h
      all_goals cases h

theorem scanTree_notKilled (p : Path) : NotKilled (scanTree fs p) := by
  intro h
  unfold scanTree at h
  split at h
  · rename_i e he
    exact stat_notKilled fs p (by rw [he, Except.error.inj h])
  · split at h <;> cases h
  · cases h

theorem relPaths_notKilled (src : Path) : ∀ files acc, NotKilled (relPaths fs src files acc)
  | [], _ => nofun
  | f :: files, acc => by
    intro h
    unfold relPaths at h
    split at h
    · exact relPaths_notKilled src files _ h
    · exact relPaths_notKilled src files _ h
    · rename_i e _ he
      exact scanTree_notKilled fs _ (by rw [he, Except.error.inj h])

theorem listPaths_notKilled (src : Path) : ∀ files, NotKilled (listPaths fs src files)
  | none => scanTree_notKilled fs src
  | some files => relPaths_notKilled fs src files []

theorem scandir_notKilled (p : Path) : NotKilled (scandir fs p) := by
  intro h
  unfold scandir at h
  split at h
  · cases h
  · rename_i e he
    exact scanTree_notKilled fs _ (by rw [he, Except.error.inj h])

theorem scanNodes_notKilled (p : Path) : NotKilled (scanNodes fs p) := by
  intro h
  unfold scanNodes at h
  split at h
  · cases h
  · rename_i e he
    exact scanTree_notKilled fs _ (by rw [he, Except.error.inj h])

variable (env : Env)

theorem readPatterns_notKilled (p : Path) : NotKilled (readPatterns env fs p) := by
  intro h
  unfold readPatterns at h
  split at h
  · cases h
  · cases h
  · rename_i e he
    exact stat_notKilled fs _ (by rw [he, Except.error.inj h])

theorem globMatches_notKilled (loc : Path) (pats : Patterns) : NotKilled (globMatches fs loc pats) := by
  intro h
  unfold globMatches at h
  split at h
  · rename_i e he
    obtain ⟨m, _, h1⟩ := List.exists_of_findSome?_eq_some he
    split at h1
    · split at h1
      · rename_i e' he'
        split at h1
        · cases h1
        · cases h1
          exact stat_notKilled fs _ (by rw [he', Except.error.inj h])
      · cases h1
    · cases h1
  · cases h

theorem clientMatches_notKilled (c : Path) : NotKilled (clientMatches env fs c) := by
  intro h
  unfold clientMatches at h
  split at h
  · exact globMatches_notKilled _ _ _ h
  · rename_i e he
    exact readPatterns_notKilled fs env c (by rw [he, Except.error.inj h])

theorem allExclude_notKilled (p : Path) : ∀ cs, NotKilled (allExclude env fs p cs)
  | [] => nofun
  | c :: cs => by
    intro h
    unfold allExclude at h
    split at h
    · split at h
      · exact allExclude_notKilled p cs h
      · cases h
    · rename_i e he
      exact clientMatches_notKilled fs env c (by rw [he, Except.error.inj h])

theorem excludedLoop_notKilled (cs : List Path) : ∀ ps, NotKilled (excludedLoop env fs cs ps)
  | [] => nofun
  | p :: ps => by
    intro h
    unfold excludedLoop at h
    split at h
    · split at h
      · cases h
      · rename_i e he
        exact excludedLoop_notKilled cs ps (by rw [he, Except.error.inj h])
    · rename_i e he
      exact allExclude_notKilled fs env p cs (by rw [he, Except.error.inj h])

theorem checkExcluded_notKilled (ps : List Path) : NotKilled (checkExcluded env ps fs) := by
  intro h
  unfold checkExcluded at h
  split at h
  · exact excludedLoop_notKilled _ _ _ _ h
  · rename_i e he
    exact scandir_notKilled fs _ (by rw [he, Except.error.inj h])

end

theorem conflictStep_notKilled {env : Env} {db : ALocal} {now : Int} {l r : Scan} {d : Diffs} {p : Path} :
    NotKilled (conflictStep env db now l r d p) := by
  intro h
  unfold conflictStep at h
  repeat' split at h
  all_goals cases h

theorem conflictLoop_notKilled {env : Env} {db : ALocal} {now : Int} {l r : Scan} :
    ∀ ps d, NotKilled (conflictLoop env db now l r ps d)
  | [], _ => nofun
  | p :: ps, d => by
    intro h
    unfold conflictLoop at h
    split at h
    · exact conflictLoop_notKilled ps _ h
    · rename_i e he
      exact conflictStep_notKilled (by rw [he, Except.error.inj h])

/-! ### The parts of the commands -/

/-- Take a program apart. -/
macro "ends" : tactic => `(tactic| repeat' (first
  | assumption
  | exact Ends.pure _ | exact Ends.ask | exact Ends.time | exact Ends.throw (by decide)
  | exact Ends.get? (by decide) _ | exact Ends.gets (fun _ _ => rfl) | exact Ends.modify (fun _ _ => rfl)
  | refine Ends.sys ?_ | refine Ends.ite ?_ ?_ | refine Ends.bind ?_ (fun _ => ?_) | split
  | refine Ends.each (fun _ => ?_) _))

theorem ends_remove (p : Path) : Ends (remove p) := Ends.op (fun fs _ => remove_notKilled fs p)
theorem ends_rmdir (p : Path) : Ends (rmdir p) := Ends.op (fun fs _ => rmdir_notKilled fs p)
theorem ends_mkdir (p : Path) : Ends (mkdir p) := Ends.op (fun fs _ => create_notKilled fs p _)
theorem ends_symlink (t : Str) (p : Path) : Ends (symlink t p) := Ends.op (fun fs _ => create_notKilled fs p _)
theorem ends_rename (p q : Path) : Ends (rename p q) := Ends.op (fun fs _ => rename_notKilled fs p q)
theorem ends_lstat (p : Path) : Ends (query (fun fs => fs.lstat p)) := Ends.query (fun fs => lstat_notKilled fs p)
theorem ends_stat (p : Path) : Ends (query (fun fs => fs.stat p)) := Ends.query (fun fs => stat_notKilled fs p)
theorem ends_follow (p : Path) : Ends (query (fun fs => fs.follow 40 p)) := Ends.query (fun fs => follow_notKilled fs _ p)
theorem ends_scandir (p : Path) : Ends (query (fun fs => scandir fs p)) := Ends.query (fun fs => scandir_notKilled fs p)

theorem ends_update (p : Path) (f : Node → Int → Node) : Ends (update p f) :=
  Ends.op (fun fs _ h => by split at h <;> cases h)

theorem ends_truncate (p : Path) : Ends (truncate p) := Ends.op (fun fs _ h => by split at h <;> cases h)

theorem ends_mkdirOk (p : Path) : Ends (mkdirOk p) := by
  refine Ends.tryCatch (ends_mkdir p) ?_
  rintro e _ he ⟨⟩
  exact Ends.bind Ends.ask (fun _ => Ends.ite (Ends.pure _) (Ends.throw he))

theorem ends_ignore {σ : Type} [Fueled σ] {α : Type} {m : Prog σ α} {x : Err} {c : Prog σ α} (h : Ends m) (hc : Ends c) :
    Ends (Prog.tryCatch m (fun e => if e = x then some c else none)) := by
  refine Ends.tryCatch h (fun e k _ hk => ?_)
  split at hk
  · cases hk; exact hc
  · cases hk

theorem ends_makedirsRev : ∀ p, Ends (makedirsRev p)
  | [] => ends_mkdirOk _
  | c :: rev => by
    unfold makedirsRev
    refine Ends.bind Ends.ask (fun _ => Ends.ite (ends_mkdirOk _) (Ends.bind ?_ (fun _ => ends_mkdirOk _)))
    exact ends_ignore (ends_makedirsRev rev) (Ends.pure _)

theorem ends_makedirs (p : Path) : Ends (makedirs p) := ends_makedirsRev _

theorem ends_copyFile (c : Nat) (m : Int) (b : Nat) (dst : Path) : Ends (copyFile c m b dst) :=
  Ends.bind (ends_follow _) (fun _ => Ends.bind (ends_truncate _) (fun _ =>
    Ends.bind (ends_update _ _) (fun _ => ends_update _ _)))

theorem ends_copyTo (src dst : Path) : Ends (copyTo src dst) := by
  intro s
  -- the exception that `os.stat` has raised is raised again
  have key : ∀ fs : FS, Ends (match (fs.lstat src, fs.stat src) with
      | (.ok (.link t m), _) => copyLink t m dst
      | (_, .error e) => throw e
      | (_, .ok (_, .file c m b)) => copyFile c m b dst
      | (_, .ok _) => throw .isDir : OSM Unit) := by
    intro fs
    have hs := stat_notKilled fs src
    generalize fs.lstat src = a at *
    generalize fs.stat src = b at *
    split
    · exact Ends.bind (ends_symlink _ _) (fun _ => ends_update _ _)
    · exact Ends.throw (fun he => hs (by simp_all))
    · exact ends_copyFile _ _ _ _
    · exact Ends.throw (by decide)
  obtain ⟨n, r, s', h1, h2, h3⟩ := key s.fs s
  by_cases hc : sameFile s.fs src dst = true
  · refine ⟨0, .error .sameFile, s, nofun, fun k => ?_, fun k hk => absurd hk (Nat.not_lt_zero _)⟩
    rw [Nat.zero_add]
    unfold copyTo
    rw [bind_ok (m := ask _) (s := setFuel k s) rfl]
    show (if sameFile s.fs src dst = true then _ else _ : OSM Unit) _ = _
    rw [if_pos hc]
    rfl
  · have h4 : ∀ k, copyTo src dst (setFuel k s) = (match (s.fs.lstat src, s.fs.stat src) with
      | (.ok (.link t m), _) => copyLink t m dst
      | (_, .error e) => throw e
      | (_, .ok (_, .file c m b)) => copyFile c m b dst
      | (_, .ok _) => throw .isDir : OSM Unit) (setFuel k s) := by
      intro k
      unfold copyTo
      rw [bind_ok (m := ask _) (s := setFuel k s) rfl]
      show (if sameFile s.fs src dst = true then _ else _ : OSM Unit) _ = _
      rw [if_neg hc, bind_ok (m := ask _) (s := setFuel k s) rfl]
      rfl
    refine ⟨n, r, s', h1, fun k => ?_, fun k hk => ?_⟩
    · rw [h4, h2]
    · rw [h4, h3 k hk]

theorem ends_copy2 (src dst : Path) : Ends (copy2 src dst) := Ends.bind Ends.ask (fun _ => ends_copyTo _ _)

theorem ends_rmEntry (p : Path) : Ends (rmEntry p) :=
  Ends.bind (ends_lstat p) (fun _ => Ends.ite (ends_rmdir p) (ends_remove p))

theorem ends_rmtree (p : Path) : Ends (rmtree p) := by
  refine Ends.bind (ends_lstat p) (fun n => ?_)
  cases n with
  | link t m => exact Ends.throw (by decide)
  | file c m b => exact Ends.throw (by decide)
  | dir m b =>
    exact Ends.bind Ends.ask (fun _ => Ends.bind (Ends.each (fun _ => ends_rmEntry _) _) (fun _ => ends_rmdir p))

theorem ends_copyEntry (src dst : Path) : Ends (copyEntry src dst) := by
  refine Ends.tryCatch (ends_copy2 src dst) (fun e k _ hk => ?_)
  unfold copyFailed at hk
  split at hk
  · cases hk; exact Ends.bind (ends_remove _) (fun _ => ends_copy2 _ _)
  · cases hk; exact Ends.bind (ends_remove _) (fun _ => ends_copy2 _ _)
  · cases hk; exact ends_makedirs _
  · cases hk

theorem ends_rmSrc (p : Path) : Ends (rmSrc p) := by
  refine Ends.tryCatch (ends_remove p) (fun e k _ hk => ?_)
  cases hk; exact ends_rmdir p

theorem ends_transferTree (src dst : Path) (files : Option (List Path)) (ex : List Path) (rm : Bool) :
    Ends (transferTree src dst files ex rm) := by
  refine Ends.bind Ends.ask (fun _ => Ends.ite (Ends.bind (Ends.query (fun fs => listPaths_notKilled fs _ _)) (fun _ =>
    Ends.each (fun p => ?_) _)) (Ends.throw (by decide)))
  exact Ends.bind (ends_makedirs _) (fun _ => Ends.bind (ends_copyEntry _ _) (fun _ =>
    Ends.ite (ends_rmSrc _) (Ends.pure _)))

theorem ends_linkNew (src dst p : Path) : Ends (linkNew src dst p) := Ends.bind (ends_symlink _ _) (fun _ => Ends.pure _)

theorem ends_linkOne (src dst : Path) (dirs : List Path) (ow : Bool) (p : Path) : Ends (linkOne src dst dirs ow p) := by
  refine Ends.ite (ends_ignore (Ends.bind (ends_mkdir _) (fun _ => Ends.pure _)) (Ends.pure _))
    (ends_ignore (ends_linkNew _ _ _) ?_)
  exact Ends.ite (Ends.bind (ends_remove _) (fun _ => ends_linkNew _ _ _)) (Ends.pure _)

theorem ends_linkLoop (src dst : Path) (dirs : List Path) (ow : Bool) : ∀ ps, Ends (linkLoop src dst dirs ow ps)
  | [] => Ends.pure _
  | p :: ps => Ends.bind (ends_linkOne _ _ _ _ _) (fun _ => Ends.bind (ends_linkLoop src dst dirs ow ps) (fun _ => Ends.pure _))

theorem ends_symlinkTree (src dst : Path) (files dirs : List Path) (ow : Bool) : Ends (symlinkTree src dst files dirs ow) :=
  Ends.bind (ends_makedirs _) (fun _ => ends_linkLoop _ _ _ _ _)

theorem ends_updateMtime (p : Path) : Ends (updateMtime p) := by
  refine Ends.bind Ends.ask (fun r => ?_)
  unfold touchAt
  split
  · exact Ends.pure _
  · exact Ends.pure _
  · exact ends_update _ _
  · exact ends_update _ _

section
variable (env : Env)

theorem ends_orRemote {α : Type} {m : OSM α} (h : Ends m) : Ends (orRemote env m) := by
  refine ends_ignore h (Ends.bind Ends.ask (fun b => Ends.throw ?_))
  split <;> decide

theorem ends_save {f : World → World} (h : ∀ k w, f (setFuel k w) = setFuel k (f w)) : Ends (save f) :=
  Ends.bind (Ends.sys (Ends.op (fun _ _ => nofun))) (fun _ => Ends.modify h)

theorem ends_writeRemote : Ends writeRemote := ends_save (fun _ _ => rfl)
theorem ends_writeProfile : Ends writeProfile :=
  Ends.bind (ends_save (fun _ _ => rfl)) (fun _ => ends_save (fun _ _ => rfl))

theorem ends_scanLocal : Ends (scanLocal env) := by
  unfold scanLocal
  have := Ends.query (fun fs => scanNodes_notKilled fs env.loc)
  ends

theorem ends_rescanRemote : Ends (rescanRemote env) := by
  unfold rescanRemote
  have := Ends.query (fun fs => scanNodes_notKilled fs env.rem)
  ends

theorem ends_scanRemote : Ends (scanRemote env) := by
  unfold scanRemote
  have := ends_rescanRemote env
  ends

theorem ends_exclMatches : Ends (exclMatches env) := by
  unfold exclMatches
  have h1 := Ends.query (fun fs => readPatterns_notKilled fs env env.excl)
  have h2 := fun p => Ends.query (fun fs => globMatches_notKilled fs env.loc p)
  refine Ends.bind (Ends.gets (fun _ _ => rfl)) (fun m => ?_)
  split
  · ends
  · refine Ends.bind (Ends.sys h1) (fun p => Ends.bind (Ends.sys (h2 p)) (fun _ => ?_))
    ends

theorem ends_addLocal (f d : List Path) (b : Bool) : Ends (addLocal f d b) := Ends.modify (fun _ _ => rfl)

theorem ends_addRemote (f d : List Path) : Ends (addRemote f d) := by unfold addRemote; ends

theorem ends_inflateNew (f d : List Path) : Ends (inflateNew env f d) := by unfold inflateNew addInflated; ends

theorem ends_copyPlain (src dst : Path) : Ends (copyPlain src dst) := by
  unfold copyPlain
  have h1 := ends_stat src
  refine Ends.bind Ends.ask (fun b => Ends.bind Ends.ask (fun _ => Ends.ite (Ends.throw (by decide))
    (Ends.bind h1 (fun r => ?_))))
  split
  · exact Ends.bind (ends_follow _) (fun _ => Ends.bind (ends_truncate _) (fun _ => ends_update _ _))
  · exact Ends.throw (by decide)

theorem ends_addExcludeFile : Ends (addExcludeFile env) := ends_orRemote env (ends_copyPlain _ _)

theorem ends_rmOne (d p : Path) : Ends (rmOne d p) := by
  refine Ends.tryCatch (ends_remove _) (fun e k _ hk => ?_)
  unfold rmFailed at hk
  split at hk
  · cases hk; exact ends_rmtree _
  · cases hk; exact Ends.pure _
  · cases hk

theorem ends_rmFiles (d : Path) (ps : List Path) : Ends (rmFiles env d ps) :=
  Ends.bind (Ends.sys (Ends.each (fun _ => ends_rmOne _ _) _)) (fun _ => Ends.modify (fun _ _ => rfl))

theorem ends_renameFiles {m : OSM Unit} (h : Ends m) (prs : List (Path × Path)) : Ends (renameFiles m prs) := by
  unfold renameFiles
  exact Ends.bind (Ends.sys h) (fun _ => Ends.bind (Ends.gets (fun _ _ => rfl)) (fun _ =>
    Ends.bind (Ends.modify (fun _ _ => rfl)) (fun _ => Ends.bind (ends_addLocal _ _ _) (fun _ => ends_addRemote _ _))))

theorem ends_renameAll (d : Path) (prs : List (Path × Path)) : Ends (renameAll d prs) :=
  Ends.each (fun _ => ends_rename _ _) _

theorem ends_handleConflicts (l r : List Path) : Ends (handleConflicts env l r) := by
  unfold handleConflicts
  refine Ends.bind (ends_scanLocal env) (fun _ => Ends.bind (ends_scanRemote env) (fun _ =>
    Ends.bind (Ends.gets (fun _ _ => rfl)) (fun _ => Ends.bind (Ends.sys Ends.time) (fun _ =>
    Ends.bind (Ends.sys (Ends.query (fun _ => conflictLoop_notKilled _ _))) (fun _ =>
    Ends.bind (ends_renameFiles (ends_renameAll _ _) _) (fun _ =>
    Ends.bind (ends_renameFiles (ends_orRemote env (ends_renameAll _ _)) _) (fun _ => Ends.pure _)))))))

theorem ends_trashFiles (ps : List Path) : Ends (trashFiles env ps) := by
  refine Ends.bind (Ends.sys (ends_ignore (ends_orRemote env (ends_mkdir _)) (Ends.pure _))) (fun _ =>
    Ends.bind (Ends.sys (ends_scandir _)) (fun _ => Ends.bind (Ends.sys (Ends.each (fun _ => ?_) _)) (fun _ =>
    Ends.modify (fun _ _ => rfl))))
  exact ends_ignore (Ends.bind (ends_rename _ _) (fun _ => ends_updateMtime _)) (Ends.pure _)

theorem ends_cleanupTrash (t : Int) : Ends (cleanupTrash env t) := by
  refine Ends.bind Ends.time (fun _ => Ends.bind (ends_scandir _) (fun _ => Ends.each (fun _ => ?_) _))
  exact Ends.bind (ends_stat _) (fun _ => Ends.ite (ends_ignore (ends_rmtree _) (ends_remove _)) (Ends.pure _))

theorem ends_removeStale (ps : List Path) : Ends (removeStale env ps) := by
  refine Ends.bind (ends_scanLocal env) (fun _ => Ends.bind (ends_exclMatches env) (fun _ =>
    Ends.bind (Ends.gets (fun _ _ => rfl)) (fun _ => Ends.sys (Ends.each (fun p => ?_) _))))
  refine Ends.bind Ends.ask (fun _ => Ends.ite (Ends.pure _) (ends_ignore (ends_remove _) ?_))
  refine Ends.tryCatch (ends_rmdir _) (fun e k _ hk => ?_)
  cases hk; exact Ends.pure _

theorem ends_updateLocal (ps : List Path) : Ends (updateLocal env ps) := by
  refine Ends.bind (ends_removeStale env _) (fun _ => Ends.bind (Ends.gets (fun _ _ => rfl)) (fun _ =>
    Ends.bind (Ends.sys (ends_orRemote env ?_)) (fun _ => Ends.modify (fun _ _ => rfl))))
  exact Ends.bind (ends_symlinkTree _ _ _ _ _) (fun _ => Ends.bind (ends_transferTree _ _ _ _ _) (fun _ => Ends.pure _))

theorem ends_updateRemote (ps : List Path) : Ends (updateRemote env ps) :=
  Ends.bind (Ends.sys (ends_orRemote env (ends_transferTree _ _ _ _ _))) (fun _ => Ends.bind (Ends.sys Ends.time) (fun _ =>
    Ends.modify (fun _ _ => rfl)))

theorem ends_setupDir (un : List Path) : Ends (setupDir env un) :=
  Ends.bind (ends_scanRemote env) (fun _ => Ends.bind (ends_addLocal _ _ _) (fun _ => Ends.bind (ends_addRemote _ _) (fun _ =>
    Ends.bind (Ends.gets (fun _ _ => rfl)) (fun _ => Ends.bind (Ends.sys (ends_symlinkTree _ _ _ _ _)) (fun _ => Ends.pure _)))))

/-! ### The commands -/

theorem ends_saveAll : Ends syncSave :=
  Ends.bind ends_writeRemote (fun _ => Ends.bind (Ends.sys Ends.time) (fun _ =>
    Ends.bind (Ends.modify (fun _ _ => rfl)) (fun _ => ends_writeProfile)))

theorem ends_syncScan : Ends (syncScan env) :=
  Ends.bind (Ends.sys (ends_makedirs _)) (fun _ => Ends.bind (Ends.sys (ends_addExcludeFile env)) (fun _ =>
    Ends.bind (ends_scanLocal env) (fun _ => Ends.bind (ends_scanRemote env) (fun _ =>
    Ends.bind (ends_exclMatches env) (fun _ => Ends.bind (Ends.gets (fun _ _ => rfl)) (fun _ =>
    Ends.bind (Ends.gets (fun _ _ => rfl)) (fun _ => Ends.bind (Ends.gets (fun _ _ => rfl)) (fun _ =>
    Ends.bind (Ends.get? (by decide) _) (fun _ => Ends.bind (ends_inflateNew env _ _) (fun _ =>
    Ends.bind (ends_addRemote _ _) (fun _ => Ends.bind (ends_addLocal _ _ _) (fun _ => Ends.pure _))))))))))))

theorem ends_syncRemote (del : DeletedPaths) (new mod : UpdatedPaths) : Ends (syncRemote env del new mod) :=
  Ends.bind (Ends.bind (ends_exclMatches env) (fun _ => ends_rmFiles env _ _)) (fun _ =>
    Ends.bind (ends_rmFiles env _ _) (fun _ => Ends.bind (ends_trashFiles env _) (fun _ =>
    Ends.bind (ends_handleConflicts env _ _) (fun _ => Ends.bind (ends_inflateNew env _ _) (fun _ =>
    Ends.bind (ends_addRemote _ _) (fun _ => Ends.bind (ends_addLocal _ _ _) (fun _ => ends_updateRemote env _)))))))

theorem ends_syncSelect : Ends (syncSelect env) :=
  Ends.bind (ends_exclMatches env) (fun _ => Ends.bind (ends_scanRemote env) (fun _ =>
    Ends.bind (ends_scanLocal env) (fun _ => Ends.bind (Ends.get? (by decide) _) (fun _ =>
    Ends.bind (ends_rescanRemote env) (fun _ => Ends.bind (Ends.gets (fun _ _ => rfl)) (fun _ =>
    Ends.bind (Ends.gets (fun _ _ => rfl)) (fun _ => Ends.bind (Ends.get? (by decide) _) (fun _ =>
    Ends.bind (Ends.get? (by decide) _) (fun _ => Ends.pure _)))))))))

theorem ends_syncLocal (sel rex : List Path) : Ends (syncLocal env sel rex) := by
  refine Ends.bind (ends_updateLocal env _) (fun _ => Ends.bind ?_ (fun _ => Ends.bind ?_ (fun _ => ends_saveAll)))
  · exact Ends.bind (Ends.sys (Ends.query (fun fs => checkExcluded_notKilled fs env _))) (fun _ =>
      Ends.bind (Ends.gets (fun _ _ => rfl)) (fun _ => ends_rmFiles env _ _))
  · unfold syncCleanup
    split
    · exact Ends.pure _
    · exact Ends.ite (Ends.pure _) (Ends.sys (ends_cleanupTrash env _))

theorem ends_sync : Ends (sync env) :=
  Ends.bind (ends_syncScan env) (fun x => Ends.bind (ends_syncRemote env x.1 x.2.1 x.2.2) (fun _ =>
    Ends.bind (ends_syncSelect env) (fun y => ends_syncLocal env y.1 y.2)))

theorem ends_init (add : Bool) : Ends (init env add) := by
  refine Ends.bind (Ends.sys (ends_makedirs _)) (fun _ => Ends.bind (Ends.sys (ends_makedirs _)) (fun _ =>
    Ends.bind (Ends.sys (ends_makedirs _)) (fun _ => ?_)))
  have tail : Ends (do
      sys (addExcludeFile env)
      writeRemote
      let now ← sys time
      modify (fun w => { w with last := now })
      writeProfile) :=
    Ends.bind (Ends.sys (ends_addExcludeFile env)) (fun _ => ends_saveAll)
  cases add
  · refine Ends.bind ?_ (fun _ => tail)
    exact Ends.bind (ends_scanLocal env) (fun _ => Ends.bind (ends_exclMatches env) (fun _ =>
      Ends.bind (Ends.sys (ends_orRemote env (ends_transferTree _ _ _ _ _))) (fun _ => ends_setupDir env _)))
  · refine Ends.bind ?_ (fun _ => tail)
    exact Ends.bind (ends_scanRemote env) (fun _ => ends_setupDir env _)

theorem ends_clearRemote : Ends (clearRemote env) :=
  Ends.bind (ends_rescanRemote env) (fun _ => Ends.ite (Ends.sys (ends_ignore (Ends.bind (ends_scandir _) (fun _ =>
    Ends.each (fun _ => ends_rmtree _) _)) (Ends.pure _))) (Ends.throw (by decide)))

theorem ends_unlinkOne (p : Path) : Ends (unlinkOne env p) := by
  refine Ends.bind (ends_lstat _) (fun n => ?_)
  cases n with
  | link t m => exact Ends.ite (ends_remove _) (Ends.pure _)
  | _ => exact Ends.throw (by decide)

theorem ends_reset (keep no : Bool) : Ends (reset env keep no) := by
  refine Ends.bind (Ends.sys (ends_makedirs _)) (fun _ => Ends.bind ?_ (fun _ => ?_))
  · refine Ends.ite (Ends.pure _) ?_
    exact Ends.bind (ends_scanRemote env) (fun _ => Ends.bind (Ends.gets (fun _ _ => rfl)) (fun _ =>
      Ends.bind (Ends.sys (ends_orRemote env (ends_transferTree _ _ _ _ _))) (fun _ =>
      Ends.ite (Ends.pure _) (ends_clearRemote env))))
  · exact Ends.bind (ends_scanLocal env) (fun _ => Ends.bind (Ends.sys (Ends.each (fun _ => ends_unlinkOne env _) _)) (fun _ =>
      Ends.sys (ends_ignore (ends_remove _) (Ends.pure _))))

theorem ends_emptyTrash : Ends (emptyTrash env) := by
  refine Ends.bind (ends_makedirs _) (fun _ => Ends.bind (ends_scandir _) (fun _ => Ends.each (fun _ => ?_) _))
  refine Ends.tryCatch (ends_remove _) (fun e k _ hk => ?_)
  unfold rmFailed at hk
  split at hk
  · cases hk; exact ends_rmtree _
  · cases hk; exact Ends.pure _
  · cases hk

end

end Verif
