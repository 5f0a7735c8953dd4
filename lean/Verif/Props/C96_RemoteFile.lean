import Verif.RemoteFile
import Verif.WP
import Verif.Props.C72_Progress
import Verif.Props.C44_Init
/-
C96: an initialisation that has been interrupted while it made the remote database cannot be completed.
-/
namespace Verif.Props
open Prog OSM Call FSTools WM RemoteFile

/-! ### Programs that only need fuel -/

section
variable {α β γ : Type}

/-- What a program does when it is not killed does not depend on how much fuel is left over. -/
def Metered (m : OSM α) : Prop := ∀ (s s' : OS) (r : Except Err α), m s = (r, s') → r ≠ .error .killed →
  ∃ k, s.fuel = k + s'.fuel ∧ ∀ f, m { s with fuel := k + f } = (r, { s' with fuel := f })

theorem Metered.bind {m : OSM α} {f : α → OSM β} (hm : Metered m) (hf : ∀ a, Metered (f a)) : Metered (m >>= f) := by
  intro s s' r h hk
  rcases hs : m s with ⟨_ | a, s1⟩
  · rename_i e
    rw [bind_error hs] at h
    cases h
    obtain ⟨k, h1, h2⟩ := hm _ _ _ hs (by intro h; cases h; exact hk rfl)
    exact ⟨k, h1, fun g => bind_error (h2 g)⟩
  · rw [bind_ok hs] at h
    obtain ⟨k, h1, h2⟩ := hm _ _ _ hs (by simp)
    obtain ⟨l, h3, h4⟩ := hf a _ _ _ h hk
    refine ⟨k + l, by omega, fun g => ?_⟩
    rw [Nat.add_assoc, bind_ok (h2 (l + g))]
    exact h4 g

theorem metered_of {m : OSM α} {r : OS → Except Err α} (h : ∀ s, m s = (r s, s))
    (hr : ∀ s f, r { s with fuel := f } = r s) : Metered m := by
  intro s s' r' h1 _
  rw [h] at h1
  cases h1
  refine ⟨0, (Nat.zero_add _).symm, fun f => ?_⟩
  rw [h, hr, Nat.zero_add]

theorem metered_op (g : FS → Int → Except Err FS) : Metered (op g) := by
  intro s s' r h hk
  obtain ⟨fs, fuel, tick, clk⟩ := s
  cases fuel with
  | zero => cases h; exact absurd rfl hk
  | succ n =>
    cases hg : g fs (clk tick) with
    | ok fs' =>
      have e : ∀ k, op g ⟨fs, k + 1, tick, clk⟩ = (.ok (), ⟨fs', k, tick + 1, clk⟩) := by
        intro k
        simp only [op, hg]
      rw [e] at h
      cases h
      exact ⟨1, Nat.add_comm _ _, fun f => by rw [Nat.add_comm 1 f]; exact e f⟩
    | error x =>
      have e : ∀ k, op g ⟨fs, k + 1, tick, clk⟩ = (.error x, ⟨fs, k, tick + 1, clk⟩) := by
        intro k
        simp only [op, hg]
      rw [e] at h
      cases h
      exact ⟨1, Nat.add_comm _ _, fun f => by rw [Nat.add_comm 1 f]; exact e f⟩

theorem Metered.catch {m : OSM α} {h : Err → Option (OSM α)} (hm : Metered m)
    (hh : ∀ e k, h e = some k → Metered k) : Metered (tryCatch m h) := by
  intro s s' r hr hk
  rcases hs : m s with ⟨e | a, s1⟩
  · by_cases he : e = .killed
    · subst he
      have : Prog.tryCatch m h s = (.error .killed, s1) := by simp only [Prog.tryCatch, hs, if_true]
      rw [this] at hr
      cases hr
      exact absurd rfl hk
    · obtain ⟨k, h1, h2⟩ := hm _ _ _ hs (by intro h; cases h; exact he rfl)
      cases hc : h e with
      | none =>
        have h3 : ∀ t t', m t = (.error e, t') → Prog.tryCatch m h t = (.error e, t') := fun t t' ht => by
          simp only [Prog.tryCatch, ht, if_neg he, hc]
        rw [h3 _ _ hs] at hr
        cases hr
        exact ⟨k, h1, fun f => h3 _ _ (h2 f)⟩
      | some c =>
        have h3 : ∀ t t', m t = (.error e, t') → Prog.tryCatch m h t = c t' := fun t t' ht => by
          simp only [Prog.tryCatch, ht, if_neg he, hc]
        rw [h3 _ _ hs] at hr
        obtain ⟨l, h4, h5⟩ := hh e c hc _ _ _ hr hk
        refine ⟨k + l, by omega, fun f => ?_⟩
        rw [Nat.add_assoc, h3 _ _ (h2 (l + f))]
        exact h5 f
  · have h3 : ∀ t t', m t = (.ok a, t') → Prog.tryCatch m h t = (.ok a, t') := fun t t' ht => by
      simp only [Prog.tryCatch, ht]
    rw [h3 _ _ hs] at hr
    cases hr
    obtain ⟨k, h1, h2⟩ := hm _ _ _ hs (by simp)
    exact ⟨k, h1, fun f => h3 _ _ (h2 f)⟩

theorem metered_ask (g : FS → α) : Metered (ask g) :=
  metered_of (r := fun s => .ok (g s.fs)) (fun _ => rfl) fun _ _ => rfl

theorem metered_pure (a : α) : Metered (pure a : OSM α) := metered_of (r := fun _ => .ok a) (fun _ => rfl) fun _ _ => rfl

theorem metered_mkdirOk (p : Path) : Metered (mkdirOk p) := by
  refine (metered_op _).catch fun e k hk => ?_
  cases hk
  refine (metered_ask _).bind fun b => ?_
  cases b
  · exact metered_of (r := fun _ => .error e) (fun _ => rfl) fun _ _ => rfl
  · exact metered_pure ()

theorem metered_makedirs (p : Path) : Metered (makedirs p) := by
  unfold makedirs
  induction p.reverse with
  | nil => exact metered_mkdirOk []
  | cons c rev ih =>
    unfold makedirsRev
    refine (metered_ask _).bind fun b => ?_
    cases b
    · refine Metered.bind (Metered.catch ih fun e k hk => ?_) fun _ => metered_mkdirOk _
      split at hk
      · cases hk; exact metered_pure ()
      · cases hk
    · exact metered_mkdirOk _

end

/-- The same as a program of the file system. -/
def makeDirsOS (env : Env) : OSM Unit := do
  makedirs env.loc
  makedirs env.exclDir
  makedirs env.trash

theorem sys_bind {α β : Type} (m : OSM α) (f : α → OSM β) : WM.sys (m >>= f) = WM.sys m >>= fun a => WM.sys (f a) := by
  funext w
  rcases hs : m w.os with ⟨e | a, s1⟩
  · have h1 : WM.sys m w = (.error e, { w with os := s1 }) := by simp only [WM.sys, hs]
    rw [bind_error h1]
    simp only [WM.sys, bind_error hs]
  · have h1 : WM.sys m w = (.ok a, { w with os := s1 }) := by simp only [WM.sys, hs]
    rw [bind_ok h1]
    simp only [WM.sys, bind_ok hs]

theorem makeDirs_os (env : Env) : makeDirs env = WM.sys (makeDirsOS env) := by
  unfold makeDirs makeDirsOS
  rw [sys_bind]
  congr 1
  funext _
  rw [sys_bind]

theorem metered_makeDirsOS (env : Env) : Metered (makeDirsOS env) :=
  (metered_makedirs _).bind fun _ => (metered_makedirs _).bind fun _ => metered_makedirs _

def World.fueled (w : World) (f : Nat) : World := { w with os := { w.os with fuel := f } }

theorem metered_makeDirs {env : Env} {w w' : World} {r : Except Err Unit} (h : makeDirs env w = (r, w'))
    (hk : r ≠ .error .killed) :
    ∃ k, w.os.fuel = k + w'.os.fuel ∧ ∀ f, makeDirs env (World.fueled w (k + f)) = (r, World.fueled w' f) := by
  rw [makeDirs_os] at h ⊢
  rcases hs : makeDirsOS env w.os with ⟨r1, s1⟩
  simp only [WM.sys, hs] at h
  cases h
  obtain ⟨k, h1, h2⟩ := metered_makeDirsOS env _ _ _ hs hk
  refine ⟨k, h1, fun f => ?_⟩
  simp only [WM.sys, World.fueled, h2]

/-! ### The same as `init` -/

/-- `init` in the parts that `initFiles` has. -/
theorem init_parts (env : Env) (add : Bool) :
    init env add = (makeDirs env >>= fun _ => setupBefore env add >>= setupAfter env) := by
  have hp : ∀ {α β : Type} (a : α) (f : α → WM β), ((pure a : WM α) >>= f) = f a := fun _ _ => rfl
  unfold init makeDirs setupBefore
  cases add
  · simp only [prog_bind_assoc, Bool.false_eq_true, if_false, hp, setupFromLocal, setupDir, setupAfter]
  · simp only [prog_bind_assoc, if_true, hp, setupFromRemote, setupDir, setupAfter]

theorem onWorld_of {α : Type} {m : WM α} {w w' : World} {r : Except Err α} {t : Option Nat} (h : m w = (r, w')) :
    onWorld m ⟨w, t⟩ = (r, ⟨w', t⟩) := by
  unfold onWorld
  rw [h]

/-- What follows the creation of the database. -/
def initRest (env : Env) (add : Bool) : Prog DBWorld Unit :=
  onWorld (setupBefore env add) >>= fun x => needTables >>= fun _ => onWorld (setupAfter env x)

theorem initRest_complete (env : Env) (add : Bool) (w : World) : initRest env add ⟨w, some 3⟩ =
    (((setupBefore env add >>= setupAfter env) w).1, ⟨((setupBefore env add >>= setupAfter env) w).2, some 3⟩) := by
  unfold initRest
  rcases hs : setupBefore env add w with ⟨e | x, w1⟩
  · rw [bind_error (onWorld_of hs), bind_error hs]
  · rw [bind_ok (onWorld_of hs), bind_ok hs]
    have : needTables ⟨w1, some 3⟩ = (.ok (), ⟨w1, some 3⟩) := rfl
    rw [bind_ok this]
    rfl

/-- Without all tables it raises. -/
theorem initRest_stuck (env : Env) (add : Bool) (w : World) {n : Nat} (hn : n ≠ 3) :
    ∃ e w', initRest env add ⟨w, some n⟩ = (.error e, ⟨w', some n⟩) := by
  unfold initRest
  rcases hs : setupBefore env add w with ⟨e | x, w1⟩
  · exact ⟨e, w1, bind_error (onWorld_of hs)⟩
  · rw [bind_ok (onWorld_of hs)]
    have : needTables ⟨w1, some n⟩ = (.error .integrity, ⟨w1, some n⟩) := by
      unfold needTables
      rw [if_neg]
      simpa using hn
    exact ⟨_, _, bind_error this⟩

theorem initFiles_eq (env : Env) (add : Bool) :
    initFiles env add = (onWorld (makeDirs env) >>= fun _ => createRemote >>= fun _ => initRest env add) := rfl

/-- The creation of a database that is not there. -/
theorem create_absent (w : World) : createRemote ⟨w, none⟩ =
    if w.os.fuel = 0 then (.error .killed, ⟨w, none⟩)
    else if w.os.fuel < 4 then (.error .killed, ⟨World.fueled w 0, some (w.os.fuel - 1)⟩)
    else (.ok (), ⟨World.fueled w (w.os.fuel - 4), some 3⟩) := by
  obtain ⟨⟨fs, fuel, tick, clk⟩, db, dbSaved, rdb, rdbSaved, last, lastSaved, lmemo, rmemo, matches_⟩ := w
  match fuel with
  | 0 => rfl
  | 1 => rfl
  | 2 => rfl
  | 3 => rfl
  | n + 4 => rfl

/-! ### C96 -/

/-- A database file that lacks a table is never completed, and no initialisation of a profile with that remote directory
succeeds, whatever its options are and whether or not it is killed. -/
theorem C96_stuck_fails (env : Env) (add : Bool) (w : World) {n : Nat} (hn : n < 3) :
    (∃ e, (initFiles env add ⟨w, some n⟩).1 = .error e) ∧ (initFiles env add ⟨w, some n⟩).2.tables = some n := by
  rw [initFiles_eq]
  rcases hs : makeDirs env w with ⟨e | x, w1⟩
  · rw [bind_error (onWorld_of hs)]
    exact ⟨⟨e, rfl⟩, rfl⟩
  · rw [bind_ok (onWorld_of hs)]
    have : createRemote ⟨w1, some n⟩ = (.ok (), ⟨w1, some n⟩) := rfl
    rw [bind_ok this]
    obtain ⟨e, w', h⟩ := initRest_stuck env add w1 (Nat.ne_of_lt hn)
    rw [h]
    exact ⟨⟨e, rfl⟩, rfl⟩

/-- Run `init` again and again, for any profiles that have the same remote directory, with any options and killed at any
point. -/
def initAttempts : List (Env × Bool × Nat) → DBWorld → DBWorld
  | [], s => s
  | (env, add, fuel) :: l, s => initAttempts l (initFiles env add { s with world := s.world.restart fuel }).2

theorem C96_forever_fails (l : List (Env × Bool × Nat)) {n : Nat} (hn : n < 3) : ∀ {s : DBWorld}, s.tables = some n →
    (initAttempts l s).tables = some n ∧ ∀ env add fuel,
      ∃ e, (initFiles env add { initAttempts l s with world := (initAttempts l s).world.restart fuel }).1 = .error e := by
  induction l with
  | nil =>
    intro s h
    obtain ⟨w, t⟩ := s
    cases h
    exact ⟨rfl, fun env add fuel => (C96_stuck_fails env add (w.restart fuel) hn).1⟩
  | cons x l ih =>
    intro s h
    obtain ⟨w, t⟩ := s
    cases h
    exact ih (C96_stuck_fails x.1 x.2.1 (w.restart x.2.2) hn).2

/-- And every initialisation that makes the database file can be killed so that it leaves such a file. -/
theorem C96_killed_fails {env : Env} {add : Bool} {w : World} (h : (initFiles env add ⟨w, none⟩).1 = .ok ()) {n : Nat}
    (hn : n < 3) : ∃ fuel, (initFiles env add ⟨World.fueled w fuel, none⟩).1 = .error .killed ∧
      (initFiles env add ⟨World.fueled w fuel, none⟩).2.tables = some n := by
  rw [initFiles_eq] at h ⊢
  rcases hs : makeDirs env w with ⟨e | x, w1⟩
  · rw [bind_error (onWorld_of hs)] at h
    cases h
  · obtain ⟨k, -, h2⟩ := metered_makeDirs hs (by simp)
    refine ⟨k + (n + 1), ?_⟩
    rw [bind_ok (onWorld_of (h2 (n + 1)))]
    have hc : createRemote ⟨World.fueled w1 (n + 1), none⟩ =
        (.error .killed, ⟨World.fueled (World.fueled w1 (n + 1)) 0, some n⟩) := by
      rw [create_absent]
      have e : (World.fueled w1 (n + 1)).os.fuel = n + 1 := rfl
      rw [e, if_neg (Nat.succ_ne_zero n), if_pos (by omega)]
      rfl
    rw [bind_error hc]
    exact ⟨rfl, rfl⟩

/-- Otherwise the file is complete or absent after an initialisation, if it was so before. If it is complete, what has
happened is what the other theorems say about `init`; if it is absent, the initialisation has not got further than making
directories. -/
theorem C96_partial (env : Env) (add : Bool) {s : DBWorld} (hs : s.tables = none ∨ s.tables = some 3) :
    let r := initFiles env add s
    (r.2.tables = some 3 ∧ ∃ fuel ≤ s.world.os.fuel, r.1 = (init env add (World.fueled s.world fuel)).1 ∧
        r.2.world = (init env add (World.fueled s.world fuel)).2) ∨
      (r.2.tables = none ∧ s.tables = none ∧ (∃ e, r.1 = .error e) ∧ r.2.world = (makeDirs env s.world).2) ∨
      (s.tables = none ∧ r.1 = .error .killed ∧ ∃ n < 3, r.2.tables = some n) := by
  intro r
  obtain ⟨w, t⟩ := s
  have hr : r = initFiles env add ⟨w, t⟩ := rfl
  clear_value r
  subst hr
  rw [initFiles_eq, init_parts]
  dsimp only at hs ⊢
  have hw : World.fueled w w.os.fuel = w := rfl
  rcases hs with rfl | rfl
  · rcases hm : makeDirs env w with ⟨e | x, w1⟩
    · rw [bind_error (onWorld_of hm)]
      exact .inr (.inl ⟨rfl, rfl, ⟨e, rfl⟩, rfl⟩)
    · rw [bind_ok (onWorld_of hm)]
      have hc := create_absent w1
      split at hc
      · rw [bind_error hc]
        exact .inr (.inl ⟨rfl, rfl, ⟨_, rfl⟩, rfl⟩)
      · split at hc
        · rw [bind_error hc]
          exact .inr (.inr ⟨rfl, rfl, _, by omega, rfl⟩)
        · rw [bind_ok hc, initRest_complete]
          obtain ⟨k, h1, h2⟩ := metered_makeDirs hm (by simp)
          refine .inl ⟨rfl, k + (w1.os.fuel - 4), by omega, ?_⟩
          rw [bind_ok (h2 _)]
          exact ⟨rfl, rfl⟩
  · refine .inl ?_
    rcases hm : makeDirs env w with ⟨e | x, w1⟩
    · rw [bind_error (onWorld_of hm)]
      refine ⟨rfl, w.os.fuel, Nat.le_refl _, ?_⟩
      rw [hw, bind_error hm]
      exact ⟨rfl, rfl⟩
    · rw [bind_ok (onWorld_of hm)]
      have : createRemote ⟨w1, some 3⟩ = (.ok (), ⟨w1, some 3⟩) := rfl
      rw [bind_ok this, initRest_complete]
      refine ⟨rfl, w.os.fuel, Nat.le_refl _, ?_⟩
      rw [hw, bind_ok hm]
      exact ⟨rfl, rfl⟩

/-- A user's directory with files is initialised. -/
example : (initFiles exEnvE false ⟨exInit 1000, none⟩).1 = .ok () ∧
    (initFiles exEnvE false ⟨exInit 1000, none⟩).2.tables = some 3 := by decide +kernel

/-- Killed after six changes it leaves a file without tables, after ten it has a complete one. -/
example : (initFiles exEnvE false ⟨exInit 6, none⟩).2.tables = some 0 ∧
    (initFiles exEnvE false ⟨exInit 10, none⟩).2.tables = some 3 ∧
    (initFiles exEnvE false ⟨exInit 3, none⟩).2.tables = none := by decide +kernel

end Verif.Props
