import Verif.InitWhole
import Verif.Props.C83_NewInit
import Verif.Props.C86_Signals
/-
C84: the command `init` as a whole, run as often as it takes.
-/
namespace Verif
open Prog OSM Call FSTools WM Lifecycle

variable {env : Env} {prog : Str} {others : List Str} {o : InitOpts} {t : Str} {p : Path} {n : Node}

theorem wp_init_split {b : Bool} {Q : Unit → World → Prop} {E : Err → World → Prop} {w : World}
    (h : wp (init env b) Q E w) : wp (initSetup env b) (fun _ w' => wp writeProfile Q E w') E w := by
  unfold init at h
  unfold initSetup
  simp only [wp_bind] at h ⊢
  cases b <;> simp only [Bool.false_eq_true, if_true, if_false, wp_bind] at h ⊢ <;> exact h

/-- A specification together with the result itself. -/
theorem wp_result {σ α : Type} {m : Prog σ α} {Q : α → σ → Prop} {E : Err → σ → Prop} {s : σ} (h : wp m Q E s) :
    wp m (fun a s' => Q a s' ∧ (m s).1 = .ok a) (fun e s' => E e s' ∧ (m s).1 = .error e) s := by
  unfold wp at h ⊢
  generalize m s = r at h ⊢
  obtain ⟨_ | _, _⟩ := r <;> exact ⟨h, rfl⟩

/-- The program does not save the database of the profile. -/
def KeepsDb {α : Type} (m : WM α) : Prop := ∀ w, (m w).2.dbSaved = w.dbSaved

namespace KeepsDb
variable {α β : Type}

theorem pure (a : α) : KeepsDb (Pure.pure a : WM α) := fun _ => rfl

theorem sys (m : OSM α) : KeepsDb (WM.sys m) := fun _ => rfl

theorem gets (f : World → α) : KeepsDb (WM.gets f) := fun _ => rfl

theorem modify {f : World → World} (h : ∀ w, (f w).dbSaved = w.dbSaved) : KeepsDb (WM.modify f) := h

theorem get? (e : Err) : ∀ x : Option α, KeepsDb (WM.get? e x)
  | none => fun _ => rfl
  | some _ => fun _ => rfl

theorem wp {m : WM α} (hm : KeepsDb m) (w : World) :
    Verif.wp m (fun _ w' => w'.dbSaved = w.dbSaved) (fun _ w' => w'.dbSaved = w.dbSaved) w := by
  have h := hm w
  unfold Verif.wp
  generalize m w = r at h ⊢
  obtain ⟨_ | _, w'⟩ := r <;> exact h

theorem bind {m : WM α} {f : α → WM β} (hm : KeepsDb m) (hf : ∀ a, KeepsDb (f a)) : KeepsDb (m >>= f) := by
  intro w
  refine wp_state (m := m >>= f) (I := fun w' => w'.dbSaved = w.dbSaved) ?_
  rw [wp_bind]
  refine wp_mono (hm.wp w) ?_ (fun _ _ h => h)
  intro a w' h
  exact wp_mono ((hf a).wp w') (fun _ _ h' => h'.trans h) (fun _ _ h' => h'.trans h)

theorem ite {c : Prop} [Decidable c] {m m' : WM α} (h : KeepsDb m) (h' : KeepsDb m') : KeepsDb (if c then m else m') := by
  split
  · exact h
  · exact h'

theorem scanLocal : KeepsDb (Verif.scanLocal env) :=
  bind (gets _) (fun _ => ite (bind (sys _) (fun _ => bind (modify (fun _ => rfl)) (fun _ => pure _))) (pure _))

theorem scanRemote : KeepsDb (Verif.scanRemote env) :=
  bind (gets _) (fun _ => ite (bind (sys _) (fun _ => bind (modify (fun _ => rfl)) (fun _ => pure _))) (pure _))

theorem exclMatches : KeepsDb (Verif.exclMatches env) := by
  refine bind (gets _) (fun m => ?_)
  cases m with
  | some l => exact pure _
  | none => exact bind (sys _) (fun _ => bind (sys _) (fun _ => bind (modify (fun _ => rfl)) (fun _ => pure _)))

theorem initSetup (b : Bool) : KeepsDb (Verif.initSetup env b) := by
  have hd : ∀ u, KeepsDb (setupDir env u) := fun u => bind scanRemote (fun _ => bind (modify (fun _ => rfl)) (fun _ =>
    bind (bind (sys _) (fun _ => modify (fun _ => rfl))) (fun _ => bind (gets _) (fun _ => bind (sys _) (fun _ => pure _)))))
  refine bind (sys _) (fun _ => bind (sys _) (fun _ => bind (sys _) (fun _ => ?_)))
  have ht : KeepsDb (do
      WM.sys (addExcludeFile env)
      writeRemote
      let now ← WM.sys time
      WM.modify (fun w => { w with last := now })) :=
    bind (sys _) (fun _ => bind (bind (sys _) (fun _ => modify (fun _ => rfl))) (fun _ => bind (sys _) (fun _ =>
      modify (fun _ => rfl))))
  cases b with
  | false => exact bind (bind scanLocal (fun _ => bind exclMatches (fun _ => bind (sys _) (fun _ => hd _)))) (fun _ => ht)
  | true => exact bind (bind scanRemote (fun _ => hd _)) (fun _ => ht)

end KeepsDb

theorem writeProfile_fs (w : World) : (writeProfile w).2.os.fs = w.os.fs := by
  have h1 : ∀ (f : World → World) (w : World), (∀ w, (f w).os = w.os) →
      wp (save f) (fun _ w' => w'.os.fs = w.os.fs) (fun _ w' => w'.os.fs = w.os.fs) w := by
    intro f w hf
    unfold save
    rw [wp_bind, wp_sys]
    refine wp_op ?_ ?_ ?_
    · rfl
    · intro fs h
      rw [wp_modify, hf]
      exact (Except.ok.inj h).symm
    · intro e h; cases h
  refine wp_state (m := writeProfile) (I := fun w' => w'.os.fs = w.os.fs) ?_
  unfold writeProfile
  rw [wp_bind]
  refine wp_mono (h1 _ w (fun _ => rfl)) ?_ (fun _ _ h => h)
  intro _ w' h
  refine wp_mono (h1 _ w' (fun _ => rfl)) ?_ ?_
  · intro _ _ h2; exact h2.trans h
  · intro _ _ h2; exact h2.trans h

theorem NewReady.fuel {w : World} (h : NewReady env (w.restart 0)) (k : Nat) : NewReady env (w.restart k) :=
  ⟨h.wf, h.apart, h.loc_link, h.rem_link, h.rem_good, h.id_good, h.excl, h.no_util, h.lmemo, h.rmemo, h.fresh, h.rows,
    h.saved, h.rrows⟩

theorem InitReady.fuel {w : World} (h : InitReady env (w.restart 0)) (k : Nat) : InitReady env (w.restart k) :=
  ⟨h.wf, h.apart, h.loc_dir, h.rem_good, h.id_good, h.excl, h.slot, h.no_util, h.clean, h.lmemo, h.rmemo, h.fresh, h.rows,
    h.saved⟩

/-- Where an initialisation is, and where a file is meanwhile. -/
inductive Stage (env : Env) (o : InitOpts) (t : Str) (p : Path) (n : Node) (s : LS World) : Prop
  | new : s.prof.info = none → s.prof.cfg = none → NewReady env (s.rest.restart 0) → s.rest.os.fs.get (env.loc ++ p) = some n →
      ¬ OwnExcludes env s.rest.os.fs p → Stage env o t p n s
  | begun : HasProfile s.prof ⟨false, false, o.id⟩ t → InitReady env (s.rest.restart 0) →
      Placed env s.rest.os.fs p n → Stage env o t p n s
  | ended : HasProfile s.prof ⟨true, false, o.id⟩ t → Placed env s.rest.os.fs p n → Stage env o t p n s
  | broken : BrokenProfile s.prof → Placed env s.rest.os.fs p n → Stage env o t p n s

/-- The first steps of `generate` leave no profile, or a broken one. -/
theorem genAfter_early {q : Prof} (h1 : q.info = none) (h2 : q.cfg = none) {k : Nat} (hk : k < 7) :
    ((genAfter o t k q).info = none ∧ (genAfter o t k q).cfg = none) ∨ BrokenProfile (genAfter o t k q) := by
  have : k = 0 ∨ k = 1 ∨ k = 2 ∨ k = 3 ∨ k = 4 ∨ k = 5 ∨ k = 6 := by omega
  rcases this with rfl | rfl | rfl | rfl | rfl | rfl | rfl
  · exact Or.inl ⟨h1, h2⟩
  · exact Or.inl ⟨h1, h2⟩
  · exact Or.inl ⟨h1, h2⟩
  · exact Or.inr ⟨rfl, Or.inl rfl⟩
  · exact Or.inr ⟨rfl, Or.inr ⟨⟨_, rfl⟩, fun t ht => by rw [show (genAfter _ _ 4 q).cfg = q.cfg from rfl, h2] at ht; cases ht⟩⟩
  · exact Or.inr ⟨rfl, Or.inr ⟨⟨_, rfl⟩, fun t ht => by rw [show (genAfter _ _ 5 q).cfg = q.cfg from rfl, h2] at ht; cases ht⟩⟩
  · refine Or.inr ⟨rfl, Or.inr ⟨⟨_, rfl⟩, fun t ht => ?_⟩⟩
    cases ht
    decide +kernel

theorem wp_initSetup_false {w : World} (h : InitReady env w) :
    wp (initSetup env false) (fun _ r => ((InitKept env w.os.fs r.os.fs ∧ InitNext env w.os.fs r.os.fs) ∧
        r.dbSaved = w.dbSaved) ∧
        wp writeProfile (fun _ w' => InitDone env w.os.fs w'.os.fs ∧ InitNext env w.os.fs w'.os.fs)
          (fun _ w' => InitKept env w.os.fs w'.os.fs ∧ InitNext env w.os.fs w'.os.fs) r)
      (fun _ r => (InitKept env w.os.fs r.os.fs ∧ InitNext env w.os.fs r.os.fs) ∧ r.dbSaved = w.dbSaved) w := by
  have h1 := wp_init_split (wp_init h)
  have h2 := (KeepsDb.initSetup (env := env) false).wp w
  unfold wp at h1 h2 ⊢
  generalize initSetup env false w = x at h1 h2 ⊢
  obtain ⟨_ | _, r⟩ := x
  · exact h1
  · dsimp only at h1 h2 ⊢
    have h3 : wp writeProfile (fun _ w' => InitDone env w.os.fs w'.os.fs ∧ InitNext env w.os.fs w'.os.fs)
        (fun _ w' => InitKept env w.os.fs w'.os.fs ∧ InitNext env w.os.fs w'.os.fs) r :=
      wp_mono (m := writeProfile) h1 (fun _ _ h => ⟨h.1, h.2.1⟩) (fun _ _ h => h.1)
    have h4 := wp_state (I := fun w' : World => InitKept env w.os.fs w'.os.fs ∧ InitNext env w.os.fs w'.os.fs)
      (wp_mono h3 (fun _ _ h => ⟨h.1.toInitKept, h.2⟩) (fun _ _ h => h))
    rw [writeProfile_fs] at h4
    exact ⟨⟨h4, h2⟩, h3⟩

/-- The run of `init` makes a new profile, refuses it because of the directories, and is killed while it removes it. -/
def KilledRefusing (env : Env) (prog : Str) (others : List Str) (s : LS World) (x : Nat × Nat) : Prop :=
  s.prof.info = none ∧ 7 ≤ x.1 ∧ x.1 < 12 ∧
    ∃ e, e ≠ .killed ∧ (checkDirs env prog (seen env others s.prof) false (s.rest.restart x.2).os).1 = .error e

instance (s : LS World) (x : Nat × Nat) : Decidable (KilledRefusing env prog others s x) :=
  haveI : Decidable (∃ e, e ≠ .killed ∧ (checkDirs env prog (seen env others s.prof) false (s.rest.restart x.2).os).1 = .error e) :=
    match h : (checkDirs env prog (seen env others s.prof) false (s.rest.restart x.2).os).1 with
    | .ok _ => isFalse (by rintro ⟨e, _, h1⟩; cases h1)
    | .error e => if h1 : e = .killed then isFalse (by rintro ⟨e', h2, h3⟩; cases h3; exact h2 h1)
        else isTrue ⟨e, h1, rfl⟩
  inferInstanceAs (Decidable (_ ∧ _ ∧ _ ∧ _))

/-- None of the runs of `init` is killed like that. -/
def NotRefusing (env : Env) (prog : Str) (others : List Str) (o : InitOpts) : List (Nat × Nat) → LS World → Prop
  | [], _ => True
  | x :: xs, s => ¬ KilledRefusing env prog others s x ∧
      NotRefusing env prog others o xs (initOnce env prog others none o x s).2

instance : ∀ (xs : List (Nat × Nat)) (s : LS World), Decidable (NotRefusing env prog others o xs s)
  | [], _ => isTrue trivial
  | x :: xs, s =>
    haveI := instDecidableNotRefusing xs (initOnce env prog others none o x s).2
    inferInstanceAs (Decidable (_ ∧ _))

/-- The file is in the remote directory, and the local path is a link to it. -/
def MovedFile (env : Env) (fs : FS) (p : Path) (n : Node) : Prop :=
  fs.get (env.rem ++ p) = some n ∧
    ∃ t m, fs.get (env.loc ++ p) = some (.link t m) ∧ FS.linkDest (env.loc ++ p) t = env.rem ++ p

theorem moved_of_done {w : World} (h : InitReady env w) {fs' : FS} (d : InitDone env w.os.fs fs') (hu : UserPath p)
    (hf : ∃ c m b, n = .file c m b) (hg : GoodPath p) (hp : Placed env w.os.fs p n) : MovedFile env fs' p n := by
  have hg : GoodPath (env.rem ++ p) := goodPath_append.2 ⟨h.rem_good, hg⟩
  rcases hp with ⟨h3, h4⟩ | ⟨h3, h4⟩
  · obtain ⟨h5, m', h6⟩ := d.moved p _ ⟨hu.1, h3, hf, h4⟩
    exact ⟨h5, _, m', h6, FS.linkDest_abs hg _⟩
  · obtain ⟨h5, m', h6⟩ := d.resumed p _ hu h3 (by obtain ⟨c, m, b, rfl⟩ := hf; rfl) h4
    exact ⟨h5, _, m', h6, FS.linkDest_abs hg _⟩

theorem wp_cleanup_new {s : LS World} {P : LS World → Prop}
    (h : ∀ q n, q.info = none → q.cfg = none → P ⟨q, n, s.rest⟩) (h1 : s.prof.info = none) (h2 : s.prof.cfg = none) :
    wp cleanupProfile (fun _ s' => P s') (fun _ s' => P s') s := by
  have hs : P s := h s.prof s.fuel h1 h2
  unfold wp cleanupProfile
  split
  · rename_i hm
    split at hm
    · unfold step at hm
      split at hm
      · cases hm
      · cases hm; exact h _ _ h1 h2
    · cases hm; exact hs
  · rename_i hm
    split at hm
    · unfold step at hm
      split at hm
      · cases hm; exact hs
      · cases hm
    · cases hm

theorem Stage.fuel {s : LS World} (h : Stage env o t p n s) (k : Nat) : Stage env o t p n { s with fuel := k } := by
  cases h with
  | new h1 h2 h3 h4 h5 => exact .new h1 h2 h3 h4 h5
  | begun h1 h2 h3 => exact .begun h1 h2 h3
  | ended h1 h2 => exact .ended h1 h2
  | broken h1 h2 => exact .broken h1 h2

/-- A run that is refused leaves everything as it was, but for directories on the way to the remote directory. -/
theorem stage_refused {s : LS World} (h2 : NewReady env (s.rest.restart 0))
    (h3 : s.rest.os.fs.get (env.loc ++ p) = some n) (h4 : ¬ OwnExcludes env s.rest.os.fs p) {k : Nat} {s1 : OS}
    (g1 : Grow (OnWay env.rem) s.rest.os.fs s1.fs) {q : Prof} (hi : q.info = none) (hcf : q.cfg = none) {k' : Nat} :
    Stage env o t p n ⟨q, k', { s.rest.restart k with os := s1 }⟩ := by
  have hwf : s1.fs.WF := g1.wf (fun q hq => goodPath_of_prefix h2.rem_good hq.2) h2.wf
  refine .new hi hcf ?_ (g1.keeps _ _ h3) (fun h5 => h4 ((h2.fuel k).excludes g1 hwf h5))
  have hloc : ∀ q, s1.fs.get (env.loc ++ q) = s.rest.os.fs.get (env.loc ++ q) := g1.loc h2.apart
  refine ⟨hwf, h2.apart, ?_, ?_, h2.rem_good, h2.id_good, ?_, ?_, rfl, rfl, rfl, h2.saved, h2.saved, h2.rrows⟩
  · intro t' m' h5
    have := hloc []
    rw [List.append_nil] at this
    exact h2.loc_link t' m' (this ▸ h5)
  · intro t' m' h5
    have h5 : s1.fs.get env.rem = some (.link t' m') := h5
    rcases Option.eq_none_or_eq_some (s.rest.os.fs.get env.rem) with h6 | ⟨n', h6⟩
    · rcases g1.new _ h6 with h7 | ⟨_, h7⟩
      · rw [h7] at h5; cases h5
      · obtain ⟨m2, b2, h8⟩ := FS.isDir_iff.1 h7
        rw [h8] at h5; cases h5
    · have := g1.keeps _ _ h6
      rw [this] at h5
      cases h5
      exact h2.rem_link t' m' h6
  · obtain ⟨k, m, b, h5⟩ := h2.excl
    exact ⟨k, m, b, g1.keeps _ _ h5⟩
  · exact (hloc _).trans h2.no_util

theorem initActs_order (m : Member) : m ∈ (initActs env prog others).order := by
  cases m <;> simp [initActs]

section
variable (hxl : ¬ env.loc <+: env.excl) (hxr : ¬ env.rem <+: env.excl) (hu : UserPath p) (hg : GoodPath p)
  (hf : ∃ c m b, n = .file c m b)
include hxl hxr hu hg hf

theorem wp_finish_whole {s : LS World} (h : HasProfile s.prof ⟨false, false, o.id⟩ t) (hi : InitReady env s.rest)
    (hp : Placed env s.rest.os.fs p n) :
    wp (finish (initActs env prog others) (⟨false, false, o.id⟩, t))
      (fun _ s' => HasProfile s'.prof ⟨true, false, o.id⟩ t ∧ Placed env s'.rest.os.fs p n ∧ MovedFile env s'.rest.os.fs p n)
      (fun _ s' => s'.prof.info.isSome = true ∧ Stage env o t p n s') s := by
  have hinfo : s.prof.info.isSome = true := by rw [h.2.1]; rfl
  unfold finish
  rw [wp_bind, wp_onRest]
  refine wp_mono (wp_initSetup_false hi) ?_ ?_
  · rintro _ r1 ⟨⟨⟨hkp, hn⟩, hdb⟩, h1⟩
    unfold writeInfo
    rw [wp_bind, wp_bind]
    refine wp_step (fun n1 e1 => ?_) (fun e1 => ?_)
    · refine wp_step (fun n2 e2 => ?_) (fun e2 => ?_)
      · rw [wp_onRest]
        have hpr : HasProfile { s.prof with info := some (some ⟨true, false, o.id⟩) } ⟨true, false, o.id⟩ t :=
          ⟨h.1, rfl, h.2.2.1, h.2.2.2⟩
        refine wp_mono h1 ?_ ?_
        · rintro _ r2 ⟨d, hn⟩
          exact ⟨hpr, hp.next hi hxl hxr d.toInitKept hn hu hf, moved_of_done hi d hu hf hg hp⟩
        · rintro e r2 ⟨hkp, hn⟩
          exact ⟨rfl, .ended hpr (hp.next hi hxl hxr hkp hn hu hf)⟩
      · exact ⟨rfl, .broken ⟨h.1, Or.inl rfl⟩ (hp.next hi hxl hxr hkp hn hu hf)⟩
    · exact ⟨hinfo, .begun h (hi.next hxl hxr hn hdb 0) (hp.next hi hxl hxr hkp hn hu hf)⟩
  · rintro e r1 ⟨⟨hkp, hn⟩, hdb⟩
    exact ⟨hinfo, .begun h (hi.next hxl hxr hn hdb 0) (hp.next hi hxl hxr hkp hn hu hf)⟩

/-- One run of the command. -/
theorem stage_run (hc : o.config = .ok t) (ha : o.addRemote = false) (ht : ValidConfig t) {s : LS World}
    (h : Stage env o t p n s) {x : Nat × Nat} {sg : Option Nat} (hsg : ∀ k, sg = some k → 5 ≤ k) :
    (¬ KilledRefusing env prog others s x → Stage env o t p n (initOnce env prog others sg o x s).2) ∧
    ((initOnce env prog others sg o x s).1 = .ok () →
      HasProfile (initOnce env prog others sg o x s).2.prof ⟨true, false, o.id⟩ t ∧
        MovedFile env (initOnce env prog others sg o x s).2.rest.os.fs p n) := by
  unfold initOnce
  refine wp_sigRun (P := fun r s' => (¬ KilledRefusing env prog others s x → Stage env o t p n s') ∧
    (r = .ok () → HasProfile s'.prof ⟨true, false, o.id⟩ t ∧ MovedFile env s'.rest.os.fs p n)) ?_
  unfold initCmdSig
  let P : Except Err Unit → LS World → Prop := fun r s' => (¬ KilledRefusing env prog others s x → Stage env o t p n s') ∧
    (r = .ok () → HasProfile s'.prof ⟨true, false, o.id⟩ t ∧ MovedFile env s'.rest.os.fs p n)
  have fin : ∀ {s1 : LS World}, HasProfile s1.prof ⟨false, false, o.id⟩ t → InitReady env s1.rest →
      Placed env s1.rest.os.fs p n →
      wp (finish (initActs env prog (seen env others s.prof)) (⟨false, false, o.id⟩, t)) (fun a s' => P (.ok a) s')
        (fun e s' => if e = .killed then
            match (generalizing := false) sg with
            | none => P (.error e) s'
            | some k => wp cleanupProfile (fun _ s'' => P (.error e) s'') (fun _ s'' => P (.error e) s'')
                { s' with fuel := k }
          else wp cleanupProfile (fun _ s'' => P (.error e) s'')
            (fun e' s'' => if e' = .killed then P (.error .killed) s'' else P (.error e) s'') s') s1 := by
    intro s1 h1 h2 h3
    refine wp_mono (wp_finish_whole hxl hxr hu hg hf h1 h2 h3) ?_ ?_
    · rintro _ s' ⟨h5, h6, h7⟩
      exact ⟨fun _ => .ended h5 h6, fun _ => ⟨h5, h7⟩⟩
    · rintro e s' ⟨h5, h6⟩
      have h6' : ∀ k, Stage env o t p n { s' with fuel := k } := fun k => h6.fuel k
      split
      · cases sg with
        | none => exact ⟨fun _ => h6, fun h => by cases h⟩
        | some k =>
          dsimp only
          unfold wp
          rw [cleanup_info (s := { s' with fuel := k }) h5]
          exact ⟨fun _ => h6' k, fun h => by cases h⟩
      · unfold wp
        rw [cleanup_info h5]
        exact ⟨fun _ => h6, fun h => by cases h⟩
  rw [wp_atExitSig, wp_bind, wp_readStatus]
  dsimp only
  cases h with
  | new h1 h1' h2 h3 h4 =>
    rw [show readProfile s.prof = .error .notFound by unfold readProfile; rw [h1]]
    dsimp only
    unfold initLockedSig
    rw [wp_bind, wp_onRest]
    show wp (pure ()) _ _ _
    rw [wp_pure]
    unfold newProfileSig
    rw [wp_bind, wp_atExitSig, wp_bind]
    refine wp_generate hc ?_ ?_
    case refine_2 =>
      intro hlt
      dsimp only
      rw [if_pos rfl]
      cases sg with
      | none =>
        dsimp only
        rw [if_pos rfl]
        refine ⟨fun _ => ?_, fun h => by cases h⟩
        rcases genAfter_early (o := o) (t := t) h1 h1' hlt with ⟨g1, g2⟩ | g
        · exact .new g1 g2 h2 h3 h4
        · exact .broken g (Or.inl ⟨h3, h4⟩)
      | some k =>
        dsimp only
        refine wp_rmProfile_any (s := ⟨genAfter o t x.1 s.prof, k, s.rest.restart x.2⟩)
          initActs_order (hsg k rfl) (fun n2 => ?_) (fun hd => ?_)
        · rw [if_pos rfl]
          exact ⟨fun _ => .new rfl rfl h2 h3 h4, fun h => by cases h⟩
        · rw [if_pos rfl]
          have hg0 : (genAfter o t x.1 s.prof).info = none ∧ (genAfter o t x.1 s.prof).cfg = none := by
            rcases genAfter_early (o := o) (t := t) h1 h1' hlt with g | g
            · exact g
            · rw [g.1] at hd; cases hd
          exact wp_cleanup_new (fun q n3 g1 g2 => ⟨fun _ => .new g1 g2 h2 h3 h4, fun h => by cases h⟩) hg0.1 hg0.2
    intro n1 hn1
    dsimp only at hn1
    have hprof : HasProfile (genAfter o t 7 s.prof) ⟨false, false, o.id⟩ t := by
      refine ⟨rfl, ?_, rfl, ht⟩
      show some (some (PInfo.mk false o.addRemote o.id)) = _
      rw [ha]
    rw [wp_bind, wp_onRest]
    have h2' := h2.fuel x.2
    dsimp only
    rw [ha]
    show wp (sys (checkDirs env prog (seen env others s.prof) false)) _ _ _
    rw [wp_sys]
    have hck := wp_checkDirs_new (prog := prog) (others := seen env others s.prof) h2'
    have hacc : ∀ e, e ≠ Err.killed → (checkDirs env prog (seen env others s.prof) false (s.rest.restart x.2).os).1 = .error e →
        KilledRefusing env prog others s x ∨ 5 ≤ n1 := by
      intro e he h5
      by_cases h6 : 12 ≤ x.1
      · exact Or.inr (by omega)
      · exact Or.inl ⟨h1, by omega, by omega, e, he, h5⟩
    refine wp_mono (wp_result hck) ?_ ?_
    · rintro _ s1 ⟨⟨g1, g2, _, g3⟩, _⟩
      rw [wp_pure]
      obtain ⟨hi, _⟩ := h2'.init g1 g2 g3
      have hpl : Placed env s1.fs p n := Or.inl ⟨g1.keeps _ _ h3, fun h5 => h4 (h2'.excludes g1 hi.wf h5)⟩
      exact fin (s1 := ⟨genAfter o t 7 s.prof, n1, { s.rest.restart x.2 with os := s1 }⟩) hprof hi hpl
    · rintro e s1 ⟨⟨g1, g2⟩, hres⟩
      have hP : KilledRefusing env prog others s x → ∀ e s', P (.error e) s' :=
        fun hK _ _ => ⟨fun h => absurd hK h, fun h => by cases h⟩
      have hst : ∀ n2, Stage env o t p n ⟨Prof.absent, n2, { s.rest.restart x.2 with os := s1 }⟩ :=
        fun n2 => stage_refused h2 h3 h4 g1 rfl rfl
      by_cases he : e = .killed
      · rw [if_pos he]
        cases sg with
        | none =>
          dsimp only
          rw [if_pos he]
          obtain ⟨g3, g4⟩ := g2 he
          obtain ⟨hi, _⟩ := h2'.init g1 g3 g4
          have hpl : Placed env s1.fs p n := Or.inl ⟨g1.keeps _ _ h3, fun h5 => h4 (h2'.excludes g1 hi.wf h5)⟩
          refine ⟨fun _ => .begun hprof ?_ hpl, fun h => by cases h⟩
          exact ⟨hi.wf, hi.apart, hi.loc_dir, hi.rem_good, hi.id_good, hi.excl, hi.slot, hi.no_util, hi.clean, rfl, rfl, rfl,
            hi.saved, hi.saved⟩
        | some k =>
          dsimp only
          refine wp_rmProfile (s := ⟨genAfter o t 7 s.prof, k, { s.rest.restart x.2 with os := s1 }⟩)
            initActs_order hprof.1 (hsg k rfl) ?_
          intro n2
          rw [if_pos he]
          exact ⟨fun _ => hst k, fun h => by cases h⟩
      · rw [if_neg he]
        rcases hacc e he hres with hK | hn1
        · refine wp_always (fun _ s' => ?_) (fun e' s' => ?_)
          · rw [if_neg he]
            exact wp_always (fun _ _ => hP hK _ _) (fun _ _ => by split <;> exact hP hK _ _)
          · by_cases he' : e' = .killed
            · rw [if_pos he', if_pos rfl]
              cases sg with
              | none => exact hP hK _ _
              | some k => exact wp_always (fun _ _ => hP hK _ _) (fun _ _ => hP hK _ _)
            · rw [if_neg he', if_neg he]
              exact wp_always (fun _ _ => hP hK _ _) (fun _ _ => by split <;> exact hP hK _ _)
        refine wp_rmProfile (s := ⟨genAfter o t 7 s.prof, n1, { s.rest.restart x.2 with os := s1 }⟩)
          initActs_order hprof.1 hn1 ?_
        intro n2
        rw [if_neg he]
        exact ⟨fun _ => hst n2, fun h => by cases h⟩
  | begun h1 h2 h3 =>
    rw [h1.read]
    dsimp only
    unfold initLockedSig
    dsimp only
    rw [if_neg (by decide), wp_bind, wp_onRest]
    show wp (pure ()) _ _ _
    rw [wp_pure]
    exact fin (s1 := ⟨s.prof, x.1, s.rest.restart x.2⟩) h1 (h2.fuel x.2) h3
  | ended h1 h2 =>
    rw [h1.read]
    dsimp only
    unfold initLockedSig
    dsimp only
    rw [if_pos rfl, wp_throw, if_neg (by decide)]
    unfold wp
    rw [cleanup_info (by rw [h1.2.1]; rfl)]
    exact ⟨fun _ => .ended h1 h2, fun h => by cases h⟩
  | broken h1 h2 =>
    have hc : (cleanupProfile : Prog (LS World) Unit) ⟨s.prof, x.1, s.rest.restart x.2⟩ = (.ok (), _) :=
      cleanup_info (by obtain ⟨_, h3 | ⟨⟨i, h3⟩, _⟩⟩ := h1 <;> rw [h3] <;> rfl)
    rcases h1.read with h3 | h3 <;> rw [h3] <;> dsimp only <;> rw [if_neg (by decide)] <;> unfold wp <;> rw [hc] <;>
      exact ⟨fun _ => .broken h1 h2, fun h => by cases h⟩

theorem stage_runs (hc : o.config = .ok t) (ha : o.addRemote = false) (ht : ValidConfig t) {xs : List (Nat × Nat)}
    {s : LS World} (hx : NotRefusing env prog others o xs s) (h : Stage env o t p n s) :
    Stage env o t p n (initRuns env prog others o xs s) := by
  induction xs generalizing s with
  | nil => exact h
  | cons x xs ih =>
    refine ih hx.2 ?_
    exact (stage_run hxl hxr hu hg hf hc ha ht h (by intro k hk; cases hk)).1 hx.1

end

/-- No local file is in a directory `.zielen`. -/
theorem NewReady.userPath {w : World} (h : NewReady env (w.restart 0)) (hp : p ≠ [])
    (hn : w.os.fs.get (env.loc ++ p) = some n) : UserPath p := by
  refine ⟨hp, fun hh => ?_⟩
  obtain ⟨a, r, rfl⟩ : ∃ a r, p = a :: r := by
    cases p with
    | nil => exact absurd rfl hp
    | cons a r => exact ⟨a, r, rfl⟩
  simp only [List.head?_cons, Option.some.injEq] at hh
  subst hh
  have h1 : w.os.fs.get (env.loc ++ [Env.utilName]) = none := h.no_util
  by_cases hr : r = []
  · subst hr; rw [h1] at hn; cases hn
  · obtain ⟨m', b', h2⟩ := FS.isDir_iff.1
      (h.wf.isDir_prefix hn (env.loc ++ [Env.utilName]) ⟨r, by simp⟩ (by simp [hr]))
    have h2 : w.os.fs.get (env.loc ++ [Env.utilName]) = some (.dir m' b') := h2
    rw [h1] at h2; cases h2

/-- C84: start with any local files and any remote directory, or none, and without a profile; run `init` any number of
times, each time with any end: an error, or killed at any point except while it removes a profile it has refused. At every
point between the runs, every regular local file that is not excluded is at its local or its remote path. -/
theorem C84_kept_partial {w : World} (h : NewReady env (w.restart 0)) (hxl : ¬ env.loc <+: env.excl)
    (hxr : ¬ env.rem <+: env.excl) (hc : o.config = .ok t) (ha : o.addRemote = false) (ht : ValidConfig t)
    {xs : List (Nat × Nat)} {k : Nat} (hx : NotRefusing env prog others o xs ⟨Prof.absent, k, w⟩)
    {c : Nat} {m : Int} {b : Nat} (hp : p ≠ [])
    (hn : w.os.fs.get (env.loc ++ p) = some (.file c m b)) (hex : ¬ OwnExcludes env w.os.fs p) :
    (initRuns env prog others o xs ⟨Prof.absent, k, w⟩).rest.os.fs.get (env.loc ++ p) = some (.file c m b) ∨
    (initRuns env prog others o xs ⟨Prof.absent, k, w⟩).rest.os.fs.get (env.rem ++ p) = some (.file c m b) := by
  have hu : UserPath p := h.userPath hp hn
  have hg : GoodPath p := (goodPath_append.1 (h.wf.goodPath hn)).2
  have hs := stage_runs (prog := prog) (others := others) hxl hxr hu hg ⟨_, _, _, rfl⟩ hc ha ht hx
    (s := ⟨Prof.absent, k, w⟩) (.new rfl rfl h hn hex)
  generalize initRuns env prog others o xs ⟨Prof.absent, k, w⟩ = s at hs ⊢
  cases hs with
  | new _ _ _ h1 _ => exact Or.inl h1
  | begun _ _ h1 => exact h1.imp And.left And.left
  | ended _ h1 => exact h1.imp And.left And.left
  | broken _ h1 => exact h1.imp And.left And.left

/-- C84: and the first run that ends without an error leaves an initialised profile, and the file in the remote directory
with a link to it at its local path. -/
theorem C84_done_partial {w : World} (h : NewReady env (w.restart 0)) (hxl : ¬ env.loc <+: env.excl)
    (hxr : ¬ env.rem <+: env.excl) (hc : o.config = .ok t) (ha : o.addRemote = false) (ht : ValidConfig t)
    {xs : List (Nat × Nat)} {k : Nat} (hx : NotRefusing env prog others o xs ⟨Prof.absent, k, w⟩)
    {c : Nat} {m : Int} {b : Nat} (hp : UserPath p)
    (hn : w.os.fs.get (env.loc ++ p) = some (.file c m b)) (hex : ¬ OwnExcludes env w.os.fs p)
    {x : Nat × Nat} {s' : LS World}
    (hr : initOnce env prog others none o x (initRuns env prog others o xs ⟨Prof.absent, k, w⟩) =
      (.ok (), s')) :
    HasProfile s'.prof ⟨true, false, o.id⟩ t ∧ s'.rest.os.fs.get (env.rem ++ p) = some (.file c m b) ∧
      ∃ l m', s'.rest.os.fs.get (env.loc ++ p) = some (.link l m') ∧ FS.linkDest (env.loc ++ p) l = env.rem ++ p := by
  have hg : GoodPath p := (goodPath_append.1 (h.wf.goodPath hn)).2
  have hs := stage_runs (prog := prog) (others := others) hxl hxr hp hg ⟨_, _, _, rfl⟩ hc ha ht hx
    (s := ⟨Prof.absent, k, w⟩) (.new rfl rfl h hn hex)
  have h1 := (stage_run (prog := prog) (others := others) hxl hxr hp hg ⟨_, _, _, rfl⟩ hc ha ht hs (x := x)
    (sg := none) (by intro k hk; cases hk)).2
  rw [hr] at h1
  exact h1 rfl

/-! ### Examples -/

def exActsE : Acts World := initActs exEnvE "/home/p".toList ["/k".toList]

/-- One run of `init`, or several. -/
def exOnce (x : Nat × Nat) (s : LS World) : Except Err Unit × LS World :=
  initOnce exEnvE "/home/p".toList ["/k".toList] none exOpts x s

def exRuns (xs : List (Nat × Nat)) (s : LS World) : LS World :=
  initRuns exEnvE "/home/p".toList ["/k".toList] exOpts xs s

def exFirst : LS World := ⟨Prof.absent, 0, exNewFiles 0⟩

/-- Three runs that are killed, in the check, in the transfer, and while linking, and one that is not. -/
example :
    (exRuns [(20, 0), (20, 9), (20, 14)] exFirst).prof.info = some (some ⟨false, false, 7⟩) ∧
    (exRuns [(20, 0), (20, 9), (20, 14)] exFirst).rest.os.fs.get ["r".toList, "a".toList] =
      some (.file 7 3 1) ∧
    (exOnce (20, 100)
      (exRuns [(20, 0), (20, 9), (20, 14)] exFirst)).1 = .ok () := by
  decide +kernel

theorem exNewFiles_ready' : NewReady exEnvE ((exNewFiles 0).restart 0) where
  wf := (exNewFiles_ready 0).wf
  apart := by unfold Apart; decide +kernel
  loc_link := (exNewFiles_ready 0).loc_link
  rem_link t m h := by
    have h1 : (exNewFiles 0).os.fs.get exEnvE.rem = none := by decide +kernel
    have h : (exNewFiles 0).os.fs.get exEnvE.rem = some (.link t m) := h
    rw [h1] at h; cases h
  rem_good := by decide +kernel
  id_good := by decide +kernel
  excl := (exNewFiles_ready 0).excl
  no_util := (exNewFiles_ready 0).no_util
  lmemo := rfl
  rmemo := rfl
  fresh := rfl
  rows := rfl
  saved := rfl
  rrows := rfl

/-- The hypotheses of `C84_kept_partial` for these runs. -/
theorem exFirst_excludes : ¬ OwnExcludes exEnvE (exNewFiles 0).os.fs ["a".toList] := by
  rintro ⟨q, k, m, b, h1, h2⟩
  have wf : (exNewFiles 0).os.fs.WF := (exNewFiles_ready 0).wf
  have h3 : (exNewFiles 0).os.fs.stat exEnvE.excl = .ok (["x".toList], .file 1 1 1) := by decide +kernel
  rw [h3] at h1
  cases h1
  have h4 := (mem_allMatches_fs wf).2 h2
  revert h4
  decide +kernel

example :
    (exRuns [(20, 0), (20, 9), (20, 14)] exFirst).rest.os.fs.get ["l".toList, "a".toList] =
      some (.file 7 3 1) ∨
    (exRuns [(20, 0), (20, 9), (20, 14)] exFirst).rest.os.fs.get ["r".toList, "a".toList] =
      some (.file 7 3 1) := by
  unfold exRuns exFirst
  exact C84_kept_partial (env := exEnvE) (prog := "/home/p".toList) (others := ["/k".toList]) (o := exOpts) (t := exText)
    (p := ["a".toList]) (w := exNewFiles 0) (k := 0) (xs := [(20, 0), (20, 9), (20, 14)]) (c := 7) (m := 3) (b := 1)
    exNewFiles_ready' (by decide) (by decide) rfl rfl exText_valid (by decide +kernel) (by decide) (by decide +kernel)
    exFirst_excludes

/-- And for runs that are killed while they write the profile directory: after the exclude file, and, after two resumed
runs, while the info file is empty. -/
example :
    (exRuns [(2, 0), (20, 9), (8, 14), (1, 100)] exFirst).rest.os.fs.get ["l".toList, "a".toList] =
      some (.file 7 3 1) ∨
    (exRuns [(2, 0), (20, 9), (8, 14), (1, 100)] exFirst).rest.os.fs.get ["r".toList, "a".toList] =
      some (.file 7 3 1) := by
  unfold exRuns exFirst
  exact C84_kept_partial (env := exEnvE) (prog := "/home/p".toList) (others := ["/k".toList]) (o := exOpts) (t := exText)
    (p := ["a".toList]) (w := exNewFiles 0) (k := 0) (xs := [(2, 0), (20, 9), (8, 14), (1, 100)]) (c := 7) (m := 3) (b := 1)
    exNewFiles_ready' (by decide) (by decide) rfl rfl exText_valid (by decide +kernel) (by decide) (by decide +kernel)
    exFirst_excludes

/-- Both directories have a file `a`. -/
def exBoth : LS World := ⟨Prof.absent, 0, exNewWorld [(["l".toList], .dir 1 8), (["l".toList, "a".toList], .file 7 3 1),
  (["r".toList], .dir 1 8), (["r".toList, "a".toList], .file 5 2 1)] 0⟩

/-- Not for a run that is killed while it removes a profile. -/
example : KilledRefusing exEnvE "/home/p".toList ["/k".toList] exBoth (7, 100) := by decide +kernel

/-! ### What goes wrong -/

/-- C84 for a later sync is false: killed after the info file says that the profile is initialised, and before the
database of the profile is committed (zielen/profile.py:125-128), `init` leaves a profile that it refuses to resume. The
next sync takes all files for new on both sides, reports no error, and has replaced the remote file with a link to
itself; the content is in no file any more. -/
theorem C84_commit_fails :
    let s := (exOnce (20, 27) exFirst).2
    exFirst.rest.os.fs.get ["l".toList, "d".toList, "b".toList] = some (.file 9 3 1) ∧
    s.rest.os.fs.get ["r".toList, "d".toList, "b".toList] = some (.file 9 3 1) ∧
    (exOnce (20, 100) s).1 = .error .input ∧
    (freshRun exActsE .use (20, 1000) s).1 = .ok () ∧
    (freshRun exActsE .use (20, 1000) s).2.rest.os.fs.get ["r".toList, "d".toList, "b".toList] =
      some (.link "/r/d/b".toList 72) ∧
    (freshRun exActsE .use (20, 1000) s).2.rest.os.fs.all
      (fun e => match e.2 with | .file c _ _ => c != 9 | _ => true) = true := by
  decide +kernel

/-- C84 for a run with nothing in its way is false after one that has been killed when it had made the profile directory:
the directory counts as another profile (`seen`), whose local directory is found to be the same, and the initialisation is
refused. The refused run removes the directory, so the one after it succeeds. -/
theorem C84_leftover_fails :
    let s := (exOnce (1, 100) exFirst).2
    s.prof = { Prof.absent with dir := true } ∧ s.rest.os.fs = exFirst.rest.os.fs ∧
    (exOnce (20, 100) exFirst).1 = .ok () ∧
    (exOnce (20, 100) s).1 = .error .input ∧
    (exOnce (20, 100) (exOnce (20, 100) s).2).1 = .ok () := by
  decide +kernel

/-- C84 for remote files is false: `init` refuses a remote directory that is not empty, but killed before it has removed
the new profile, it leaves one that looks like an interrupted initialisation (zielen/commands/init.py:107-123). The second
`init` makes no checks, and replaces the remote file by the local one; the remote content is in no file any more. -/
theorem C84_unchecked_fails :
    let s := (exOnce (7, 100) exBoth).2
    (exOnce (20, 100) exBoth).1 = .error .input ∧
    (exOnce (20, 100) exBoth).2.prof = Prof.absent ∧
    s.rest.os.fs.get ["r".toList, "a".toList] = some (.file 5 2 1) ∧
    (exOnce (20, 100) s).1 = .ok () ∧
    (exOnce (20, 100) s).2.rest.os.fs.get ["r".toList, "a".toList] = some (.file 7 3 1) ∧
    (exOnce (20, 100) s).2.rest.os.fs.all
      (fun e => match e.2 with | .file c _ _ => c != 5 | _ => true) = true := by
  decide +kernel

end Verif
