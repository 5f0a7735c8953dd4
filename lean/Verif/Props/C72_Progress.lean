import Verif.Progress
import Verif.ExampleWorlds
import Verif.WP
/-
C72: what a transfer does does not depend on whether its progress is shown on a terminal.
-/
namespace Verif
open Prog OSM Call FSTools WM

/-! ### Programs that end in the same way -/

theorem bind_ok {σ α β : Type} {m : Prog σ α} {f : α → Prog σ β} {s s' : σ} {a : α} (h : m s = (.ok a, s')) :
    (m >>= f) s = f a s' := by
  show (match m s with
    | (.ok a, s') => f a s'
    | (.error e, s') => (.error e, s')) = _
  rw [h]

theorem bind_error {σ α β : Type} {m : Prog σ α} {f : α → Prog σ β} {s s' : σ} {e : Err} (h : m s = (.error e, s')) :
    (m >>= f) s = (.error e, s') := by
  show (match m s with
    | (.ok a, s') => f a s'
    | (.error e, s') => (.error e, s')) = _
  rw [h]

theorem query_eq {α : Type} {f : FS → Except Err α} {s : OS} {r : Except Err α} (h : f s.fs = r) :
    (OSM.query f : OSM α) s = (r, s) := by
  rw [← h]; rfl

theorem query_inv {α : Type} {f : FS → Except Err α} {s s' : OS} {a : α} (h : (OSM.query f : OSM α) s = (.ok a, s')) :
    f s.fs = .ok a ∧ s' = s := by
  have h1 : (f s.fs, s) = (.ok a, s') := h
  exact ⟨(Prod.mk.inj h1).1, (Prod.mk.inj h1).2.symm⟩

/-- `m` ends in the same state as `m'`, with the same exception if any. -/
def SameEnd {σ α β : Type} (m : Prog σ α) (m' : Prog σ β) (s : σ) : Prop :=
  (m s).2 = (m' s).2 ∧ (m s).1.map (fun _ => ()) = (m' s).1.map (fun _ => ())

theorem SameEnd.bind {σ α α' β β' : Type} {m : Prog σ α} {m' : Prog σ α'} {f : α → Prog σ β} {f' : α' → Prog σ β'} {s : σ}
    (h : SameEnd m m' s) (hf : ∀ a a' s', m s = (.ok a, s') → m' s = (.ok a', s') → SameEnd (f a) (f' a') s') :
    SameEnd (m >>= f) (m' >>= f') s := by
  obtain ⟨h1, h2⟩ := h
  rcases hm : m s with ⟨r, t⟩
  rcases hm' : m' s with ⟨r', t'⟩
  rw [hm, hm'] at h1 h2
  dsimp only at h1 h2
  subst h1
  cases r with
  | ok a =>
    cases r' with
    | ok a' =>
      unfold SameEnd
      rw [bind_ok hm, bind_ok hm']
      exact hf a a' t hm hm'
    | error e => cases h2
  | error e =>
    cases r' with
    | ok a' => cases h2
    | error e' =>
      cases h2
      unfold SameEnd
      rw [bind_error hm, bind_error hm']
      exact ⟨rfl, rfl⟩

theorem SameEnd.refl {σ α : Type} (m : Prog σ α) (s : σ) : SameEnd m m s := ⟨rfl, rfl⟩

/-! ### The bar -/

/-- What a progress bar may show: it never goes back and stays between 0 and 1. -/
inductive Shows : Rat → List Rat → Prop
  | nil (x : Rat) : Shows x []
  | cons {x y : Rat} {l : List Rat} (h : x ≤ y) (h1 : y ≤ 1) (rest : Shows y l) : Shows x (y :: l)

/-- The amount that is shown. -/
def amount (done total : Nat) : Rat := if total = 0 then 1 else (done : Rat) / (total : Rat)

theorem amount_mono {a b total : Nat} (h : a ≤ b) : amount a total ≤ amount b total := by
  unfold amount
  split
  · exact Rat.le_refl
  · rename_i h0
    have h1 : (0 : Rat) < (total : Rat) := by
      have := Nat.pos_of_ne_zero h0
      exact_mod_cast this
    have h2 : (a : Rat) ≤ (b : Rat) := by exact_mod_cast h
    rw [Rat.div_def, Rat.div_def]
    exact Rat.mul_le_mul_of_nonneg_right h2 (Rat.le_of_lt (Rat.inv_pos.2 h1))

theorem amount_zero_le (a total : Nat) : 0 ≤ amount a total := by
  unfold amount
  split
  · decide
  · rename_i h0
    rw [Rat.div_def]
    have h2 : (0 : Rat) ≤ (a : Rat) := by exact_mod_cast Nat.zero_le a
    have h3 : (0 : Rat) < (total : Rat) := by
      have := Nat.pos_of_ne_zero h0
      exact_mod_cast this
    exact Rat.mul_nonneg h2 (Rat.le_of_lt (Rat.inv_pos.2 h3))

theorem amount_self (total : Nat) : amount total total = 1 := by
  unfold amount
  split
  · rfl
  · rename_i h0
    rw [Rat.div_def]
    exact Rat.mul_inv_cancel _ (by exact_mod_cast h0)

theorem barUpdate_ok {a total : Nat} (h : a ≤ total) (s : OS) : barUpdate a total s = (.ok (amount a total), s) := by
  have h1 : ¬ (1 < amount a total ∨ amount a total < 0) := by
    rintro (h1 | h1)
    · have := amount_mono h (total := total)
      rw [amount_self] at this
      exact absurd h1 (Rat.not_lt.2 this)
    · exact absurd h1 (Rat.not_lt.2 (amount_zero_le a total))
  unfold barUpdate
  show (if 1 < amount a total ∨ amount a total < 0 then throw .invalid else pure (amount a total) : OSM Rat) s = _
  rw [if_neg h1]
  rfl

theorem prog_bind_assoc {σ α β γ : Type} (m : Prog σ α) (f : α → Prog σ β) (g : β → Prog σ γ) :
    (m >>= f) >>= g = m >>= fun a => f a >>= g := by
  funext s
  rcases hm : m s with ⟨r, t⟩
  cases r with
  | ok a =>
    rw [bind_ok hm]
    rcases hf : f a t with ⟨r', t'⟩
    have h1 : (m >>= f) s = (r', t') := by rw [bind_ok hm, hf]
    cases r' with
    | ok b => rw [bind_ok h1, bind_ok hf]
    | error e => rw [bind_error h1, bind_error hf]
  | error e =>
    have h1 : (m >>= f) s = (.error e, t) := bind_error hm
    rw [bind_error h1, bind_error hm]

theorem wp_whatever {σ α : Type} {m : Prog σ α} {s : σ} {Q : α → σ → Prop} (h : ∀ a s', Q a s') :
    wp m Q (fun _ _ => True) s := by
  unfold wp
  split
  · exact h _ _
  · trivial

section
variable {source dest : Path} {rmSource : Bool} {total : Nat}

/-- The loop does the same with a bar and without one. -/
theorem transferLoop_same : ∀ (rest : List (Path × Nat)) (done : Nat) (s : OS), done + (rest.map Prod.snd).sum ≤ total →
    SameEnd (transferLoop source dest rmSource total done rest)
      (each (transferOne source dest rmSource) (rest.map Prod.fst)) s
  | [], _, _, _ => ⟨rfl, rfl⟩
  | (p, n) :: rest, done, s, h => by
    simp only [List.map_cons, List.sum_cons] at h
    rw [List.map_cons, each]
    unfold transferOne
    rw [prog_bind_assoc]
    unfold transferLoop
    refine SameEnd.bind (SameEnd.refl _ _) (fun _ _ s1 _ _ => ?_)
    rw [prog_bind_assoc]
    refine SameEnd.bind (SameEnd.refl _ _) (fun _ _ s2 _ _ => ?_)
    unfold SameEnd
    rw [bind_ok (barUpdate_ok (show done + n ≤ total by omega) s2)]
    refine SameEnd.bind (m := rmIf rmSource (source ++ p)) (SameEnd.refl _ _) (fun _ _ s3 _ _ => ?_)
    have ih := transferLoop_same rest (done + n) s3 (by omega)
    unfold transferOne at ih
    refine ⟨?_, ?_⟩
    · rw [← ih.1]
      rcases hm : transferLoop source dest rmSource total (done + n) rest s3 with ⟨r, t⟩
      cases r with
      | ok xs => rw [bind_ok hm]; rfl
      | error e => rw [bind_error hm]
    · rw [← ih.2]
      rcases hm : transferLoop source dest rmSource total (done + n) rest s3 with ⟨r, t⟩
      cases r with
      | ok xs => rw [bind_ok hm]; rfl
      | error e => rw [bind_error hm]

/-- What the bar shows. -/
theorem transferLoop_shows : ∀ (rest : List (Path × Nat)) (done : Nat) (s : OS), done + (rest.map Prod.snd).sum ≤ total →
    wp (transferLoop source dest rmSource total done rest) (fun xs _ => Shows (amount done total) xs ∧
      xs.length = rest.length ∧ (rest ≠ [] → xs.getLast? = some (amount (done + (rest.map Prod.snd).sum) total)))
      (fun _ _ => True) s
  | [], _, _, _ => ⟨.nil _, rfl, fun h => absurd rfl h⟩
  | (p, n) :: rest, done, s, h => by
    simp only [List.map_cons, List.sum_cons] at h
    unfold transferLoop
    rw [wp_bind]
    refine wp_whatever (fun _ s1 => ?_)
    rw [wp_bind]
    refine wp_whatever (fun _ s2 => ?_)
    unfold wp
    rw [bind_ok (barUpdate_ok (show done + n ≤ total by omega) s2)]
    refine wp_bind.2 (wp_whatever (fun _ s3 => wp_bind.2 ?_))
    refine wp_mono (transferLoop_shows rest (done + n) s3 (by omega)) ?_ (fun _ _ _ => trivial)
    rintro xs s4 ⟨h1, h2, h3⟩
    refine ⟨.cons (amount_mono (Nat.le_add_right _ _)) ?_ h1, by rw [List.length_cons, List.length_cons, h2], fun _ => ?_⟩
    · have := amount_mono (show done + n ≤ total by omega) (total := total)
      rwa [amount_self] at this
    · cases rest with
      | nil =>
        have : xs = [] := List.eq_nil_of_length_eq_zero h2
        subst this
        simp
      | cons a rest =>
        have h4 := h3 (by simp)
        cases xs with
        | nil => cases h2
        | cons y ys =>
          rw [List.getLast?_cons_cons, h4]
          simp only [List.map_cons, List.sum_cons, Nat.add_assoc]

end

/-- `sourceSizes` gives a size for every path. -/
theorem sourceSizes_ok {size : Node → Nat} {fs : FS} {source : Path} : ∀ {ps : List Path} {ss : List (Path × Nat)},
    sourceSizes size fs source ps = .ok ss → ss.map Prod.fst = ps
  | [], ss, h => by cases h; rfl
  | p :: ps, ss, h => by
    unfold sourceSizes at h
    split at h
    · cases h
    · split at h
      · cases h
      · rename_i l hl
        cases h
        rw [List.map_cons, sourceSizes_ok hl]

theorem sourceSizes_of {size : Node → Nat} {fs : FS} {source : Path} : ∀ {ps : List Path},
    (∀ p ∈ ps, fs.pathExists (source ++ p) = true) → ∃ ss, sourceSizes size fs source ps = .ok ss
  | [], _ => ⟨[], rfl⟩
  | p :: ps, h => by
    have h1 := h p List.mem_cons_self
    obtain ⟨l, hl⟩ := sourceSizes_of (size := size) (fun q hq => h q (List.mem_cons_of_mem _ hq))
    unfold FS.pathExists at h1
    unfold sourceSizes
    split at h1
    · rename_i x hx
      rw [hx, hl]
      exact ⟨_, rfl⟩
    · cases h1


theorem ok_of_map {α : Type} {x : Except Err α} (h : x.map (fun _ => ()) = .ok ()) : ∃ a, x = .ok a := by
  cases x with
  | ok a => exact ⟨a, rfl⟩
  | error e => cases h

theorem prog_ext {σ : Type} {m m' : Prog σ Unit} {s : σ} (h : SameEnd m m' s) : m s = m' s := by
  obtain ⟨h1, h2⟩ := h
  rcases hm : m s with ⟨r, t⟩
  rcases hm' : m' s with ⟨r', t'⟩
  rw [hm, hm'] at h1 h2
  dsimp only at h1 h2
  subst h1
  cases r <;> cases r' <;> cases h2 <;> rfl

section
variable {size : Node → Nat} {source dest : Path} {files : Option (List Path)} {exclude : List Path} {rmSource : Bool}

/-- The part after the paths have been listed. -/
theorem transferBar_tail {s : OS} {ps : List Path} {ss : List (Path × Nat)}
    (hs : sourceSizes size s.fs source ps = .ok ss) :
    SameEnd ((query (fun fs => sourceSizes size fs source ps) : OSM _) >>= fun ss =>
      transferLoop source dest rmSource (ss.map Prod.snd).sum 0 ss) (each (transferOne source dest rmSource) ps) s := by
  unfold SameEnd
  rw [bind_ok (query_eq hs), ← sourceSizes_ok hs]
  exact transferLoop_same ss 0 s (by omega)

theorem atTerminal_same (s : OS) : SameEnd (transferBar size source dest files exclude rmSource)
    (atTerminal size source dest files exclude rmSource) s := by
  unfold atTerminal SameEnd
  rcases hm : transferBar size source dest files exclude rmSource s with ⟨r, t⟩
  cases r with
  | ok a => rw [bind_ok hm]; exact ⟨rfl, rfl⟩
  | error e => rw [bind_error hm]; exact ⟨rfl, rfl⟩

/-- C72: if no path to be transferred is a dangling link, a transfer does the same at a terminal and elsewhere, also
if it raises an exception or is killed. What is missing in comparison with C72: dangling links, see `C72_fails`. -/
theorem C72_partial (s : OS) (h : ∀ ps, listPaths s.fs source files = .ok ps → ∀ p ∈ ps, p ∉ exclude →
      s.fs.pathExists (source ++ p) = true) :
    atTerminal size source dest files exclude rmSource s = transferTree source dest files exclude rmSource s := by
  apply prog_ext
  refine ⟨(atTerminal_same s).1.symm.trans ?_, (atTerminal_same s).2.symm.trans ?_⟩
  all_goals
    suffices H : SameEnd (transferBar size source dest files exclude rmSource)
      (transferTree source dest files exclude rmSource) s by first | exact H.1 | exact H.2
    unfold transferBar transferTree
    refine SameEnd.bind (SameEnd.refl _ _) (fun b b' s1 h1 h2 => ?_)
    cases h1
    cases h2
    split
    · refine SameEnd.bind (SameEnd.refl _ _) (fun ps ps' s2 h1 h2 => ?_)
      rw [h1] at h2
      cases h2
      obtain ⟨hl, rfl⟩ := query_inv h1
      obtain ⟨ss, hss⟩ := sourceSizes_of (size := size) (fs := s2.fs) (source := source)
        (ps := descending (ps.filter (fun p => decide (p ∉ exclude)))) (by
          intro p hp
          have hp : p ∈ ps.filter (fun p => decide (p ∉ exclude)) := (sortBy_perm _).mem_iff.1 hp
          rw [List.mem_filter, decide_eq_true_eq] at hp
          exact h ps hl p hp.1 hp.2)
      exact transferBar_tail hss
    · exact SameEnd.refl _ _

/-- C72: the bar starts at 0 or above, never goes back, never goes above 1 and ends at 1; it is moved once per path. -/
theorem C72_shows (s : OS) {xs : List Rat} {s' : OS}
    (h : transferBar size source dest files exclude rmSource s = (.ok xs, s')) :
    Shows 0 xs ∧ (xs ≠ [] → xs.getLast? = some 1) ∧ ∃ ps, listPaths s.fs source files = .ok ps ∧
      xs.length = (ps.filter (fun p => decide (p ∉ exclude))).length := by
  suffices H : wp (transferBar size source dest files exclude rmSource) (fun xs _ => Shows 0 xs ∧
      (xs ≠ [] → xs.getLast? = some 1) ∧ ∃ ps, listPaths s.fs source files = .ok ps ∧
      xs.length = (ps.filter (fun p => decide (p ∉ exclude))).length) (fun _ _ => True) s from wp_ok H h
  unfold transferBar
  rw [wp_bind, wp_ask]
  split
  · rw [wp_bind, wp_query]
    refine ⟨fun ps hps => ?_, fun _ _ => trivial⟩
    rw [wp_bind, wp_query]
    refine ⟨fun ss hss => ?_, fun _ _ => trivial⟩
    refine wp_mono (transferLoop_shows ss 0 s (by omega)) ?_ (fun _ _ _ => trivial)
    rintro xs _ ⟨h1, h2, h3⟩
    have hlen : ss.length = (ps.filter (fun p => decide (p ∉ exclude))).length := by
      have h4 := congrArg List.length (sourceSizes_ok hss)
      rw [List.length_map] at h4
      exact h4.trans (sortBy_perm _).length_eq
    refine ⟨?_, ?_, ps, hps, h2.trans hlen⟩
    · cases h1 with
      | nil => exact .nil _
      | cons a b c => exact .cons (Rat.le_trans (amount_zero_le _ _) a) b c
    · intro hx
      rw [h3 (by rintro rfl; exact hx (List.eq_nil_of_length_eq_zero h2)), Nat.zero_add, amount_self]
  · trivial

/-- A transfer that succeeds at a terminal does the same elsewhere. -/
theorem transfer_of_terminal (s : OS) (h : (atTerminal size source dest files exclude rmSource s).1 = .ok ()) :
    transferTree source dest files exclude rmSource s = atTerminal size source dest files exclude rmSource s := by
  have e1 := atTerminal_same (size := size) (source := source) (dest := dest) (files := files) (exclude := exclude)
    (rmSource := rmSource) s
  rw [SameEnd, h] at e1
  obtain ⟨xs, hx⟩ := ok_of_map e1.2
  refine (prog_ext ?_)
  suffices H : SameEnd (transferBar size source dest files exclude rmSource)
      (transferTree source dest files exclude rmSource) s from
    ⟨H.1.symm.trans (atTerminal_same s).1, H.2.symm.trans (atTerminal_same s).2⟩
  have hok : ∃ s', transferBar size source dest files exclude rmSource s = (.ok xs, s') := by
    rcases hm : transferBar size source dest files exclude rmSource s with ⟨r, t⟩
    rw [hm] at hx
    exact ⟨t, by rw [← hx]⟩
  obtain ⟨s', hok⟩ := hok
  unfold transferBar transferTree
  unfold transferBar at hok
  refine SameEnd.bind (SameEnd.refl _ _) (fun b b' s1 h1 h2 => ?_)
  rw [bind_ok h1] at hok
  cases h1
  cases h2
  split
  · rename_i hb
    rw [if_pos hb] at hok
    refine SameEnd.bind (SameEnd.refl _ _) (fun ps ps' s2 h1 h2 => ?_)
    rw [h1] at h2
    cases h2
    rw [bind_ok h1] at hok
    obtain ⟨_, rfl⟩ := query_inv h1
    rcases hss : sourceSizes size s2.fs source (descending (ps.filter (fun p => decide (p ∉ exclude)))) with e | ss
    · rw [bind_error (query_eq hss)] at hok
      cases hok
    · exact transferBar_tail hss
  · exact SameEnd.refl _ _

end

/-! ### A whole sync -/

/-- If `m` succeeds then `m'` does the same. -/
def Follows {σ α : Type} (m m' : Prog σ α) : Prop := ∀ s a s', m s = (.ok a, s') → m' s = (.ok a, s')

theorem Follows.refl {σ α : Type} (m : Prog σ α) : Follows m m := fun _ _ _ h => h

theorem Follows.bind {σ α β : Type} {m m' : Prog σ α} {f f' : α → Prog σ β} (h : Follows m m')
    (hf : ∀ a, Follows (f a) (f' a)) : Follows (m >>= f) (m' >>= f') := by
  intro s b s' hb
  rcases hm : m s with ⟨r, t⟩
  cases r with
  | ok a =>
    rw [bind_ok hm] at hb
    rw [bind_ok (h _ _ _ hm)]
    exact hf a _ _ _ hb
  | error e =>
    rw [bind_error hm] at hb
    cases hb

theorem Follows.sys {α : Type} {m m' : OSM α} (h : Follows m m') : Follows (WM.sys m) (WM.sys m') := by
  intro w a w' hw
  unfold WM.sys at *
  rcases hm : m w.os with ⟨r, t⟩
  rw [hm] at hw
  cases r with
  | ok b =>
    rw [h _ _ _ hm]
    exact hw
  | error e => cases hw

theorem Follows.orRemote {α : Type} {m m' : OSM α} (env : Env) (h : Follows m m') :
    Follows (Verif.orRemote env m) (Verif.orRemote env m') := by
  intro s a s' hs
  unfold Verif.orRemote Prog.tryCatch at *
  dsimp only at *
  rcases hm : m s with ⟨r, t⟩
  rw [hm] at hs
  cases r with
  | ok b =>
    rw [h _ _ _ hm]
    exact hs
  | error e =>
    dsimp only at hs
    split at hs
    · cases hs
    · split at hs
      · rename_i k hk
        split at hk
        · cases hk; cases hs
        · cases hk
      · cases hs

theorem follows_transfer (size : Node → Nat) (source dest : Path) (files : Option (List Path)) (exclude : List Path)
    (rmSource : Bool) : Follows (atTerminal size source dest files exclude rmSource)
      (transferTree source dest files exclude rmSource) := by
  intro s a s' h
  rw [transfer_of_terminal (size := size) s (by rw [h]), h]

/-- C72: a sync that succeeds at a terminal does exactly what it does elsewhere. -/
theorem C72_sync_partial (size : Node → Nat) {env : Env} {w : World} (h : (syncVia (atTerminal size) env w).1 = .ok ()) :
    sync env w = syncVia (atTerminal size) env w := by
  have H : Follows (syncVia (atTerminal size) env) (sync env) := by
    refine Follows.bind (Follows.refl _) (fun x => Follows.bind ?_ (fun _ => Follows.bind (Follows.refl _)
      (fun y => Follows.bind ?_ (fun _ => Follows.refl _))))
    · exact Follows.bind (Follows.refl _) (fun _ => Follows.bind (Follows.refl _) (fun _ => Follows.bind (Follows.refl _)
        (fun _ => Follows.bind (Follows.refl _) (fun _ => Follows.bind (Follows.refl _) (fun _ =>
        Follows.bind (Follows.refl _) (fun _ => Follows.bind (Follows.refl _) (fun _ =>
        Follows.bind (Follows.sys (Follows.orRemote env (follows_transfer _ _ _ _ _ _))) (fun _ => Follows.refl _))))))))
    · exact Follows.bind (Follows.refl _) (fun _ => Follows.bind (Follows.refl _) (fun _ => Follows.bind
        (Follows.sys (Follows.orRemote env (Follows.bind (Follows.refl _) (fun _ =>
          Follows.bind (follows_transfer _ _ _ _ _ _) (fun _ => Follows.refl _))))) (fun _ => Follows.refl _)))
  rcases hm : syncVia (atTerminal size) env w with ⟨r, w'⟩
  rw [hm] at h
  cases h
  exact H _ _ _ hm

/-- C72: an initialisation that succeeds at a terminal does exactly what it does elsewhere. -/
theorem C72_init_partial (size : Node → Nat) {env : Env} {add : Bool} {w : World}
    (h : (initVia (atTerminal size) env add w).1 = .ok ()) : init env add w = initVia (atTerminal size) env add w := by
  have H : Follows (initVia (atTerminal size) env add) (init env add) := by
    refine Follows.bind (Follows.refl _) (fun x => Follows.bind (Follows.refl _) (fun _ =>
      Follows.bind (Follows.refl _) (fun _ => ?_)))
    cases add
    · refine Follows.bind ?_ (fun _ => Follows.refl _)
      exact Follows.bind (Follows.refl _) (fun _ => Follows.bind (Follows.refl _) (fun _ =>
        Follows.bind (Follows.sys (Follows.orRemote env (follows_transfer _ _ _ _ _ _))) (fun _ => Follows.refl _)))
    · exact Follows.refl _
  rcases hm : initVia (atTerminal size) env add w with ⟨r, w'⟩
  rw [hm] at h
  cases h
  exact H _ _ _ hm

/-- A file and a link to a file that does not exist. -/
def exLoose (fuel : Nat) : World := exWorld exEnvE
  [(["l".toList, "b".toList], .file 9 3 1), (["l".toList, "k".toList], .link "gone".toList 45)] [] [] fuel

/-- C72 fails: with a relative link that leads nowhere in the local directory, `init` succeeds if its output goes to a
file, and raises `FileNotFoundError` if it goes to a terminal. -/
theorem C72_fails (size : Node → Nat) : (init exEnvE false (exLoose 1000)).1 = .ok () ∧
    (initVia (atTerminal size) exEnvE false (exLoose 1000)).1 = .error .notFound := by
  refine ⟨by decide +kernel, ?_⟩
  have h : ∃ s1 : World, (initVia (atTerminal size) exEnvE false (exLoose 1000)) = (.error .notFound, s1) := ⟨_, rfl⟩
  obtain ⟨s1, h⟩ := h
  rw [h]

/-- C71 fails: after this `init` every sync raises `FileNotFoundError`, with or without a terminal. -/
theorem C71_dangling_fails :
    (init exEnvE false (exLoose 1000)).1 = .ok () ∧
    (sync exEnvE ((init exEnvE false (exLoose 1000)).2.restart 1000)).1 = .error .notFound ∧
    (sync exEnvE ((sync exEnvE ((init exEnvE false (exLoose 1000)).2.restart 1000)).2.restart 1000)).1 =
      .error .notFound := by decide +kernel

/-- At a terminal: two files and a directory. -/
example : (initVia (atTerminal fun _ => 5) exEnvE false (exWorld exEnvE
    [(["l".toList, "b".toList], .file 9 3 1), (["l".toList, "d".toList], .dir 3 8),
      (["l".toList, "d".toList, "a".toList], .file 7 3 1)] [] [] 1000)).1 = .ok () := by decide +kernel

end Verif
