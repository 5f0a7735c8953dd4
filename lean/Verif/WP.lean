import Verif.OSM
/-
Reasoning about programs: `wp m Q E s` says that `m` started in `s` ends in a
state with `Q` or raises an exception in a state with `E`. As every
crash is an exception, `E` holds at all crash points.
-/
namespace Verif

def wp {σ α : Type} (m : Prog σ α) (Q : α → σ → Prop) (E : Err → σ → Prop) (s : σ) : Prop :=
  match m s with
  | (.ok a, s') => Q a s'
  | (.error e, s') => E e s'

namespace Prog
variable {σ α β γ : Type} {Q Q' : α → σ → Prop} {R : β → σ → Prop} {E E' : Err → σ → Prop} {s : σ}

theorem wp_pure {a : α} : wp (Pure.pure a : Prog σ α) Q E s ↔ Q a s := Iff.rfl

theorem wp_throw {e : Err} : wp (throw e : Prog σ α) Q E s ↔ E e s := Iff.rfl

theorem wp_bind {m : Prog σ α} {f : α → Prog σ β} :
    wp (m >>= f) R E s ↔ wp m (fun a s' => wp (f a) R E s') E s := by
  cases hm : m s with
  | mk r s' =>
    cases r with
    | ok a =>
      have h : (m >>= f) s = f a s' := by
        show (match m s with
          | (.ok a, s') => f a s'
          | (.error e, s') => (.error e, s')) = _
        rw [hm]
      unfold wp
      rw [h, hm]
    | error e =>
      have h : (m >>= f) s = (.error e, s') := by
        show (match m s with
          | (.ok a, s') => f a s'
          | (.error e, s') => (.error e, s')) = _
        rw [hm]
      unfold wp
      rw [h, hm]

theorem wp_tryCatch {m : Prog σ α} {h : Err → Option (Prog σ α)} :
    wp (tryCatch m h) Q E s ↔ wp m Q (fun e s' => if e = .killed then E e s' else
      match h e with
      | some k => wp k Q E s'
      | none => E e s') s := by
  unfold wp tryCatch
  dsimp only
  cases hm : m s with
  | mk r s' =>
    cases r with
    | ok a => rfl
    | error e =>
      by_cases hk : e = .killed
      · simp [hk]
      · simp only [hk, if_false]
        cases h e with
        | none => rfl
        | some k => rfl

theorem wp_mono {m : Prog σ α} (h : wp m Q E s) (hQ : ∀ a s, Q a s → Q' a s)
    (hE : ∀ e s, E e s → E' e s) : wp m Q' E' s := by
  unfold wp at *
  cases hm : m s with
  | mk r s' =>
    rw [hm] at h
    cases r with
    | ok a => exact hQ _ _ h
    | error e => exact hE _ _ h

theorem wp_and {m : Prog σ α} (h : wp m Q E s) (h' : wp m Q' E' s) :
    wp m (fun a s => Q a s ∧ Q' a s) (fun e s => E e s ∧ E' e s) s := by
  unfold wp at *
  cases hm : m s with
  | mk r s' =>
    rw [hm] at h h'
    cases r with
    | ok a => exact ⟨h, h'⟩
    | error e => exact ⟨h, h'⟩

/-- A loop; the invariant knows which elements have been treated. -/
theorem wp_each {f : γ → Prog σ Unit} {E : Err → σ → Prop} (I : List γ → σ → Prop) (l : List γ)
    (hs : ∀ done x rest, l = done ++ x :: rest → ∀ s, I done s →
      wp (f x) (fun _ s' => I (done ++ [x]) s') E s)
    {s : σ} (h0 : I [] s) : wp (each f l) (fun _ s' => I l s') E s := by
  suffices H : ∀ rest done, l = done ++ rest → ∀ s, I done s →
      wp (each f rest) (fun _ s' => I l s') E s from H l [] rfl s h0
  intro rest
  induction rest with
  | nil =>
    intro done hl s hi
    rw [List.append_nil] at hl
    subst hl
    exact wp_pure.2 hi
  | cons x rest ih =>
    intro done hl s hi
    rw [each, wp_bind]
    refine wp_mono (hs done x rest hl s hi) ?_ (fun _ _ h => h)
    intro _ s' hi'
    exact ih (done ++ [x]) (by simp [hl]) s' hi'

/-- A loop with an invariant. -/
theorem wp_each' {f : γ → Prog σ Unit} {E : Err → σ → Prop} (I : σ → Prop) {l : List γ}
    (hs : ∀ x ∈ l, ∀ s, I s → wp (f x) (fun _ s' => I s') E s)
    {s : σ} (h0 : I s) : wp (each f l) (fun _ s' => I s') E s :=
  wp_each (fun _ => I) l (fun done x rest hl s => hs x (by simp [hl]) s) h0

/-- From a `wp` to a run. -/
theorem wp_ok {m : Prog σ α} (h : wp m Q E s) {a : α} {s' : σ} (hm : m s = (.ok a, s')) :
    Q a s' := by
  unfold wp at h
  rwa [hm] at h

theorem wp_state {I : σ → Prop} {m : Prog σ α} (h : wp m (fun _ => I) (fun _ => I) s) :
    I (m s).2 := by
  unfold wp at h
  split at h
  · rename_i hm; rw [hm]; exact h
  · rename_i hm; rw [hm]; exact h

theorem wp_error {m : Prog σ α} (h : wp m Q E s) {e : Err} {s' : σ} (hm : m s = (.error e, s')) :
    E e s' := by
  unfold wp at h
  rwa [hm] at h

end Prog

namespace OSM
variable {α : Type} {Q : α → OS → Prop} {E : Err → OS → Prop} {s : OS}
open Prog

theorem wp_query {f : FS → Except Err α} :
    wp (query f) Q E s ↔ (∀ a, f s.fs = .ok a → Q a s) ∧ (∀ e, f s.fs = .error e → E e s) := by
  unfold wp query
  cases f s.fs with
  | ok a => simp
  | error e => simp

theorem wp_ask {f : FS → α} : wp (ask f) Q E s ↔ Q (f s.fs) s := Iff.rfl

theorem wp_time {Q : Int → OS → Prop} : wp time Q E s ↔ Q (s.clk s.tick) s := Iff.rfl

/-- The state after one system call. -/
def OS.next (s : OS) (fs : FS) : OS := { s with fs := fs, fuel := s.fuel - 1, tick := s.tick + 1 }

theorem wp_op {f : FS → Int → Except Err FS} {Q : Unit → OS → Prop}
    (hk : E .killed s)
    (hok : ∀ fs', f s.fs (s.clk s.tick) = .ok fs' → Q () (OS.next s fs'))
    (he : ∀ e, f s.fs (s.clk s.tick) = .error e → E e (OS.next s s.fs)) :
    wp (op f) Q E s := by
  unfold wp op
  cases hf : s.fuel with
  | zero => exact hk
  | succ n =>
    dsimp only
    cases hr : f s.fs (s.clk s.tick) with
    | ok fs' =>
      have := hok fs' hr
      simpa [OS.next, hf] using this
    | error e =>
      have := he e hr
      simpa [OS.next, hf] using this

end OSM
end Verif
