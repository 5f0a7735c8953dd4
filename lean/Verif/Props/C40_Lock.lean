import Verif.Lock
/-
C40: commands on one profile exclude each other.
-/
namespace Verif

/-- After the events `tr`, process `pid` holds the lock of a user's profile: it was
told so and has not ended since. -/
def Holds (tr : List LockEvent) (pid uid : Nat) (profile : Str) : Prop :=
  ∃ pre post, tr = pre ++ .attempt pid uid profile true :: post ∧ LockEvent.done pid ∉ post

theorem digits_no_dash (n : Nat) : '-' ∉ Nat.toDigits 10 n := by
  intro h
  have := Nat.isDigit_of_mem_toDigits (by omega) (by omega) h
  exact absurd this (by decide)

theorem split_dash {a b x y : Str} (ha : '-' ∉ a) (hb : '-' ∉ b) (h : a ++ '-' :: x = b ++ '-' :: y) :
    a = b ∧ x = y := by
  induction a generalizing b with
  | nil =>
    cases b with
    | nil => simpa using h
    | cons c b =>
      simp only [List.nil_append, List.cons_append, List.cons.injEq] at h
      exact absurd (by simp [← h.1] : '-' ∈ c :: b) hb
  | cons c a ih =>
    cases b with
    | nil =>
      simp only [List.nil_append, List.cons_append, List.cons.injEq] at h
      exact absurd (by simp [h.1] : '-' ∈ c :: a) ha
    | cons d b =>
      simp only [List.cons_append, List.cons.injEq] at h
      obtain ⟨rfl, h⟩ := h
      obtain ⟨rfl, rfl⟩ := ih (fun hm => ha (by simp [hm])) (fun hm => hb (by simp [hm])) h
      exact ⟨rfl, rfl⟩

/-- Different users or profiles have different sockets. -/
theorem C40_name_injective {u v : Nat} {a b : Str} (h : socketName u a = socketName v b) :
    u = v ∧ a = b := by
  unfold socketName at h
  have h1 := List.append_cancel_left (List.cons.inj h).2
  have h2 := (List.cons.inj h1).2
  obtain ⟨hd, rfl⟩ := split_dash (digits_no_dash u) (digits_no_dash v) h2
  refine ⟨?_, rfl⟩
  have := congrArg (fun s => Nat.ofDigitChars 10 s 0) hd
  simpa only [Nat.ofDigitChars_ten_toDigits] using this

theorem holds_snoc {tr : List LockEvent} {e : LockEvent} {pid uid : Nat} {profile : Str} :
    Holds (tr ++ [e]) pid uid profile ↔
      e = .attempt pid uid profile true ∨ (Holds tr pid uid profile ∧ e ≠ .done pid) := by
  constructor
  · rintro ⟨pre, post, h, hp⟩
    rcases List.eq_nil_or_concat post with rfl | ⟨post', x, hx⟩
    · left
      have := List.append_inj_right' h rfl
      simpa using this
    · right
      rw [List.concat_eq_append] at hx
      subst hx
      have e1 : tr ++ [e] = (pre ++ LockEvent.attempt pid uid profile true :: post') ++ [x] := by
        rw [h]; simp
      have h1 := List.append_inj_left' e1 rfl
      have h2 : e = x := by simpa using List.append_inj_right' e1 rfl
      subst h2
      refine ⟨⟨pre, post', h1, fun hm => hp (by simp [hm])⟩, ?_⟩
      rintro rfl
      exact hp (by simp)
  · rintro (rfl | ⟨⟨pre, post, rfl, hp⟩, hne⟩)
    · exact ⟨tr, [], by simp, by simp⟩
    · refine ⟨pre, post ++ [e], by simp, ?_⟩
      intro hm
      rcases List.mem_append.1 hm with hm | hm
      · exact hp hm
      · exact hne (List.mem_singleton.1 hm).symm

/-- The kernel's table says who holds which lock. -/
theorem lockRun_inv {tr : List LockEvent} {s : Sockets} (h : LockRun tr s) :
    (∀ pid uid profile, Holds tr pid uid profile ↔ (socketName uid profile, pid) ∈ s) ∧
    (s.map Prod.fst).Nodup ∧ (∀ e ∈ s, ∃ u p, e.1 = socketName u p) := by
  induction h with
  | nil =>
    refine ⟨fun _ _ _ => ⟨?_, by simp⟩, by simp, by simp⟩
    rintro ⟨pre, post, h, _⟩
    simp at h
  | @snoc tr s s' e hr hs ih =>
    obtain ⟨ih1, ih2, ih3⟩ := ih
    cases hs with
    | @ok _ pid uid profile hb =>
      unfold bindSocket at hb
      split at hb
      · rename_i hc
        cases hb
        refine ⟨?_, List.nodup_cons.2 ⟨hc.2, ih2⟩, ?_⟩
        · intro p u n
          rw [holds_snoc, ih1, List.mem_cons]
          constructor
          · rintro (h | ⟨h, _⟩)
            · left; cases h; rfl
            · right; exact h
          · rintro (h | h)
            · left
              obtain ⟨h1, h2⟩ := Prod.mk.inj h
              obtain ⟨rfl, rfl⟩ := C40_name_injective h1
              rw [h2]
            · right; exact ⟨h, by simp⟩
        · intro e he
          rcases List.mem_cons.1 he with rfl | he
          · exact ⟨_, _, rfl⟩
          · exact ih3 e he
      · simp at hb
    | @fail pid uid profile hb =>
      refine ⟨?_, ih2, ih3⟩
      intro p u n
      rw [holds_snoc, ih1]
      constructor
      · rintro (h | ⟨h, _⟩)
        · cases h
        · exact h
      · intro h; right; exact ⟨h, by simp⟩
    | @done pid =>
      refine ⟨?_, ih2.sublist (List.filter_sublist.map _), fun e he => ih3 e (List.mem_filter.1 he).1⟩
      intro p u n
      rw [holds_snoc, ih1, List.mem_filter]
      constructor
      · rintro (h | ⟨h, hne⟩)
        · cases h
        · refine ⟨h, ?_⟩
          simp only [decide_eq_true_eq, ne_eq]
          rintro rfl
          exact hne rfl
      · rintro ⟨h, hne⟩
        simp only [decide_eq_true_eq, ne_eq] at hne
        right
        exact ⟨h, fun hd => hne (by cases hd; rfl)⟩

/-- At every moment at most one process holds the lock of a user's profile. -/
theorem C40_exclusive {tr : List LockEvent} {s : Sockets} (h : LockRun tr s) {p q u : Nat} {n : Str}
    (hp : Holds tr p u n) (hq : Holds tr q u n) : p = q := by
  obtain ⟨h1, h2, h3⟩ := lockRun_inv h
  rw [h1] at hp hq
  clear h1 h h3
  induction s with
  | nil => simp at hp
  | cons e s ih =>
    rw [List.map_cons, List.nodup_cons] at h2
    rcases List.mem_cons.1 hp with hp' | hp' <;> rcases List.mem_cons.1 hq with hq' | hq'
    · rw [← hp'] at hq'; exact (Prod.mk.inj hq').2.symm
    · exact absurd (by rw [← hp']; exact List.mem_map.2 ⟨_, hq', rfl⟩) h2.1
    · exact absurd (by rw [← hq']; exact List.mem_map.2 ⟨_, hp', rfl⟩) h2.1
    · exact ih hp' hq' h2.2

/-- An attempt succeeds exactly if no process holds the lock of that user's profile at
that moment and the name is not too long for a socket: other profiles, other
users and processes that have ended never get in the way. -/
theorem C40_exact {tr : List LockEvent} {s s' : Sockets} (h : LockRun tr s) {pid uid : Nat} {n : Str}
    {ok : Bool} (hs : LockStep s (.attempt pid uid n ok) s') :
    ok = true ↔ (∀ q, ¬ Holds tr q uid n) ∧ utf8Length (socketName uid n) ≤ 108 := by
  obtain ⟨h1, _, _⟩ := lockRun_inv h
  have key : (∀ q, ¬ Holds tr q uid n) ↔ socketName uid n ∉ s.map Prod.fst := by
    constructor
    · intro hall hm
      obtain ⟨e, he, hee⟩ := List.mem_map.1 hm
      exact hall e.2 ((h1 _ _ _).2 (by rw [← hee]; exact he))
    · intro hn q hq
      exact hn (List.mem_map_of_mem (f := Prod.fst) ((h1 _ _ _).1 hq))
  rw [key]
  cases hs with
  | ok hb =>
    unfold bindSocket at hb
    split at hb
    · rename_i hc; simp [hc]
    · simp at hb
  | fail hb =>
    unfold bindSocket at hb
    split at hb
    · simp at hb
    · rename_i hc
      simp only [Bool.false_eq_true, false_iff]
      intro hc'
      exact hc ⟨hc'.2, hc'.1⟩

/-- Every attempt has an outcome. -/
theorem C40_total (s : Sockets) (pid uid : Nat) (n : Str) :
    ∃ ok s', LockStep s (.attempt pid uid n ok) s' := by
  cases h : bindSocket s pid (socketName uid n) with
  | none => exact ⟨false, s, .fail h⟩
  | some s' => exact ⟨true, s', .ok h⟩

/-- A process that has ended holds no lock. -/
theorem C40_released {tr : List LockEvent} {pid uid : Nat} {n : Str} :
    ¬ Holds (tr ++ [.done pid]) pid uid n := by
  rw [holds_snoc]
  rintro (h | ⟨_, h⟩)
  · cases h
  · exact h rfl

/-- Missing from C40: the name of a profile may be too long for a socket. Then `lock`
always reports that another operation is taking place. -/
theorem C40_long_fails : ∃ n : Str, (∀ c ∈ n, c = 'x') ∧
    bindSocket [] 1 (socketName 1000 n) = none := by
  refine ⟨List.replicate 100 'x', fun c hc => (List.mem_replicate.1 hc).2, by decide +kernel⟩

/-- Two users and two profiles; the second attempt on a held profile fails, and succeeds
after the holder has ended. -/
example : ∃ s, LockRun [.attempt 1 1000 "a".toList true, .attempt 2 1000 "b".toList true,
    .attempt 3 1001 "a".toList true, .attempt 4 1000 "a".toList false, .done 1,
    .attempt 4 1000 "a".toList true] s := by
  have h1 := LockRun.snoc .nil (.ok (s' := [(socketName 1000 "a".toList, 1)])
    (pid := 1) (uid := 1000) (profile := "a".toList) (by decide +kernel))
  have h2 := h1.snoc (.ok (s' := [(socketName 1000 "b".toList, 2), (socketName 1000 "a".toList, 1)])
    (pid := 2) (uid := 1000) (profile := "b".toList) (by decide +kernel))
  have h3 := h2.snoc (.ok (s' := [(socketName 1001 "a".toList, 3), (socketName 1000 "b".toList, 2),
    (socketName 1000 "a".toList, 1)]) (pid := 3) (uid := 1001) (profile := "a".toList) (by decide +kernel))
  have h4 := h3.snoc (.fail (pid := 4) (uid := 1000) (profile := "a".toList) (by decide +kernel))
  have h5 := h4.snoc (.done (pid := 1))
  have h6 := h5.snoc (.ok (s' := [(socketName 1000 "a".toList, 4), (socketName 1001 "a".toList, 3),
    (socketName 1000 "b".toList, 2)]) (pid := 4) (uid := 1000) (profile := "a".toList) (by decide +kernel))
  exact ⟨_, h6⟩

end Verif
