import Verif.Json
/-
What is dumped is read back, and the beginning of a dumped object is not readable.
-/
namespace Verif
namespace Json

/-! ### Characters -/

theorem hexVal_hexDigit {n : Nat} (h : n < 16) : hexVal (hexDigit n) = some n := by
  have : ∀ m : Fin 16, hexVal (hexDigit m.1) = some m.1 := by decide
  exact this ⟨n, h⟩

theorem hex4_digits {n : Nat} (h : n < 65536) :
    hex4 (hexDigit (n / 4096 % 16)) (hexDigit (n / 256 % 16)) (hexDigit (n / 16 % 16)) (hexDigit (n % 16)) = some n := by
  unfold hex4
  rw [hexVal_hexDigit (Nat.mod_lt _ (by omega)), hexVal_hexDigit (Nat.mod_lt _ (by omega)),
    hexVal_hexDigit (Nat.mod_lt _ (by omega)), hexVal_hexDigit (Nat.mod_lt _ (by omega))]
  simp only [Option.some.injEq]
  omega

theorem scanChar_u {n : Nat} (h : n < 65536) (hs : n < 0xd800 ∨ 0xdfff < n) (r : Str) :
    scanChar (uEscape n ++ r) = some (some (Char.ofNat n), r) := by
  simp only [uEscape, List.cons_append, List.nil_append, scanChar, hex4_digits h]
  rw [if_neg (by omega), if_neg (by omega)]

theorem scanChar_pair {n m : Nat} (hn : n < 1024) (hm : m < 1024) (r : Str) :
    scanChar (uEscape (0xd800 + n) ++ uEscape (0xdc00 + m) ++ r) =
      some (some (Char.ofNat (0x10000 + n * 1024 + m)), r) := by
  rw [List.append_assoc]
  simp only [uEscape, List.cons_append, List.nil_append, scanChar,
    hex4_digits (show 0xd800 + n < 65536 by omega), hex4_digits (show 0xdc00 + m < 65536 by omega)]
  rw [if_pos (by omega), if_pos (by omega)]
  simp

theorem scanChar_plain {c : Char} (h1 : c ≠ '\\') (h2 : c ≠ '"') (h3 : ' ' ≤ c) (r : Str) :
    scanChar (c :: r) = some (some c, r) := by
  unfold scanChar
  split
  · next h => cases h
  · next h => exact absurd (List.cons.inj h).1 h2
  · next h => exact absurd (List.cons.inj h).1 h1
  · next h => exact absurd (List.cons.inj h).1 h1
  · next h => exact absurd (List.cons.inj h).1 h1
  · next h =>
    obtain ⟨rfl, rfl⟩ := List.cons.inj h
    rw [if_neg (by simpa [Char.not_lt] using h3)]

theorem scanChar_escape (c : Char) (r : Str) : scanChar (escape c ++ r) = some (some c, r) := by
  unfold escape
  have hv : c.toNat < 0xd800 ∨ (0xdfff < c.toNat ∧ c.toNat < 0x110000) := c.valid
  have he : Char.ofNat c.toNat = c := Char.ofNat_toNat c
  split
  · next h => subst h; rfl
  split
  · next h => subst h; rfl
  split
  · next h1 h2 h => exact scanChar_plain h1 h2 h.1 r
  split
  · next h => rw [← he, h]; rfl
  split
  · next h => rw [← he, h]; rfl
  split
  · next h => subst h; rfl
  split
  · next h => subst h; rfl
  split
  · next h => subst h; rfl
  split
  · next h => rw [scanChar_u h (by omega), he]
  · next h =>
    rw [scanChar_pair (by omega) (by omega)]
    rw [show 0x10000 + (c.toNat - 0x10000) / 1024 * 1024 + (c.toNat - 0x10000) % 1024 = c.toNat by omega, he]

/-! ### More text after the end changes nothing -/

theorem scanChar_append {s r : Str} {o : Option Char} (x : Str) (h : scanChar s = some (o, r)) :
    scanChar (s ++ x) = some (o, r ++ x) := by
  unfold scanChar at h
  split at h
  · cases h
  · simp only [Option.some.injEq, Prod.mk.injEq] at h
    obtain ⟨rfl, rfl⟩ := h
    rfl
  · next a b c d t =>
    split at h
    · cases h
    · next n hn =>
      split at h
      · next hs =>
        split at h
        · next e f g k t =>
          split at h
          · cases h
          · next m hm =>
            split at h
            · next hs2 =>
              simp only [Option.some.injEq, Prod.mk.injEq] at h
              obtain ⟨rfl, rfl⟩ := h
              simp only [List.cons_append, scanChar, hn, hm, if_pos hs, if_pos hs2]
            · cases h
        · cases h
      · next hs =>
        split at h
        · cases h
        · next hs2 =>
          simp only [Option.some.injEq, Prod.mk.injEq] at h
          obtain ⟨rfl, rfl⟩ := h
          simp only [List.cons_append, scanChar, hn, if_neg hs, if_neg hs2]
  · next c t hu =>
    have hc : c ≠ 'u' := by
      rintro rfl
      simp at h
    simp only [List.cons_append]
    unfold scanChar
    split
    · next e => cases e
    · next e => simp at e
    · next e => simp only [List.cons.injEq] at e; exact absurd e.2.1 hc
    · next c' t' _ e =>
      simp only [List.cons.injEq, true_and] at e
      obtain ⟨rfl, rfl⟩ := e
      repeat' split at h
      all_goals first
        | (cases h; done)
        | (simp only [Option.some.injEq, Prod.mk.injEq] at h
           obtain ⟨rfl, rfl⟩ := h
           simp [*])
    · next e => simp at e
    · next hne _ e =>
      obtain ⟨e1, e2⟩ := List.cons.inj e
      exact absurd e2.symm (hne _ _ e1.symm)
  · cases h
  · next c t h1 h2 h3 h4 =>
    split at h
    · cases h
    · next hc =>
      simp only [Option.some.injEq, Prod.mk.injEq] at h
      obtain ⟨rfl, rfl⟩ := h
      rw [List.cons_append]
      refine scanChar_plain ?_ ?_ (by simpa [Char.not_lt] using hc) _
      · rintro rfl
        cases t with
        | nil => exact h4 rfl rfl
        | cons d t => exact h3 d t rfl rfl
      · rintro rfl
        exact h1 rfl

theorem scanStr_append {n : Nat} {s r cs : Str} (x : Str) (h : scanStr n s = some (cs, r)) :
    scanStr n (s ++ x) = some (cs, r ++ x) := by
  induction n generalizing s r cs with
  | zero => cases h
  | succ n ih =>
    unfold scanStr at h ⊢
    cases hc : scanChar s with
    | none => rw [hc] at h; cases h
    | some p =>
      obtain ⟨o, t⟩ := p
      rw [hc] at h
      rw [scanChar_append x hc]
      cases o with
      | none =>
        simp only [Option.some.injEq, Prod.mk.injEq] at h ⊢
        obtain ⟨rfl, rfl⟩ := h
        exact ⟨rfl, rfl⟩
      | some c =>
        simp only at h ⊢
        cases hs : scanStr n t with
        | none => rw [hs] at h; cases h
        | some q =>
          rw [hs] at h
          rw [ih hs]
          simp only [Option.some.injEq, Prod.mk.injEq] at h ⊢
          obtain ⟨rfl, rfl⟩ := h
          exact ⟨rfl, rfl⟩

theorem skipWs_append {s : Str} {c : Char} {r : Str} (x : Str) (h : skipWs s = c :: r) :
    skipWs (s ++ x) = c :: (r ++ x) := by
  unfold skipWs at *
  induction s with
  | nil => cases h
  | cons d s ih =>
    rw [List.cons_append, List.dropWhile_cons]
    rw [List.dropWhile_cons] at h
    split at h
    · next hd => rw [if_pos hd]; exact ih h
    · next hd =>
      rw [if_neg hd]
      obtain ⟨rfl, rfl⟩ := List.cons.inj h
      rfl

theorem scan_append_both (n : Nat) :
    (∀ (s : Str) (v : Json) (r x : Str), scan n s = some (v, r) → scan n (s ++ x) = some (v, r ++ x)) ∧
    (∀ (s : Str) (v : JsonItems) (r x : Str), scanItems n s = some (v, r) → scanItems n (s ++ x) = some (v, r ++ x)) := by
  induction n with
  | zero => exact ⟨fun s v r x h => by simp [scan] at h, fun s v r x h => by simp [scanItems] at h⟩
  | succ n ih =>
    constructor
    · intro s v r x h
      unfold scan at h
      split at h
      · next t =>
        split at h
        · cases h
        · next cs q hq =>
          simp only [Option.some.injEq, Prod.mk.injEq] at h
          obtain ⟨rfl, rfl⟩ := h
          simp [scan, scanStr_append x hq]
      · next t =>
        split at h
        · next q hq =>
          simp only [Option.some.injEq, Prod.mk.injEq] at h
          obtain ⟨rfl, rfl⟩ := h
          simp [scan, skipWs_append x hq]
        · next q hq =>
          split at h
          · cases h
          · next is q' hi =>
            simp only [Option.some.injEq, Prod.mk.injEq] at h
            obtain ⟨rfl, rfl⟩ := h
            simp [scan, skipWs_append x hq, ih.2 _ _ _ x hi]
        · cases h
      · simp only [Option.some.injEq, Prod.mk.injEq] at h
        obtain ⟨rfl, rfl⟩ := h
        simp [scan]
      · simp only [Option.some.injEq, Prod.mk.injEq] at h
        obtain ⟨rfl, rfl⟩ := h
        simp [scan]
      · simp only [Option.some.injEq, Prod.mk.injEq] at h
        obtain ⟨rfl, rfl⟩ := h
        simp [scan]
      · cases h
    · intro s v r x h
      unfold scanItems at h
      split at h
      · cases h
      · next k q hk =>
        split at h
        · next q2 hq2 =>
          have hv0 : ∀ w q3, scan n (skipWs q2) = some (w, q3) → scan n (skipWs (q2 ++ x)) = some (w, q3 ++ x) := by
            intro w q3 hw
            cases hs : skipWs q2 with
            | nil =>
              rw [hs] at hw
              cases n <;> simp [scan] at hw
            | cons c q4 =>
              rw [hs] at hw
              rw [skipWs_append x hs]
              exact ih.1 _ _ _ x hw
          split at h
          · cases h
          · next w q3 hw =>
            split at h
            · next q4 hq4 =>
              simp only [Option.some.injEq, Prod.mk.injEq] at h
              obtain ⟨rfl, rfl⟩ := h
              simp [scanItems, scanStr_append x hk, skipWs_append x hq2, hv0 _ _ hw, skipWs_append x hq4]
            · next q4 hq4 =>
              split at h
              · next q5 hq5 =>
                split at h
                · cases h
                · next is q6 hi =>
                  simp only [Option.some.injEq, Prod.mk.injEq] at h
                  obtain ⟨rfl, rfl⟩ := h
                  simp [scanItems, scanStr_append x hk, skipWs_append x hq2, hv0 _ _ hw, skipWs_append x hq4,
                    skipWs_append x hq5, ih.2 _ _ _ x hi]
              · cases h
            · cases h
        · cases h

/-! ### More steps change nothing -/

theorem scanStr_succ {n : Nat} {s r cs : Str} (h : scanStr n s = some (cs, r)) : scanStr (n + 1) s = some (cs, r) := by
  induction n generalizing s r cs with
  | zero => cases h
  | succ n ih =>
    unfold scanStr at h ⊢
    cases hc : scanChar s with
    | none => rw [hc] at h; cases h
    | some p =>
      obtain ⟨o, t⟩ := p
      rw [hc] at h
      cases o with
      | none => exact h
      | some c =>
        simp only at h ⊢
        cases hs : scanStr n t with
        | none => rw [hs] at h; cases h
        | some q =>
          rw [hs] at h
          rw [ih hs]
          exact h

theorem scan_succ_both (n : Nat) :
    (∀ (s : Str) (v : Json) (r : Str), scan n s = some (v, r) → scan (n + 1) s = some (v, r)) ∧
    (∀ (s : Str) (v : JsonItems) (r : Str), scanItems n s = some (v, r) → scanItems (n + 1) s = some (v, r)) := by
  induction n with
  | zero => exact ⟨fun s v r h => by simp [scan] at h, fun s v r h => by simp [scanItems] at h⟩
  | succ n ih =>
    constructor
    · intro s v r h
      unfold scan at h
      split at h
      · next t =>
        split at h
        · cases h
        · next cs q hq =>
          simp only [Option.some.injEq, Prod.mk.injEq] at h
          obtain ⟨rfl, rfl⟩ := h
          simp [scan, scanStr_succ hq]
      · next t =>
        split at h
        · next q hq =>
          simp only [Option.some.injEq, Prod.mk.injEq] at h
          obtain ⟨rfl, rfl⟩ := h
          simp [scan, hq]
        · next q hq =>
          split at h
          · cases h
          · next is q' hi =>
            simp only [Option.some.injEq, Prod.mk.injEq] at h
            obtain ⟨rfl, rfl⟩ := h
            simp [scan, hq, ih.2 _ _ _ hi]
        · cases h
      · simp only [Option.some.injEq, Prod.mk.injEq] at h
        obtain ⟨rfl, rfl⟩ := h
        simp [scan]
      · simp only [Option.some.injEq, Prod.mk.injEq] at h
        obtain ⟨rfl, rfl⟩ := h
        simp [scan]
      · simp only [Option.some.injEq, Prod.mk.injEq] at h
        obtain ⟨rfl, rfl⟩ := h
        simp [scan]
      · cases h
    · intro s v r h
      unfold scanItems at h
      split at h
      · cases h
      · next k q hk =>
        split at h
        · next q2 hq2 =>
          split at h
          · cases h
          · next w q3 hw =>
            split at h
            · next q4 hq4 =>
              simp only [Option.some.injEq, Prod.mk.injEq] at h
              obtain ⟨rfl, rfl⟩ := h
              rw [scanItems]
              simp [scanStr_succ hk, hq2, ih.1 _ _ _ hw, hq4]
            · next q4 hq4 =>
              split at h
              · next q5 hq5 =>
                split at h
                · cases h
                · next is q6 hi =>
                  simp only [Option.some.injEq, Prod.mk.injEq] at h
                  obtain ⟨rfl, rfl⟩ := h
                  rw [scanItems]
                  simp [scanStr_succ hk, hq2, ih.1 _ _ _ hw, hq4, hq5, ih.2 _ _ _ hi]
              · cases h
            · cases h
        · cases h

theorem scan_mono {n m : Nat} (h : n ≤ m) {s r : Str} {v : Json} (hs : scan n s = some (v, r)) :
    scan m s = some (v, r) := by
  induction h with
  | refl => exact hs
  | step _ ih => exact (scan_succ_both _).1 _ _ _ ih

theorem scanItems_mono {n m : Nat} (h : n ≤ m) {s r : Str} {v : JsonItems} (hs : scanItems n s = some (v, r)) :
    scanItems m s = some (v, r) := by
  induction h with
  | refl => exact hs
  | step _ ih => exact (scan_succ_both _).2 _ _ _ ih

theorem scanStr_mono {n m : Nat} (h : n ≤ m) {s r cs : Str} (hs : scanStr n s = some (cs, r)) :
    scanStr m s = some (cs, r) := by
  induction h with
  | refl => exact hs
  | step _ ih => exact scanStr_succ ih

/-! ### What is dumped is read back -/

theorem escape_length (c : Char) : 1 ≤ (escape c).length := by
  unfold escape
  repeat' split
  all_goals simp [uEscape]

theorem strRest_length (s : Str) : s.length + 1 ≤ (strRest s).length := by
  unfold strRest
  induction s with
  | nil => simp
  | cons c s ih =>
    have := escape_length c
    simp only [List.flatMap_cons, List.append_assoc, List.length_append, List.length_cons] at *
    omega

theorem scanStr_strRest {n : Nat} (s r : Str) (h : s.length + 1 ≤ n) :
    scanStr n (strRest s ++ r) = some (s, r) := by
  induction s generalizing n with
  | nil =>
    cases n with
    | zero => simp at h
    | succ n => rfl
  | cons c s ih =>
    cases n with
    | zero => simp at h
    | succ n =>
      have e : strRest (c :: s) ++ r = escape c ++ (strRest s ++ r) := by simp [strRest, List.flatMap_cons]
      rw [e]
      unfold scanStr
      rw [scanChar_escape]
      simp only
      rw [ih (by simpa using h)]

theorem skipWs_newline (level : Nat) {c : Char} (h : c ≠ ' ' ∧ c ≠ '\t' ∧ c ≠ '\n' ∧ c ≠ '\r') (r : Str) :
    skipWs (newline level ++ c :: r) = c :: r := by
  unfold newline skipWs
  rw [List.cons_append, List.dropWhile_cons, if_pos (by rfl)]
  induction 4 * level with
  | zero => simp [List.dropWhile_cons, h.1, h.2.1, h.2.2.1, h.2.2.2]
  | succ n ih => rw [List.replicate_succ, List.cons_append, List.dropWhile_cons, if_pos (by rfl), ih]

theorem skipWs_cons {c : Char} (h : c ≠ ' ' ∧ c ≠ '\t' ∧ c ≠ '\n' ∧ c ≠ '\r') (r : Str) : skipWs (c :: r) = c :: r := by
  simp [skipWs, List.dropWhile_cons, h.1, h.2.1, h.2.2.1, h.2.2.2]

/-- A dumped value begins with none of the characters that are skipped. -/
theorem dump_head (level : Nat) (v : Json) (r : Str) :
    ∃ c t, dump level v ++ r = c :: t ∧ c ≠ ' ' ∧ c ≠ '\t' ∧ c ≠ '\n' ∧ c ≠ '\r' := by
  cases v with
  | null => exact ⟨_, _, rfl, by decide⟩
  | bool b => cases b <;> exact ⟨_, _, rfl, by decide⟩
  | str s => exact ⟨_, _, rfl, by decide⟩
  | obj is => cases is <;> exact ⟨_, _, rfl, by decide⟩

theorem skipWs_dump (level : Nat) (v : Json) (r : Str) : skipWs (dump level v ++ r) = dump level v ++ r := by
  obtain ⟨c, t, e, h⟩ := dump_head level v r
  rw [e, skipWs_cons h]

mutual
theorem scan_dump (level : Nat) (v : Json) (n : Nat) (r : Str) (h : (dump level v).length ≤ n) :
    scan n (dump level v ++ r) = some (v, r) := by
  cases n with
  | zero =>
    obtain ⟨c, t, e, -⟩ := dump_head level v []
    rw [List.append_nil] at e
    rw [e] at h
    simp at h
  | succ n =>
    match v with
    | .null => rfl
    | .bool true => rfl
    | .bool false => rfl
    | .str s =>
      have hl := strRest_length s
      simp only [dump, List.length_cons] at h
      simp only [dump, List.cons_append, scan]
      rw [scanStr_strRest s r (by omega)]
    | .obj .nil => rfl
    | .obj (.cons k w is) =>
      have hl := strRest_length k
      simp only [dump, List.length_cons, List.length_append] at h
      have e : dump level (.obj (.cons k w is)) ++ r = '{' :: (newline (level + 1) ++ '"' ::
          (strRest k ++ ':' :: ' ' :: (dump (level + 1) w ++ dumpItems (level + 1) is) ++ r)) := by
        simp [dump]
      rw [e]
      simp only [scan]
      rw [skipWs_newline (level + 1) (by decide)]
      simp only
      rw [scan_items (level + 1) k w is n r (by omega)]
theorem scan_items (level : Nat) (k : Str) (v : Json) (is : JsonItems) (n : Nat) (r : Str)
    (h : (strRest k).length + (dump level v).length + (dumpItems level is).length + 2 ≤ n) :
    scanItems n (strRest k ++ ':' :: ' ' :: (dump level v ++ dumpItems level is) ++ r) = some (.cons k v is, r) := by
  cases n with
  | zero => omega
  | succ n =>
    have hl := strRest_length k
    rw [List.append_assoc]
    unfold scanItems
    rw [scanStr_strRest k _ (by omega)]
    simp only [List.cons_append]
    rw [skipWs_cons (by decide)]
    simp only
    have e1 : skipWs (' ' :: (dump level v ++ dumpItems level is ++ r)) = dump level v ++ (dumpItems level is ++ r) := by
      rw [show skipWs (' ' :: (dump level v ++ dumpItems level is ++ r)) = skipWs (dump level v ++ dumpItems level is ++ r) from rfl,
        List.append_assoc, skipWs_dump]
    rw [e1, scan_dump level v n _ (by omega)]
    simp only
    match is with
    | .nil =>
      rw [dumpItems, List.append_assoc, List.cons_append, skipWs_newline _ (by decide)]
      rfl
    | .cons k' v' is' =>
      simp only [dumpItems, List.length_cons, List.length_append] at h
      have e2 : dumpItems level (.cons k' v' is') ++ r = ',' :: (newline level ++ '"' ::
          (strRest k' ++ ':' :: ' ' :: (dump level v' ++ dumpItems level is') ++ r)) := by
        simp [dumpItems]
      rw [e2, skipWs_cons (by decide)]
      simp only
      rw [skipWs_newline level (by decide)]
      simp only
      rw [scan_items level k' v' is' n r (by omega)]
end

/-- What is dumped is read back. -/
theorem loads_dumps (v : Json) : loads (dumps v) = some v := by
  unfold loads dumps
  have h1 := skipWs_dump 0 v []
  rw [List.append_nil] at h1
  have h2 := scan_dump 0 v ((dump 0 v).length + 1) [] (by omega)
  rw [List.append_nil] at h2
  rw [h1, h2]
  rfl

/-- Text after a readable text that is not only white space makes it unreadable. -/
theorem loads_more (v : Json) (x : Str) (h : skipWs x ≠ []) : loads (dumps v ++ x) = none := by
  unfold loads dumps
  rw [skipWs_dump, scan_dump 0 v _ x (by rw [List.length_append]; omega)]
  simp [h]

/-- The beginning of a dumped value is not readable. -/
theorem loads_prefix {v : Json} {t x : Str} (h : t ++ x = dumps v) (hx : x ≠ []) : loads t = none := by
  unfold loads
  cases ht : skipWs t with
  | nil => simp [scan]
  | cons c t' =>
    cases hs : scan (t.length + 1) (c :: t') with
    | none => rfl
    | some p =>
      obtain ⟨w, r⟩ := p
      exfalso
      have h1 := (scan_append_both _).1 _ _ _ x hs
      have h2 := scan_mono (m := (dumps v).length + 1) (by rw [← h, List.length_append]; omega) h1
      have e : c :: t' ++ x = dumps v := by
        rw [List.cons_append, ← skipWs_append x ht, h]
        have := skipWs_dump 0 v []
        rwa [List.append_nil] at this
      rw [e] at h2
      have h3 := scan_dump 0 v ((dumps v).length + 1) [] (by unfold dumps; omega)
      rw [List.append_nil] at h3
      rw [show dump 0 v = dumps v from rfl, h2] at h3
      simp only [Option.some.injEq, Prod.mk.injEq, List.append_eq_nil_iff] at h3
      exact hx h3.2.2

end Json
end Verif
