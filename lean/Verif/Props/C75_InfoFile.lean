import Verif.InfoFile
import Verif.JsonLemmas
import Verif.Props.C39_Timestamp
/-
C75: who reads the info file gets the values of a completed write.
-/
namespace Verif
open Json

/-- C75: what has been written is read back, whatever the texts in it are. -/
theorem C75_roundtrip (v : Json) : loads (dumps v) = some v := loads_dumps v

/-- C75: reading the file of an initialised profile gives each value back under its name: the two times to the
microsecond (years of four digits), the version, the ID and the options. -/
theorem C75_values {version id : Str} {addRemote : Bool} {t u : Nat} (ht : FourDigitYear t) (hu : FourDigitYear u)
    {v : Json} (h : loads (dumps (infoJson version id addRemote (toFields t) (toFields u))) = some v) :
    (v.time "LastSync".toList).map fromFields = some t ∧ (v.time "LastAdjust".toList).map fromFields = some u ∧
    v.get "Version".toList = some (.str version) ∧ v.get "ID".toList = some (.str id) ∧
    v.get "Status".toList = some (.str "initialized".toList) ∧
    (v.get "InitOptions".toList).bind (·.get "add_remote".toList) = some (.bool addRemote) := by
  rw [loads_dumps] at h
  cases h
  have h1 := C39_fields_partial ht
  have h2 := C39_fields_partial hu
  refine ⟨h1, h2, rfl, rfl, rfl, rfl⟩

/-- Two times that are different. -/
example : ∃ v, loads (dumps (infoJson "0.5".toList "a\"b".toList true (toFields (epochMicros + 7))
      (toFields (epochMicros + 60000000)))) = some v ∧
    (v.time "LastSync".toList).map fromFields = some (epochMicros + 7) := by
  have h : FourDigitYear (epochMicros + 7) ∧ FourDigitYear (epochMicros + 60000000) := by
    unfold FourDigitYear; decide +kernel
  exact ⟨_, loads_dumps _, (C75_values h.1 h.2 (loads_dumps _)).1⟩

/-- C75: a part of the text is never read as other values, and neither is the text with more text after it. -/
theorem C75_incomplete (v : Json) :
    (∀ t x, t ++ x = dumps v → x ≠ [] → loads t = none) ∧
    (∀ x, (∃ c ∈ x, c ≠ ' ' ∧ c ≠ '\t' ∧ c ≠ '\n' ∧ c ≠ '\r') → loads (dumps v ++ x) = none) := by
  refine ⟨fun t x h hx => loads_prefix h hx, fun x ⟨c, hc, h⟩ => loads_more v x fun e => ?_⟩
  unfold skipWs at e
  induction x with
  | nil => cases hc
  | cons d x ih =>
    rw [List.dropWhile_cons] at e
    split at e
    · next hd =>
      rcases List.mem_cons.1 hc with rfl | hc
      · simp [h.1, h.2.1, h.2.2.1, h.2.2.2] at hd
      · exact ih ⟨c, hc, h⟩ hc e
    · cases e

/-- What a reader should see: the values of the last write if the file was not emptied after it. -/
def lastWritten : Option Json → (Nat → Option Json) → List InfoAct → Option Json
  | cur, _, [] => cur
  | _, pend, .open p v :: as => lastWritten none (fun q => if q = p then some v else pend q) as
  | _, pend, .close p :: as => lastWritten (pend p) (fun q => if q = p then none else pend q) as
  | cur, pend, .kill p :: as => lastWritten cur (fun q => if q = p then none else pend q) as

/-- All values that are written have texts of the length `n`. -/
def SameLength (n : Nat) (as : List InfoAct) : Prop := ∀ p v, InfoAct.open p v ∈ as → (dumps v).length = n

theorem infoRun_content {n : Nat} {as : List InfoAct} (hl : SameLength n as) {s t : InfoState} (cur : Option Json)
    (hc : s.content = (cur.map dumps).getD []) (hn : ∀ v, cur = some v → (dumps v).length = n)
    (hp : ∀ p v, s.pending p = some v → (dumps v).length = n) (h : infoRun s as = some t) :
    t.content = ((lastWritten cur s.pending as).map dumps).getD [] := by
  induction as generalizing s cur with
  | nil =>
    simp only [infoRun, Option.some.injEq] at h
    subst h
    exact hc
  | cons a as ih =>
    have hl' : SameLength n as := fun p v hm => hl p v (List.mem_cons_of_mem a hm)
    unfold infoRun at h
    cases a with
    | «open» p v =>
      simp only [infoStep] at h
      refine ih hl' none rfl (by simp) (fun q w hq => ?_) h
      simp only at hq
      split at hq
      · cases hq; exact hl p v List.mem_cons_self
      · exact hp q w hq
    | close p =>
      simp only [infoStep] at h
      cases hv : s.pending p with
      | none => rw [hv] at h; cases h
      | some v =>
        rw [hv] at h
        simp only at h
        have hvn := hp p v hv
        refine (ih hl' (some v) ?_ (by rintro w ⟨⟩; exact hvn) (fun q w hq => ?_) h).trans ?_
        · simp only [overwrite, Option.map_some, Option.getD_some]
          rw [hc]
          cases cur with
          | none => simp
          | some u =>
            rw [Option.map_some, Option.getD_some, List.drop_eq_nil_of_le (by rw [hn u rfl, hvn])]
            exact List.append_nil _
        · simp only at hq
          split at hq
          · cases hq
          · exact hp q w hq
        · rw [lastWritten, hv]
    | kill p =>
      simp only [infoStep] at h
      refine ih (s := ⟨s.content, fun q => if q = p then none else s.pending q⟩) hl' cur hc hn (fun q w hq => ?_) h
      simp only at hq
      split at hq
      · cases hq
      · exact hp q w hq

/-- C75: any number of processes open and close the file or are killed, in any order; all texts have the same length
(see `C75_length`). A reader gets the values of the last completed write, unless the file was emptied after it. -/
theorem C75_partial {v : Json} {as : List InfoAct} (hl : SameLength (dumps v).length as) {s t : InfoState}
    (hc : s.content = dumps v) (hp : ∀ p, s.pending p = none) (h : infoRun s as = some t) :
    infoRead t = lastWritten (some v) s.pending as := by
  have := infoRun_content hl (some v) hc (by rintro w ⟨⟩; rfl) (fun p w hw => by rw [hp] at hw; cases hw) h
  unfold infoRead
  rw [this]
  cases lastWritten (some v) s.pending as with
  | none => rfl
  | some w => exact loads_dumps w

/-- Characters that are written as they are. -/
def PlainText (s : Str) : Prop := ∀ c ∈ s, ' ' ≤ c ∧ c ≤ '~' ∧ c ≠ '\\' ∧ c ≠ '"'

theorem strRest_plain {s : Str} (h : PlainText s) : (strRest s).length = s.length + 1 := by
  unfold strRest
  rw [List.length_append, List.length_singleton]
  congr 1
  induction s with
  | nil => rfl
  | cons c s ih =>
    obtain ⟨h1, h2, h3, h4⟩ := h c List.mem_cons_self
    rw [List.flatMap_cons, List.length_append, ih (fun d hd => h d (List.mem_cons_of_mem c hd))]
    simp [escape, h1, h2, h3, h4]
    omega

theorem plain_append {a b : Str} (ha : PlainText a) (hb : PlainText b) : PlainText (a ++ b) := fun c hc =>
  (List.mem_append.1 hc).elim (ha c) (hb c)

theorem plain_cons {c : Char} {b : Str} (hc : ' ' ≤ c ∧ c ≤ '~' ∧ c ≠ '\\' ∧ c ≠ '"') (hb : PlainText b) : PlainText (c :: b) :=
  fun d hd => (List.mem_cons.1 hd).elim (fun e => e ▸ hc) (hb d)

theorem plain_pad (w n : Nat) : PlainText (pad w n) := by
  induction w generalizing n with
  | zero => intro c hc; cases hc
  | succ w ih =>
    refine plain_append (ih _) (plain_cons ?_ (fun c hc => by cases hc))
    have : ∀ k < 10, ' ' ≤ digitChar k ∧ digitChar k ≤ '~' ∧ digitChar k ≠ '\\' ∧ digitChar k ≠ '"' := by decide +kernel
    exact this (n % 10) (Nat.mod_lt _ (by omega))

theorem strftime_rest {d : DateTime} (h : 1000 ≤ d.year) (h' : d.year ≤ 9999) : (strRest (strftime d)).length = 27 := by
  have hp : PlainText (strftime d) := by
    unfold strftime
    rw [yearStr_eq h h']
    simp only [List.append_assoc, List.cons_append]
    exact plain_append (plain_pad _ _) (plain_cons (by decide) (plain_append (plain_pad _ _) (plain_cons (by decide)
      (plain_append (plain_pad _ _) (plain_cons (by decide) (plain_append (plain_pad _ _) (plain_cons (by decide)
      (plain_append (plain_pad _ _) (plain_cons (by decide) (plain_append (plain_pad _ _) (plain_cons (by decide)
      (plain_pad _ _))))))))))))
  rw [strRest_plain hp]
  unfold strftime
  rw [yearStr_eq h h']
  simp [length_pad]

/-- C75: the texts of the info file of an initialised profile all have the same length, as nothing but the two times
changes (the years have four digits). -/
theorem C75_length (version id : Str) (addRemote : Bool) {a b c d : DateTime}
    (ha : 1000 ≤ a.year ∧ a.year ≤ 9999) (hb : 1000 ≤ b.year ∧ b.year ≤ 9999)
    (hc : 1000 ≤ c.year ∧ c.year ≤ 9999) (hd : 1000 ≤ d.year ∧ d.year ≤ 9999) :
    (dumps (infoJson version id addRemote a b)).length = (dumps (infoJson version id addRemote c d)).length := by
  simp only [dumps, infoJson, dump, dumpItems, List.length_append, List.length_cons, strftime_rest ha.1 ha.2,
    strftime_rest hb.1 hb.2, strftime_rest hc.1 hc.2, strftime_rest hd.1 hd.2]

/-- If the lengths were different, two writes at the same time could leave a file that is not readable: the shorter
text is written over the longer one. -/
theorem C75_unequal {v w : Json} (h : (dumps w).length < (dumps v).length) (ho : ∃ is, v = .obj is) (s : InfoState) :
    ∃ t, infoRun s [.open 0 v, .open 1 w, .close 0, .close 1] = some t ∧ infoRead t = none := by
  refine ⟨_, rfl, ?_⟩
  simp only [infoRead, overwrite, List.drop_nil, List.append_nil]
  apply (C75_incomplete w).2
  obtain ⟨is, rfl⟩ := ho
  have hend : ∃ u, dumps (.obj is) = u ++ ['}'] := by
    cases is with
    | nil => exact ⟨['{'], rfl⟩
    | cons k x r =>
      have : ∀ (r : JsonItems) (n : Nat), ∃ u, dumpItems n r = u ++ ['}'] := by
        intro r
        refine JsonItems.rec (motive_1 := fun _ => True) (motive_2 := fun r => ∀ n, ∃ u, dumpItems n r = u ++ ['}'])
          trivial (fun _ => trivial) (fun _ => trivial) (fun _ _ => trivial) (fun n => ⟨_, rfl⟩) (fun k v r _ ih n => ?_) r
        obtain ⟨u, hu⟩ := ih n
        exact ⟨',' :: (newline n ++ '"' :: (strRest k ++ ':' :: ' ' :: (dump n v ++ u))), by simp [dumpItems, hu]⟩
      obtain ⟨u, hu⟩ := this r 1
      exact ⟨'{' :: (newline 1 ++ '"' :: (strRest k ++ ':' :: ' ' :: (dump 1 x ++ u))), by simp [dumps, dump, hu]⟩
  obtain ⟨u, hu⟩ := hend
  refine ⟨'}', ?_, by decide⟩
  rw [hu] at h ⊢
  simp only [List.length_append, List.length_singleton] at h
  rw [List.drop_append_of_le_length (by omega)]
  simp

/-- C75 fails: from the moment at which a process opens the file for writing until it closes it, everybody who reads
it gets an exception, and if the process is killed in this time, this does not end: reading is the first thing that
every command does. -/
theorem C75_fails (s : InfoState) (p : Nat) (v : Json) :
    (∃ t, infoRun s [.open p v] = some t ∧ infoRead t = none) ∧
    (∃ t, infoRun s [.open p v, .kill p] = some t ∧ infoRead t = none) := ⟨⟨_, rfl, rfl⟩, ⟨_, rfl, rfl⟩⟩

/-- Two moments in 2024. -/
def exSynced : DateTime := ⟨2024, 2, 29, 23, 59, 59, 7⟩
def exAdjusted : DateTime := ⟨2024, 3, 1, 0, 0, 0, 0⟩

/-- A sync and the daemon write at the same time, and a third process is killed. -/
example : ∃ t, infoRun ⟨dumps (infoJson "0.5".toList "ab".toList true exSynced exSynced), fun _ => none⟩
      [.open 0 (infoJson "0.5".toList "ab".toList true exAdjusted exSynced),
        .open 1 (infoJson "0.5".toList "ab".toList true exSynced exAdjusted), .kill 2, .close 1, .close 0] = some t ∧
    infoRead t = some (infoJson "0.5".toList "ab".toList true exAdjusted exSynced) := by
  refine ⟨_, rfl, ?_⟩
  rw [C75_partial (v := infoJson "0.5".toList "ab".toList true exSynced exSynced) (as :=
    [.open 0 (infoJson "0.5".toList "ab".toList true exAdjusted exSynced),
      .open 1 (infoJson "0.5".toList "ab".toList true exSynced exAdjusted), .kill 2, .close 1, .close 0]) ?_ rfl
      (fun _ => rfl) rfl]
  · rfl
  · intro p v hm
    simp only [List.mem_cons, InfoAct.open.injEq, reduceCtorEq, List.not_mem_nil, or_false] at hm
    have hy : 1000 ≤ exSynced.year ∧ exSynced.year ≤ 9999 := by decide
    have hz : 1000 ≤ exAdjusted.year ∧ exAdjusted.year ≤ 9999 := by decide
    rcases hm with ⟨-, rfl⟩ | ⟨-, rfl⟩
    · exact C75_length _ _ _ hz hy hy hy
    · exact C75_length _ _ _ hy hz hy hy

example : dumps (.obj (.cons "a".toList (.str "é\n".toList) (.cons "b".toList (.obj (.cons "c".toList .null .nil)) .nil))) =
    "{\n    \"a\": \"\\u00e9\\n\",\n    \"b\": {\n        \"c\": null\n    }\n}".toList := by decide +kernel

/-- The items of an object, in the order of the text. -/
def itemList : JsonItems → List (Str × Json)
  | .nil => []
  | .cons k v r => (k, v) :: itemList r

theorem get_none_iff (key : Str) : ∀ is : JsonItems, is.get key = none ↔ ∀ p ∈ itemList is, p.1 ≠ key
  | .nil => ⟨fun _ _ h => (by cases h), fun _ => rfl⟩
  | .cons k v r => by
    have ih := get_none_iff key r
    unfold JsonItems.get itemList
    rw [List.forall_mem_cons]
    cases h : r.get key with
    | some x =>
      refine ⟨fun h' => (by cases h'), fun h' => ?_⟩
      rw [ih.2 h'.2] at h
      cases h
    | none =>
      have hn := ih.1 h
      dsimp only
      by_cases hk : k = key
      · rw [if_pos hk]
        exact ⟨fun h' => (by cases h'), fun h' => absurd hk h'.1⟩
      · rw [if_neg hk]
        exact ⟨fun _ => ⟨hk, hn⟩, fun _ => rfl⟩

theorem get_some_iff (key : Str) (x : Json) : ∀ is : JsonItems, is.get key = some x ↔
    ∃ l r, itemList is = l ++ (key, x) :: r ∧ ∀ p ∈ r, p.1 ≠ key
  | .nil => ⟨fun h => (by cases h), fun ⟨l, r, h, _⟩ => by simp [itemList] at h⟩
  | .cons k v r => by
    have ih := get_some_iff key x r
    unfold JsonItems.get itemList
    cases h : r.get key with
    | some y =>
      rw [h] at ih
      dsimp only
      rw [ih]
      constructor
      · rintro ⟨l, t, h1, h2⟩
        exact ⟨(k, v) :: l, t, by rw [h1]; rfl, h2⟩
      · rintro ⟨l, t, h1, h2⟩
        cases l with
        | nil =>
          cases h1
          rw [(get_none_iff key r).2 h2] at h
          cases h
        | cons a l =>
          injection h1 with _ h1
          exact ⟨l, t, h1, h2⟩
    | none =>
      have hn := (get_none_iff key r).1 h
      dsimp only
      constructor
      · intro h'
        split at h'
        · next hk => cases h'; subst hk; exact ⟨[], itemList r, rfl, hn⟩
        · cases h'
      · rintro ⟨l, t, h1, h2⟩
        cases l with
        | nil => cases h1; exact if_pos rfl
        | cons a l =>
          injection h1 with _ h1
          exact absurd rfl (hn (key, x) (by rw [h1]; simp))

/-- C75: whatever is in the file, a value that is read of it is that of the last item with its name, and there is no
value if and only if there is no such item. -/
theorem C75_lookup {text : Str} {is : JsonItems} (_h : loads text = some (.obj is)) (key : Str) :
    (∀ x, (Json.obj is).get key = some x ↔ ∃ l r, itemList is = l ++ (key, x) :: r ∧ ∀ p ∈ r, p.1 ≠ key) ∧
    ((Json.obj is).get key = none ↔ ∀ p ∈ itemList is, p.1 ≠ key) :=
  ⟨fun x => get_some_iff key x is, get_none_iff key is⟩

/-- A file with an ID twice, as somebody could leave it who edits it. -/
example : ∃ is, loads (dumps (.obj is)) = some (.obj is) ∧ (itemList is).map (·.1) = ["ID".toList, "ID".toList, "Version".toList] ∧
    (Json.obj is).get "ID".toList = some (.str ['b']) :=
  ⟨.cons "ID".toList (.str ['a']) (.cons "ID".toList (.str ['b']) (.cons "Version".toList (.str "0.5".toList) .nil)),
    loads_dumps _, rfl, ((C75_lookup (loads_dumps _) _).1 _).2
      ⟨[("ID".toList, .str ['a'])], [("Version".toList, .str "0.5".toList)], rfl, by simp⟩⟩

end Verif
