import Verif.Config
import Mathlib.Data.List.Induction
/-
Lemmas about reading and writing configuration files.
-/
namespace Verif

namespace Dict
variable {α : Type}

theorem get_nil (k : Str) : get ([] : Dict α) k = none := rfl

theorem get_cons (e : Str × α) (d : Dict α) (k : Str) :
    get (e :: d) k = if e.1 = k then some e.2 else get d k := by
  unfold get
  rw [List.find?_cons]
  by_cases h : e.1 = k <;> simp [h]

theorem get_append (d d' : Dict α) (k : Str) : get (d ++ d') k = (get d k).or (get d' k) := by
  induction d with
  | nil => simp [get_nil]
  | cons e d ih =>
    rw [List.cons_append, get_cons, get_cons, ih]
    split <;> simp

theorem get_eq_none {d : Dict α} {k : Str} : get d k = none ↔ k ∉ keys d := by
  induction d with
  | nil => simp [get_nil, keys]
  | cons e d ih =>
    rw [get_cons]
    by_cases h : e.1 = k
    · simp [h, keys]
    · rw [if_neg h, ih]
      simp [keys, Ne.symm h]

theorem get_set (d : Dict α) (k k' : Str) (v : α) :
    get (set d k v) k' = if k = k' then some v else get d k' := by
  unfold set
  split
  · rename_i h
    have hm : ∀ d : Dict α, get (d.map (fun e => if e.1 = k then (k, v) else e)) k' =
        if k = k' then (if k ∈ keys d then some v else none) else get d k' := by
      intro d
      induction d with
      | nil => simp [get_nil, keys]
      | cons e d ih =>
        rw [List.map_cons, get_cons, ih, get_cons]
        by_cases he : e.1 = k
        · subst he
          by_cases hk : e.1 = k'
          · simp [hk, keys]
          · simp [hk]
        · by_cases hk : k = k'
          · subst hk
            have : (k ∈ keys (e :: d)) ↔ k ∈ keys d := by
              simp [keys, Ne.symm he]
            simp only [he, if_false, if_true, this]
          · by_cases hek : e.1 = k'
            · subst hek; simp [he, hk]
            · simp [he, hk, hek]
    rw [hm]
    have hk : k ∈ keys d := by
      simp only [List.any_eq_true, decide_eq_true_eq] at h
      obtain ⟨e, he, rfl⟩ := h
      exact List.mem_map_of_mem he
    simp [hk]
  · rename_i h
    have hk : k ∉ keys d := by
      intro hk
      obtain ⟨e, he, rfl⟩ := List.mem_map.1 hk
      exact h (List.any_eq_true.2 ⟨e, he, by simp⟩)
    rw [get_append, get_cons, get_nil]
    by_cases hkk : k = k'
    · subst hkk
      rw [get_eq_none.2 hk]; simp
    · simp [hkk]

theorem keys_set (d : Dict α) (k : Str) (v : α) :
    keys (set d k v) = if k ∈ keys d then keys d else keys d ++ [k] := by
  unfold set
  have : (d.any (fun e => decide (e.1 = k)) = true) ↔ k ∈ keys d := by
    simp [keys]
  by_cases hk : k ∈ keys d
  · rw [if_pos (this.2 hk), if_pos hk]
    unfold keys
    rw [List.map_map]
    apply List.map_congr_left
    intro e _
    simp only [Function.comp]
    split
    · rename_i h; exact h.symm
    · rfl
  · rw [if_neg (fun h => hk (this.1 h)), if_neg hk]
    simp [keys]

/-- The keys of a dictionary are distinct. -/
def Nodup (d : Dict α) : Prop := (keys d).Nodup

theorem Nodup.set {d : Dict α} (h : Nodup d) (k : Str) (v : α) : Nodup (set d k v) := by
  unfold Nodup
  rw [keys_set]
  split
  · exact h
  · rename_i hk
    refine List.nodup_append.2 ⟨h, by simp, ?_⟩
    intro a ha b hb
    simp at hb
    subst hb
    intro e
    subst e
    exact hk ha

theorem get_eq_some {d : Dict α} (h : Nodup d) {k : Str} {v : α} :
    get d k = some v ↔ (k, v) ∈ d := by
  induction d with
  | nil => simp [get_nil]
  | cons e d ih =>
    have h' : e.1 ∉ keys d ∧ Nodup d := by simpa [Nodup, keys] using h
    rw [get_cons, List.mem_cons]
    by_cases he : e.1 = k
    · subst he
      simp only [if_true, Option.some.injEq]
      constructor
      · rintro rfl; exact Or.inl rfl
      · rintro (h | hm)
        · rw [← h]
        · exact absurd (List.mem_map_of_mem (f := Prod.fst) hm) h'.1
    · rw [if_neg he, ih h'.2]
      constructor
      · exact Or.inr
      · rintro (h | hm)
        · exact absurd (by rw [← h]) he
        · exact hm

end Dict

/-- The assignments of a text, in order. -/
def assignments (text : Str) : List (Str × Str) := (fileLines (univNewlines text)).filterMap parseLine

def setAll (d : Dict Str) (es : List (Str × Str)) : Dict Str :=
  es.foldl (fun d e => d.set e.1 e.2) d

theorem configRead_eq (raw : Dict Str) (text : Str) :
    configRead raw text = setAll raw (assignments text) := by
  unfold configRead assignments setAll
  generalize fileLines (univNewlines text) = ls
  induction ls generalizing raw with
  | nil => rfl
  | cons l ls ih =>
    rw [List.foldl_cons, ih, List.filterMap_cons]
    cases parseLine l with
    | none => rfl
    | some e => rfl

/-- The last assignment counts. -/
theorem get_setAll (d : Dict Str) (es : List (Str × Str)) (k : Str) :
    (setAll d es).get k = match es.reverse.find? (fun e => decide (e.1 = k)) with
      | some e => some e.2
      | none => d.get k := by
  induction es using List.reverseRecOn with
  | nil => rfl
  | append_singleton es e ih =>
    unfold setAll at ih ⊢
    rw [List.foldl_append, List.foldl_cons, List.foldl_nil, Dict.get_set, ih,
      List.reverse_append, List.reverse_singleton, List.singleton_append, List.find?_cons]
    by_cases h : e.1 = k <;> simp [h]

theorem nodup_setAll {d : Dict Str} (h : d.Nodup) (es : List (Str × Str)) : (setAll d es).Nodup := by
  induction es generalizing d with
  | nil => exact h
  | cons e es ih => exact ih (h.set _ _)

theorem nodup_configRead {d : Dict Str} (h : d.Nodup) (T : Str) : (configRead d T).Nodup := by
  rw [configRead_eq]; exact nodup_setAll h _

/-! ### Lines -/

theorem takeWhile_dropWhile_ne {l : Str} (h : '=' ∈ l) :
    l = l.takeWhile (· != '=') ++ '=' :: (l.dropWhile (· != '=')).drop 1 ∧
      '=' ∉ l.takeWhile (· != '=') := by
  induction l with
  | nil => simp at h
  | cons c l ih =>
    by_cases hc : c = '='
    · subst hc; simp
    · have hl : '=' ∈ l := by
        rcases List.mem_cons.1 h with h | h
        · exact absurd h.symm hc
        · exact h
      obtain ⟨h1, h2⟩ := ih hl
      have hb : (c != '=') = true := by simpa using hc
      rw [List.takeWhile_cons, if_pos hb, List.dropWhile_cons, if_pos hb]
      refine ⟨by rw [List.cons_append, ← h1], ?_⟩
      simp only [List.mem_cons, not_or]
      exact ⟨fun e => hc e.symm, h2⟩

theorem parseLine_split {a b : Str} (ha : '=' ∉ a) :
    parseLine (a ++ '=' :: b) =
      if isComment (a ++ '=' :: b) = false then some (strip a, strip b) else none := by
  unfold parseLine
  have h1 : ∀ a : Str, '=' ∉ a → (a ++ '=' :: b).takeWhile (· != '=') = a ∧
      (a ++ '=' :: b).dropWhile (· != '=') = '=' :: b := by
    intro a ha
    induction a with
    | nil => simp
    | cons c a ih =>
      simp only [List.mem_cons, not_or] at ha
      have hb : (c != '=') = true := by simpa using fun e => ha.1 (Eq.symm e)
      obtain ⟨e1, e2⟩ := ih ha.2
      rw [List.cons_append, List.takeWhile_cons, if_pos hb, List.dropWhile_cons, if_pos hb, e1, e2]
      exact ⟨rfl, rfl⟩
  obtain ⟨e1, e2⟩ := h1 a ha
  rw [e1, e2]
  simp

theorem parseLine_cases (l : Str) : (parseLine l = none) ∨
    ∃ a b, l = a ++ '=' :: b ∧ '=' ∉ a ∧ isComment l = false ∧
      parseLine l = some (strip a, strip b) := by
  by_cases h : isComment l = false ∧ '=' ∈ l
  · obtain ⟨h1, h2⟩ := takeWhile_dropWhile_ne h.2
    refine Or.inr ⟨_, _, h1, h2, h.1, ?_⟩
    unfold parseLine
    rw [if_pos h]
  · left; unfold parseLine; rw [if_neg h]

theorem isComment_strip {a b : Str} (h : isComment (a ++ '=' :: b) = false) (c : Str) :
    isComment (strip a ++ '=' :: c) = false := by
  have key : ∀ (x y : Str), Stripped x → ((x ++ '=' :: y).dropWhile pySpace) = x ++ '=' :: y := by
    intro x y hx
    apply dropWhile_none
    intro d hd
    cases x with
    | nil =>
      simp only [List.nil_append, List.head?_cons, Option.some.injEq] at hd
      subst hd; decide
    | cons e x => exact (stripped_iff.1 hx).1 d (by simpa using hd)
  unfold isComment at h ⊢
  rw [key _ _ (stripped_strip a)]
  cases hs : strip a with
  | nil => simp
  | cons d t =>
    by_contra hd
    simp only [List.cons_append, List.head?_cons, Bool.not_eq_false, beq_iff_eq,
      Option.some.injEq] at hd
    subst hd
    have hpre : ∃ r, a.dropWhile pySpace = '#' :: r := by
      have hsuf := List.dropWhile_suffix (l := (a.dropWhile pySpace).reverse) pySpace
      have hp := List.reverse_prefix.2 hsuf
      rw [List.reverse_reverse] at hp
      have hs' : ((a.dropWhile pySpace).reverse.dropWhile pySpace).reverse = '#' :: t := hs
      rw [hs'] at hp
      obtain ⟨r, hr⟩ := hp
      exact ⟨t ++ r, by rw [← hr]; rfl⟩
    obtain ⟨r, hr⟩ := hpre
    have : (a ++ '=' :: b).dropWhile pySpace = '#' :: (r ++ '=' :: b) := by
      rw [List.dropWhile_append, hr]; simp
    rw [this] at h
    simp at h

/-- A value that fits on a line. -/
def OneLine (v : Str) : Prop := Stripped v ∧ '\n' ∉ v ∧ '\r' ∉ v

instance (v : Str) : Decidable (OneLine v) := by unfold OneLine; infer_instance

theorem parse_writeLine {raw : Dict Str} (hV : ∀ k v, raw.get k = some v → Stripped v) (l : Str) :
    parseLine (writeLine raw l) = (parseLine l).map (fun e => (e.1, (raw.get e.1).getD e.2)) := by
  unfold writeLine
  rcases parseLine_cases l with h | ⟨a, b, hl, ha, hcom, h⟩
  · rw [h]; dsimp only; rw [h]; rfl
  · rw [h]
    dsimp only
    cases hk : raw.get (strip a) with
    | none => dsimp only; rw [h, Option.map_some, hk]; rfl
    | some v =>
      dsimp only
      have hna : '=' ∉ strip a := fun hm => ha (mem_strip hm)
      rw [hl] at hcom
      rw [show strip a ++ '=' :: v ++ ['\n'] = strip a ++ '=' :: (v ++ ['\n']) by simp,
        parseLine_split hna, if_pos (isComment_strip hcom _), Option.map_some, hk,
        strip_append_space (hV _ _ hk) (by decide), show strip (strip a) = strip a from
          stripped_strip a]
      rfl

theorem not_mem_of_isLine {t : Str} (ht : '\n' ∉ t) : IsLine (t ++ ['\n']) := ⟨t, rfl, ht⟩

theorem writeLine_shape {raw : Dict Str} (hV : ∀ k v, raw.get k = some v → '\n' ∉ v) {l : Str} :
    (IsLine l → IsLine (writeLine raw l)) ∧
    ('\n' ∉ l → IsLine (writeLine raw l) ∨ writeLine raw l = l) := by
  unfold writeLine
  rcases parseLine_cases l with h | ⟨a, b, hl, ha, hcom, h⟩
  · rw [h]; exact ⟨id, fun _ => Or.inr rfl⟩
  · rw [h]
    dsimp only
    cases hk : raw.get (strip a) with
    | none => exact ⟨id, fun _ => Or.inr rfl⟩
    | some v =>
      dsimp only
      have key : '\n' ∉ a → IsLine (strip a ++ '=' :: v ++ ['\n']) := by
        intro hna
        refine not_mem_of_isLine ?_
        simp only [List.mem_append, List.mem_cons, not_or]
        exact ⟨fun hm => hna (mem_strip hm), by decide, hV _ _ hk⟩
      constructor
      · rintro ⟨t, rfl, ht⟩
        refine key (fun hm => ht ?_)
        rcases List.eq_nil_or_concat b with rfl | ⟨b', x, rfl⟩
        · have := congrArg List.getLast? hl
          simp at this
        · rw [List.concat_eq_append] at hl
          have : t ++ ['\n'] = (a ++ '=' :: b') ++ [x] := by rw [hl]; simp
          have := List.append_inj_left' this rfl
          rw [this]; simp [hm]
      · intro hn
        refine Or.inl (key (fun hm => hn ?_))
        rw [hl]; simp [hm]

theorem mem_fileLines {s l : Str} (h : l ∈ fileLines s) {c : Char} (hc : c ∈ l) : c ∈ s := by
  rw [← flatten_fileLines s]
  exact List.mem_flatten.2 ⟨l, h, hc⟩

/-- Reading what was written: the lines. -/
theorem fileLines_configWrite {raw : Dict Str} (hV : ∀ k v, raw.get k = some v → OneLine v)
    (T : Str) : fileLines (univNewlines (configWrite raw T)) =
      (fileLines (univNewlines T)).map (writeLine raw) := by
  have hr : '\r' ∉ configWrite raw T := by
    unfold configWrite
    intro hm
    obtain ⟨l', hl', hc⟩ := List.mem_flatten.1 hm
    obtain ⟨l, hl, rfl⟩ := List.mem_map.1 hl'
    have hnl : '\r' ∉ l := fun h => not_mem_univNewlines T (mem_fileLines hl h)
    revert hc
    unfold writeLine
    rcases parseLine_cases l with h | ⟨a, b, hl, ha, hcom, h⟩
    · rw [h]; exact hnl
    · rw [h]
      dsimp only
      cases hk : raw.get (strip a) with
      | none => exact hnl
      | some v =>
        dsimp only
        simp only [List.mem_append, List.mem_cons, List.not_mem_nil, or_false]
        rintro ((hm | hm | hm) | hm)
        · exact hnl (by rw [hl]; simp [mem_strip hm])
        · exact absurd hm (by decide)
        · exact (hV _ _ hk).2.2 hm
        · exact absurd hm (by decide)
  rw [univNewlines_eq hr]
  unfold configWrite
  obtain ⟨ls, t, h1, h2, h3⟩ := fileLines_shape (univNewlines T)
  rw [h1, List.map_append]
  have hls : ∀ l ∈ ls.map (writeLine raw), IsLine l := by
    intro l' hl'
    obtain ⟨l, hl, rfl⟩ := List.mem_map.1 hl'
    exact (writeLine_shape (fun k v h => (hV k v h).2.1)).1 (h2 l hl)
  by_cases ht : t = []
  · rw [if_pos ht, List.map_nil, List.append_nil]
    have := fileLines_flatten hls (t := []) (by simp)
    simpa using this
  · rw [if_neg ht, List.map_singleton]
    rcases (writeLine_shape (raw := raw) (fun k v h => (hV k v h).2.1)).2 h3 with h | h
    · have := fileLines_flatten (ls := ls.map (writeLine raw) ++ [writeLine raw t]) (by
        intro l hl
        rcases List.mem_append.1 hl with hl | hl
        · exact hls l hl
        · rw [List.mem_singleton.1 hl]; exact h) (t := []) (by simp)
      simpa using this
    · rw [h]
      have := fileLines_flatten hls h3
      rw [if_neg ht] at this
      rw [← this, flatten_fileLines]

theorem assignments_configWrite {raw : Dict Str} (hV : ∀ k v, raw.get k = some v → OneLine v)
    (T : Str) : assignments (configWrite raw T) =
      (assignments T).map (fun e => (e.1, (raw.get e.1).getD e.2)) := by
  unfold assignments
  rw [fileLines_configWrite hV, List.filterMap_map, ← List.filterMap_eq_map, List.filterMap_filterMap]
  congr 1
  funext l
  rw [Function.comp, parse_writeLine (fun k v h => (hV k v h).1)]
  cases parseLine l <;> rfl

end Verif
