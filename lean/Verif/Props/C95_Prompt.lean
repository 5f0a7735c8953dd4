import Verif.Prompt
import Verif.Spec.Dialogue
import Verif.Props.C64_Template
/-
C95: what `init` asks for and what it does with the answers.

The template is any text, and so is the standard input. `Dialogue` (Verif/Spec/Dialogue.lean) says what the typed lines
answer, `LinesOf` and `LastAssigns` (Verif/Spec/Config.lean) say what a config file means.
-/
namespace Verif

theorem chomp_line (l : Str) : chomp (l ++ ['\n']) = l := by
  unfold chomp
  simp

theorem chomp_plain {l : Str} (h : '\n' ∉ l) : chomp l = l := by
  unfold chomp
  rw [if_neg]
  intro he
  exact h (List.mem_of_getLast? he)

/-- `input` returns the lines of the standard input; a line end at the very end starts no other line. -/
theorem inputLines_linesOf {T : Str} {ls : List Str} (h : LinesOf T ls) :
    inputLines T = ls ∨ inputLines T ++ [[]] = ls := by
  induction h with
  | @last l h1 h2 =>
    unfold inputLines
    rw [univNewlines_eq h2]
    by_cases h0 : l = []
    · subst h0; right; rfl
    · left
      rw [fileLines_last h1 h0]
      simp [chomp_plain h1]
  | @cons l sep t ls h1 h2 h3 _ ih =>
    have : univNewlines (l ++ sep ++ t) = l ++ '\n' :: univNewlines t := by
      rw [List.append_assoc, univNewlines_append h2]
      congr 1
      rcases h3 with rfl | rfl | ⟨rfl, ht⟩
      · exact univNewlines_append (l := ['\n']) (by decide) t
      · rfl
      · cases t with
        | nil => rfl
        | cons c t =>
          have hc : c ≠ '\n' := by simpa using ht
          show univNewlines ('\r' :: c :: t) = _
          conv => lhs; unfold univNewlines
          split
          · rename_i he
            exact absurd (List.cons.inj (List.cons.inj he).2).1 hc
          · rename_i he
            rw [← (List.cons.inj he).2]
          · rename_i _ hne he
            exact absurd (List.cons.inj he).1.symm hne
          · rename_i he; simp at he
    unfold inputLines at ih ⊢
    rw [this, fileLines_line h1, List.map_cons, chomp_line]
    rcases ih with ih | ih
    · left; rw [ih]
    · right; rw [← ih]; rfl

theorem answers_iff {k l v : Str} (hk : k ∈ requiredKeys) :
    Answers k l v ↔ strip l = v ∧ checkValue k (strip l) = none := by
  have hk' : k ∈ allKeys := List.mem_append_left _ hk
  unfold Answers
  rw [trims_iff]
  constructor
  · rintro ⟨rfl, h⟩
    exact ⟨rfl, (checkValue_iff hk' (stripped_strip l)).2 h⟩
  · rintro ⟨rfl, h⟩
    exact ⟨rfl, (checkValue_iff hk' (stripped_strip l)).1 h⟩

theorem promptKey_eq {k : Str} (ls : List Str) {v : Str} {rest : List Str} :
    promptKey k ls = some (v, rest) ↔ ∃ before a, ls = before ++ a :: rest ∧
      (∀ l ∈ before, checkValue k (strip l) ≠ none) ∧ checkValue k (strip a) = none ∧ strip a = v := by
  induction ls with
  | nil => simp [promptKey]
  | cons l ls ih =>
    unfold promptKey
    split
    · rename_i h
      constructor
      · intro he
        cases he
        exact ⟨[], l, rfl, by simp, h, rfl⟩
      · rintro ⟨before, a, e, hb, ha, rfl⟩
        cases before with
        | nil => cases e; rfl
        | cons b before =>
          obtain ⟨rfl, rfl⟩ := List.cons.inj e
          exact absurd h (hb _ (by simp))
    · rename_i e' h
      rw [ih]
      constructor
      · rintro ⟨before, a, rfl, hb, ha, hv⟩
        refine ⟨l :: before, a, rfl, ?_, ha, hv⟩
        intro x hx
        rcases List.mem_cons.1 hx with rfl | hx
        · rw [h]; simp
        · exact hb x hx
      · rintro ⟨before, a, e, hb, ha, hv⟩
        cases before with
        | nil => obtain ⟨rfl, rfl⟩ := List.cons.inj e; rw [h] at ha; cases ha
        | cons b before =>
          obtain ⟨rfl, rfl⟩ := List.cons.inj e
          exact ⟨before, a, rfl, fun x hx => hb x (List.mem_cons_of_mem _ hx), ha, hv⟩

/-- The values of a dialogue are put into the dictionary. -/
theorem promptKeys_eq {ks : List Str} (hk : ∀ k ∈ ks, k ∈ requiredKeys) :
    ∀ (raw raw' : Dict Str) (ls : List Str), (∃ rest, promptKeys ks raw ls = some (raw', rest)) ↔
      ∃ r, Dialogue ks ls r ∧ raw' = r.foldl (fun d e => d.set e.1 e.2) raw := by
  induction ks with
  | nil =>
    intro raw raw' ls
    unfold promptKeys
    constructor
    · rintro ⟨rest, h⟩
      cases h
      exact ⟨[], .nil, rfl⟩
    · rintro ⟨r, h, rfl⟩
      cases h
      exact ⟨ls, rfl⟩
  | cons k ks ih =>
    have ih := ih (fun x hx => hk x (List.mem_cons_of_mem _ hx))
    have hk0 := hk k (by simp)
    intro raw raw' ls
    unfold promptKeys
    constructor
    · rintro ⟨rest, h⟩
      split at h
      · cases h
      · rename_i v ls' hp
        obtain ⟨before, a, rfl, hb, ha, rfl⟩ := (promptKey_eq ls).1 hp
        obtain ⟨r, hr, rfl⟩ := (ih _ _ _).1 ⟨rest, h⟩
        exact ⟨(k, strip a) :: r, .ask (fun l hl v h => hb l hl ((answers_iff hk0).1 h).2)
          ((answers_iff hk0).2 ⟨rfl, ha⟩) hr, rfl⟩
    · rintro ⟨r, h, rfl⟩
      cases h with
      | @ask _ a v _ before after r hb ha hr =>
        obtain ⟨hv, hc⟩ := (answers_iff hk0).1 ha
        have hp : promptKey k (before ++ a :: after) = some (v, after) :=
          (promptKey_eq _).2 ⟨before, a, rfl, fun l hl h => hb l hl _ ((answers_iff hk0).2 ⟨rfl, h⟩), hc, hv⟩
        obtain ⟨rest, h⟩ := (ih (raw.set k v) _ after).2 ⟨r, hr, rfl⟩
        exact ⟨rest, by rw [hp]; exact h⟩

/-- An empty line at the end answers nothing. -/
theorem dialogue_blank {ks ls : List Str} {r : List (Str × Str)} (hk : ∀ k ∈ ks, k ∈ requiredKeys) :
    Dialogue ks (ls ++ [[]]) r ↔ Dialogue ks ls r := by
  have hblank : ∀ k ∈ requiredKeys, ∀ v, ¬ Answers k [] v := by
    intro k hk v h
    have := ((answers_iff hk).1 h).2
    clear h
    revert this
    revert k
    decide
  constructor
  · intro h
    generalize he : ls ++ [[]] = ls' at h
    induction h generalizing ls with
    | nil => exact .nil
    | @ask k a v ks before after r hb ha hr ih =>
      have hk0 := hk k (by simp)
      rcases List.eq_nil_or_concat after with rfl | ⟨after, z, rfl⟩
      · have h0 : ls ++ [[]] = before ++ [a] := he
        obtain ⟨_, h1⟩ := List.append_inj' h0 rfl
        cases h1
        exact absurd ha (hblank k hk0 v)
      · have h0 : ls ++ [[]] = (before ++ a :: after) ++ [z] := by rw [he]; simp
        obtain ⟨h1, h2⟩ := List.append_inj' h0 rfl
        cases h2
        subst h1
        exact .ask hb ha (ih (fun x hx => hk x (List.mem_cons_of_mem _ hx)) (by simp))
  · intro h
    induction h with
    | nil => exact .nil
    | @ask k a v ks before after r hb ha hr ih =>
      have := Dialogue.ask hb ha (ih (fun x hx => hk x (List.mem_cons_of_mem _ hx)))
      simpa using this

theorem dialogue_keys {ks ls : List Str} {r : List (Str × Str)} (h : Dialogue ks ls r) : r.map Prod.fst = ks := by
  induction h with
  | nil => rfl
  | ask _ _ _ ih => simp [ih]

theorem dialogue_valid {ks ls : List Str} {r : List (Str × Str)} (h : Dialogue ks ls r) :
    ∀ k v, (k, v) ∈ r → ∃ l ∈ ls, Answers k l v := by
  induction h with
  | nil => intro k v h; simp at h
  | @ask k a v ks before after r hb ha hr ih =>
    intro k' v' h'
    rcases List.mem_cons.1 h' with h' | h'
    · cases h'
      exact ⟨a, by simp, ha⟩
    · obtain ⟨l, hl, hv⟩ := ih k' v' h'
      exact ⟨l, by simp [hl], hv⟩

/-- No other answers could have been given. -/
theorem Dialogue.unique {ks ls : List Str} {r r' : List (Str × Str)} (hk : ∀ k ∈ ks, k ∈ requiredKeys)
    (h : Dialogue ks ls r) (h' : Dialogue ks ls r') : r = r' := by
  induction h generalizing r' with
  | nil => cases h'; rfl
  | @ask k a v ks before after r hb ha hr ih =>
    generalize he : before ++ a :: after = ls' at h'
    cases h' with
    | @ask _ a' v' _ before' after' r' hb' ha' hr' =>
      have hk0 := hk k (by simp)
      have h1 : promptKey k (before ++ a :: after) = some (v, after) :=
        (promptKey_eq _).2 ⟨before, a, rfl, fun l hl h => hb l hl _ ((answers_iff hk0).2 ⟨rfl, h⟩),
          ((answers_iff hk0).1 ha).2, ((answers_iff hk0).1 ha).1⟩
      have h2 : promptKey k (before' ++ a' :: after') = some (v', after') :=
        (promptKey_eq _).2 ⟨before', a', rfl, fun l hl h => hb' l hl _ ((answers_iff hk0).2 ⟨rfl, h⟩),
          ((answers_iff hk0).1 ha').2, ((answers_iff hk0).1 ha').1⟩
      rw [he, h2] at h1
      cases h1
      rw [ih (fun x hx => hk x (List.mem_cons_of_mem _ hx)) hr']

/-- The values that a dialogue leaves in a dictionary. -/
def answerOf (r : List (Str × Str)) (k : Str) : Str := (Dict.get r k).getD (exAns k)

theorem answerOf_mem {r : List (Str × Str)} (hn : (r.map Prod.fst).Nodup) {k v : Str} (h : (k, v) ∈ r) :
    answerOf r k = v := by
  unfold answerOf
  rw [(Dict.get_eq_some (d := r) hn).2 h]
  rfl

theorem foldl_answers {r : List (Str × Str)} (hn : (r.map Prod.fst).Nodup) (raw : Dict Str) :
    r.foldl (fun d e => d.set e.1 e.2) raw = (r.map Prod.fst).foldl (fun d k => d.set k (answerOf r k)) raw := by
  have h : ∀ (s : List (Str × Str)) (raw : Dict Str), (∀ e ∈ s, e ∈ r) →
      s.foldl (fun d e => d.set e.1 e.2) raw = (s.map Prod.fst).foldl (fun d k => d.set k (answerOf r k)) raw := by
    intro s
    induction s with
    | nil => intro raw _; rfl
    | cons e s ih =>
      intro raw hs
      rw [List.foldl_cons, List.map_cons, List.foldl_cons, ih _ (fun x hx => hs x (List.mem_cons_of_mem _ hx)),
        answerOf_mem hn (hs e (by simp) : (e.1, e.2) ∈ r)]
  exact h r raw (fun _ h => h)

theorem answerOf_good {ks ls : List Str} (hl : ∀ l ∈ ls, '\n' ∉ l ∧ '\r' ∉ l) {r : List (Str × Str)}
    (hn : ks.Nodup) (h : Dialogue ks ls r) : GoodAnswers (answerOf r) := by
  intro k hk
  have hn' : (r.map Prod.fst).Nodup := by rw [dialogue_keys h]; exact hn
  by_cases hm : ∃ v, (k, v) ∈ r
  · obtain ⟨v, hv⟩ := hm
    rw [answerOf_mem hn' hv]
    obtain ⟨l, hl', ha⟩ := dialogue_valid h k v hv
    obtain ⟨rfl, hc⟩ := (answers_iff hk).1 ha
    refine ⟨hc, stripped_strip l, ?_, ?_⟩
    · intro hx
      obtain ⟨w, w', e, _⟩ := trims_iff.2 (rfl : strip l = strip l)
      exact (hl l hl').1 (by rw [e]; simp [hx])
    · intro hx
      obtain ⟨w, w', e, _⟩ := trims_iff.2 (rfl : strip l = strip l)
      exact (hl l hl').2 (by rw [e]; simp [hx])
  · have : Dict.get r k = none := by
      rcases Option.eq_none_or_eq_some (Dict.get r k) with h1 | ⟨v, h1⟩
      · exact h1
      · exact absurd ⟨v, (Dict.get_eq_some (d := r) hn').1 h1⟩ hm
    unfold answerOf
    rw [this]
    exact exAns_good k hk

theorem linesOf_plain {T : Str} {ls : List Str} (h : LinesOf T ls) : ∀ l ∈ ls, '\n' ∉ l ∧ '\r' ∉ l := by
  induction h with
  | last h1 h2 => intro x hx; rw [List.mem_singleton.1 hx]; exact ⟨h1, h2⟩
  | cons h1 h2 _ _ ih =>
    intro x hx
    rcases List.mem_cons.1 hx with rfl | hx
    · exact ⟨h1, h2⟩
    · exact ih x hx

/-- The options that are asked for. -/
def unsetKeys (raw : Dict Str) : List Str :=
  requiredKeys.filter (fun k => decide (raw.get k = none ∨ raw.get k = some []))

theorem unsetKeys_sub (raw : Dict Str) : ∀ k ∈ unsetKeys raw, k ∈ requiredKeys :=
  fun _ h => (List.mem_filter.1 h).1

theorem unsetKeys_nodup (raw : Dict Str) : (unsetKeys raw).Nodup :=
  List.Nodup.sublist List.filter_sublist (by decide)

/-- `prompt` gives the dictionary of `promptAll` with the answers of the dialogue. -/
theorem prompt_dialogue {stdin : Str} {sl : List Str} (hs : LinesOf stdin sl) (raw raw' : Dict Str) :
    (∃ rest, prompt raw (inputLines stdin) = some (raw', rest)) ↔
      ∃ r, Dialogue (unsetKeys raw) sl r ∧ raw' = promptAll raw (answerOf r) := by
  have hd : ∀ r, Dialogue (unsetKeys raw) (inputLines stdin) r ↔ Dialogue (unsetKeys raw) sl r := by
    intro r
    rcases inputLines_linesOf hs with h | h
    · rw [h]
    · rw [← h, dialogue_blank (unsetKeys_sub raw)]
  unfold prompt
  rw [show requiredKeys.filter (fun k => decide (raw.get k = none ∨ raw.get k = some [])) = unsetKeys raw from rfl,
    promptKeys_eq (unsetKeys_sub raw)]
  have he : ∀ r, Dialogue (unsetKeys raw) sl r →
      r.foldl (fun d e => d.set e.1 e.2) raw = promptAll raw (answerOf r) := by
    intro r h
    rw [foldl_answers (by rw [dialogue_keys h]; exact unsetKeys_nodup raw), dialogue_keys h]
    rfl
  constructor
  · rintro ⟨r, h, rfl⟩
    exact ⟨r, (hd r).1 h, he r ((hd r).1 h)⟩
  · rintro ⟨r, h, rfl⟩
    exact ⟨r, (hd r).2 h, (he r h).symm⟩

/-! ### With a template -/

/-- The three options that are required, in the order in which they are asked for. -/
def RequiredOptions : List Str := ["LocalDir".toList, "RemoteDir".toList, "StorageLimit".toList]

/-- `ks` are the options that the template leaves empty, in the order in which they are asked for. -/
def LeftEmpty (ls ks : List Str) : Prop := ks.Sublist RequiredOptions ∧
  ∀ k, k ∈ ks ↔ k ∈ RequiredOptions ∧ LastAssigns ls k []

theorem leftEmpty_eq {T : Str} {ls ks : List Str} (hl : LinesOf T ls) (h : LeftEmpty ls ks)
    (hT : ∀ k ∈ requiredKeys, ∃ v, (configRead [] T).get k = some v) : ks = unsetKeys (configRead [] T) := by
  have hm : ∀ k, k ∈ ks ↔ k ∈ unsetKeys (configRead [] T) := by
    intro k
    rw [h.2, ← lastAssigns_iff hl]
    unfold unsetKeys
    rw [List.mem_filter, decide_eq_true_eq]
    constructor
    · rintro ⟨h1, h2⟩
      exact ⟨h1, Or.inr h2⟩
    · rintro ⟨h1, h2 | h2⟩
      · obtain ⟨v, hv⟩ := hT k h1
        rw [hv] at h2; cases h2
      · exact ⟨h1, h2⟩
  have hf : ∀ {a b : List Str}, a.Sublist b → b.Nodup → a = b.filter (fun k => decide (k ∈ a)) := by
    intro a b hab
    induction hab with
    | slnil => intro _; rfl
    | @cons a b x hab ih =>
      intro hb
      obtain ⟨h1, h2⟩ := List.nodup_cons.1 hb
      rw [List.filter_cons_of_neg (by simpa using fun hx => h1 (hab.subset hx))]
      exact ih h2
    | @cons_cons a b x hab ih =>
      intro hb
      obtain ⟨h1, h2⟩ := List.nodup_cons.1 hb
      rw [List.filter_cons_of_pos (by simp)]
      congr 1
      conv => lhs; rw [ih h2]
      apply List.filter_congr
      intro y hy
      have : y ≠ x := fun e => h1 (e ▸ hy)
      simp [this]
  have hr : RequiredOptions.Nodup := by decide
  rw [hf h.1 hr]
  unfold unsetKeys
  show requiredKeys.filter _ = _
  apply List.filter_congr
  intro k hk
  have := hm k
  unfold unsetKeys at this
  rw [List.mem_filter] at this
  rw [Bool.eq_iff_iff, decide_eq_true_eq, this]
  exact ⟨fun h => h.2, fun h => ⟨hk, h⟩⟩

/-- A template that is accepted: it has every required option, no unknown one, and every value that is not empty is
valid. -/
def GoodTemplate (ls : List Str) : Prop :=
  (∀ k ∈ RequiredOptions, ∃ v, LastAssigns ls k v) ∧
  ∀ k v, LastAssigns ls k v → k ∈ allKeys ∧ (v ≠ [] → ValidOption k v)

theorem goodTemplate_iff {T : Str} {ls : List Str} (hl : LinesOf T ls) :
    checkAll (configRead [] T) false = [] ↔ GoodTemplate ls := by
  rw [checkAll_eq_nil (nodup_configRead (by simp [Dict.Nodup, Dict.keys]) T)]
  unfold GoodTemplate
  simp only [lastAssigns_iff hl]
  constructor
  · rintro ⟨h1, h2⟩
    exact ⟨h1, fun k v h => ⟨(h2 k v h).1, fun h0 =>
      (checkValue_iff (h2 k v h).1 (lastAssigns_stripped h)).1 ((h2 k v h).2 (Or.inr h0))⟩⟩
  · rintro ⟨h1, h2⟩
    refine ⟨h1, fun k v h => ⟨(h2 k v h).1, fun h0 => ?_⟩⟩
    rcases h0 with h0 | h0
    · cases h0
    · exact (checkValue_iff (h2 k v h).1 (lastAssigns_stripped h)).2 ((h2 k v h).2 h0)

/-- With a template: `init` gets a config file exactly if the template is accepted and the dialogue about the options
that it leaves empty comes to an end. The file has the template's values and the answers. -/
theorem C95_template {T stdin : Str} {ls sl ks : List Str} (hl : LinesOf T ls) (hs : LinesOf stdin sl)
    (hk : LeftEmpty ls ks) (master : Str) :
    ((∃ C, generateConfig (some T) master stdin = .ok C) ↔ GoodTemplate ls ∧ ∃ r, Dialogue ks sl r) ∧
    ∀ C cl r, generateConfig (some T) master stdin = .ok C → LinesOf C cl → Dialogue ks sl r →
      ∀ k v, LastAssigns cl k v ↔ (LastAssigns ls k v ∧ k ∉ ks) ∨ (k, v) ∈ r := by
  have key : ∀ C, generateConfig (some T) master stdin = .ok C ↔ GoodTemplate ls ∧
      ∃ r, Dialogue ks sl r ∧ C = configWrite (promptAll (configRead [] T) (answerOf r)) T := by
    intro C
    rw [← goodTemplate_iff hl]
    unfold generateConfig
    constructor
    · intro h
      simp only at h
      split at h
      · rename_i hc
        split at h
        · rename_i raw rest hp
          cases h
          obtain ⟨r, h1, rfl⟩ := (prompt_dialogue hs _ _).1 ⟨rest, hp⟩
          refine ⟨hc, r, ?_, rfl⟩
          rw [leftEmpty_eq hl hk ((checkAll_eq_nil (nodup_configRead (by simp [Dict.Nodup, Dict.keys]) T) false).1 hc).1]
          exact h1
        · cases h
      · cases h
    · rintro ⟨hc, r, h1, rfl⟩
      rw [leftEmpty_eq hl hk ((checkAll_eq_nil (nodup_configRead (by simp [Dict.Nodup, Dict.keys]) T) false).1 hc).1]
        at h1
      obtain ⟨rest, hp⟩ := (prompt_dialogue hs _ _).2 ⟨r, h1, rfl⟩
      simp only [hc, hp]
  refine ⟨?_, ?_⟩
  · constructor
    · rintro ⟨C, h⟩
      obtain ⟨h1, r, h2, _⟩ := (key C).1 h
      exact ⟨h1, r, h2⟩
    · rintro ⟨h1, r, h2⟩
      exact ⟨_, (key _).2 ⟨h1, r, h2, rfl⟩⟩
  · intro C cl r h hcl hr k v
    obtain ⟨h1, r', h2, h3⟩ := (key C).1 h
    have hsub : ∀ k ∈ ks, k ∈ requiredKeys := fun k hk' => hk.1.subset hk'
    have hn : ks.Nodup := List.Nodup.sublist hk.1 (by decide)
    cases Dialogue.unique hsub hr h2
    have hg := answerOf_good (linesOf_plain hs) hn hr
    have ht : templateConfig T (answerOf r) = .ok C := by
      unfold templateConfig
      rw [(goodTemplate_iff hl).2 h1, h3]
    rw [← lastAssigns_iff hcl, C64_values hl hg ht]
    have hn' : (r.map Prod.fst).Nodup := by rw [dialogue_keys hr]; exact hn
    have hmem : ∀ k, k ∈ ks ↔ ∃ v, (k, v) ∈ r := by
      intro k
      rw [← dialogue_keys hr]
      simp
    have e1 : (LastAssigns ls k v ∧ ¬ (k ∈ requiredKeys ∧ v = [])) ↔ (LastAssigns ls k v ∧ k ∉ ks) := by
      rw [hk.2]
      constructor
      · rintro ⟨a, b⟩
        refine ⟨a, fun c => b ⟨c.1, ?_⟩⟩
        rw [← lastAssigns_iff hl] at a
        have := c.2
        rw [← lastAssigns_iff hl, a] at this
        cases this
        rfl
      · rintro ⟨a, b⟩
        exact ⟨a, fun c => b ⟨c.1, c.2 ▸ a⟩⟩
    have e2 : (k ∈ requiredKeys ∧ LastAssigns ls k [] ∧ v = answerOf r k) ↔ (k, v) ∈ r := by
      constructor
      · rintro ⟨a, b, rfl⟩
        obtain ⟨v, hv⟩ := (hmem k).1 ((hk.2 k).2 ⟨a, b⟩)
        rw [answerOf_mem hn' hv]
        exact hv
      · intro hv
        obtain ⟨a, b⟩ := (hk.2 k).1 ((hmem k).2 ⟨v, hv⟩)
        exact ⟨a, b, (answerOf_mem hn' hv).symm⟩
    rw [e1, e2]

/-- Otherwise `init` reports what is wrong with the template, or that the input has ended. -/
theorem C95_errors {T stdin : Str} {ls sl ks : List Str} (hl : LinesOf T ls) (hs : LinesOf stdin sl)
    (hk : LeftEmpty ls ks) (master : Str) :
    (¬ GoodTemplate ls ↔ ∃ es, es ≠ [] ∧ generateConfig (some T) master stdin = .error (.parse es)) ∧
    ((GoodTemplate ls ∧ ¬ ∃ r, Dialogue ks sl r) ↔ generateConfig (some T) master stdin = .error .eof) := by
  have key := (C95_template hl hs hk master).1
  rw [← goodTemplate_iff hl] at key ⊢
  have hgen : (checkAll (configRead [] T) false = [] ∧
      ((∃ C, generateConfig (some T) master stdin = .ok C) ∨ generateConfig (some T) master stdin = .error .eof)) ∨
      (checkAll (configRead [] T) false ≠ [] ∧
        generateConfig (some T) master stdin = .error (.parse (checkAll (configRead [] T) false))) := by
    unfold generateConfig
    simp only
    split
    · rename_i hc
      left
      refine ⟨hc, ?_⟩
      split
      · exact Or.inl ⟨_, rfl⟩
      · exact Or.inr rfl
    · rename_i hc
      exact Or.inr ⟨hc, rfl⟩
  rcases hgen with ⟨hc, ⟨C, h⟩ | h⟩ | ⟨hc, h⟩
  · have hd := (key.1 ⟨C, h⟩).2
    refine ⟨⟨fun hn => absurd hc hn, ?_⟩, ⟨fun hn => absurd hd hn.2, ?_⟩⟩
    · rintro ⟨es, _, he⟩
      rw [h] at he; cases he
    · intro he
      rw [h] at he; cases he
  · refine ⟨⟨fun hn => absurd hc hn, ?_⟩, ⟨fun _ => h, fun _ => ⟨hc, fun hd => ?_⟩⟩⟩
    · rintro ⟨es, _, he⟩
      rw [h] at he; cases he
    · obtain ⟨C, hC⟩ := key.2 ⟨hc, hd⟩
      rw [h] at hC; cases hC
  · refine ⟨⟨fun _ => ⟨_, hc, h⟩, fun _ => hc⟩, ⟨fun hn => absurd hn.1 hc, ?_⟩⟩
    intro he
    rw [h] at he; cases he

/-- A template that sets every required option makes `init` ask nothing: what is typed does not matter. -/
theorem C95_silent {T : Str} {ls : List Str} (hl : LinesOf T ls)
    (hk : ∀ k ∈ RequiredOptions, ¬ LastAssigns ls k []) (master stdin stdin' : Str) :
    generateConfig (some T) master stdin = generateConfig (some T) master stdin' := by
  unfold generateConfig
  simp only
  split
  · rename_i hc
    have hT := ((checkAll_eq_nil (nodup_configRead (by simp [Dict.Nodup, Dict.keys]) T) false).1 hc).1
    have h0 : unsetKeys (configRead [] T) = [] := by
      rw [← leftEmpty_eq (ks := []) hl ⟨List.nil_sublist _, fun k =>
        ⟨fun h => by simp at h, fun h => absurd h.2 (hk k h.1)⟩⟩ hT]
    unfold unsetKeys at h0
    unfold prompt
    rw [h0]
    rfl
  · rfl

/-! ### Without a template -/

/-- The lines of the installed template (docs/templates/config-template). -/
def shippedLines : List Str := [
  "#".toList,
  "# zielen config".toList,
  "#".toList,
  "".toList,
  "".toList,
  "# The following options must always be present.".toList,
  "# =============================================================================".toList,
  "".toList,
  "# The path of the local sync directory.".toList,
  "LocalDir=".toList,
  "".toList,
  "# The path of the remote sync directory.".toList,
  "RemoteDir=".toList,
  "".toList,
  "# The amount of data to keep in the local directory. This accepts KB, MB, GB,".toList,
  "# KiB, MiB and GiB as units.".toList,
  "StorageLimit=".toList,
  "".toList,
  "".toList,
  "# The following options can be commented out or omitted and their default".toList,
  "# values will be used.".toList,
  "# =============================================================================".toList,
  "".toList,
  "# The amount of time (in minutes) that the daemon will wait between syncs.".toList,
  "SyncInterval=20".toList,
  "".toList,
  "# The priority of every file decreases exponentially over time while the".toList,
  "# machine is running. This value is the half-life of file priorities in hours.".toList,
  "# Increasing it increases the amount of time that files \"remember\" being".toList,
  "# accessed. Decreasing it weights the file priority toward more recent access.".toList,
  "PriorityHalfLife=120".toList,
  "".toList,
  "# When local symbolic links that point to remote files are deleted, put the".toList,
  "# remote files in the remote trash directory instead of permanently deleting".toList,
  "# them.".toList,
  "UseTrash=yes".toList,
  "".toList,
  "# The number of days that files remain in the remote trash directory before".toList,
  "# they are deleted. If set to a negative number, files are never deleted.".toList,
  "TrashCleanupPeriod=30".toList,
  "".toList,
  "# Inflate the priority of new local files so that they stay in the local".toList,
  "# directory longer.".toList,
  "InflatePriority=yes".toList,
  "".toList,
  "# Take file size into account when prioritizing files (smaller files take".toList,
  "# priority over larger ones).".toList,
  "AccountForSize=yes".toList]

/-- The installed template. -/
def shippedTemplate : Str := (shippedLines.map (· ++ ['\n'])).flatten

theorem shipped_linesOf : LinesOf shippedTemplate (shippedLines ++ [[]]) := by
  have h : ∀ ls : List Str, (∀ l ∈ ls, '\n' ∉ l ∧ '\r' ∉ l) →
      LinesOf (ls.map (· ++ ['\n'])).flatten (ls ++ [[]]) := by
    intro ls
    induction ls with
    | nil => intro _; exact .last (by simp) (by simp)
    | cons l ls ih =>
      intro hl
      have h1 := hl l (by simp)
      exact .cons h1.1 h1.2 (Or.inl rfl) (ih (fun x hx => hl x (List.mem_cons_of_mem _ hx)))
  exact h shippedLines (by decide +kernel)

theorem get_skip {a b c k : Str} (ha : a ≠ k) (hb : b ≠ k) (hc : c ≠ k) (d : Dict Str) :
    Dict.get ([(a, []), (b, []), (c, [])] ++ d) k = d.get k := by
  unfold Dict.get
  simp [ha, hb, hc]

theorem shipped_read : configRead [] shippedTemplate = [("LocalDir".toList, []), ("RemoteDir".toList, []),
    ("StorageLimit".toList, [])] ++ defaults := by
  rw [configRead_eq, assignments_linesOf shipped_linesOf]
  decide +kernel

/-- The values of a config file that has the answers and otherwise the documented defaults. -/
def AnswersAndDefaults (cl : List Str) (r : List (Str × Str)) : Prop :=
  ∀ k v, LastAssigns cl k v ↔ (k, v) ∈ r ∨ DocDefault k v

/-- Without a template all three options are asked for. If the dialogue comes to an end, the new config file has the
answers and the documented defaults, and the later commands accept it; otherwise the input has ended. -/
theorem C95_master {stdin : Str} {sl : List Str} (hs : LinesOf stdin sl) :
    (∀ r, Dialogue RequiredOptions sl r → ∃ C, generateConfig none shippedTemplate stdin = .ok C ∧
      checkAll (configRead [] C) true = [] ∧ ∀ cl, LinesOf C cl → AnswersAndDefaults cl r) ∧
    ((¬ ∃ r, Dialogue RequiredOptions sl r) ↔ generateConfig none shippedTemplate stdin = .error .eof) := by
  have hu : unsetKeys [] = RequiredOptions := by decide
  have key : ∀ r, Dialogue RequiredOptions sl r → generateConfig none shippedTemplate stdin =
      .ok (configWrite (promptAll [] (answerOf r)) shippedTemplate) := by
    intro r hr
    obtain ⟨rest, hp⟩ := (prompt_dialogue hs [] _).2 ⟨r, hu ▸ hr, rfl⟩
    unfold generateConfig
    simp only [hp]
  refine ⟨?_, ?_⟩
  · intro r hr
    refine ⟨_, key r hr, ?_⟩
    have hn : RequiredOptions.Nodup := by decide
    have hn' : (r.map Prod.fst).Nodup := by rw [dialogue_keys hr]; exact hn
    have hg := answerOf_good (linesOf_plain hs) hn hr
    have hv := C64_master shipped_linesOf hg
    have hmem : ∀ k, k ∈ RequiredOptions ↔ ∃ v, (k, v) ∈ r := by
      intro k
      rw [← dialogue_keys hr]
      simp
    have hget : ∀ k v, (configRead [] (masterConfig shippedTemplate (answerOf r))).get k = some v ↔
        (k, v) ∈ r ∨ DocDefault k v := by
      intro k v
      rw [hv]
      simp only [← lastAssigns_iff shipped_linesOf, shipped_read]
      rw [docDefault_iff]
      by_cases hk : k ∈ requiredKeys
      · rw [if_pos hk]
        have hd : defaults.get k = none := by
          revert hk; revert k; decide
        obtain ⟨v', hv'⟩ := (hmem k).1 hk
        rw [hd, answerOf_mem hn' hv']
        constructor
        · rintro ⟨_, rfl⟩
          exact Or.inl hv'
        · rintro (h | h)
          · have := answerOf_mem hn' h
            rw [answerOf_mem hn' hv'] at this
            refine ⟨?_, this.symm⟩
            have h0 : ∀ k ∈ requiredKeys, Dict.get ([("LocalDir".toList, []), ("RemoteDir".toList, []),
                ("StorageLimit".toList, [])] ++ defaults) k = some [] := by decide
            exact ⟨[], h0 k hk⟩
          · cases h
      · rw [if_neg hk]
        have hnr : ¬ (k, v) ∈ r := fun h => hk ((hmem k).2 ⟨v, h⟩)
        have he : Dict.get ([("LocalDir".toList, []), ("RemoteDir".toList, []),
            ("StorageLimit".toList, [])] ++ defaults) k = defaults.get k := by
          have h3 : "LocalDir".toList ≠ k ∧ "RemoteDir".toList ≠ k ∧ "StorageLimit".toList ≠ k := by
            refine ⟨?_, ?_, ?_⟩ <;> rintro rfl <;> exact hk (by decide)
          exact get_skip h3.1 h3.2.1 h3.2.2 defaults
        rw [he]
        constructor
        · rintro ⟨_, h⟩
          exact Or.inr h
        · rintro (h | h)
          · exact absurd h hnr
          · exact ⟨⟨v, h⟩, h⟩
    refine ⟨?_, ?_⟩
    · rw [checkAll_eq_nil (nodup_configRead (by simp [Dict.Nodup, Dict.keys]) _)]
      refine ⟨?_, ?_⟩
      · intro k hk
        obtain ⟨v, hv'⟩ := (hmem k).1 hk
        exact ⟨v, (hget k v).2 (Or.inl hv')⟩
      · intro k v h
        rcases (hget k v).1 h with h | h
        · obtain ⟨l, _, ha⟩ := dialogue_valid hr k v h
          have hk : k ∈ requiredKeys := (hmem k).2 ⟨v, h⟩
          obtain ⟨rfl, hc⟩ := (answers_iff hk).1 ha
          exact ⟨List.mem_append_left _ hk, fun _ => hc⟩
        · cases h <;> exact ⟨by decide, fun _ => by decide⟩
    · intro cl hcl k v
      rw [← lastAssigns_iff hcl]
      exact hget k v
  · constructor
    · intro hn
      unfold generateConfig
      simp only
      split
      · rename_i raw rest hp
        obtain ⟨r, h1, _⟩ := (prompt_dialogue hs [] raw).1 ⟨rest, hp⟩
        exact absurd ⟨r, hu ▸ h1⟩ hn
      · rfl
    · rintro he ⟨r, hr⟩
      rw [key r hr] at he
      cases he

/-! ### Cases -/

/-- A template that leaves two options empty; the first line typed is no limit, the second is. -/
example : generateConfig (some "LocalDir=\nRemoteDir=/r\nStorageLimit= \n".toList) []
    "  /l\nplenty\n 10 GB\nmore".toList = .ok "LocalDir=/l\nRemoteDir=/r\nStorageLimit=10 GB\n".toList := by
  decide +kernel

example : Dialogue ["LocalDir".toList, "StorageLimit".toList]
    ["  /l".toList, "plenty".toList, " 10 GB".toList, "more".toList]
    [("LocalDir".toList, "/l".toList), ("StorageLimit".toList, "10 GB".toList)] := by
  have hb : ∀ l ∈ ["plenty".toList], ∀ v, ¬ Answers "StorageLimit".toList l v := by
    intro l hl v h
    have := ((answers_iff (by decide)).1 h).2
    rw [List.mem_singleton.1 hl] at this
    revert this
    decide +kernel
  exact .ask (before := []) (by simp) ((answers_iff (by decide)).2 (by decide +kernel))
    (.ask (before := ["plenty".toList]) hb ((answers_iff (by decide)).2 (by decide +kernel)) .nil)

/-- The input ends before the limit has been given. -/
example : generateConfig none shippedTemplate "/l\n/r\n10\n".toList = .error .eof := by decide +kernel

/-- A template with an unknown option is refused before anything is asked. -/
example : generateConfig (some "LocalDir=\nRemoteDir=\nStorageLimit=\nColour=red\n".toList) [] [] =
    .error (.parse [.unknown]) := by decide +kernel

end Verif
