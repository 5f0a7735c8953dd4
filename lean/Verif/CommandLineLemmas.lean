import Verif.Spec.Usage
/-
Lemmas on the parser of the command line.
-/
namespace Verif.Usage
open Argparse CommandLine

/-- The parser `P` has the options of `c`. -/
structure Table (c : Option Cmd) (P : Parser) : Prop where
  mem : ∀ s a, (s, a) ∈ P.opts ↔ a ∈ offers c ∧ (s = long a ∨ ∃ x, short a = some x ∧ s = ['-', x])
  nodup : (P.opts.map (·.1)).Nodup

def Cmd.parser : Cmd → Parser
  | .init => ⟨[("--help".toList, .help), ("--exclude".toList, .exclude), ("-e".toList, .exclude),
      ("--template".toList, .template), ("-t".toList, .template), ("--add-remote".toList, .addRemote),
      ("-a".toList, .addRemote)], some .one⟩
  | .sync => ⟨[("--help".toList, .help)], some .one⟩
  | .reset => ⟨[("--help".toList, .help), ("--keep-remote".toList, .keepRemote), ("-k".toList, .keepRemote),
      ("--no-retrieve".toList, .noRetrieve), ("-n".toList, .noRetrieve)], some .one⟩
  | .list => ⟨[("--help".toList, .help)], none⟩
  | .emptyTrash => ⟨[("--help".toList, .help)], some .one⟩

theorem lookup_sub (c : Cmd) : subParsers.lookup c.name = some c.parser := by
  cases c <;> rfl

theorem sub_name {name : Str} {P : Parser} (h : subParsers.lookup name = some P) :
    ∃ c : Cmd, name = c.name ∧ P = c.parser := by
  simp only [subParsers, List.lookup_cons] at h
  split at h
  · rename_i e; exact ⟨.init, eq_of_beq e, (Option.some.inj h).symm⟩
  split at h
  · rename_i e; exact ⟨.sync, eq_of_beq e, (Option.some.inj h).symm⟩
  split at h
  · rename_i e; exact ⟨.reset, eq_of_beq e, (Option.some.inj h).symm⟩
  split at h
  · rename_i e; exact ⟨.list, eq_of_beq e, (Option.some.inj h).symm⟩
  split at h
  · rename_i e; exact ⟨.emptyTrash, eq_of_beq e, (Option.some.inj h).symm⟩
  · simp at h

theorem top_opts : topParser.opts = [(long .help, .help), (long .version, .version), (long .debug, .debug),
    (long .quiet, .quiet), (['-', 'q'], .quiet)] := rfl

theorem init_opts : Cmd.init.parser.opts = [(long .help, .help), (long .exclude, .exclude), (['-', 'e'], .exclude),
    (long .template, .template), (['-', 't'], .template), (long .addRemote, .addRemote), (['-', 'a'], .addRemote)] := rfl

theorem reset_opts : Cmd.reset.parser.opts = [(long .help, .help), (long .keepRemote, .keepRemote),
    (['-', 'k'], .keepRemote), (long .noRetrieve, .noRetrieve), (['-', 'n'], .noRetrieve)] := rfl

theorem other_opts {c : Cmd} (h : c ≠ .init) (h' : c ≠ .reset) :
    c.parser.opts = [(long .help, .help)] ∧ offers (some c) = [.help] := by
  cases c
  · exact absurd rfl h
  · exact ⟨rfl, rfl⟩
  · exact absurd rfl h'
  · exact ⟨rfl, rfl⟩
  · exact ⟨rfl, rfl⟩

theorem table_top : Table none topParser where
  mem s a := by
    rw [top_opts]
    cases a <;> simp [offers, short]
  nodup := by decide +kernel

theorem table_sub (c : Cmd) : Table (some c) c.parser where
  mem s a := by
    by_cases h : c = .init
    · subst h
      rw [init_opts]
      cases a <;> simp [offers, short]
    by_cases h' : c = .reset
    · subst h'
      rw [reset_opts]
      cases a <;> simp [offers, short]
    · obtain ⟨h1, h2⟩ := other_opts h h'
      rw [h1, h2]
      cases a <;> simp [short]
  nodup := by cases c <;> decide +kernel

theorem Table.find {c : Option Cmd} {P : Parser} (T : Table c P) {s : Str} {a : Act} :
    P.find s = some a ↔ (s, a) ∈ P.opts := by
  unfold Parser.find
  have key : ∀ (l : List (Str × Act)), (l.map (·.1)).Nodup → (l.lookup s = some a ↔ (s, a) ∈ l) := by
    intro l
    induction l with
    | nil => simp
    | cons p l ih =>
      intro hn
      rw [List.map_cons, List.nodup_cons] at hn
      rw [List.lookup_cons]
      split
      · rename_i e
        have e : s = p.1 := by simpa using e
        constructor
        · intro h
          simp only [Option.some.injEq] at h
          rw [List.mem_cons]
          exact .inl (by rw [e, ← h])
        · intro h
          rw [List.mem_cons] at h
          rcases h with h | h
          · rw [← h]
          · exact absurd (List.mem_map.2 ⟨_, h, e⟩) hn.1
      · rename_i e
        have e : s ≠ p.1 := by simpa using e
        rw [ih hn.2, List.mem_cons]
        constructor
        · exact .inr
        · rintro (h | h)
          · exact absurd (by rw [← h]) e
          · exact h
  exact key _ T.nodup

theorem Table.find_none {c : Option Cmd} {P : Parser} (T : Table c P) {s : Str}
    (h : ∀ a, (s, a) ∉ P.opts) : P.find s = none := by
  cases e : P.find s with
  | none => rfl
  | some a => exact absurd (T.find.1 e) (h a)

/-! ### The names -/

theorem long_eq (a : Act) : ∃ x t, long a = '-' :: '-' :: x :: t ∧ x ≠ '-' := by
  cases a <;> exact ⟨_, _, rfl, by decide⟩

theorem long_no_eq (a : Act) : '=' ∉ long a := by
  cases a <;> decide

theorem short_ne {a : Act} {x : Char} (h : short a = some x) : x ≠ '-' ∧ x ≠ '=' := by
  cases a <;> simp [short] at h <;> subst h <;> decide

theorem short_inj {a b : Act} {x : Char} (h : short a = some x) (h' : short b = some x) : a = b := by
  cases a <;> simp [short] at h <;> subst h <;> cases b <;> simp [short] at h' <;> rfl

theorem valued_eq (a : Act) : a.takesValue = valued a := by cases a <;> rfl

theorem partition_none {n : Str} (h : '=' ∉ n) : partitionEq n = (n, none) := by
  have key : ∀ n : Str, '=' ∉ n → n.takeWhile (· != '=') = n ∧ n.dropWhile (· != '=') = [] := by
    intro n
    induction n with
    | nil => intro _; exact ⟨rfl, rfl⟩
    | cons c n ih =>
      intro h
      rw [List.mem_cons, not_or] at h
      have hc : (c != '=') = true := by simpa using fun e => h.1 e.symm
      obtain ⟨h1, h2⟩ := ih h.2
      refine ⟨?_, ?_⟩
      · rw [List.takeWhile_cons, hc, h1]; rfl
      · rw [List.dropWhile_cons, hc, h2]; rfl
  unfold partitionEq
  rw [(key n h).1, (key n h).2]

theorem partition_some {n v : Str} (h : '=' ∉ n) : partitionEq (n ++ '=' :: v) = (n, some v) := by
  unfold partitionEq
  have : ∀ n : Str, '=' ∉ n → (n ++ '=' :: v).takeWhile (· != '=') = n ∧
      (n ++ '=' :: v).dropWhile (· != '=') = '=' :: v := by
    intro n
    induction n with
    | nil => intro _; simp
    | cons c n ih =>
      intro h
      rw [List.mem_cons, not_or] at h
      have hc : (c != '=') = true := by simpa using fun e => h.1 e.symm
      obtain ⟨h1, h2⟩ := ih h.2
      refine ⟨?_, ?_⟩
      · rw [List.cons_append, List.takeWhile_cons, hc, h1]; rfl
      · rw [List.cons_append, List.dropWhile_cons, hc, h2]; rfl
  rw [(this n h).1, (this n h).2]

theorem partition_cases (w : Str) :
    (partitionEq w = (w, none) ∧ '=' ∉ w) ∨ ∃ n v, partitionEq w = (n, some v) ∧ w = n ++ '=' :: v ∧ '=' ∉ n := by
  have key : ∀ w : Str, '=' ∉ w ∨ ∃ n v, w = n ++ '=' :: v ∧ '=' ∉ n := by
    intro w
    induction w with
    | nil => simp
    | cons c w ih =>
      by_cases hc : c = '='
      · exact .inr ⟨[], w, by rw [hc]; rfl, by simp⟩
      · rcases ih with h | ⟨n, v, e, h⟩
        · refine .inl ?_
          rw [List.mem_cons, not_or]
          exact ⟨fun e => hc e.symm, h⟩
        · refine .inr ⟨c :: n, v, by rw [e]; rfl, ?_⟩
          rw [List.mem_cons, not_or]
          exact ⟨fun e => hc e.symm, h⟩
  rcases key w with h | ⟨n, v, e, h⟩
  · exact .inl ⟨partition_none h, h⟩
  · exact .inr ⟨n, v, by rw [e]; exact partition_some h, e, h⟩

/-! ### One word -/

theorem filterMap_one {α β γ : Type} {l : List (α × β)} {f : α × β → Option γ} {o : α} {a : β} {k : γ}
    (hn : (l.map (·.1)).Nodup) (hm : (o, a) ∈ l) (hk : f (o, a) = some k)
    (hu : ∀ o' a', (o', a') ∈ l → (f (o', a')).isSome → o' = o) : l.filterMap f = [k] := by
  induction l with
  | nil => simp at hm
  | cons p l ih =>
    rw [List.map_cons, List.nodup_cons] at hn
    rw [List.mem_cons] at hm
    rcases hm with hm | hm
    · have hnil : l.filterMap f = [] := by
        rw [List.filterMap_eq_nil_iff]
        intro q hq
        cases hf : f q with
        | none => rfl
        | some _ =>
          have := hu q.1 q.2 (List.mem_cons_of_mem _ hq) (by rw [hf]; rfl)
          exact absurd (List.mem_map.2 ⟨q, hq, by rw [this, ← hm]⟩) hn.1
      rw [List.filterMap_cons, ← hm, hk, hnil]
    · have hp : f p = none := by
        cases hf : f p with
        | none => rfl
        | some _ =>
          have := hu p.1 p.2 List.mem_cons_self (by rw [hf]; rfl)
          exact absurd (List.mem_map.2 ⟨(o, a), hm, this.symm⟩) hn.1
      rw [List.filterMap_cons, hp]
      exact ih hn.2 hm (fun o' a' h => hu o' a' (List.mem_cons_of_mem _ h))

theorem of_filterMap_one {α γ : Type} {l : List α} {f : α → Option γ} {k : γ} (h : l.filterMap f = [k]) :
    ∃ p ∈ l, f p = some k ∧ ∀ q ∈ l, (f q).isSome → f q = some k := by
  have hk : k ∈ l.filterMap f := by rw [h]; simp
  obtain ⟨p, hp, hf⟩ := List.mem_filterMap.1 hk
  refine ⟨p, hp, hf, fun q hq hs => ?_⟩
  obtain ⟨k', e⟩ := Option.isSome_iff_exists.1 hs
  have : k' ∈ l.filterMap f := List.mem_filterMap.2 ⟨q, hq, e⟩
  rw [h, List.mem_singleton] at this
  rw [e, this]

theorem prefix_long {n : Str} {a : Act} (h : n <+: long a) (h2 : 2 < n.length) :
    ∃ x t, n = '-' :: '-' :: x :: t ∧ '=' ∉ n := by
  obtain ⟨x, t, e, _⟩ := long_eq a
  have hn : '=' ∉ n := fun hm => long_no_eq a (h.subset hm)
  rw [e] at h
  match n, h2, h, hn with
  | c :: d :: y :: r, _, h, hn =>
    rw [List.cons_prefix_cons] at h
    obtain ⟨rfl, h⟩ := h
    rw [List.cons_prefix_cons] at h
    obtain ⟨rfl, h⟩ := h
    exact ⟨_, _, rfl, hn⟩

/-- No option string has an equals sign. -/
theorem Table.no_eq {c : Option Cmd} {P : Parser} (T : Table c P) {s : Str} {a : Act} (h : (s, a) ∈ P.opts) :
    '=' ∉ s := by
  obtain ⟨_, rfl | ⟨x, hx, rfl⟩⟩ := (T.mem s a).1 h
  · exact long_no_eq a
  · have := (short_ne hx).2
    simp only [List.mem_cons, List.not_mem_nil, or_false, not_or]
    exact ⟨by decide, fun e => this e.symm⟩

/-- An option string that starts with a given beginning of a long option. -/
theorem Table.of_prefix {c : Option Cmd} {P : Parser} (T : Table c P) {n o : Str} {a : Act} {x : Char} {t : Str}
    (hn : n = '-' :: '-' :: t) (h : (o, a) ∈ P.opts) (hp : n <+: o) : a ∈ offers c ∧ o = long a := by
  obtain ⟨h1, rfl | ⟨y, hy, rfl⟩⟩ := (T.mem o a).1 h
  · exact ⟨h1, rfl⟩
  · rw [hn, List.cons_prefix_cons, List.cons_prefix_cons] at hp
    exact absurd hp.2.1.symm (short_ne hy).1

theorem Table.tuples_long {c : Option Cmd} {P : Parser} (T : Table c P) {n w : Str} {a : Act} {v : Option Str}
    (h : LongName c n a) (hw : partitionEq w = (n, v)) (h2 : ∃ r, w = '-' :: '-' :: r) :
    optionTuples P w = [.opt (some a) (long a) (v.map fun v => (true, v))] := by
  obtain ⟨h1, hp, hl, hu⟩ := h
  obtain ⟨x, t, e, _⟩ := prefix_long hp hl
  obtain ⟨r, rfl⟩ := h2
  unfold optionTuples
  simp only [hw]
  refine filterMap_one (o := long a) (a := a) T.nodup ((T.mem _ _).2 ⟨h1, .inl rfl⟩) ?_ ?_
  · simp only [List.isPrefixOf_iff_prefix, hp, if_true]
  · intro o' a' hm hs
    simp only [List.isPrefixOf_iff_prefix] at hs
    split at hs
    · rename_i hp'
      obtain ⟨h3, h4⟩ := T.of_prefix (x := x) e hm hp'
      rw [h4, hu a' h3 (h4 ▸ hp')]
    · simp at hs

theorem Table.long_ok {c : Option Cmd} {P : Parser} (T : Table c P) (digit : Char → Bool) {n : Str} {a : Act}
    (h : LongName c n a) : parseOptional digit P n = .ok (.opt (some a) (long a) none) := by
  obtain ⟨x, t, e, hn⟩ := prefix_long h.2.1 h.2.2.1
  have ht := T.tuples_long h (partition_none hn) ⟨_, e⟩
  have hlen : n.length ≠ 1 := by have := h.2.2.1; omega
  unfold parseOptional
  rw [if_neg (by rw [e]; simp)]
  cases hf : P.find n with
  | some b =>
    have hb := T.find.1 hf
    obtain ⟨h3, h4⟩ := T.of_prefix (x := x) e hb List.prefix_rfl
    have : b = a := h.2.2.2 b h3 (by rw [← h4]; exact List.prefix_rfl)
    subst this
    simp only
    rw [← h4]
  | none =>
    simp only [hlen, if_false, partition_none hn, ht, Option.map_none]

theorem Table.long_eq_ok {c : Option Cmd} {P : Parser} (T : Table c P) (digit : Char → Bool) {n v : Str} {a : Act}
    (h : LongName c n a) :
    parseOptional digit P (n ++ '=' :: v) = .ok (.opt (some a) (long a) (some (true, v))) := by
  obtain ⟨x, t, e, hn⟩ := prefix_long h.2.1 h.2.2.1
  have ht := T.tuples_long h (partition_some (v := v) hn) ⟨x :: t ++ '=' :: v, by rw [e]; rfl⟩
  have hlen : (n ++ '=' :: v).length ≠ 1 := by have := h.2.2.1; simp; omega
  have hnone : P.find (n ++ '=' :: v) = none := T.find_none fun b hb => T.no_eq hb (by simp)
  unfold parseOptional
  rw [if_neg (by rw [e]; simp), hnone]
  simp only [hlen, if_false, partition_some hn]
  cases hf : P.find n with
  | some b =>
    have hb := T.find.1 hf
    obtain ⟨h3, h4⟩ := T.of_prefix (x := x) e hb List.prefix_rfl
    have : b = a := h.2.2.2 b h3 (by rw [← h4]; exact List.prefix_rfl)
    subst this
    simp only
    rw [← h4]
  | none => simp only [ht, Option.map_some]

theorem Table.short_mem {c : Option Cmd} {P : Parser} (T : Table c P) {x : Char} {a : Act} (h : a ∈ offers c)
    (hx : short a = some x) : (['-', x], a) ∈ P.opts := (T.mem _ _).2 ⟨h, .inr ⟨x, hx, rfl⟩⟩

theorem Table.short_ok {c : Option Cmd} {P : Parser} (T : Table c P) (digit : Char → Bool) {x : Char} {a : Act}
    (h : a ∈ offers c) (hx : short a = some x) :
    parseOptional digit P ['-', x] = .ok (.opt (some a) ['-', x] none) := by
  unfold parseOptional
  rw [if_neg (by simp), T.find.2 (T.short_mem h hx)]

theorem Table.short_eq_ok {c : Option Cmd} {P : Parser} (T : Table c P) (digit : Char → Bool) {x : Char} {a : Act}
    {v : Str} (h : a ∈ offers c) (hx : short a = some x) :
    parseOptional digit P ('-' :: x :: '=' :: v) = .ok (.opt (some a) ['-', x] (some (true, v))) := by
  have hn : '=' ∉ ['-', x] := T.no_eq (T.short_mem h hx)
  have hp : partitionEq ('-' :: x :: '=' :: v) = (['-', x], some v) := partition_some (v := v) hn
  have hnone : P.find ('-' :: x :: '=' :: v) = none := T.find_none fun b hb => T.no_eq hb (by simp)
  unfold parseOptional
  rw [if_neg (by simp), hnone]
  simp only [hp, T.find.2 (T.short_mem h hx)]
  simp

/-- An option string that starts with a dash and something else has two characters. -/
theorem Table.short_only {c : Option Cmd} {P : Parser} (T : Table c P) {x : Char} {t : Str} {a : Act} (hx : x ≠ '-')
    (h : ('-' :: x :: t, a) ∈ P.opts) : t = [] ∧ a ∈ offers c ∧ short a = some x := by
  obtain ⟨h1, h2 | ⟨y, hy, h2⟩⟩ := (T.mem _ a).1 h
  · obtain ⟨y, r, e, _⟩ := long_eq a
    rw [e] at h2
    simp only [List.cons.injEq] at h2
    exact absurd h2.2.1 hx
  · simp only [List.cons.injEq] at h2
    obtain ⟨_, rfl, rfl⟩ := h2
    exact ⟨rfl, h1, hy⟩

theorem Table.tuples_short {c : Option Cmd} {P : Parser} (T : Table c P) {x : Char} {a : Act} {cs : Str}
    (h : a ∈ offers c) (hx : short a = some x) :
    optionTuples P ('-' :: x :: cs) = [.opt (some a) ['-', x] (some (false, cs))] := by
  have hne := (short_ne hx).1
  unfold optionTuples
  split
  · rename_i e
    simp only [List.cons.injEq] at e
    exact absurd e.2.1 hne
  · refine filterMap_one (o := ['-', x]) (a := a) T.nodup (T.short_mem h hx) (by simp) ?_
    intro o' a' hm hs
    by_cases e : o' = ['-', x]
    · exact e
    have e1 : (o' == List.take 2 ('-' :: x :: cs)) = false := by simpa using e
    by_cases hp : ('-' :: x :: cs) <+: o'
    · obtain ⟨r, hr⟩ := hp
      rw [← hr] at hm
      obtain ⟨h1, _⟩ := T.short_only hne hm
      have : cs = [] ∧ r = [] := by simpa using h1
      rw [← hr, this.1, this.2]; rfl
    · have e2 : ('-' :: x :: cs).isPrefixOf o' = false := by
        rw [← Bool.not_eq_true, List.isPrefixOf_iff_prefix]; exact hp
      simp [e1, e2] at hs
      exact hs

theorem Table.short_rest_ok {c : Option Cmd} {P : Parser} (T : Table c P) (digit : Char → Bool) {x : Char} {a : Act}
    {cs : Str} (h : a ∈ offers c) (hx : short a = some x) (hcs : cs ≠ []) (he : cs.head? ≠ some '=') :
    parseOptional digit P ('-' :: x :: cs) = .ok (.opt (some a) ['-', x] (some (false, cs))) := by
  have hne := (short_ne hx).1
  have hnone : P.find ('-' :: x :: cs) = none := T.find_none fun b hb => hcs (T.short_only hne hb).1
  unfold parseOptional
  rw [if_neg (by simp), hnone]
  have hlen : ('-' :: x :: cs).length ≠ 1 := by simp
  simp only [hlen, if_false]
  have hsplit : ∀ v, (partitionEq ('-' :: x :: cs)).2 = some v →
      P.find (partitionEq ('-' :: x :: cs)).1 = none := by
    intro v hv
    rcases partition_cases ('-' :: x :: cs) with ⟨e, _⟩ | ⟨n, u, e, hw, hn⟩
    · rw [e] at hv; simp at hv
    · rw [e]
      match n, hw, hn with
      | [], hw, _ => simp at hw
      | [y], hw, _ => 
        simp only [List.cons_append, List.nil_append, List.cons.injEq] at hw
        exact absurd hw.2.1 (short_ne hx).2
      | [y, z], hw, _ =>
        simp only [List.cons_append, List.nil_append, List.cons.injEq] at hw
        rw [hw.2.2] at he
        simp at he
      | y :: z :: q :: r, hw, _ =>
        simp only [List.cons_append, List.cons.injEq] at hw
        obtain ⟨rfl, rfl, _⟩ := hw
        exact T.find_none fun b hb => by simpa using (T.short_only hne hb).1
  rw [T.tuples_short h hx]
  cases hv : (partitionEq ('-' :: x :: cs)).2 with
  | none => rfl
  | some v => rw [hsplit v hv]

/-- Words that do not start with a dash, and the dash. -/
theorem Table.plain_ok {c : Option Cmd} {P : Parser} (T : Table c P) (digit : Char → Bool) {w : Str} (h : Plain w) :
    parseOptional digit P w = .ok .arg := by
  unfold parseOptional
  rcases h with h | rfl
  · rw [if_pos h]
  · rw [if_neg (by simp)]
    have : P.find ['-'] = none := T.find_none fun b hb => by
      obtain ⟨_, h2 | ⟨y, hy, h2⟩⟩ := (T.mem _ b).1 hb
      · obtain ⟨y, r, e, _⟩ := long_eq b
        rw [e] at h2
        simp at h2
      · simp at h2
    rw [this]
    simp

/-- What a word can be. -/
inductive WordIs (digit : Char → Bool) (c : Option Cmd) (w : Str) : Kind → Prop
  | arg : PlainOr digit w → WordIs digit c w .arg
  | unknown : WordIs digit c w (.opt none w none)
  | long {a : Act} : w = dd ∨ LongName c w a → WordIs digit c w (.opt (some a) (long a) none)
  | longEq {n v : Str} {a : Act} : w = n ++ '=' :: v → LongName c n a ∨ valued a = false →
      WordIs digit c w (.opt (some a) (Usage.long a) (some (true, v)))
  | short {a : Act} {x : Char} : w = ['-', x] → a ∈ offers c → short a = some x →
      WordIs digit c w (.opt (some a) ['-', x] none)
  | shortEq {a : Act} {x : Char} {v : Str} : w = '-' :: x :: '=' :: v → a ∈ offers c → Usage.short a = some x →
      WordIs digit c w (.opt (some a) ['-', x] (some (true, v)))
  | shortRest {a : Act} {x : Char} {cs : Str} : w = '-' :: x :: cs → cs ≠ [] → cs.head? ≠ some '=' →
      a ∈ offers c → Usage.short a = some x → WordIs digit c w (.opt (some a) ['-', x] (some (false, cs)))

theorem takeWhile_all {P : Char → Bool} (s : Str) : ∀ c ∈ s.takeWhile P, P c = true := by
  induction s with
  | nil => simp
  | cons a s ih =>
    intro c hc
    rw [List.takeWhile_cons] at hc
    split at hc
    · rename_i h
      rcases List.mem_cons.1 hc with rfl | hc
      · exact h
      · exact ih c hc
    · simp at hc

theorem isNegative_plain {digit : Char → Bool} {u : Str} (hu : isNegative digit u = true) :
    ∃ r, u = '-' :: r ∧ r ≠ [] ∧ ∀ c ∈ r, digit c ∨ c = '.' ∨ c = '\n' := by
  unfold isNegative at hu
  split at hu
  · rename_i r
    refine ⟨r, rfl, ?_⟩
    rw [Bool.or_eq_true] at hu
    rcases hu with hu | hu
    · simp only [Bool.and_eq_true, Bool.not_eq_true', List.isEmpty_eq_false_iff, List.all_eq_true] at hu
      exact ⟨hu.1, fun c hc => .inl (hu.2 c hc)⟩
    · split at hu
      · rename_i t e
        simp only [Bool.and_eq_true, Bool.not_eq_true', List.isEmpty_eq_false_iff, List.all_eq_true] at hu
        have hr : r.takeWhile digit ++ r.dropWhile digit = r := List.takeWhile_append_dropWhile
        rw [e] at hr
        refine ⟨by rw [← hr]; simp, fun c hc => ?_⟩
        rw [← hr, List.mem_append, List.mem_cons] at hc
        rcases hc with hc | rfl | hc
        · exact .inl (takeWhile_all _ c hc)
        · exact .inr (.inl rfl)
        · exact .inl (hu.2 c hc)
      · simp at hu
  · simp at hu

theorem negative_plain {digit : Char → Bool} {w : Str} (h : negativeNumber digit w = true) : PlainOr digit w := by
  right; right
  unfold negativeNumber at h
  obtain ⟨r, e, hr, hc⟩ := isNegative_plain h
  by_cases hl : w.getLast? = some '\n'
  · rw [if_pos hl] at e
    have hw : w = w.dropLast ++ ['\n'] := by
      rw [List.getLast?_eq_some_iff] at hl
      obtain ⟨ys, rfl⟩ := hl
      simp
    refine ⟨r ++ ['\n'], by rw [hw, e]; rfl, by simp, fun c h' => ?_⟩
    rw [List.mem_append, List.mem_singleton] at h'
    rcases h' with h' | rfl
    · exact hc c h'
    · exact .inr (.inr rfl)
  · rw [if_neg hl] at e
    exact ⟨r, e, hr, hc⟩

theorem dash_prefix {n : Str} {a : Act} (hn : n <+: long a) (h2 : ∃ r, n = '-' :: '-' :: r) :
    n = dd ∨ 2 < n.length := by
  obtain ⟨r, rfl⟩ := h2
  cases r with
  | nil => exact .inl rfl
  | cons _ _ => exact .inr (by simp)

theorem Table.tuples_is {c : Option Cmd} {P : Parser} (T : Table c P) {digit : Char → Bool} {y : Char} {t : Str}
    {k : Kind} (hf : P.find ('-' :: y :: t) = none) (hq : ∀ v, t = '=' :: v → P.find ['-', y] = none)
    (ht : optionTuples P ('-' :: y :: t) = [k]) : WordIs digit c ('-' :: y :: t) k := by
  unfold optionTuples at ht
  split at ht
  · rename_i r e
    have ey : y = '-' := by simpa using (List.cons.inj (List.cons.inj e).2).1
    subst ey
    have hstart : ∃ r, (partitionEq ('-' :: '-' :: t)).1 = '-' :: '-' :: r :=
      ⟨t.takeWhile (· != '='), by simp [partitionEq, List.takeWhile_cons]⟩
    obtain ⟨r, hr⟩ := hstart
    have hcases := partition_cases ('-' :: '-' :: t)
    generalize partitionEq ('-' :: '-' :: t) = q at ht hr hcases
    obtain ⟨pre, v⟩ := q
    simp only at ht hr
    obtain ⟨p, hp, hk, hu⟩ := of_filterMap_one ht
    obtain ⟨o, a⟩ := p
    simp only at hk
    have hpre : pre <+: o := by
      by_cases h : pre <+: o
      · exact h
      · rw [if_neg (by rw [List.isPrefixOf_iff_prefix]; exact h)] at hk
        simp at hk
    rw [if_pos (by rw [List.isPrefixOf_iff_prefix]; exact hpre)] at hk
    simp only [Option.some.injEq] at hk
    obtain ⟨ha, hlong⟩ := T.of_prefix (x := 'x') hr hp hpre
    have huniq : ∀ a' ∈ offers c, pre <+: Usage.long a' → a' = a := by
      intro a' ha' hp'
      have := hu (Usage.long a', a') ((T.mem _ _).2 ⟨ha', .inl rfl⟩) (by
        simp only
        rw [if_pos (by rw [List.isPrefixOf_iff_prefix]; exact hp')]
        rfl)
      simp only at this
      rw [if_pos (by rw [List.isPrefixOf_iff_prefix]; exact hp')] at this
      simp only [Option.some.injEq] at this
      rw [← hk] at this
      simpa using (Kind.opt.inj this).1
    rw [hlong] at hpre hk
    have hname := dash_prefix hpre ⟨r, hr⟩
    rcases hcases with ⟨e1, _⟩ | ⟨n, v', e1, e2, e3⟩
    · simp only [Prod.mk.injEq] at e1
      obtain ⟨rfl, rfl⟩ := e1
      simp only [Option.map_none] at hk
      rw [← hk]
      rcases hname with hname | hname
      · exact .long (.inl hname)
      · exact .long (.inr ⟨ha, hpre, hname, huniq⟩)
    · simp only [Prod.mk.injEq] at e1
      obtain ⟨rfl, rfl⟩ := e1
      simp only [Option.map_some] at hk
      rw [← hk]
      refine .longEq e2 ?_
      rcases hname with hname | hname
      · right
        have : a = .help := by
          symm
          refine huniq .help ?_ ?_
          · cases c with
            | none => decide
            | some c => cases c <;> decide
          · rw [hname]; decide
        rw [this]; rfl
      · exact .inl ⟨ha, hpre, hname, huniq⟩
  · rename_i hne
    have hy : y ≠ '-' := fun e => hne t (by rw [e])
    obtain ⟨p, hp, hk, _⟩ := of_filterMap_one ht
    simp only at hk
    by_cases e1 : (p.1 == List.take 2 ('-' :: y :: t)) = true
    · rw [if_pos e1] at hk
      simp only [Option.some.injEq] at hk
      have e1 : p.1 = ['-', y] := by simpa using e1
      have hm : (['-', y], p.2) ∈ P.opts := by rw [← e1]; exact hp
      obtain ⟨_, ha, hx⟩ := T.short_only hy hm
      rw [← hk, e1]
      have hf' : t ≠ [] := by
        rintro rfl
        have := T.find.2 hm
        rw [this] at hf
        simp at hf
      by_cases he : t.head? = some '='
      · exfalso
        obtain ⟨v, rfl⟩ : ∃ v, t = '=' :: v := by
          cases t with
          | nil => simp at he
          | cons z v => exact ⟨v, by simpa using he⟩
        exact absurd (T.find.2 hm) (by rw [hq v rfl]; simp)
      · exact .shortRest rfl hf' he ha hx
    · rw [if_neg e1] at hk
      by_cases e2 : ('-' :: y :: t).isPrefixOf p.1 = true
      · rw [List.isPrefixOf_iff_prefix] at e2
        obtain ⟨r, hr⟩ := e2
        have hm : ('-' :: y :: (t ++ r), p.2) ∈ P.opts := by
          have : p.1 = '-' :: y :: (t ++ r) := by rw [← hr]; rfl
          rw [← this]; exact hp
        obtain ⟨h3, _⟩ := T.short_only hy hm
        have : t = [] ∧ r = [] := by simpa using h3
        refine absurd ?_ e1
        rw [← hr, this.1, this.2]; simp
      · rw [if_neg e2] at hk; simp at hk

theorem Table.word_is {c : Option Cmd} {P : Parser} (T : Table c P) {digit : Char → Bool} {w : Str} {k : Kind}
    (h : parseOptional digit P w = .ok k) : WordIs digit c w k := by
  unfold parseOptional at h
  by_cases h0 : w.head? ≠ some '-'
  · rw [if_pos h0] at h
    cases h
    exact .arg (.inl (.inl h0))
  rw [if_neg h0] at h
  have h0 : w.head? = some '-' := by simpa using h0
  -- the exact names
  have exact_ : ∀ {s : Str} {a : Act}, (s, a) ∈ P.opts →
      (s = Usage.long a ∧ LongName c s a) ∨ ∃ x, s = ['-', x] ∧ a ∈ offers c ∧ Usage.short a = some x := by
    intro s a hm
    obtain ⟨h1, rfl | ⟨x, hx, rfl⟩⟩ := (T.mem _ a).1 hm
    · refine .inl ⟨rfl, h1, List.prefix_rfl, ?_, ?_⟩
      · obtain ⟨x, t, e, _⟩ := long_eq a
        rw [e]; simp
      · intro a' ha' hp
        cases c with
        | none => 
          cases a <;> cases a' <;> first | rfl | (exact absurd hp (by decide))
        | some c =>
          cases a <;> cases a' <;> first | rfl | (exact absurd hp (by decide))
    · exact .inr ⟨x, rfl, h1, hx⟩
  cases hf : P.find w with
  | some a =>
    rw [hf] at h
    cases h
    rcases exact_ (T.find.1 hf) with ⟨e, hl⟩ | ⟨x, e, ha, hx⟩
    · have := WordIs.long (digit := digit) (c := c) (.inr hl)
      rw [← e] at this
      exact this
    · rw [e]; exact .short rfl ha hx
  | none =>
    rw [hf] at h
    simp only at h
    by_cases h1 : w.length = 1
    · rw [if_pos h1] at h
      cases h
      refine .arg (.inl (.inr ?_))
      match w, h0, h1 with
      | [x], h0, _ => simpa using h0
    rw [if_neg h1] at h
    -- the rest, if the part before the equals sign is not an option
    have rest : (∀ v, (partitionEq w).2 = some v → P.find (partitionEq w).1 = none) →
        (Except.ok k : Except Stop Kind) = (match optionTuples P w with
        | [k] => .ok k
        | _ :: _ => .error .input
        | [] =>
          if negativeNumber digit w then .ok .arg
          else if ' ' ∈ w then .ok .arg
          else .ok (.opt none w none)) → WordIs digit c w k := by
      intro hpart h
      obtain ⟨y, t, rfl⟩ : ∃ y t, w = '-' :: y :: t := by
        match w, h0, h1 with
        | [x], _, h1 => simp at h1
        | x :: y :: t, h0, _ => exact ⟨y, t, by simpa using h0⟩
      have hq : ∀ v, t = '=' :: v → P.find ['-', y] = none := by
        rintro v rfl
        by_cases hy : y = '='
        · subst hy; exact T.find_none fun b hb => T.no_eq hb (by simp)
        · have : partitionEq ('-' :: y :: '=' :: v) = (['-', y], some v) :=
            partition_some (n := ['-', y]) (v := v) (by simp; exact fun e => hy e.symm)
          rw [this] at hpart
          exact hpart v rfl
      · 
        split at h
        · rename_i k0 ht
          cases h
          exact T.tuples_is hf hq ht
        · cases h
        · split at h
          · cases h
            rename_i hn
            exact .arg (negative_plain hn)
          · split at h
            · cases h
              rename_i hs
              exact .arg (.inr (.inl hs))
            · cases h
              exact .unknown
    rcases partition_cases w with ⟨e1, _⟩ | ⟨n, v, e1, e2, e3⟩
    · rw [e1] at h
      simp only at h
      exact rest (by rw [e1]; simp) h.symm
    · rw [e1] at h
      simp only at h
      cases hf' : P.find n with
      | none => rw [hf'] at h; exact rest (by rw [e1]; intro _ _; exact hf') h.symm
      | some a =>
        rw [hf'] at h
        cases h
        rcases exact_ (T.find.1 hf') with ⟨e, hl⟩ | ⟨x, e, ha, hx⟩
        · rw [e]
          exact .longEq (n := n) e2 (.inl hl)
        · rw [e] at e2 ⊢
          exact .shortEq e2 ha hx

end Verif.Usage
