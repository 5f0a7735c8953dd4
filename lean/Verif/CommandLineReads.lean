import Verif.CommandLineLemmas
/-
What the parser of the command line does with a command line that can be read, and that it accepts no other.
-/
namespace Verif.Usage
open Argparse CommandLine

/-! ### The actions -/

/-- What an option sets. -/
def put (ns : NS) : Given → NS
  | (.help, _) | (.version, _) => ns
  | (.quiet, _) => { ns with quiet := true }
  | (.debug, _) => { ns with debug := true }
  | (.addRemote, _) => { ns with addRemote := true }
  | (.keepRemote, _) => { ns with keepRemote := true }
  | (.noRetrieve, _) => { ns with noRetrieve := true }
  | (.exclude, v) => { ns with exclude := v }
  | (.template, v) => { ns with template := v }

/-- Neither a help page nor the version is asked for. -/
def Free (gs : List Given) : Prop := has gs .help = false ∧ has gs .version = false

theorem free_cons {g : Given} {gs : List Given} :
    Free (g :: gs) ↔ g.1 ≠ .help ∧ g.1 ≠ .version ∧ Free gs := by
  unfold Free has
  simp only [List.any_cons, Bool.or_eq_false_iff, beq_eq_false_iff_ne]
  constructor
  · rintro ⟨⟨a, b⟩, c, d⟩; exact ⟨a, c, b, d⟩
  · rintro ⟨a, c, b, d⟩; exact ⟨⟨a, b⟩, c, d⟩

theorem free_append {gs hs : List Given} : Free (gs ++ hs) ↔ Free gs ∧ Free hs := by
  unfold Free has
  simp only [List.any_append, Bool.or_eq_false_iff]
  constructor
  · rintro ⟨⟨a, b⟩, c, d⟩; exact ⟨⟨a, c⟩, b, d⟩
  · rintro ⟨⟨a, c⟩, b, d⟩; exact ⟨⟨a, b⟩, c, d⟩

theorem takeAction_ok {ns : NS} {g : Given} (h1 : g.1 ≠ .help) (h2 : g.1 ≠ .version) :
    takeAction ns g = .ok (put ns g) := by
  obtain ⟨a, v⟩ := g
  cases a <;> first | rfl | exact absurd rfl h1 | exact absurd rfl h2

theorem takeAction_inv {ns ns' : NS} {g : Given} (h : takeAction ns g = .ok ns') :
    g.1 ≠ .help ∧ g.1 ≠ .version ∧ ns' = put ns g := by
  obtain ⟨a, v⟩ := g
  cases a <;> first
    | (exact ⟨by simp, by simp, (Except.ok.inj h).symm⟩)
    | (simp only [takeAction] at h; exact absurd h (by simp))

theorem actions_ok {gs : List Given} : ∀ {ns : NS}, Free gs →
    gs.foldlM takeAction ns = .ok (gs.foldl put ns) := by
  induction gs with
  | nil => intro ns _; rfl
  | cons g gs ih =>
    intro ns h
    rw [free_cons] at h
    rw [List.foldlM_cons, takeAction_ok h.1 h.2.1, List.foldl_cons]
    exact ih h.2.2

theorem actions_inv {gs : List Given} : ∀ {ns ns' : NS}, gs.foldlM takeAction ns = .ok ns' →
    Free gs ∧ ns' = gs.foldl put ns := by
  induction gs with
  | nil =>
    intro ns ns' h
    simp only [List.foldlM_nil] at h
    cases h
    exact ⟨⟨rfl, rfl⟩, rfl⟩
  | cons g gs ih =>
    intro ns ns' h
    rw [List.foldlM_cons] at h
    cases e : takeAction ns g with
    | error x => rw [e] at h; cases h
    | ok ns1 =>
      rw [e] at h
      obtain ⟨h1, h2⟩ := ih h
      obtain ⟨h3, h4, rfl⟩ := takeAction_inv e
      exact ⟨free_cons.2 ⟨h3, h4, h1⟩, h2⟩

theorem put_profile (ns : NS) (g : Given) (p : Option Str) :
    put { ns with profile := p } g = { put ns g with profile := p } := by
  obtain ⟨a, v⟩ := g
  cases a <;> rfl

theorem puts_profile (gs : List Given) : ∀ (ns : NS) (p : Option Str),
    gs.foldl put { ns with profile := p } = { gs.foldl put ns with profile := p } := by
  induction gs with
  | nil => intro ns p; rfl
  | cons g gs ih => intro ns p; rw [List.foldl_cons, put_profile, ih]; rfl

/-- The fields that options never change. -/
theorem puts_same (gs : List Given) : ∀ (ns : NS), (gs.foldl put ns).command = ns.command ∧
    (gs.foldl put ns).profile = ns.profile ∧ (gs.foldl put ns).unrecognized = ns.unrecognized := by
  induction gs with
  | nil => intro ns; exact ⟨rfl, rfl, rfl⟩
  | cons g gs ih =>
    intro ns
    rw [List.foldl_cons]
    obtain ⟨h1, h2, h3⟩ := ih (put ns g)
    rw [h1, h2, h3]
    obtain ⟨a, v⟩ := g
    cases a <;> exact ⟨rfl, rfl, rfl⟩

theorem puts_flag (gs : List Given) : ∀ (ns : NS),
    (gs.foldl put ns).quiet = (ns.quiet || has gs .quiet) ∧
    (gs.foldl put ns).debug = (ns.debug || has gs .debug) ∧
    (gs.foldl put ns).addRemote = (ns.addRemote || has gs .addRemote) ∧
    (gs.foldl put ns).keepRemote = (ns.keepRemote || has gs .keepRemote) ∧
    (gs.foldl put ns).noRetrieve = (ns.noRetrieve || has gs .noRetrieve) := by
  induction gs with
  | nil => intro ns; simp [has]
  | cons g gs ih =>
    intro ns
    rw [List.foldl_cons]
    obtain ⟨h1, h2, h3, h4, h5⟩ := ih (put ns g)
    rw [h1, h2, h3, h4, h5]
    obtain ⟨a, v⟩ := g
    have hb : ∀ a b : Act, (a == b) = decide (a = b) := by intro a b; cases a <;> cases b <;> rfl
    cases a <;> simp [put, has, hb]

theorem value_cons_eq {gs : List Given} {a : Act} {v : Option Str} (h : has gs a = false) :
    value ((a, v) :: gs) a = v := by
  have : gs.filter (·.1 == a) = [] := by
    rw [List.filter_eq_nil_iff]
    intro g hg
    unfold has at h
    rw [List.any_eq_false] at h
    exact h g hg
  unfold value
  simp [this]

theorem value_cons_ne {gs : List Given} {a : Act} {g : Given} (h : has gs a = true ∨ g.1 ≠ a) :
    value (g :: gs) a = value gs a := by
  unfold value
  rw [List.filter_cons]
  split
  · rename_i e
    rcases h with h | h
    · have hne : gs.filter (·.1 == a) ≠ [] := by
        intro e
        rw [List.filter_eq_nil_iff] at e
        unfold has at h
        rw [List.any_eq_true] at h
        obtain ⟨g', hg, hg'⟩ := h
        exact e g' hg hg'
      rw [List.getLast?_cons_of_ne_nil hne]
    · exact absurd (eq_of_beq e) h
  · rfl

theorem value_none {gs : List Given} {a : Act} (h : has gs a = false) : value gs a = none := by
  have : gs.filter (·.1 == a) = [] := by
    rw [List.filter_eq_nil_iff]
    intro g hg
    unfold has at h
    rw [List.any_eq_false] at h
    exact h g hg
  unfold value
  simp [this]

theorem puts_value (gs : List Given) : ∀ (ns : NS),
    (gs.foldl put ns).exclude = (if has gs .exclude then value gs .exclude else ns.exclude) ∧
    (gs.foldl put ns).template = (if has gs .template then value gs .template else ns.template) := by
  induction gs with
  | nil => intro ns; simp [has]
  | cons g gs ih =>
    intro ns
    rw [List.foldl_cons]
    obtain ⟨h1, h2⟩ := ih (put ns g)
    rw [h1, h2]
    have key : ∀ (a : Act) (x y : Option Str), (g.1 ≠ a → x = y) → (g.1 = a → x = g.2) →
        (if has gs a then value gs a else x) = if has (g :: gs) a then value (g :: gs) a else y := by
      intro a x y hne heq
      have hh : has (g :: gs) a = (g.1 == a || has gs a) := rfl
      by_cases hg : g.1 = a
      · have : has (g :: gs) a = true := by rw [hh]; simp [hg]
        rw [this, if_pos rfl]
        by_cases h : has gs a = true
        · rw [if_pos h, value_cons_ne (.inl h)]
        · rw [if_neg h, heq hg]
          have h : has gs a = false := by simpa using h
          obtain ⟨a', v⟩ := g
          have hg : a' = a := hg
          subst hg
          exact (value_cons_eq h).symm
      · have : has (g :: gs) a = has gs a := by rw [hh]; simp [hg]
        rw [this, value_cons_ne (.inr hg), hne hg]
    refine ⟨key _ _ _ ?_ ?_, key _ _ _ ?_ ?_⟩ <;> (obtain ⟨a, v⟩ := g; cases a <;> simp [put])

/-! ### The options in a word -/

theorem valOf_ne {y : Char} {cs : Str} (h : y ≠ '=') : valOf (y :: cs) = some (false, y :: cs) := by
  unfold valOf
  split
  · rename_i e; cases e
  · rename_i e; simp only [List.cons.injEq] at e; exact absurd e.1 h
  · rfl

theorem valOf_ne' {cs : Str} (h : cs ≠ []) (h' : cs.head? ≠ some '=') : valOf cs = some (false, cs) := by
  cases cs with
  | nil => exact absurd rfl h
  | cons y cs => exact valOf_ne (by simpa using h')

/-- One round of the loop over the options in a word. -/
theorem optionsIn_flag {c : Option Cmd} {P : Parser} (T : Table c P) {next : Option Str} {a a' : Act} {x y : Char}
    {cs : Str} {n : Nat} (hx : x ≠ '-') (hv : valued a = false) (ha' : a' ∈ offers c) (hy : short a' = some y) :
    optionsIn P next a ['-', x] (valOf (y :: cs)) (n + 1) =
      (do let r ← optionsIn P next a' ['-', y] (valOf cs) n
          .ok ((a, none) :: r.1, r.2)) := by
  obtain ⟨h1, h2⟩ := short_ne hy
  rw [valOf_ne h2]
  rw [optionsIn]
  simp only [valued_eq, hv, T.find.2 (T.short_mem ha' hy)]
  simp [hx, h1]

theorem cluster_ok {c : Option Cmd} {P : Parser} (T : Table c P) {plain : Str → Prop} {cs0 : Str} {vs : List Str}
    {gs : List Given} (h : Cluster plain c cs0 vs gs) : ∃ a x cs, cs0 = x :: cs ∧ a ∈ offers c ∧ short a = some x ∧
      ∀ (next : Option Str) (n : Nat), (vs = [] ∨ next = vs.head?) → cs.length < n →
        optionsIn P next a ['-', x] (valOf cs) n = .ok (gs, [], !vs.isEmpty) := by
  induction h with
  | @last x a ha hx hv =>
    refine ⟨a, x, [], rfl, ha, hx, fun next n _ hn => ?_⟩
    match n, hn with
    | n + 1, _ => simp [optionsIn, valOf, valued_eq, hv]
  | @flag x a cs vs gs ha hx hv hc ih =>
    obtain ⟨a', y, cs', rfl, ha', hy, ih⟩ := ih
    refine ⟨a, x, _, rfl, ha, hx, fun next n hvs hn => ?_⟩
    match n, hn with
    | n + 1, hn =>
      rw [optionsIn_flag T (short_ne hx).1 hv ha' hy, ih next n hvs (by simpa using hn)]
      rfl
  | @next x a v ha hx hv hp =>
    refine ⟨a, x, [], rfl, ha, hx, fun next n hvs hn => ?_⟩
    have hvs : next = some v := by simpa using hvs
    match n, hn with
    | n + 1, _ => simp [optionsIn, valOf, valued_eq, hv, hvs]
  | @rest x a v ha hx hv hne he =>
    refine ⟨a, x, v, rfl, ha, hx, fun next n _ hn => ?_⟩
    match n, hn with
    | n + 1, _ => rw [valOf_ne' hne he]; simp [optionsIn, valued_eq, hv]
  | @equals x a v ha hx hv =>
    refine ⟨a, x, _, rfl, ha, hx, fun next n _ hn => ?_⟩
    match n, hn with
    | n + 1, _ => simp [optionsIn, valOf, valued_eq, hv]

theorem Table.cluster_word {c : Option Cmd} {P : Parser} (T : Table c P) (digit : Char → Bool) {x : Char} {a : Act}
    (ha : a ∈ offers c) (hx : short a = some x) (cs : Str) :
    parseOptional digit P ('-' :: x :: cs) = .ok (.opt (some a) ['-', x] (valOf cs)) := by
  cases cs with
  | nil => exact T.short_ok digit ha hx
  | cons y cs =>
    by_cases hy : y = '='
    · subst hy; exact T.short_eq_ok digit ha hx
    · rw [valOf_ne hy]
      exact T.short_rest_ok digit ha hx (by simp) (by simpa using hy)

theorem long_second (a : Act) : (long a)[1]? = some '-' := by
  obtain ⟨x, t, e, _⟩ := long_eq a
  rw [e]; rfl

/-- The words that give options are understood. -/
theorem options_ok {c : Option Cmd} {P : Parser} (T : Table c P) (digit : Char → Bool) {plain : Str → Prop}
    {os : List Str} {gs : List Given} (h : Options plain c os gs) : ∃ w vs a name val, os = w :: vs ∧ w ≠ dd ∧
      parseOptional digit P w = .ok (.opt (some a) name val) ∧ (∀ v ∈ vs, plain v) ∧ vs.length ≤ 1 ∧
      (∃ x t, w = '-' :: x :: t ∧ (x = '-' → ∃ y t', t = y :: t' ∧ y ≠ '=')) ∧
      ∀ next : Option Str, (vs = [] ∨ next = vs.head?) →
        optionsIn P next a name val (w.length + 1) = .ok (gs, [], !vs.isEmpty) := by
  have hlong : ∀ {n a}, LongName c n a → ∀ u : Str, n ++ u ≠ dd ∧
      ∃ x t, n ++ u = '-' :: x :: t ∧ (x = '-' → ∃ y t', t = y :: t' ∧ y ≠ '=') := by
    intro n a hl u
    obtain ⟨x, t, e, he⟩ := prefix_long hl.2.1 hl.2.2.1
    rw [e] at he ⊢
    refine ⟨by simp [dd], '-', x :: t ++ u, rfl, fun _ => ⟨x, t ++ u, rfl, ?_⟩⟩
    rintro rfl
    simp at he
  cases h with
  | @flag n a hl hv =>
    have := hlong hl []
    rw [List.append_nil] at this
    refine ⟨n, [], a, _, _, rfl, this.1, T.long_ok digit hl, by simp, by simp, this.2, fun next _ => ?_⟩
    simp [optionsIn, valued_eq, hv]
  | @next n v a hl hv hp =>
    have := hlong hl []
    rw [List.append_nil] at this
    refine ⟨n, [v], a, _, _, rfl, this.1, T.long_ok digit hl, by simpa using hp, by simp, this.2, fun next hn => ?_⟩
    have hn : next = some v := by simpa using hn
    simp [optionsIn, valued_eq, hv, hn]
  | @equals n v a hl hv =>
    have := hlong hl ('=' :: v)
    refine ⟨_, [], a, _, _, rfl, this.1, T.long_eq_ok digit hl, by simp, by simp, this.2, fun next _ => ?_⟩
    simp [optionsIn, valued_eq, hv]
  | @cluster cs vs gs hc =>
    obtain ⟨a, x, cs', rfl, ha, hx, h⟩ := cluster_ok T hc
    have hne := (short_ne hx).1
    refine ⟨_, vs, a, _, _, rfl, ?_, T.cluster_word digit ha hx cs', ?_, ?_, ⟨x, cs', rfl, fun e => absurd e hne⟩,
      fun next hn => h next _ hn (by simp; omega)⟩
    · simp [dd, hne]
    · clear h hx hne ha
      generalize x :: cs' = q at hc
      induction hc with
      | last => simp
      | flag _ _ _ _ ih => exact ih
      | next _ _ _ hp => simpa using hp
      | rest => simp
      | equals => simp
    · clear h hx hne ha
      generalize x :: cs' = q at hc
      induction hc with
      | last => simp
      | flag _ _ _ _ ih => exact ih
      | next => simp
      | rest => simp
      | equals => simp

/-! ### Whole command lines -/

theorem plain_ne_dd {w : Str} (h : Plain w) : w ≠ dd := by
  rintro rfl
  rcases h with h | h
  · exact h rfl
  · simp [dd] at h

theorem classify_cons {digit : Char → Bool} {P : Parser} {w : Str} {ws : List Str} {k : Kind} {r : List (Str × Kind)}
    (h : w ≠ dd) (hk : parseOptional digit P w = .ok k) (hr : classify digit P ws = .ok r) :
    classify digit P (w :: ws) = .ok ((w, k) :: r) := by
  rw [classify, if_neg h, hk, hr]
  rfl

theorem classify_plain {c : Option Cmd} {P : Parser} (T : Table c P) {digit : Char → Bool} {vs ws : List Str}
    {r : List (Str × Kind)} (hv : ∀ v ∈ vs, Plain v) (hr : classify digit P ws = .ok r) :
    classify digit P (vs ++ ws) = .ok (vs.map (·, .arg) ++ r) := by
  induction vs with
  | nil => exact hr
  | cons v vs ih =>
    exact classify_cons (plain_ne_dd (hv v (by simp))) (T.plain_ok digit (hv v (by simp)))
      (ih fun v h => hv v (by simp [h]))

/-- A group of options is one round of the loop. -/
theorem loop_options {c : Option Cmd} {P : Parser} (T : Table c P) {digit : Char → Bool}
    {sub : NS → Str → List Str → Except Stop NS} {os : List Str} {gs : List Given}
    (h : Options Plain c os gs) (hf : Free gs) : ∃ ks : List (Str × Kind), ks ≠ [] ∧ ks.map (·.1) = os ∧
      (∀ ws r, classify digit P ws = .ok r → classify digit P (os ++ ws) = .ok (ks ++ r)) ∧
      (∃ w k, ks.head? = some (w, k) ∧ k.isOpt) ∧
      ∀ s r n, loop P sub (n + 1) s (ks ++ r) = loop P sub n { s with ns := gs.foldl put s.ns } r := by
  obtain ⟨w, vs, a, name, val, rfl, hw, hp, hv, hl, _, ho⟩ := options_ok T digit h
  refine ⟨(w, .opt (some a) name val) :: vs.map (·, .arg), by simp, ?_, ?_, ⟨_, _, rfl, rfl⟩, ?_⟩
  · simp [Function.comp_def]
  · intro ws r hr
    exact classify_cons hw hp (classify_plain T hv hr)
  · intro s r n
    rw [loop]
    have hany : (((w, Kind.opt (some a) name val) :: vs.map (·, Kind.arg)) ++ r).any (·.2.isOpt) = true := by
      simp [Kind.isOpt]
    rw [if_pos hany]
    simp only [List.cons_append, round, consumeOptional]
    match vs, hl with
    | [], _ =>
      rw [ho _ (.inl rfl)]
      simp only [List.map_nil, List.nil_append, bind, Except.bind]
      have := actions_ok (ns := s.ns) hf
      rw [this]
      simp
    | [v], _ =>
      have ho1 := ho (some v) (.inr rfl)
      simp only [List.map_cons, List.map_nil, List.cons_append, List.nil_append, bind, Except.bind, ho1]
      have := actions_ok (ns := s.ns) hf
      rw [this]
      simp

theorem loop_last {P : Parser} {sub : NS → Str → List Str → Except Stop NS} {s : Loop} {r : List (Str × Kind)} {n : Nat}
    (h : r.any (·.2.isOpt) = false) (hp : s.pos = none) :
    loop P sub (n + 1) s r = .ok (s.ns, s.extras ++ r.map (·.1) ++ s.ns.unrecognized) := by
  rw [loop, if_neg (by rw [h]; simp)]
  simp [finish, consumePositional, hp, bind, Except.bind]

theorem given_append (is js : List Item) : given (is ++ js) = given is ++ given js := by simp [given]

theorem operands_append (is js : List Item) : operands (is ++ js) = operands is ++ operands js := by simp [operands]

theorem given_map (gs : List Given) : given (gs.map .given) = gs := by
  unfold given
  rw [List.filterMap_map]
  simp [Function.comp_def]

theorem operands_map (gs : List Given) : operands (gs.map .given) = [] := by
  unfold operands
  rw [List.filterMap_map]
  simp [Function.comp_def]

theorem operands_dashes (ws : List Str) : operands (ws.map .operand) = ws := by
  unfold operands
  rw [List.filterMap_map]
  simp [Function.comp_def]

theorem given_dashes (ws : List Str) : given (ws.map .operand) = [] := by
  unfold given
  rw [List.filterMap_map]
  simp [Function.comp_def]

@[simp] theorem isDashes_arg : Kind.arg.isDashes = false := rfl
@[simp] theorem isDashes_dashes : Kind.dashes.isDashes = true := rfl
@[simp] theorem isOpt_arg : Kind.arg.isOpt = false := rfl
@[simp] theorem isOpt_dashes : Kind.dashes.isOpt = false := rfl
@[simp] theorem isOpt_opt (a : Option Act) (n : Str) (v : Option (Bool × Str)) : (Kind.opt a n v).isOpt = true := rfl
@[simp] theorem isDashes_opt (a : Option Act) (n : Str) (v : Option (Bool × Str)) :
    (Kind.opt a n v).isDashes = false := rfl

theorem consume_one {sub : NS → Str → List Str → Except Stop NS} {s : Loop} {w : Str} {ks : List (Str × Kind)}
    (hp : s.pos = some .one) (hw : w ≠ dd) (h1 : ks.takeWhile (·.2.isDashes) = [])
    (h2 : ks.dropWhile (·.2.isDashes) = ks) : consumePositional sub s ((w, .arg) :: ks) =
      .ok (some ({ s with ns := { s.ns with profile := some w }, pos := none }, ks)) := by
  have he : [w].erase dd = [w] := by
    rw [List.erase_cons]
    simp [hw]
  unfold consumePositional
  rw [hp]
  simp [List.takeWhile_cons, List.dropWhile_cons, h1, h2, he]

/-- The words after the command are understood. -/
theorem words_ok {c : Option Cmd} {P : Parser} (T : Table c P) {digit : Char → Bool}
    {sub : NS → Str → List Str → Except Stop NS} {args : List Str} {is : List Item}
    (h : Words Plain False c args is) (hf : Free (given is)) : ∃ ks, classify digit P args = .ok ks ∧
      (operands is = [] → ∀ w k, ks.head? = some (w, k) → k.isDashes = false) ∧
      ∀ s n, ks.length < n → s.extras = [] → s.ns.unrecognized = [] →
        (s.pos = none → operands is = [] → loop P sub n s ks = .ok ((given is).foldl put s.ns, [])) ∧
        ∀ p, s.pos = some .one → operands is = [p] →
          loop P sub n s ks = .ok ((given is).foldl put { s.ns with profile := some p }, []) := by
  induction h with
  | nil =>
    refine ⟨[], rfl, by simp, fun s n hn he hu => ⟨fun hp _ => ?_, fun p _ h => by simp [operands] at h⟩⟩
    match n, hn with
    | n + 1, _ =>
      rw [loop_last (by simp) hp, he, hu]
      rfl
  | @operand w ws is hw _ ih =>
    obtain ⟨ks, hk, hd, ih⟩ := ih hf
    refine ⟨(w, .arg) :: ks, classify_cons (plain_ne_dd hw) (T.plain_ok digit hw) hk, ?_, ?_⟩
    · intro h; simp [operands] at h
    intro s n hn he hu
    refine ⟨fun _ h => by simp [operands] at h, fun p hp ho => ?_⟩
    have ho' : w = p ∧ operands is = [] := by simpa [operands] using ho
    clear ho
    obtain ⟨rfl, ho⟩ := ho'
    match n, hn with
    | n + 1, hn =>
      have htrail : ks.takeWhile (·.2.isDashes) = [] ∧ ks.dropWhile (·.2.isDashes) = ks := by
        cases ks with
        | nil => exact ⟨rfl, rfl⟩
        | cons q ks =>
          have := hd ho q.1 q.2 rfl
          simp [List.takeWhile_cons, List.dropWhile_cons, this]
      have hpos : consumePositional sub s ((w, .arg) :: ks) =
          .ok (some ({ s with ns := { s.ns with profile := some w }, pos := none }, ks)) :=
        consume_one hp (plain_ne_dd hw) htrail.1 htrail.2
      have IH := (ih { s with ns := { s.ns with profile := some w }, pos := none } n (by simpa using hn) he hu).1 rfl ho
      have hg : given (.operand w :: is) = given is := rfl
      rw [hg, ← IH, loop]
      by_cases hany : ((w, Kind.arg) :: ks).any (·.2.isOpt) = true
      · rw [if_pos hany]
        simp only [round, hpos, bind, Except.bind]
      · rw [if_neg hany]
        have hany' : ks.any (·.2.isOpt) = false := by
          simpa [Kind.isOpt] using hany
        match n, hn with
        | m + 1, _ =>
          rw [loop_last hany' rfl]
          simp [finish, hpos, bind, Except.bind]
  | @options os gs ws is ho _ ih =>
    rw [given_append, given_map, free_append] at hf
    obtain ⟨ks, hk, hd, ih⟩ := ih hf.2
    obtain ⟨js, hne, hmap, hcl, ⟨w0, k0, hhead, hopt⟩, hloop⟩ := loop_options (sub := sub) (digit := digit) T ho hf.1
    refine ⟨js ++ ks, hcl _ _ hk, ?_, ?_⟩
    · intro _ w k h
      cases js with
      | nil => exact absurd rfl hne
      | cons q js =>
        simp only [List.head?_cons, Option.some.injEq, List.cons_append] at hhead h
        rw [hhead] at h
        cases h
        cases k0 <;> simp_all [Kind.isOpt, Kind.isDashes]
    intro s n hn he hu
    match n, hn with
    | n + 1, hn =>
      have hlen : ks.length < n := by
        have : 0 < js.length := List.length_pos_iff.2 hne
        simp at hn
        omega
      obtain ⟨h1, h2⟩ := ih { s with ns := gs.foldl put s.ns } n hlen he (by rw [(puts_same gs s.ns).2.2]; exact hu)
      rw [hloop, given_append, given_map, operands_append, operands_map, List.nil_append, List.foldl_append]
      refine ⟨h1, fun p hp hop => ?_⟩
      rw [h2 p hp hop, List.foldl_append, puts_profile gs s.ns (some p)]
  | @dashes ws hb =>
    refine ⟨(dd, .dashes) :: ws.map (·, .arg), by rw [classify]; exact if_pos rfl, ?_, ?_⟩
    · rw [operands_dashes]
      intro h
      exact absurd h hb
    intro s n hn he hu
    rw [operands_dashes, given_dashes]
    refine ⟨fun _ h => absurd h hb, ?_⟩
    rintro p hp rfl
    match n, hn with
    | n + 1, _ =>
      rw [loop]
      simp [Kind.isOpt, finish, consumePositional, hp, List.takeWhile_cons, List.dropWhile_cons, Kind.isDashes, bind,
        Except.bind, List.erase_cons, he, hu]

/-- The parser of the global options has something to say about every word except those that start with `--=`. -/
theorem top_word (digit : Char → Bool) {x : Char} {t : Str} (h : x = '-' → ∃ y t', t = y :: t' ∧ y ≠ '=') :
    ∃ k, parseOptional digit topParser ('-' :: x :: t) = .ok k := by
  have htup : (optionTuples topParser ('-' :: x :: t)).length ≤ 1 := by
    unfold optionTuples
    split
    · rename_i r e
      simp only [List.cons.injEq, true_and] at e
      obtain ⟨rfl, rfl⟩ := e
      obtain ⟨y, t', rfl, hy⟩ := h rfl
      have hpre : partitionEq ('-' :: '-' :: y :: t') =
          ('-' :: '-' :: y :: t'.takeWhile (· != '='), (partitionEq ('-' :: '-' :: y :: t')).2) := by
        unfold partitionEq
        simp [List.takeWhile_cons, hy]
      rw [hpre, top_opts]
      simp only [List.filterMap_cons, List.filterMap_nil]
      have e1 : long .help = '-' :: '-' :: 'h' :: "elp".toList := rfl
      have e2 : long .version = '-' :: '-' :: 'v' :: "ersion".toList := rfl
      have e3 : long .debug = '-' :: '-' :: 'd' :: "ebug".toList := rfl
      have e4 : long .quiet = '-' :: '-' :: 'q' :: "uiet".toList := rfl
      rw [e1, e2, e3, e4]
      simp only [List.isPrefixOf_cons_cons]
      by_cases y1 : y = 'h'
      · subst y1; simp; split <;> simp
      by_cases y2 : y = 'v'
      · subst y2; simp; split <;> simp
      by_cases y3 : y = 'd'
      · subst y3; simp; split <;> simp
      by_cases y4 : y = 'q'
      · subst y4; simp; split <;> simp
      · simp [y1, y2, y3, y4]
    · rename_i hne
      have hx : x ≠ '-' := fun e => hne t (by rw [e])
      rw [top_opts]
      have e : ∀ a, ((long a == List.take 2 ('-' :: x :: t)) = false) ∧
          (('-' :: x :: t).isPrefixOf (long a) = false) := by
        intro a
        obtain ⟨z, r, e, _⟩ := long_eq a
        rw [e]
        refine ⟨by simp, ?_⟩
        rw [List.isPrefixOf_cons_cons, List.isPrefixOf_cons_cons]
        simp [hx]
      simp only [List.filterMap_cons, List.filterMap_nil, (e _).1, (e _).2]
      simp only [Bool.false_eq_true, if_false]
      split <;> simp
  unfold parseOptional
  rw [if_neg (by simp)]
  cases topParser.find ('-' :: x :: t) with
  | some a => exact ⟨_, rfl⟩
  | none =>
    simp only
    rw [if_neg (by simp)]
    split
    · exact ⟨_, rfl⟩
    · generalize optionTuples topParser ('-' :: x :: t) = l at htup
      match l, htup with
      | [k], _ => exact ⟨_, rfl⟩
      | [], _ =>
        simp only
        split
        · exact ⟨_, rfl⟩
        · split
          · exact ⟨_, rfl⟩
          · exact ⟨_, rfl⟩
      | _ :: _ :: _, h => simp at h

/-- The words after the command as the parser of the global options sees them. -/
theorem words_top {c : Option Cmd} {P : Parser} (T : Table c P) {digit : Char → Bool} {bare : Prop} {args : List Str}
    {is : List Item} (h : Words Plain bare c args is) :
    ∃ ks, classify digit topParser args = .ok ks ∧ ks.map (·.1) = args := by
  induction h with
  | nil => exact ⟨[], rfl, rfl⟩
  | @operand w ws is hw _ ih =>
    obtain ⟨ks, hk, hm⟩ := ih
    exact ⟨_, classify_cons (plain_ne_dd hw) (table_top.plain_ok digit hw) hk, by simp [hm]⟩
  | @options os gs ws is ho _ ih =>
    obtain ⟨ks, hk, hm⟩ := ih
    obtain ⟨w, vs, a, name, val, rfl, hw, _, hv, _, ⟨x, t, rfl, hx⟩, _⟩ := options_ok T digit ho
    obtain ⟨k, e⟩ := top_word digit hx
    exact ⟨_, classify_cons hw e (classify_plain table_top hv hk), by simp [hm, Function.comp_def]⟩
  | @dashes ws hb =>
    exact ⟨_, by rw [classify]; exact if_pos rfl, by simp [Function.comp_def, dd]⟩

/-- The global options. -/
theorem globals_ok {digit : Char → Bool} {sub : NS → Str → List Str → Except Stop NS} {pre : List Str}
    {gs : List Given} (h : Globals Plain pre gs) (hf : Free gs) : ∃ (ks : List (Str × Kind)) (k : Nat), k ≤ ks.length ∧
      (∀ ws r, classify digit topParser ws = .ok r → classify digit topParser (pre ++ ws) = .ok (ks ++ r)) ∧
      ∀ s r n, loop topParser sub (n + k) s (ks ++ r) = loop topParser sub n { s with ns := gs.foldl put s.ns } r := by
  induction h with
  | nil => exact ⟨[], 0, by simp, fun ws r h => h, fun s r n => rfl⟩
  | @cons os gs ws hs ho _ ih =>
    rw [free_append] at hf
    obtain ⟨ks, k, hk, hcl, hloop⟩ := ih hf.2
    obtain ⟨js, hne, hmap, hcl', _, hloop'⟩ := loop_options (sub := sub) (digit := digit) table_top ho hf.1
    have hlen : 0 < js.length := List.length_pos_iff.2 hne
    refine ⟨js ++ ks, k + 1, by simp; omega, ?_, ?_⟩
    · intro ws' r hr
      rw [List.append_assoc, List.append_assoc]
      exact hcl' _ _ (hcl _ _ hr)
    · intro s r n
      rw [List.append_assoc, ← Nat.add_assoc, hloop', hloop, List.foldl_append]

theorem name_plain (c : Cmd) : Plain c.name := by
  cases c <;> exact .inl (by decide)

theorem loop_sub {sub : NS → Str → List Str → Except Stop NS} {s : Loop} {w : Str} {ks : List (Str × Kind)} {n : Nat}
    {ns : NS} (hp : s.pos = some .sub) (hsub : sub s.ns w (ks.map (·.1)) = .ok ns) :
    loop topParser sub (n + 2) s ((w, .arg) :: ks) = .ok (ns, s.extras ++ ns.unrecognized) := by
  have hpos : consumePositional sub s ((w, .arg) :: ks) = .ok (some ({ s with ns := ns, pos := none }, [])) := by
    unfold consumePositional
    rw [hp]
    simp [List.takeWhile_cons, List.dropWhile_cons, hsub, bind, Except.bind]
  rw [loop]
  by_cases hany : ((w, Kind.arg) :: ks).any (·.2.isOpt) = true
  · rw [if_pos hany]
    simp only [round, hpos, bind, Except.bind]
    rw [loop_last (by simp) rfl]
    simp
  · rw [if_neg hany]
    simp [finish, hpos, bind, Except.bind]

/-- The namespace for a command line. -/
def nsFor (c : Cmd) (gs hs : List Given) (ops : List Str) : NS :=
  { hs.foldl put { command := some c.name, quiet := has gs .quiet, profile := ops.head? } with debug := has gs .debug }

theorem parse_ok {digit : Char → Bool} {c : Cmd} {pre post : List Str} {gs : List Given} {is : List Item}
    (hpre : Globals Plain pre gs) (hpost : Words Plain False (some c) post is) (hf : Free (gs ++ given is))
    (ho : (c = .list ∧ operands is = []) ∨ (c ≠ .list ∧ ∃ p, operands is = [p])) :
    parseArgs digit (pre ++ c.name :: post) = .ok (nsFor c gs (given is) (operands is)) := by
  rw [free_append] at hf
  obtain ⟨ks, hk, _, hloop⟩ := words_ok (sub := fun _ _ _ => .error .input) (digit := digit) (table_sub c) hpost hf.2
  obtain ⟨js, hj, hjm⟩ := words_top (digit := digit) (table_sub c) hpost
  obtain ⟨hs, k, hk', hcl, hglob⟩ := globals_ok (digit := digit) (sub := runSub digit) hpre hf.1
  have hclass := hcl _ _ (classify_cons (plain_ne_dd (name_plain c)) (table_top.plain_ok digit (name_plain c)) hj)
  -- the namespace after the global options
  obtain ⟨f1, f2, f3, f4, f5⟩ := puts_flag gs {}
  -- the sub-parser
  have hsub : runSub digit (gs.foldl put {}) c.name post = .ok (nsFor c gs (given is) (operands is)) := by
    unfold runSub
    rw [lookup_sub]
    unfold parseKnown
    simp only [hk, bind, Except.bind]
    rw [f1, f2]
    simp only [Bool.false_or]
    have hl := hloop ⟨{ command := some c.name, quiet := has gs .quiet }, c.parser.pos, []⟩ (ks.length + 1) (by omega)
      rfl rfl
    rcases ho with ⟨rfl, ho⟩ | ⟨hc, p, ho⟩
    · rw [hl.1 rfl ho]
      have e := (puts_same (given is) { command := some Cmd.list.name, quiet := has gs .quiet }).2.2
      unfold nsFor
      rw [ho]
      simp only [List.head?_nil]
      generalize (given is).foldl put { command := some Cmd.list.name, quiet := has gs .quiet } = q at e ⊢
      cases q
      simp_all
    · have hpos : c.parser.pos = some .one := by cases c <;> first | rfl | exact absurd rfl hc
      rw [hl.2 p hpos ho]
      have e := (puts_same (given is) { command := some c.name, quiet := has gs .quiet, profile := some p }).2.2
      unfold nsFor
      rw [ho]
      simp only [List.head?_cons]
      generalize (given is).foldl put { command := some c.name, quiet := has gs .quiet, profile := some p } = q at e ⊢
      cases q
      simp_all
  unfold parseArgs parse parseKnown
  simp only [hclass, bind, Except.bind]
  have hfuel : (hs ++ (c.name, Kind.arg) :: js).length + 1 = (hs.length - k + js.length) + 2 + k := by
    simp
    omega
  have hun : (nsFor c gs (given is) (operands is)).unrecognized = [] :=
    (puts_same (given is) { command := some c.name, quiet := has gs .quiet, profile := (operands is).head? }).2.2
  rw [hfuel, hglob, loop_sub rfl (by rw [hjm]; exact hsub), hun]
  generalize nsFor c gs (given is) (operands is) = q at hun
  cases q
  simp_all

end Verif.Usage
