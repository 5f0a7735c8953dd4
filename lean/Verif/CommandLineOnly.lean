import Verif.CommandLineReads
/-
Command lines that are accepted are read as the help pages say.
-/
namespace Verif.Usage
open Argparse CommandLine

/-- The words with their kinds. -/
inductive Cl (digit : Char → Bool) (c : Option Cmd) : List Str → List (Str × Kind) → Prop
  | nil : Cl digit c [] []
  | dashes {ws : List Str} : Cl digit c (dd :: ws) ((dd, .dashes) :: ws.map (·, .arg))
  | cons {w : Str} {k : Kind} {ws : List Str} {ks : List (Str × Kind)} : w ≠ dd → WordIs digit c w k →
      Cl digit c ws ks → Cl digit c (w :: ws) ((w, k) :: ks)

theorem classify_is {c : Option Cmd} {P : Parser} (T : Table c P) {digit : Char → Bool} {args : List Str} :
    ∀ {ks : List (Str × Kind)}, classify digit P args = .ok ks → Cl digit c args ks := by
  induction args with
  | nil => intro ks h; cases h; exact .nil
  | cons w ws ih =>
    intro ks h
    rw [classify] at h
    split at h
    · rename_i e
      subst e
      cases h
      exact .dashes
    · rename_i hne
      cases hk : parseOptional digit P w with
      | error e => rw [hk] at h; cases h
      | ok k =>
        cases hr : classify digit P ws with
        | error e => rw [hk, hr] at h; cases h
        | ok r =>
          rw [hk, hr] at h
          cases h
          exact .cons hne (T.word_is hk) (ih hr)

theorem Cl.words {digit : Char → Bool} {c : Option Cmd} {args : List Str} {ks : List (Str × Kind)}
    (h : Cl digit c args ks) : ks.map (·.1) = args := by
  induction h with
  | nil => rfl
  | dashes => simp [Function.comp_def]
  | cons _ _ _ ih => simp [ih]

theorem Table.short_of {c : Option Cmd} {P : Parser} (T : Table c P) {x : Char} {a : Act}
    (h : P.find ['-', x] = some a) : a ∈ offers c ∧ short a = some x := by
  obtain ⟨ha, e | ⟨y, hy, e⟩⟩ := (T.mem _ _).1 (T.find.1 h)
  · obtain ⟨z, t, e', _⟩ := long_eq a
    rw [e'] at e
    simp at e
  · cases e
    exact ⟨ha, hy⟩

theorem cluster_only {c : Option Cmd} {P : Parser} (T : Table c P) {plain : Str → Prop} {next : Option Str} (n : Nat) :
    ∀ {a : Act} {x : Char} {cs : Str} {gs : List Given} {used : Bool}, a ∈ offers c → short a = some x →
      optionsIn P next a ['-', x] (valOf cs) n = .ok (gs, [], used) →
      (used = false ∧ Cluster plain c (x :: cs) [] gs) ∨
        (used = true ∧ ∃ u, next = some u ∧ (plain u → Cluster plain c (x :: cs) [u] gs)) := by
  induction n with
  | zero => intro a x cs gs used _ _ h; rw [optionsIn] at h; cases h
  | succ n ih =>
    intro a x cs gs used ha hx h
    have hxd := (short_ne hx).1
    cases hv : valued a with
    | true =>
      have ht : a.takesValue = true := by rw [valued_eq]; exact hv
      cases cs with
      | nil =>
        simp only [valOf, optionsIn, ht, if_true] at h
        cases next with
        | none => cases h
        | some v => cases h; exact .inr ⟨rfl, v, rfl, fun hp => .next ha hx hv hp⟩
      | cons y cs =>
        by_cases hy : y = '='
        · subst hy
          simp only [valOf, optionsIn, ht, if_true] at h
          cases h
          exact .inl ⟨rfl, .equals ha hx hv⟩
        · rw [valOf_ne hy] at h
          simp only [optionsIn, ht, if_true] at h
          cases h
          exact .inl ⟨rfl, .rest ha hx hv (by simp) (by simpa using hy)⟩
    | false =>
      have ht : a.takesValue = false := by rw [valued_eq]; exact hv
      cases cs with
      | nil =>
        simp only [valOf, optionsIn, ht] at h
        cases h
        exact .inl ⟨rfl, .last ha hx hv⟩
      | cons y cs =>
        by_cases hy : y = '='
        · subst hy
          simp only [valOf, optionsIn, ht] at h
          cases cs <;> simp [hxd] at h
        · rw [valOf_ne hy] at h
          simp only [optionsIn, ht] at h
          by_cases hyd : y = '-'
          · simp [hxd, hyd] at h
          cases hf : P.find ['-', y] with
          | none => simp [hxd, hyd, hf] at h
          | some a' =>
            simp only [hf, Bool.false_eq_true, if_false, Bool.false_or, beq_iff_eq, hyd] at h
            rw [if_neg (by simp [hxd])] at h
            cases hr : optionsIn P next a' ['-', y] (valOf cs) n with
            | error e => rw [hr] at h; cases h
            | ok r =>
              rw [hr] at h
              obtain ⟨gs', ex, us⟩ := r
              cases h
              obtain ⟨ha', hy'⟩ := T.short_of hf
              rcases ih ha' hy' hr with ⟨hu, hc⟩ | ⟨hu, u, hn, hc⟩
              · exact .inl ⟨hu, .flag ha hx hv hc⟩
              · exact .inr ⟨hu, u, hn, fun hp => .flag ha hx hv (hc hp)⟩

theorem options_only {c : Option Cmd} {P : Parser} (T : Table c P) {digit : Char → Bool} {plain : Str → Prop}
    {next : Option Str} {n : Nat} {w name : Str} {a : Act} {v : Option (Bool × Str)} {gs : List Given} {used : Bool}
    (hw : w ≠ dd) (hk : WordIs digit c w (.opt (some a) name v))
    (h : optionsIn P next a name v n = .ok (gs, [], used)) :
    (used = false ∧ Options plain c [w] gs) ∨
      (used = true ∧ ∃ u, next = some u ∧ (plain u → Options plain c [w, u] gs)) := by
  have hcl : ∀ {x cs}, a ∈ offers c → short a = some x → w = '-' :: x :: cs →
      optionsIn P next a ['-', x] (valOf cs) n = .ok (gs, [], used) → (used = false ∧ Options plain c [w] gs) ∨
        (used = true ∧ ∃ u, next = some u ∧ (plain u → Options plain c [w, u] gs)) := by
    intro x cs ha hx e ho
    rw [e]
    rcases cluster_only T (plain := plain) n ha hx ho with ⟨hu, hc⟩ | ⟨hu, u, hn, hc⟩
    · exact .inl ⟨hu, .cluster hc⟩
    · exact .inr ⟨hu, u, hn, fun hp => .cluster (hc hp)⟩
  cases n with
  | zero => rw [optionsIn] at h; cases h
  | succ n =>
    generalize hkk : Kind.opt (some a) name v = k at hk
    cases hk with
    | arg => cases hkk
    | unknown => cases hkk
    | long hl =>
      cases hkk
      have hl := hl.resolve_left hw
      cases hv : valued a with
      | true =>
        have ht : a.takesValue = true := by rw [valued_eq]; exact hv
        simp only [optionsIn, ht, if_true] at h
        cases next with
        | none => cases h
        | some v => cases h; exact .inr ⟨rfl, v, rfl, fun hp => .next hl hv hp⟩
      | false =>
        have ht : a.takesValue = false := by rw [valued_eq]; exact hv
        simp only [optionsIn, ht] at h
        cases h
        exact .inl ⟨rfl, .flag hl hv⟩
    | @longEq m u a' e hl =>
      cases hkk
      cases hv : valued a with
      | true =>
        have ht : a.takesValue = true := by rw [valued_eq]; exact hv
        simp only [optionsIn, ht, if_true] at h
        cases h
        rw [e]
        exact .inl ⟨rfl, .equals (hl.resolve_right (by rw [hv]; simp)) hv⟩
      | false =>
        have ht : a.takesValue = false := by rw [valued_eq]; exact hv
        simp only [optionsIn, ht] at h
        cases u <;> simp [long_second] at h
    | @short a' x e ha hx =>
      cases hkk
      exact hcl ha hx e h
    | @shortEq a' x u e ha hx =>
      cases hkk
      exact hcl ha hx e h
    | @shortRest a' x cs e h1 h2 ha hx =>
      cases hkk
      exact hcl ha hx e (by rw [valOf_ne' h1 h2]; exact h)

/-- Words that are not understood are not forgotten. -/
theorem consumeOptional_extras {P : Parser} {s s' : Loop} {w : Str} {k : Option Act × Str × Option (Bool × Str)}
    {rest rest' : List (Str × Kind)} (h : consumeOptional P s w k rest = .ok (s', rest')) :
    s.extras <+: s'.extras := by
  obtain ⟨a, name, v⟩ := k
  cases a with
  | none => cases h; exact List.prefix_append _ _
  | some a =>
    unfold consumeOptional at h
    simp only [bind, Except.bind] at h
    split at h
    · cases h
    · split at h
      · cases h
      · cases h; exact List.prefix_append _ _

theorem consumePositional_extras {sub : NS → Str → List Str → Except Stop NS} {s s' : Loop}
    {ws ws' : List (Str × Kind)} (h : consumePositional sub s ws = .ok (some (s', ws'))) : s'.extras = s.extras := by
  unfold consumePositional at h
  split at h
  · cases h
  · simp only at h
    split at h
    · split at h
      · split at h
        · cases h; rfl
        · cases h
      · split at h
        · simp only [bind, Except.bind] at h
          split at h
          · cases h
          · cases h; rfl
        · cases h
    · cases h

theorem round_extras {P : Parser} {sub : NS → Str → List Str → Except Stop NS} {s s' : Loop}
    {ws ws' : List (Str × Kind)} (h : round P sub s ws = .ok (s', ws')) : s.extras <+: s'.extras := by
  unfold round at h
  split at h
  · exact consumeOptional_extras h
  · simp only [bind, Except.bind] at h
    split at h
    · cases h
    · split at h
      · rename_i e
        cases h
        rw [consumePositional_extras e]
        exact List.prefix_refl _
      · split at h
        · exact (List.prefix_append _ _).trans (consumeOptional_extras h)
        · cases h

theorem finish_extras {sub : NS → Str → List Str → Except Stop NS} {s : Loop} {ws : List (Str × Kind)} {ns : NS}
    {ex : List Str} (h : finish sub s ws = .ok (ns, ex)) : s.extras <+: ex := by
  unfold finish at h
  simp only [bind, Except.bind] at h
  split at h
  · cases h
  · rename_i v e
    split at h
    · cases h
    · cases h
      cases v with
      | none => simp
      | some v =>
        obtain ⟨s', r⟩ := v
        rw [← consumePositional_extras e]
        simp

theorem loop_extras {P : Parser} {sub : NS → Str → List Str → Except Stop NS} (n : Nat) :
    ∀ {s : Loop} {ws : List (Str × Kind)} {ns : NS} {ex : List Str}, loop P sub n s ws = .ok (ns, ex) →
      s.extras <+: ex := by
  induction n with
  | zero => intro s ws ns ex h; rw [loop] at h; cases h
  | succ n ih =>
    intro s ws ns ex h
    rw [loop] at h
    split at h
    · simp only [bind, Except.bind] at h
      split at h
      · cases h
      · rename_i v e
        exact (round_extras e).trans (ih h)
    · exact finish_extras h

theorem loop_none {P : Parser} {sub : NS → Str → List Str → Except Stop NS} {n : Nat} {s : Loop}
    {ws : List (Str × Kind)} {ns : NS} (h : loop P sub n s ws = .ok (ns, [])) : s.extras = [] :=
  List.prefix_nil.1 (loop_extras n h)

theorem consumeOptional_eq (P : Parser) (s : Loop) (w : Str) (a : Act) (name : Str) (v : Option (Bool × Str))
    (rest : List (Str × Kind)) : ∃ next, (∀ u, next = some u → ∃ r, rest = (u, .arg) :: r) ∧
      consumeOptional P s w (some a, name, v) rest =
        (do let r ← optionsIn P next a name v (w.length + 1)
            let ns ← r.1.foldlM takeAction s.ns
            .ok ({ s with ns := ns, extras := s.extras ++ r.2.1 }, if r.2.2 then rest.drop 1 else rest)) := by
  cases rest with
  | nil => exact ⟨none, by simp, rfl⟩
  | cons p r =>
    obtain ⟨u, k⟩ := p
    cases k with
    | arg => exact ⟨some u, fun u' e => by cases e; exact ⟨r, rfl⟩, rfl⟩
    | dashes => exact ⟨none, by simp, rfl⟩
    | opt => exact ⟨none, by simp, rfl⟩

theorem args_dashes (ws : List Str) : (ws.map fun w => (w, Kind.arg)).takeWhile (·.2.isDashes) = [] ∧
    (ws.map fun w => (w, Kind.arg)).dropWhile (·.2.isDashes) = ws.map fun w => (w, Kind.arg) := by
  cases ws <;> simp [List.takeWhile_cons, List.dropWhile_cons]

theorem consume_lead {sub : NS → Str → List Str → Except Stop NS} {s : Loop} {u : Str} {ws : List Str}
    (hp : s.pos = some .one) :
    consumePositional sub s ((dd, .dashes) :: (u, .arg) :: ws.map (·, .arg)) =
      .ok (some ({ s with ns := { s.ns with profile := some u }, pos := none }, ws.map (·, .arg))) := by
  unfold consumePositional
  rw [hp]
  simp [List.takeWhile_cons, List.dropWhile_cons, args_dashes]

theorem consume_lead_nil {sub : NS → Str → List Str → Except Stop NS} {s : Loop} :
    consumePositional sub s [(dd, .dashes)] = .ok none := by
  unfold consumePositional
  cases s.pos <;> simp [List.takeWhile_cons, List.dropWhile_cons]

theorem consume_trail {sub : NS → Str → List Str → Except Stop NS} {s : Loop} {w : Str} {ws : List Str}
    (hp : s.pos = some .one) (hw : w ≠ dd) :
    consumePositional sub s ((w, .arg) :: (dd, .dashes) :: ws.map (·, .arg)) =
      .ok (some ({ s with ns := { s.ns with profile := some w }, pos := none }, ws.map (·, .arg))) := by
  unfold consumePositional
  rw [hp]
  simp [List.takeWhile_cons, List.dropWhile_cons, args_dashes, List.erase_cons, hw]

/-- A word with options that is accepted. -/
theorem round_option {c : Option Cmd} {P : Parser} (T : Table c P) {digit : Char → Bool}
    {sub : NS → Str → List Str → Except Stop NS} {n : Nat} {s : Loop} {w : Str} {o : Option Act} {name : Str}
    {v : Option (Bool × Str)} {ws : List Str} {ks : List (Str × Kind)} {ns : NS} (hw : w ≠ dd)
    (hk : WordIs digit c w (.opt o name v)) (hks : Cl digit c ws ks)
    (h : loop P sub (n + 1) s ((w, .opt o name v) :: ks) = .ok (ns, [])) :
    ∃ os gs ws' ks', w :: ws = os ++ ws' ∧ Options (PlainOr digit) c os gs ∧ Free gs ∧ Cl digit c ws' ks' ∧
      loop P sub n { s with ns := gs.foldl put s.ns, extras := [] } ks' = .ok (ns, []) := by
  rw [loop, if_pos (by simp [Kind.isOpt])] at h
  simp only [round] at h
  cases o with
  | none =>
    simp only [consumeOptional, bind, Except.bind] at h
    have := loop_none h
    simp at this
  | some a =>
    obtain ⟨next, hnext, e⟩ := consumeOptional_eq P s w a name v ks
    rw [e] at h
    simp only [bind, Except.bind] at h
    cases ho : optionsIn P next a name v (w.length + 1) with
    | error e => rw [ho] at h; cases h
    | ok r =>
      obtain ⟨gs, ex, used⟩ := r
      rw [ho] at h
      simp only at h
      cases hact : gs.foldlM takeAction s.ns with
      | error e => rw [hact] at h; cases h
      | ok ns' =>
        rw [hact] at h
        simp only at h
        obtain ⟨hf, rfl⟩ := actions_inv hact
        have hex := loop_none h
        simp only [List.append_eq_nil_iff] at hex
        obtain ⟨hs, rfl⟩ := hex
        rw [hs] at h
        rcases options_only T (plain := PlainOr digit) hw hk ho with ⟨rfl, hopt⟩ | ⟨rfl, u, hu, hopt⟩
        · exact ⟨[w], gs, ws, ks, rfl, hopt, hf, hks, h⟩
        · obtain ⟨r, rfl⟩ := hnext u hu
          cases hks with
          | cons hne hword hrest =>
            cases hword with
            | arg hp => exact ⟨[w, u], gs, _, r, rfl, hopt hp, hf, hrest, h⟩

theorem any_args (ws : List Str) : (ws.map fun w => (w, Kind.arg)).any (·.2.isOpt) = false := by
  rw [List.any_eq_false]
  intro x hx
  obtain ⟨w, _, rfl⟩ := List.mem_map.1 hx
  simp [Kind.isOpt]

/-- The words after the command. -/
theorem words_only {c : Option Cmd} {P : Parser} (T : Table c P) {digit : Char → Bool}
    {sub : NS → Str → List Str → Except Stop NS} (n : Nat) : ∀ {s : Loop} {args : List Str} {ks : List (Str × Kind)}
      {ns : NS}, Cl digit c args ks → loop P sub n s ks = .ok (ns, []) → s.pos ≠ some .sub →
      ∃ is, Words (PlainOr digit) True c args is ∧ Free (given is) ∧
        ((s.pos = none ∧ operands is = [] ∧ ns = (given is).foldl put s.ns) ∨
          (s.pos = some .one ∧ ∃ p, operands is = [p] ∧ ns = { (given is).foldl put s.ns with profile := some p })) := by
  induction n with
  | zero => intro s args ks ns _ h; rw [loop] at h; cases h
  | succ n ih =>
    intro s args ks ns hcl h hsub
    cases hcl with
    | nil =>
      rw [loop, if_neg (by simp)] at h
      cases hp : s.pos with
      | none =>
        simp [finish, consumePositional, hp, bind, Except.bind] at h
        exact ⟨[], .nil, ⟨rfl, rfl⟩, .inl ⟨rfl, rfl, h.1.symm⟩⟩
      | some p => simp [finish, consumePositional, hp, bind, Except.bind] at h
    | @dashes ws =>
      have hany : (((dd, Kind.dashes) :: ws.map (·, Kind.arg)).any (·.2.isOpt)) = false := by
        rw [List.any_cons, any_args]; rfl
      cases hp : s.pos with
      | none =>
        rw [loop_last hany hp] at h
        simp at h
      | some p =>
        cases p with
        | sub => exact absurd hp hsub
        | one =>
          rw [loop, if_neg (by rw [hany]; simp)] at h
          cases ws with
          | nil => simp [finish, consume_lead_nil, hp, bind, Except.bind] at h
          | cons u ws =>
            simp only [finish, List.map_cons, consume_lead hp, bind, Except.bind, Option.getD_some] at h
            simp at h
            obtain ⟨h1, h2, h3, h4⟩ := h
            subst h3
            exact ⟨[.operand u], .dashes (ws := [u]) (by simp), ⟨rfl, rfl⟩, .inr ⟨rfl, u, rfl, h1.symm⟩⟩
    | @cons w k ws ks hne hword hrest =>
      cases k with
      | dashes => cases hword
      | opt o name v =>
        obtain ⟨os, gs, ws', ks', e, hopt, hf, hcl', hl⟩ := round_option T hne hword hrest h
        obtain ⟨is, hw, hfi, hres⟩ := ih hcl' hl hsub
        refine ⟨gs.map .given ++ is, by rw [e]; exact .options hopt hw, ?_, ?_⟩
        · rw [given_append, given_map, free_append]; exact ⟨hf, hfi⟩
        · rw [given_append, given_map, operands_append, operands_map, List.nil_append, List.foldl_append]
          exact hres
      | arg =>
        have hplain : PlainOr digit w := by cases hword; assumption
        cases hp : s.pos with
        | none =>
          exfalso
          rw [loop] at h
          split at h
          · simp only [round, consumePositional, hp, bind, Except.bind] at h
            split at h
            · cases h
            · rename_i v e
              split at e
              · have h1 := loop_none h
                have h2 := consumeOptional_extras e
                rw [h1] at h2
                have := List.prefix_nil.1 h2
                simp [List.takeWhile_cons] at this
              · cases e
          · simp [finish, consumePositional, hp, bind, Except.bind] at h
        | some p =>
          cases p with
          | sub => exact absurd hp hsub
          | one =>
            have hdashes : (∃ ws', ws = dd :: ws' ∧ ks = (dd, .dashes) :: ws'.map (·, .arg)) ∨
                (ks.takeWhile (·.2.isDashes) = [] ∧ ks.dropWhile (·.2.isDashes) = ks) := by
              cases hrest with
              | nil => exact .inr ⟨rfl, rfl⟩
              | dashes => exact .inl ⟨_, rfl, rfl⟩
              | @cons w' k' _ _ _ hk' _ =>
                have : k'.isDashes = false := by cases hk' <;> rfl
                exact .inr ⟨by simp [List.takeWhile_cons, this], by simp [List.dropWhile_cons, this]⟩
            rcases hdashes with ⟨ws', rfl, rfl⟩ | ⟨h1, h2⟩
            · have hany : ((w, Kind.arg) :: (dd, Kind.dashes) :: ws'.map (·, Kind.arg)).any (·.2.isOpt) = false := by
                rw [List.any_cons, List.any_cons, any_args]; rfl
              rw [loop, if_neg (by rw [hany]; simp)] at h
              simp only [finish, consume_trail hp hne, bind, Except.bind, Option.getD_some] at h
              simp at h
              obtain ⟨h1, h2, h3, h4⟩ := h
              subst h3
              exact ⟨[.operand w], .operand hplain (.dashes (ws := []) fun _ => trivial), ⟨rfl, rfl⟩,
                .inr ⟨rfl, w, rfl, h1.symm⟩⟩
            · have hc := consume_one (sub := sub) hp hne h1 h2
              rw [loop] at h
              split at h
              · simp only [round, hc, bind, Except.bind] at h
                obtain ⟨is, hw, hfi, hres⟩ := ih hrest h (by simp)
                rcases hres with ⟨_, ho, hn⟩ | ⟨hp', _⟩
                · refine ⟨.operand w :: is, .operand hplain hw, hfi, .inr ⟨rfl, w, ?_, ?_⟩⟩
                  · show w :: operands is = [w]
                    rw [ho]
                  · rw [hn, puts_profile]; rfl
                · simp at hp'
              · simp [finish, hc, bind, Except.bind] at h
                obtain ⟨h1', h2', h3', h4'⟩ := h
                subst h3'
                cases hrest
                exact ⟨[.operand w], .operand hplain .nil, ⟨rfl, rfl⟩, .inr ⟨rfl, w, rfl, h1'.symm⟩⟩

/-- The words up to the command. -/
theorem globals_only {digit : Char → Bool} (n : Nat) : ∀ {s : Loop} {args : List Str} {ks : List (Str × Kind)}
    {ns : NS}, Cl digit none args ks → loop topParser (runSub digit) n s ks = .ok (ns, []) → s.pos = some .sub →
    ∃ pre name post gs, args = pre ++ name :: post ∧ Globals (PlainOr digit) pre gs ∧ Free gs ∧
      runSub digit (gs.foldl put s.ns) name post = .ok ns ∧ ns.unrecognized = [] := by
  induction n with
  | zero => intro s args ks ns _ h; rw [loop] at h; cases h
  | succ n ih =>
    intro s args ks ns hcl h hp
    cases hcl with
    | nil =>
      rw [loop, if_neg (by simp)] at h
      simp [finish, consumePositional, hp, bind, Except.bind] at h
    | @dashes ws =>
      have hany : (((dd, Kind.dashes) :: ws.map (·, Kind.arg)).any (·.2.isOpt)) = false := by
        rw [List.any_cons, any_args]; rfl
      rw [loop, if_neg (by rw [hany]; simp)] at h
      cases ws with
      | nil => simp [finish, consume_lead_nil, hp, bind, Except.bind] at h
      | cons u ws =>
        have hl : ∀ ns args, runSub digit ns dd args = .error .input := fun _ _ => rfl
        simp [finish, consumePositional, hp, bind, Except.bind, List.takeWhile_cons, List.dropWhile_cons, hl] at h
    | @cons w k ws ks hne hword hrest =>
      cases k with
      | dashes => cases hword
      | opt o name v =>
        obtain ⟨os, gs, ws', ks', e, hopt, hf, hcl', hl⟩ := round_option table_top hne hword hrest h
        obtain ⟨pre, nm, post, hs, e', hg, hfi, hres⟩ := ih hcl' hl hp
        refine ⟨os ++ pre, nm, post, gs ++ hs, by rw [e, e', List.append_assoc], .cons hopt hg, ?_, ?_⟩
        · rw [free_append]; exact ⟨hf, hfi⟩
        · rw [List.foldl_append]; exact hres
      | arg =>
        have hpos : consumePositional (runSub digit) s ((w, .arg) :: ks) =
            (do let ns ← runSub digit s.ns w ws
                .ok (some ({ s with ns := ns, pos := none }, []))) := by
          unfold consumePositional
          rw [hp]
          simp [List.takeWhile_cons, List.dropWhile_cons, hrest.words]
        refine ⟨[], w, ws, [], rfl, .nil, ⟨rfl, rfl⟩, ?_⟩
        rw [loop] at h
        cases hr : runSub digit s.ns w ws with
        | error e =>
          exfalso
          rw [hr] at hpos
          split at h
          · simp [round, hpos, bind, Except.bind] at h
          · simp [finish, hpos, bind, Except.bind] at h
        | ok ns' =>
          rw [hr] at hpos
          split at h
          · simp only [round, hpos, bind, Except.bind] at h
            cases n with
            | zero => rw [loop] at h; cases h
            | succ n =>
              rw [loop_last (by simp) rfl] at h
              simp at h
              obtain ⟨rfl, _, h⟩ := h
              exact ⟨hr, h⟩
          · simp [finish, hpos, bind, Except.bind] at h
            obtain ⟨rfl, _, h⟩ := h
            exact ⟨hr, h⟩

theorem parse_only {digit : Char → Bool} {args : List Str} {ns : NS} (h : parseArgs digit args = .ok ns) :
    ∃ (c : Cmd) (pre post : List Str) (gs : List Given) (is : List Item), args = pre ++ c.name :: post ∧
      Globals (PlainOr digit) pre gs ∧ Words (PlainOr digit) True (some c) post is ∧ Free (gs ++ given is) ∧
      ((c = .list ∧ operands is = []) ∨ (c ≠ .list ∧ ∃ p, operands is = [p])) ∧
      ns = nsFor c gs (given is) (operands is) := by
  unfold parseArgs parse parseKnown at h
  simp only [bind, Except.bind] at h
  split at h
  · cases h
  · rename_i v e
    split at e
    · cases e
    · rename_i ks hks
      split at h
      · rename_i hex
        obtain ⟨ns0, ex⟩ := v
        simp only at hex h e
        subst hex
        obtain ⟨pre, name, post, gs, hargs, hg, hf, hrun, hun⟩ := globals_only _ (classify_is table_top hks) e rfl
        unfold runSub at hrun
        split at hrun
        · cases hrun
        · rename_i P hP
          obtain ⟨c, rfl, rfl⟩ := sub_name hP
          unfold parseKnown at hrun
          simp only [bind, Except.bind] at hrun
          split at hrun
          · cases hrun
          · rename_i v' e'
            split at e'
            · cases e'
            · rename_i ks' hks'
              obtain ⟨r, ex⟩ := v'
              simp only at hrun
              cases hrun
              simp only at hun h
              subst hun
              cases h
              obtain ⟨f1, f2, -⟩ := puts_flag gs {}
              obtain ⟨is, hw, hfi, hres⟩ := words_only (table_sub c) _ (classify_is (table_sub c) hks') e'
                (by cases c <;> simp [Cmd.parser])
              refine ⟨c, pre, post, gs, is, hargs, hg, hw, by rw [free_append]; exact ⟨hf, hfi⟩, ?_⟩
              simp only at hres
              rw [f1] at hres
              simp only [Bool.false_or] at hres
              rw [f2]
              rcases hres with ⟨hp, ho, hn⟩ | ⟨hp, p, ho, hn⟩
              · have hc : c = .list := by cases c <;> simp [Cmd.parser] at hp ⊢
                refine ⟨.inl ⟨hc, ho⟩, ?_⟩
                subst hn
                unfold nsFor
                rw [ho]
                simp only [List.head?_nil]
                have e := (puts_same (given is) { command := some c.name, quiet := has gs .quiet }).2.2
                generalize (given is).foldl put { command := some c.name, quiet := has gs .quiet } = q at e ⊢
                cases q
                simp_all
              · have hc : c ≠ .list := by rintro rfl; simp [Cmd.parser] at hp
                refine ⟨.inr ⟨hc, p, ho⟩, ?_⟩
                subst hn
                unfold nsFor
                rw [ho]
                simp only [List.head?_cons]
                rw [puts_profile (given is) { command := some c.name, quiet := has gs .quiet } (some p)]
                have e := (puts_same (given is) { command := some c.name, quiet := has gs .quiet }).2.2
                generalize (given is).foldl put { command := some c.name, quiet := has gs .quiet } = q at e ⊢
                cases q
                simp_all
      · cases h

/-- The command for the namespace. -/
theorem command_for {c : Cmd} {gs hs : List Given} {ops : List Str} {r : Command} (h : Asks c hs ops r) :
    defCommand (nsFor c gs hs ops) = some r := by
  have key : ∀ (c : Cmd) (o : Option Str), let ns := nsFor c gs hs ops
      ops.head? = o → ns.command = some c.name ∧ ns.profile = o ∧ ns.exclude = value hs .exclude ∧
        ns.template = value hs .template ∧ ns.addRemote = has hs .addRemote ∧ ns.keepRemote = has hs .keepRemote ∧
        ns.noRetrieve = has hs .noRetrieve := by
    intro c o ns ho
    obtain ⟨h1, h2, -⟩ := puts_same hs { command := some c.name, quiet := has gs .quiet, profile := ops.head? }
    obtain ⟨-, -, h3, h4, h5⟩ := puts_flag hs { command := some c.name, quiet := has gs .quiet, profile := ops.head? }
    obtain ⟨h6, h7⟩ := puts_value hs { command := some c.name, quiet := has gs .quiet, profile := ops.head? }
    refine ⟨h1, h2.trans ho, ?_, ?_, h3.trans (Bool.false_or _), h4.trans (Bool.false_or _), h5.trans (Bool.false_or _)⟩
    · refine h6.trans ?_
      split
      · rfl
      · rename_i hn; exact (value_none (by simpa using hn)).symm
    · refine h7.trans ?_
      split
      · rfl
      · rename_i hn; exact (value_none (by simpa using hn)).symm
  obtain ⟨h1, h2, h3, h4, h5, h6, h7⟩ := key c _ rfl
  unfold defCommand
  rw [h1, h2, h3, h4, h5, h6, h7]
  cases h <;> rfl

theorem asks_of {c : Cmd} {hs : List Given} {ops : List Str}
    (h : (c = .list ∧ ops = []) ∨ (c ≠ .list ∧ ∃ p, ops = [p])) : ∃ r, Asks c hs ops r := by
  rcases h with ⟨rfl, rfl⟩ | ⟨hc, p, rfl⟩
  · exact ⟨_, .list⟩
  · cases c with
    | init => exact ⟨_, .init⟩
    | sync => exact ⟨_, .sync⟩
    | reset => exact ⟨_, .reset⟩
    | list => exact absurd rfl hc
    | emptyTrash => exact ⟨_, .emptyTrash⟩

theorem of_asks {c : Cmd} {hs : List Given} {ops : List Str} {r : Command} (h : Asks c hs ops r) :
    (c = .list ∧ ops = []) ∨ (c ≠ .list ∧ ∃ p, ops = [p]) := by
  cases h <;> simp

theorem cluster_offers {plain : Str → Prop} {c : Option Cmd} {cs : Str} {vs : List Str} {gs : List Given}
    (h : Cluster plain c cs vs gs) : ∀ g ∈ gs, g.1 ∈ offers c := by
  induction h with
  | last ha => simpa using ha
  | flag ha _ _ _ ih =>
    intro g hg
    rcases List.mem_cons.1 hg with rfl | hg
    · exact ha
    · exact ih g hg
  | next ha => simpa using ha
  | rest ha => simpa using ha
  | equals ha => simpa using ha

theorem options_offers {plain : Str → Prop} {c : Option Cmd} {os : List Str} {gs : List Given}
    (h : Options plain c os gs) : ∀ g ∈ gs, g.1 ∈ offers c := by
  cases h with
  | flag h => simpa using h.1
  | next h => simpa using h.1
  | equals h => simpa using h.1
  | cluster h => exact cluster_offers h

theorem words_offers {plain : Str → Prop} {bare : Prop} {c : Option Cmd} {ws : List Str} {is : List Item}
    (h : Words plain bare c ws is) : ∀ g ∈ given is, g.1 ∈ offers c := by
  induction h with
  | nil => simp [given]
  | operand _ _ ih => exact ih
  | options ho _ ih =>
    intro g hg
    rw [given_append, given_map] at hg
    rcases List.mem_append.1 hg with hg | hg
    · exact options_offers ho g hg
    · exact ih g hg
  | dashes => rw [given_dashes]; simp

theorem words_quiet {plain : Str → Prop} {bare : Prop} {c : Cmd} {ws : List Str} {is : List Item}
    (h : Words plain bare (some c) ws is) : has (given is) .quiet = false ∧ has (given is) .version = false := by
  have := words_offers h
  unfold has
  rw [List.any_eq_false, List.any_eq_false]
  constructor <;> intro g hg e <;> have := this g hg <;> rw [eq_of_beq e] at this <;> cases c <;> simp [offers] at this

theorem nsFor_flags {c : Cmd} {gs hs : List Given} {ops : List Str} (h : has hs .quiet = false) :
    (nsFor c gs hs ops).quiet = has gs .quiet ∧ (nsFor c gs hs ops).debug = has gs .debug := by
  refine ⟨?_, rfl⟩
  have := (puts_flag hs { command := some c.name, quiet := has gs .quiet, profile := ops.head? }).1
  rw [h] at this
  simpa [nsFor] using this

/-- A line that can be read is accepted. -/
theorem reads_parse {digit : Char → Bool} {line : List Str} {r : Command} {debug quiet : Bool}
    (h : Reads Plain False line r debug quiet) :
    ∃ ns, parseArgs digit line = .ok ns ∧ defCommand ns = some r ∧ ns.debug = debug ∧ ns.quiet = quiet := by
  obtain ⟨c, pre, post, gs, is, rfl, hg, hw, ha, rfl, rfl, h1, h2⟩ := h
  obtain ⟨q1, q2⟩ := words_quiet hw
  have hf : Free (gs ++ given is) := ⟨h1, by unfold has at *; rw [List.any_append, h2, q2]; rfl⟩
  obtain ⟨f1, f2⟩ := nsFor_flags (c := c) (gs := gs) (ops := operands is) q1
  exact ⟨_, parse_ok hg hw hf (of_asks ha), command_for ha, f2, f1⟩

/-- A line that is accepted can be read. -/
theorem parse_reads {digit : Char → Bool} {line : List Str} {ns : NS} (h : parseArgs digit line = .ok ns) :
    ∃ r, defCommand ns = some r ∧ Reads (PlainOr digit) True line r ns.debug ns.quiet := by
  obtain ⟨c, pre, post, gs, is, rfl, hg, hw, hf, ho, rfl⟩ := parse_only h
  obtain ⟨r, ha⟩ := asks_of (hs := given is) ho
  obtain ⟨q1, q2⟩ := words_quiet hw
  obtain ⟨f1, f2⟩ := nsFor_flags (c := c) (gs := gs) (ops := operands is) q1
  refine ⟨r, command_for ha, c, pre, post, gs, is, rfl, hg, hw, ha, f2, f1, hf.1, ?_⟩
  have := hf.2
  unfold has at this ⊢
  rw [List.any_append, Bool.or_eq_false_iff] at this
  exact this.1

end Verif.Usage
