import Verif.CommandLineOnly
/-
Command lines for which the program only prints something and exits.
-/
namespace Verif.Usage
open Argparse CommandLine

/-- Some word on the command line asks for the page. -/
def AsksFor (line : List Str) : Page → Prop
  | .main => ∃ w ∈ line, LongName none w .help
  | .version => ∃ w ∈ line, LongName none w .version
  | .command n => ∃ c : Cmd, n = c.name ∧ n ∈ line ∧ ∃ w ∈ line, LongName (some c) w .help

theorem classify_exit {digit : Char → Bool} {P : Parser} {args : List Str} {p : Option Page} :
    classify digit P args ≠ .error (.exit p) := by
  induction args with
  | nil => intro h; cases h
  | cons w ws ih =>
    intro h
    rw [classify] at h
    split at h
    · cases h
    · cases hk : parseOptional digit P w with
      | error e =>
        rw [hk] at h
        cases h
        unfold parseOptional at hk
        repeat' first | (split at hk) | (cases hk)
      | ok k =>
        rw [hk] at h
        cases hr : classify digit P ws with
        | error e => rw [hr] at h; cases h; exact ih hr
        | ok r => rw [hr] at h; cases h

theorem optionsIn_exit {P : Parser} {next : Option Str} {p : Option Page} (n : Nat) :
    ∀ {a : Act} {name : Str} {v : Option (Bool × Str)}, optionsIn P next a name v n ≠ .error (.exit p) := by
  induction n with
  | zero => intro a name v h; rw [optionsIn] at h; cases h
  | succ n ih =>
    intro a name v h
    cases v with
    | none =>
      simp only [optionsIn] at h
      split at h
      · cases next <;> cases h
      · cases h
    | some q =>
      obtain ⟨sep, e⟩ := q
      simp only [optionsIn] at h
      split at h
      · cases h
      · cases e with
        | nil => cases h
        | cons y cs =>
          simp only at h
          split at h
          · cases h
          · split at h
            · cases h
            · split at h
              · rename_i a' _
                cases hr : optionsIn P next a' ['-', y] (valOf cs) n with
                | error e' => rw [hr] at h; cases h; exact ih hr
                | ok r => rw [hr] at h; cases h
              · cases h

/-- The options in one word after the first are short. -/
theorem optionsIn_short {c : Option Cmd} {P : Parser} (T : Table c P) {next : Option Str} (n : Nat) :
    ∀ {a : Act} {name : Str} {v : Option (Bool × Str)} {r : List (Act × Option Str) × List Str × Bool},
      optionsIn P next a name v n = .ok r → ∃ u gs, r.1 = (a, u) :: gs ∧ (∀ g ∈ gs, ∃ x, short g.1 = some x) ∧
        (valued a = false → name[1]? = some '-' → v = none) := by
  induction n with
  | zero => intro a name v r h; rw [optionsIn] at h; cases h
  | succ n ih =>
    intro a name v r h
    cases v with
    | none =>
      simp only [optionsIn] at h
      split at h
      · cases next with
        | none => cases h
        | some u => cases h; exact ⟨_, [], rfl, by simp, fun _ _ => rfl⟩
      · cases h; exact ⟨_, [], rfl, by simp, fun _ _ => rfl⟩
    | some q =>
      obtain ⟨sep, e⟩ := q
      simp only [optionsIn] at h
      split at h
      · rename_i ht
        cases h
        refine ⟨_, [], rfl, by simp, fun hv => ?_⟩
        rw [valued_eq, hv] at ht
        cases ht
      · cases e with
        | nil => cases h
        | cons y cs =>
          simp only at h
          split at h
          · cases h
          · rename_i hname
            split at h
            · cases h
            · split at h
              · rename_i a' hf
                cases hr : optionsIn P next a' ['-', y] (valOf cs) n with
                | error e' => rw [hr] at h; cases h
                | ok r' =>
                  rw [hr] at h
                  cases h
                  obtain ⟨u, gs, e', hg, -⟩ := ih hr
                  refine ⟨none, r'.1, rfl, ?_, fun _ h' => absurd h' hname⟩
                  rw [e']
                  intro g hg'
                  rcases List.mem_cons.1 hg' with rfl | hg'
                  · exact ⟨y, (T.short_of hf).2⟩
                  · exact hg g hg'
              · cases h
                exact ⟨none, [], rfl, by simp, fun _ h' => absurd h' hname⟩

theorem actions_exit {gs : List Given} {p : Option Page} : ∀ {ns : NS}, gs.foldlM takeAction ns = .error (.exit p) →
    ∃ g ∈ gs, ∃ ns' : NS, ns'.command = ns.command ∧ takeAction ns' g = .error (.exit p) := by
  induction gs with
  | nil => intro ns h; cases h
  | cons g gs ih =>
    intro ns h
    rw [List.foldlM_cons] at h
    cases hg : takeAction ns g with
    | error e => rw [hg] at h; cases h; exact ⟨g, by simp, ns, rfl, hg⟩
    | ok ns1 =>
      rw [hg] at h
      obtain ⟨g', hm, ns', hc, ht⟩ := ih h
      refine ⟨g', by simp [hm], ns', hc.trans ?_, ht⟩
      obtain ⟨-, -, rfl⟩ := takeAction_inv hg
      exact (puts_same [g] ns).1

theorem takeAction_exit {ns : NS} {g : Given} {p : Option Page} (h : takeAction ns g = .error (.exit p)) :
    (g.1 = .help ∧ p = if ns.quiet then none else some (match ns.command with | some c => .command c | none => .main)) ∨
      (g.1 = .version ∧ p = if ns.quiet then none else some .version) := by
  obtain ⟨a, v⟩ := g
  cases a with
  | help =>
    simp only [takeAction, Except.error.injEq, Stop.exit.injEq] at h
    exact .inl ⟨rfl, h.symm⟩
  | version =>
    simp only [takeAction, Except.error.injEq, Stop.exit.injEq] at h
    exact .inr ⟨rfl, h.symm⟩
  | _ => simp only [takeAction] at h; cases h

/-- What a parser prints. -/
def Prints (c : Option Cmd) (line : List Str) (p : Option Page) : Prop :=
  ∃ w ∈ line, (LongName c w .help ∧ ∀ g, p = some g → g = match c with | some c => .command c.name | none => .main) ∨
    (LongName c w .version ∧ ∀ g, p = some g → g = .version)

theorem consumeOptional_exit {c : Option Cmd} {P : Parser} (T : Table c P) {digit : Char → Bool} {s : Loop} {w : Str}
    {o : Option Act} {name : Str} {v : Option (Bool × Str)} {rest : List (Str × Kind)} {p : Option Page} (hw : w ≠ dd)
    (hk : WordIs digit c w (.opt o name v)) (hc : s.ns.command = c.map Cmd.name)
    (h : consumeOptional P s w (o, name, v) rest = .error (.exit p)) :
    (LongName c w .help ∧ ∀ g, p = some g → g = match c with | some c => .command c.name | none => .main) ∨
      (LongName c w .version ∧ ∀ g, p = some g → g = .version) := by
  cases o with
  | none => cases h
  | some a =>
    obtain ⟨next, -, e⟩ := consumeOptional_eq P s w a name v rest
    rw [e] at h
    simp only [bind, Except.bind] at h
    cases ho : optionsIn P next a name v (w.length + 1) with
    | error e => rw [ho] at h; cases h; exact absurd ho (optionsIn_exit _)
    | ok r =>
      rw [ho] at h
      simp only at h
      cases ha : r.1.foldlM takeAction s.ns with
      | ok ns => rw [ha] at h; cases h
      | error e =>
        rw [ha] at h
        cases h
        obtain ⟨g, hg, ns', hcmd, ht⟩ := actions_exit ha
        obtain ⟨u, gs, e, hgs, hval⟩ := optionsIn_short T _ ho
        have hexit := takeAction_exit ht
        have hact : g.1 = a ∧ valued a = false ∧ short a = none := by
          rw [e] at hg
          rcases List.mem_cons.1 hg with rfl | hg
          · rcases hexit with ⟨h1, -⟩ | ⟨h1, -⟩ <;> simp only at h1 <;> subst h1 <;> exact ⟨rfl, rfl, rfl⟩
          · obtain ⟨x, hx⟩ := hgs g hg
            rcases hexit with ⟨h1, -⟩ | ⟨h1, -⟩ <;> rw [h1] at hx <;> cases hx
        obtain ⟨hga, hv, hs⟩ := hact
        have hl : LongName c w a := by
          generalize hkk : Kind.opt (some a) name v = k at hk
          cases hk with
          | arg => cases hkk
          | unknown => cases hkk
          | long hl => cases hkk; exact hl.resolve_left hw
          | longEq => cases hkk; exact absurd (hval hv (long_second _)) (by simp)
          | short _ _ hx => cases hkk; rw [hs] at hx; cases hx
          | shortEq _ _ hx => cases hkk; rw [hs] at hx; cases hx
          | shortRest _ _ _ _ hx => cases hkk; rw [hs] at hx; cases hx
        rw [hcmd, hc] at hexit
        rcases hexit with ⟨h1, h2⟩ | ⟨h1, h2⟩
        · refine .inl ⟨by rw [← h1, hga]; exact hl, ?_⟩
          rintro g' rfl
          split at h2
          · cases h2
          · cases c <;> exact Option.some.inj h2
        · refine .inr ⟨by rw [← h1, hga]; exact hl, ?_⟩
          rintro g' rfl
          split at h2
          · cases h2
          · exact Option.some.inj h2

theorem consumeOptional_command {P : Parser} {s s' : Loop} {w : Str} {k : Option Act × Str × Option (Bool × Str)}
    {rest rest' : List (Str × Kind)} (h : consumeOptional P s w k rest = .ok (s', rest')) :
    s'.ns.command = s.ns.command ∧ s'.pos = s.pos ∧ (rest' = rest ∨ rest' = rest.drop 1) := by
  obtain ⟨o, name, v⟩ := k
  cases o with
  | none => cases h; exact ⟨rfl, rfl, .inl rfl⟩
  | some a =>
    obtain ⟨next, -, e⟩ := consumeOptional_eq P s w a name v rest
    rw [e] at h
    simp only [bind, Except.bind] at h
    split at h
    · cases h
    · split at h
      · cases h
      · rename_i ha
        cases h
        obtain ⟨-, rfl⟩ := actions_inv ha
        exact ⟨(puts_same _ _).1, rfl, by split <;> simp⟩

/-- The words with their kinds, as far as options go. -/
def Kinds (digit : Char → Bool) (c : Option Cmd) (line : List Str) (ks : List (Str × Kind)) : Prop :=
  ∀ q ∈ ks, q.1 ∈ line ∧ (q.2.isOpt = true → q.1 ≠ dd ∧ WordIs digit c q.1 q.2)

theorem Cl.kinds {digit : Char → Bool} {c : Option Cmd} {args : List Str} {ks : List (Str × Kind)}
    (h : Cl digit c args ks) : Kinds digit c args ks := by
  induction h with
  | nil => intro q hq; cases hq
  | @dashes ws =>
    intro q hq
    rcases List.mem_cons.1 hq with rfl | hq
    · exact ⟨by simp, fun h => by cases h⟩
    · obtain ⟨w, hw, rfl⟩ := List.mem_map.1 hq
      exact ⟨by simp [hw], fun h => by cases h⟩
  | cons hne hw _ ih =>
    intro q hq
    rcases List.mem_cons.1 hq with rfl | hq
    · exact ⟨by simp, fun _ => ⟨hne, hw⟩⟩
    · exact ⟨List.mem_cons_of_mem _ (ih q hq).1, (ih q hq).2⟩

/-- The sub-parser. -/
theorem sub_exit {c : Cmd} {digit : Char → Bool} {line : List Str} {p : Option Page} (n : Nat) :
    ∀ {s : Loop} {ks : List (Str × Kind)}, Kinds digit (some c) line ks → s.ns.command = some c.name →
      s.pos ≠ some .sub → loop c.parser (fun _ _ _ => .error .input) n s ks = .error (.exit p) →
      Prints (some c) line p := by
  have hcons : ∀ {s : Loop} {ws : List (Str × Kind)}, s.pos ≠ some .sub →
      consumePositional (fun _ _ _ => .error .input) s ws ≠ .error (.exit p) := by
    intro s ws hp h
    unfold consumePositional at h
    split at h
    · cases h
    · simp only at h
      split at h
      · split at h
        · split at h <;> cases h
        · exact hp (by assumption)
      · cases h
  have hpos : ∀ {s s' : Loop} {ws ws' : List (Str × Kind)}, s.pos ≠ some .sub →
      consumePositional (fun _ _ _ => .error .input) s ws = .ok (some (s', ws')) →
      s'.ns.command = s.ns.command ∧ s'.pos = none ∧ ∀ q ∈ ws', q ∈ ws := by
    intro s s' ws ws' hp h
    unfold consumePositional at h
    split at h
    · cases h
    · simp only at h
      split at h
      · rename_i u rest e
        split at h
        · split at h
          · cases h
            refine ⟨rfl, rfl, fun q hq => ?_⟩
            have := (List.dropWhile_sublist _).mem hq
            exact (List.dropWhile_sublist _).mem (by rw [e]; exact List.mem_cons_of_mem _ this)
          · cases h
        · exact absurd (by assumption) hp
      · cases h
  induction n with
  | zero => intro s ks _ _ _ h; rw [loop] at h; cases h
  | succ n ih =>
    intro s ks hk hc hp h
    have hopt : ∀ {s1 : Loop} {w : Str} {o name v} {rest : List (Str × Kind)}, s1.ns.command = some c.name →
        s1.pos ≠ some .sub → ((w, Kind.opt o name v) ∈ ks ∧ ∀ q ∈ rest, q ∈ ks) →
        (do let r ← consumeOptional c.parser s1 w (o, name, v) rest
            loop c.parser (fun _ _ _ => .error .input) n r.1 r.2) = .error (.exit p) → Prints (some c) line p := by
      intro s1 w o name v rest hc1 hp1 hm h1
      cases ho : consumeOptional c.parser s1 w (o, name, v) rest with
      | error e =>
        rw [ho] at h1
        cases h1
        obtain ⟨hl, hk'⟩ := hk _ hm.1
        obtain ⟨hne, hw⟩ := hk' rfl
        exact ⟨w, hl, consumeOptional_exit (table_sub c) hne hw hc1 ho⟩
      | ok r =>
        obtain ⟨s2, rest'⟩ := r
        rw [ho] at h1
        obtain ⟨h2, h3, h4⟩ := consumeOptional_command ho
        refine ih (fun q hq => hk q (hm.2 q ?_)) (h2.trans hc1) (by rw [h3]; exact hp1) h1
        rcases h4 with rfl | rfl
        · exact hq
        · exact List.mem_of_mem_drop hq
    rw [loop] at h
    split at h
    · unfold round at h
      split at h
      · exact hopt hc hp ⟨by simp, fun q hq => List.mem_cons_of_mem _ hq⟩ h
      · cases hcp : consumePositional (fun _ _ _ => .error .input) s ks with
        | error e => rw [hcp] at h; cases h; exact absurd hcp (hcons hp)
        | ok r =>
          rw [hcp] at h
          cases r with
          | some r =>
            obtain ⟨s', ws'⟩ := r
            obtain ⟨h1, h2, h3⟩ := hpos hp hcp
            exact ih (fun q hq => hk q (h3 q hq)) (h1.trans hc) (by rw [h2]; simp) h
          | none =>
            simp only [bind, Except.bind] at h
            split at h
            · cases h
              rename_i e
              split at e
              · rename_i w o name v rest e'
                have hm : ∀ q ∈ (w, Kind.opt o name v) :: rest, q ∈ ks := fun q hq =>
                  (List.dropWhile_sublist _).mem (by rw [e']; exact hq)
                obtain ⟨hl, hk'⟩ := hk _ (hm (w, .opt o name v) (by simp))
                obtain ⟨hne, hw⟩ := hk' rfl
                refine ⟨w, hl, ?_⟩
                generalize s.extras ++ List.map _ _ = ex at e
                exact consumeOptional_exit (s := ⟨s.ns, s.pos, ex⟩) (table_sub c) hne hw hc e
              · cases e
            · rename_i e
              split at e
              · rename_i w o name v rest e'
                have hm : ∀ q ∈ (w, Kind.opt o name v) :: rest, q ∈ ks := fun q hq =>
                  (List.dropWhile_sublist _).mem (by rw [e']; exact hq)
                exact hopt (s1 := { s with extras := s.extras ++ _ }) hc hp
                  ⟨hm (w, .opt o name v) (by simp), fun q hq => hm q (List.mem_cons_of_mem _ hq)⟩ (by rw [e]; exact h)
              · cases e
    · unfold finish at h
      cases hcp : consumePositional (fun _ _ _ => .error .input) s ks with
      | error e => rw [hcp] at h; cases h; exact absurd hcp (hcons hp)
      | ok r =>
        rw [hcp] at h
        simp only [bind, Except.bind] at h
        split at h <;> cases h

theorem runSub_exit {digit : Char → Bool} {ns : NS} {name : Str} {args : List Str} {p : Option Page}
    (h : runSub digit ns name args = .error (.exit p)) : ∃ c : Cmd, name = c.name ∧ Prints (some c) args p := by
  unfold runSub at h
  split at h
  · cases h
  · rename_i P hP
    obtain ⟨c, rfl, rfl⟩ := sub_name hP
    refine ⟨c, rfl, ?_⟩
    unfold parseKnown at h
    cases hks : classify digit c.parser args with
    | error e => rw [hks] at h; cases h; exact absurd hks classify_exit
    | ok ks =>
      rw [hks] at h
      simp only [bind, Except.bind] at h
      split at h
      · cases h
        rename_i e
        exact sub_exit _ (classify_is (table_sub c) hks).kinds rfl (by cases c <;> simp [Cmd.parser]) e
      · cases h

theorem Prints.mono {c : Option Cmd} {l l' : List Str} {p : Option Page} (h : Prints c l p) (hl : ∀ w ∈ l, w ∈ l') :
    Prints c l' p := by
  obtain ⟨w, hw, h⟩ := h
  exact ⟨w, hl w hw, h⟩

/-- The parser of the global options. -/
theorem top_exit {digit : Char → Bool} {line : List Str} {p : Option Page} (n : Nat) :
    ∀ {s : Loop} {ks : List (Str × Kind)}, Kinds digit none line ks → s.ns.command = none → s.pos = some .sub →
      loop topParser (runSub digit) n s ks = .error (.exit p) →
      Prints none line p ∨ ∃ c : Cmd, c.name ∈ line ∧ Prints (some c) line p := by
  have hcons : ∀ {s : Loop} {ws : List (Str × Kind)}, Kinds digit none line ws → s.pos = some .sub →
      consumePositional (runSub digit) s ws = .error (.exit p) → ∃ c : Cmd, c.name ∈ line ∧ Prints (some c) line p := by
    intro s ws hk hp h
    unfold consumePositional at h
    rw [hp] at h
    simp only at h
    split at h
    · rename_i u rest e
      split at h
      · rename_i name args e'
        simp only [bind, Except.bind] at h
        split at h
        · rename_i hr
          cases h
          obtain ⟨c, rfl, hpr⟩ := runSub_exit hr
          have hall : ∀ w ∈ c.name :: args, w ∈ line := by
            intro w hw
            rw [← e', ← e, List.takeWhile_append_dropWhile] at hw
            obtain ⟨q, hq, rfl⟩ := List.mem_map.1 hw
            exact (hk q hq).1
          exact ⟨c, hall _ (by simp), hpr.mono fun w hw => hall w (List.mem_cons_of_mem _ hw)⟩
        · cases h
      · cases h
    · cases h
  have hpos : ∀ {s s' : Loop} {ws ws' : List (Str × Kind)}, s.pos = some .sub →
      consumePositional (runSub digit) s ws = .ok (some (s', ws')) → s'.pos = none ∧ ws' = [] := by
    intro s s' ws ws' hp h
    unfold consumePositional at h
    rw [hp] at h
    simp only at h
    split at h
    · split at h
      · simp only [bind, Except.bind] at h
        split at h
        · cases h
        · cases h; exact ⟨rfl, rfl⟩
      · cases h
    · cases h
  induction n with
  | zero => intro s ks _ _ _ h; rw [loop] at h; cases h
  | succ n ih =>
    intro s ks hk hc hp h
    have hopt : ∀ {s1 : Loop} {w : Str} {o name v} {rest : List (Str × Kind)}, s1.ns.command = none →
        s1.pos = some .sub → ((w, Kind.opt o name v) ∈ ks ∧ ∀ q ∈ rest, q ∈ ks) →
        (do let r ← consumeOptional topParser s1 w (o, name, v) rest
            loop topParser (runSub digit) n r.1 r.2) = .error (.exit p) →
        Prints none line p ∨ ∃ c : Cmd, c.name ∈ line ∧ Prints (some c) line p := by
      intro s1 w o name v rest hc1 hp1 hm h1
      cases ho : consumeOptional topParser s1 w (o, name, v) rest with
      | error e =>
        rw [ho] at h1
        cases h1
        obtain ⟨hl, hk'⟩ := hk _ hm.1
        obtain ⟨hne, hw⟩ := hk' rfl
        exact .inl ⟨w, hl, consumeOptional_exit table_top hne hw hc1 ho⟩
      | ok r =>
        obtain ⟨s2, rest'⟩ := r
        rw [ho] at h1
        obtain ⟨h2, h3, h4⟩ := consumeOptional_command ho
        refine ih (fun q hq => hk q (hm.2 q ?_)) (h2.trans hc1) (by rw [h3]; exact hp1) h1
        rcases h4 with rfl | rfl
        · exact hq
        · exact List.mem_of_mem_drop hq
    rw [loop] at h
    split at h
    · unfold round at h
      split at h
      · exact hopt hc hp ⟨by simp, fun q hq => List.mem_cons_of_mem _ hq⟩ h
      · cases hcp : consumePositional (runSub digit) s ks with
        | error e => rw [hcp] at h; cases h; exact .inr (hcons hk hp hcp)
        | ok r =>
          rw [hcp] at h
          cases r with
          | some r =>
            obtain ⟨s', ws'⟩ := r
            obtain ⟨h1, rfl⟩ := hpos hp hcp
            cases n with
            | zero => cases h
            | succ n =>
              simp only [bind, Except.bind] at h
              rw [loop_last (by simp) h1] at h
              cases h
          | none =>
            simp only [bind, Except.bind] at h
            split at h
            · cases h
              rename_i e
              split at e
              · rename_i w o name v rest e'
                have hm : ∀ q ∈ (w, Kind.opt o name v) :: rest, q ∈ ks := fun q hq =>
                  (List.dropWhile_sublist _).mem (by rw [e']; exact hq)
                obtain ⟨hl, hk'⟩ := hk _ (hm (w, .opt o name v) (by simp))
                obtain ⟨hne, hw⟩ := hk' rfl
                refine .inl ⟨w, hl, ?_⟩
                generalize s.extras ++ List.map _ _ = ex at e
                exact consumeOptional_exit (s := ⟨s.ns, s.pos, ex⟩) table_top hne hw hc e
              · cases e
            · rename_i e
              split at e
              · rename_i w o name v rest e'
                have hm : ∀ q ∈ (w, Kind.opt o name v) :: rest, q ∈ ks := fun q hq =>
                  (List.dropWhile_sublist _).mem (by rw [e']; exact hq)
                exact hopt (s1 := { s with extras := s.extras ++ _ }) hc hp
                  ⟨hm (w, .opt o name v) (by simp), fun q hq => hm q (List.mem_cons_of_mem _ hq)⟩ (by rw [e]; exact h)
              · cases e
    · unfold finish at h
      cases hcp : consumePositional (runSub digit) s ks with
      | error e => rw [hcp] at h; cases h; exact .inr (hcons hk hp hcp)
      | ok r =>
        rw [hcp] at h
        simp only [bind, Except.bind] at h
        split at h <;> cases h

theorem version_global {c : Cmd} {w : Str} (h : LongName (some c) w .version) : False := by
  have := h.1
  cases c <;> simp [offers] at this

/-- A page is printed only if some word asks for it. -/
theorem parse_exit {digit : Char → Bool} {line : List Str} {p : Option Page}
    (h : parseArgs digit line = .error (.exit p)) : ∃ pg, AsksFor line pg ∧ ∀ g, p = some g → g = pg := by
  unfold parseArgs parse parseKnown at h
  cases hks : classify digit topParser line with
  | error e => rw [hks] at h; cases h; exact absurd hks classify_exit
  | ok ks =>
    rw [hks] at h
    simp only [bind, Except.bind] at h
    split at h
    · cases h
      rename_i e
      rcases top_exit _ (classify_is table_top hks).kinds rfl rfl e with ⟨w, hw, h⟩ | ⟨c, hc, w, hw, h⟩
      · rcases h with ⟨hl, hg⟩ | ⟨hl, hg⟩
        · exact ⟨.main, ⟨w, hw, hl⟩, hg⟩
        · exact ⟨.version, ⟨w, hw, hl⟩, hg⟩
      · rcases h with ⟨hl, hg⟩ | ⟨hl, hg⟩
        · exact ⟨.command c.name, ⟨c, rfl, hc, w, hw, hl⟩, hg⟩
        · exact (version_global hl).elim
    · split at h <;> cases h

theorem classify_top {digit : Char → Bool} {ws : List Str} (h : ∀ w ∈ ws, ¬['-', '-', '='] <+: w) :
    ∃ ks, classify digit topParser ws = .ok ks := by
  induction ws with
  | nil => exact ⟨[], rfl⟩
  | cons w ws ih =>
    obtain ⟨ks, hk⟩ := ih fun w hw => h w (List.mem_cons_of_mem _ hw)
    by_cases hd : w = dd
    · exact ⟨_, by rw [classify]; exact if_pos hd⟩
    have hw : ∃ k, parseOptional digit topParser w = .ok k := by
      by_cases hp : Plain w
      · exact ⟨_, table_top.plain_ok digit hp⟩
      · cases w with
        | nil => exact absurd (.inl (by simp)) hp
        | cons c t =>
          have hc : c = '-' := by
            cases Classical.em (c = '-') with
            | inl h => exact h
            | inr h => exact absurd (.inl (by simpa using h)) hp
          subst hc
          cases t with
          | nil => exact absurd (.inr rfl) hp
          | cons x t =>
            refine top_word digit ?_
            rintro rfl
            cases t with
            | nil => exact absurd rfl hd
            | cons y t =>
              refine ⟨y, t, rfl, ?_⟩
              rintro rfl
              exact h _ (by simp) ⟨t, rfl⟩
    obtain ⟨k, hw⟩ := hw
    exact ⟨_, classify_cons hd hw hk⟩

/-- The first global option that asks for a page is obeyed. -/
theorem parse_page {digit : Char → Bool} {pre : List Str} {gs : List Given} {w : Str} {a : Act} {post : List Str}
    (hg : Globals Plain pre gs) (hf : Free gs) (hl : LongName none w a) (ha : a = .help ∨ a = .version)
    (hp : ∀ w ∈ post, ¬['-', '-', '='] <+: w) : parseArgs digit (pre ++ w :: post) =
      .error (.exit (if has gs .quiet then none else some (if a = .help then .main else .version))) := by
  obtain ⟨ks, k, hk, hcl, hloop⟩ := globals_ok (digit := digit) (sub := runSub digit) hg hf
  obtain ⟨js, hj⟩ := classify_top (digit := digit) hp
  have hv : valued a = false := by rcases ha with rfl | rfl <;> rfl
  obtain ⟨w', vs, a', name, val, e, hne, hpo, -, -, -, ho⟩ := options_ok table_top digit
    (Options.flag (plain := Plain) hl hv)
  simp only [List.cons.injEq] at e
  obtain ⟨rfl, rfl⟩ := e
  have hc := hcl _ _ (classify_cons hne hpo hj)
  unfold parseArgs parse parseKnown
  rw [hc]
  have hlen : (ks ++ (w, Kind.opt (some a') name val) :: js).length + 1 = (ks.length - k + js.length + 1) + 1 + k := by
    simp
    omega
  simp only [bind, Except.bind]
  rw [hlen, hloop, loop, if_pos (by simp)]
  obtain ⟨next, -, e⟩ := consumeOptional_eq topParser ⟨gs.foldl put {}, topParser.pos, []⟩ w a' name val js
  obtain ⟨f1, -⟩ := puts_flag gs {}
  have f2 := (puts_same gs {}).1
  simp only [round, e, ho next (.inl rfl), bind, Except.bind]
  rcases ha with rfl | rfl
  · simp [takeAction, bind, Except.bind, f1, f2]
  · simp [takeAction, bind, Except.bind, f1]

end Verif.Usage
